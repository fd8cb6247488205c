import Verif.Proofs.TextOnly
import Verif.Props.MixedRun

/-!
# C113: support for ROOT ntuples changes nothing for other files
-/

set_option linter.unusedSectionVars false

namespace Cres

open Spec CombinedIO

section

variable {K V D P : Type*} [Zero D] [Zero K] [One K] [Add K] [Mul K] [Div K] [NatCast K] [LinearOrder K] [LinearOrder V]
  [DecidableEq P]

theorem readsEvents_inv {p : Program K V D} {files : List (P × P)} {fs0 fs : FS P} {t : CombinedIO K P} (hi : CombinedIO.Inv files fs0 t fs)
    {res : Outcome (CresError IOError) (List (Event K V))} {x : CombinedIO K P × FS P} (h : p.ReadsEvents t fs res x) :
    CombinedIO.Inv files fs0 x.1 x.2 := by
  cases h with
  | @panic n _ h1 | @done n _ _ _ h1 _ _ =>
    have := recordItems_inv p.io n hi
    rw [h1] at this
    exact this

/-- Reading text files with and without support for ntuples. -/
theorem reads_text {p : Program K V D} {lib : Mixed.RootLib K} {b : Bool} {files : List (P × P)} {fs0 fs : FS P}
    (ht : Lockstep p.io lib b files fs0) {t : CombinedIO K P} (hi : CombinedIO.Inv files fs0 t fs)
    {res : Outcome (CresError IOError) (List (Event K V))} {y : Mixed.Combined K P × FS P} :
    Mixed.ReadsEvents p lib (toMixed t) fs res y ↔
      ∃ x, (buildNTuple b p).ReadsEvents t fs res x ∧ y = (toMixed x.1, x.2) := by
  have hitems := fun n => items_mixed (lib := lib) (b := b) ht n t fs hi
  have hconv : ∀ r : EventRecord, Mixed.anyConvert p.io.ctx (Sum.inl r) = tryConvert (buildNTuple b p).io.ctx r := fun _ => rfl
  have hseq : ∀ {n items x}, t.recordItems (setNTuple b p.io) n fs = (some (.ok items), x) →
      ∀ r : EventRecord, .ok r ∈ items → Sum.isRight (Sum.inl r : Mixed.AnyRecord K) = (r.1 == .ntuple) := by
    intro n items x h r hr
    have := recordItems_format n t fs items x h r hr
    revert this
    cases r.1 <;> simp
  constructor
  · intro h
    cases h with
    | @panic n _ h1 =>
      rw [hitems n] at h1
      cases hr : t.recordItems (setNTuple b p.io) n fs with
      | mk o x =>
        rw [hr] at h1
        simp only [Prod.mk.injEq] at h1
        obtain ⟨h3, rfl⟩ := h1
        rcases o with _ | (_ | e | _)
        · simp at h3
        · simp at h3
        · exact e.elim
        · exact ⟨x, .panic hr, rfl⟩
    | @done n items _ r h1 h2 h3 =>
      rw [hitems n] at h1
      cases hr : t.recordItems (setNTuple b p.io) n fs with
      | mk o x =>
        rw [hr] at h1
        simp only [Prod.mk.injEq] at h1
        obtain ⟨h5, rfl⟩ := h1
        rcases o with _ | (its | e | _)
        · simp at h5
        · simp only [Option.map_some, Outcome.map_ok, Option.some.injEq, Outcome.ok.injEq] at h5
          subst h5
          obtain ⟨r0, h6, rfl⟩ := (readReachable_map hconv (hseq hr)).1 h2
          exact ⟨x, .done hr h6 (mapRecords_finished.1 h3), rfl⟩
        · exact e.elim
        · simp at h5
  · rintro ⟨x, h, rfl⟩
    cases h with
    | @panic n _ h1 =>
      refine .panic (n := n) ?_
      rw [hitems n]
      change t.recordItems (setNTuple b p.io) n fs = _ at h1
      rw [h1]
      rfl
    | @done n items _ r h1 h2 h3 =>
      change t.recordItems (setNTuple b p.io) n fs = _ at h1
      have h4 : (toMixed t).items p.io lib n fs = (some (.ok (items.map (Except.map Sum.inl))), toMixed x.1, x.2) := by
        rw [hitems n, h1]
        rfl
      exact .done (r := r.mapRecords Sum.inl) h4 ((readReachable_map hconv (hseq h1)).2 ⟨r, h2, rfl⟩) (mapRecords_finished.2 h3)

theorem computesWeights_build {p : Program K V D} {b : Bool} {events : List (Event K V)}
    {o : Outcome (CresError IOError) (List (Weights K))} : (buildNTuple b p).ComputesWeights events o ↔ p.ComputesWeights events o := by
  have hr : ∀ {p q : Program K V D} {evs r}, p.cfg = q.cfg → p.nearest = q.nearest → p.seeds = q.seeds → p.infoLog = q.infoLog →
      p.Resamples evs r → q.Resamples evs r := by
    intro p q evs r h1 h2 h3 h4 h
    cases h with
    | log h => exact .log (by rw [← h1, ← h4]; exact h)
    | task h h5 h6 => exact .task (by rw [← h1, ← h4]; exact h) (by rw [← h1, ← h2, ← h3]; exact h5) h6
    | ok h h5 => exact .ok (by rw [← h1, ← h4]; exact h) (by rw [← h1, ← h2, ← h3]; exact h5)
  constructor
  · rintro ⟨h⟩
    exact .mk (p := p) (hr (p := buildNTuple b p) (q := p) rfl rfl rfl rfl h)
  · rintro ⟨h⟩
    exact .mk (p := buildNTuple b p) (hr (p := p) (q := buildNTuple b p) rfl rfl rfl rfl h)

theorem run_lockstep {p : Program K V D} {lib : Mixed.RootLib K} {b : Bool} {files : List (P × P)} {fs : FS P}
    (ht : Lockstep p.io lib b files fs) (events : Option (List (Event K V))) (ws : Option (List (Weights K)))
    (res : Outcome (CresError IOError) Unit) (fs' : FS P) :
    Mixed.Run p lib files fs events ws res fs' ↔ (buildNTuple b p).Run files fs events ws res fs' := by
  have hnew := new_mixed (lib := lib) (b := b) ht
  have hinv := new_inv (setNTuple b p.io) files fs
  change _ = mixed (CombinedIO.new (buildNTuple b p).io files fs) at hnew
  change CombinedIO.Inv files fs (CombinedIO.new (buildNTuple b p).io files fs).2.1 (CombinedIO.new (buildNTuple b p).io files fs).2.2 at hinv
  cases hc : CombinedIO.new (buildNTuple b p).io files fs with
  | mk o x =>
    obtain ⟨t, fs1⟩ := x
    rw [hc] at hnew hinv
    simp only [mixed] at hnew hinv
    have hreads := fun res y => reads_text (lib := lib) (b := b) ht hinv (res := res) (y := y)
    constructor
    · intro h
      have key : ∀ {s fs2}, Mixed.Combined.new p.io lib files fs = (.ok (), s, fs2) → o = .ok () ∧ s = toMixed t ∧ fs2 = fs1 := by
        intro s fs2 h1
        rw [hnew] at h1
        simp only [Prod.mk.injEq] at h1
        exact ⟨h1.1, h1.2.1.symm, h1.2.2.symm⟩
      cases h with
      | createErr h1 =>
        rw [hnew] at h1
        simp only [Prod.mk.injEq] at h1
        obtain ⟨rfl, -, rfl⟩ := h1
        exact .createErr hc
      | createPanic h1 =>
        rw [hnew] at h1
        simp only [Prod.mk.injEq] at h1
        obtain ⟨rfl, -, rfl⟩ := h1
        exact .createPanic hc
      | readErr h1 h2 =>
        obtain ⟨rfl, rfl, rfl⟩ := key h1
        obtain ⟨x, h3, rfl⟩ := (hreads _ _).1 h2
        exact .readErr hc h3
      | readPanic h1 h2 =>
        obtain ⟨rfl, rfl, rfl⟩ := key h1
        obtain ⟨x, h3, rfl⟩ := (hreads _ _).1 h2
        exact .readPanic hc h3
      | weightsErr h1 h2 h4 =>
        obtain ⟨rfl, rfl, rfl⟩ := key h1
        obtain ⟨x, h3, rfl⟩ := (hreads _ _).1 h2
        exact .weightsErr hc h3 (computesWeights_build.2 h4)
      | weightsPanic h1 h2 h4 =>
        obtain ⟨rfl, rfl, rfl⟩ := key h1
        obtain ⟨x, h3, rfl⟩ := (hreads _ _).1 h2
        exact .weightsPanic hc h3 (computesWeights_build.2 h4)
      | @update _ _ evs ws _ h1 h2 h4 =>
        obtain ⟨rfl, rfl, rfl⟩ := key h1
        obtain ⟨x, h3, rfl⟩ := (hreads _ _).1 h2
        have h5 := readsEvents_inv hinv h3
        simp only [updateAll_mixed (lib := lib) (b := b) ht h5 ws, mixed]
        exact .update hc h3 (computesWeights_build.2 h4)
    · intro h
      have key : ∀ {s fs2}, CombinedIO.new (buildNTuple b p).io files fs = (.ok (), s, fs2) →
          Mixed.Combined.new p.io lib files fs = (.ok (), toMixed t, fs1) ∧ s = t ∧ fs2 = fs1 := by
        intro s fs2 h1
        rw [hc] at h1
        simp only [Prod.mk.injEq] at h1
        rw [hnew, h1.1]
        exact ⟨rfl, h1.2.1.symm, h1.2.2.symm⟩
      cases h with
      | createErr h1 =>
        rw [hc] at h1
        simp only [Prod.mk.injEq] at h1
        obtain ⟨rfl, rfl, rfl⟩ := h1
        exact .createErr hnew
      | createPanic h1 =>
        rw [hc] at h1
        simp only [Prod.mk.injEq] at h1
        obtain ⟨rfl, rfl, rfl⟩ := h1
        exact .createPanic hnew
      | @readErr _ _ _ x h1 h2 =>
        obtain ⟨h3, rfl, rfl⟩ := key h1
        exact .readErr (x := (toMixed x.1, x.2)) h3 ((hreads _ _).2 ⟨x, h2, rfl⟩)
      | @readPanic _ _ x h1 h2 =>
        obtain ⟨h3, rfl, rfl⟩ := key h1
        exact .readPanic (x := (toMixed x.1, x.2)) h3 ((hreads _ _).2 ⟨x, h2, rfl⟩)
      | @weightsErr _ _ _ _ x h1 h2 h4 =>
        obtain ⟨h3, rfl, rfl⟩ := key h1
        exact .weightsErr (x := (toMixed x.1, x.2)) h3 ((hreads _ _).2 ⟨x, h2, rfl⟩) (computesWeights_build.1 h4)
      | @weightsPanic _ _ _ x h1 h2 h4 =>
        obtain ⟨h3, rfl, rfl⟩ := key h1
        exact .weightsPanic (x := (toMixed x.1, x.2)) h3 ((hreads _ _).2 ⟨x, h2, rfl⟩) (computesWeights_build.1 h4)
      | @update _ _ evs ws x h1 h2 h4 =>
        obtain ⟨h3, rfl, rfl⟩ := key h1
        have h5 := readsEvents_inv hinv h2
        have h6 := Mixed.Run.update (x := (toMixed x.1, x.2)) h3 ((hreads _ _).2 ⟨x, h2, rfl⟩) (computesWeights_build.1 h4)
        simp only [updateAll_mixed (lib := lib) (b := b) ht h5 ws, mixed] at h6
        exact h6

/-- **C113**: if no input file begins like a ROOT file and none is also an output file, then what can happen in a run of the
program with support for ROOT ntuples is exactly what can happen without: the events, the weights, the result and all files
afterwards are the same, for any content of the files, for every interleaving and including all errors and panics. It does
not matter whether the program without support reports ROOT files as unsupported. -/
theorem C113_same {p : Program K V D} (lib : Mixed.RootLib K) (b : Bool) {files : List (P × P)} {fs : FS P}
    (ht : TextInputs p.io files fs) (events : Option (List (Event K V))) (ws : Option (List (Weights K)))
    (res : Outcome (CresError IOError) Unit) (fs' : FS P) :
    Mixed.Run p lib files fs events ws res fs' ↔ (buildNTuple b p).Run files fs events ws res fs' :=
  run_lockstep (lockstep_text ht) events ws res fs'

/-- **C113** for a program built without the feature `ntuple`: the model for files of any format says the same as the model
for text files, for any input files. -/
theorem C113_without {p : Program K V D} (hf : p.io.feat.ntuple = false) (lib : Mixed.RootLib K) (files : List (P × P)) (fs : FS P)
    (events : Option (List (Event K V))) (ws : Option (List (Weights K))) (res : Outcome (CresError IOError) Unit) (fs' : FS P) :
    Mixed.Run p lib files fs events ws res fs' ↔ p.Run files fs events ws res fs' := by
  have hp : buildNTuple false p = p := by
    unfold buildNTuple setNTuple
    rw [← hf]
  have := run_lockstep (p := p) (lib := lib) (lockstep_without hf (files := files) (fs0 := fs)) events ws res fs'
  rw [hp] at this
  exact this

/-- **C113** for a program built with the feature `ntuple`: all statements about runs on text files apply to it. -/
theorem C113_build {p : Program K V D} (lib : Mixed.RootLib K) {files : List (P × P)} {fs : FS P}
    (ht : TextInputs p.io files fs) (events : Option (List (Event K V))) (ws : Option (List (Weights K)))
    (res : Outcome (CresError IOError) Unit) (fs' : FS P) :
    Mixed.Run p lib files fs events ws res fs' ↔ p.Run files fs events ws res fs' :=
  C113_same lib p.io.feat.ntuple ht events ws res fs'

end

/-- The hypotheses are satisfied by files in different formats, for which there is a run that moves weight. -/
theorem exText (multi : Bool) : TextInputs (exSettings multi).io [((0 : ℕ), 10), (1, 11)] exProgFS := by
  refine ⟨by decide, ?_⟩
  intro x hx c hc
  simp only [List.mem_cons, List.not_mem_nil, or_false] at hx
  rcases hx with rfl | rfl
  · simp only [exProgFS, Option.some.injEq] at hc
    subst hc
    change ¬ ascii "root" <+: (exSettings false).io.firstBuffer _
    decide +kernel
  · simp only [exProgFS, Option.some.injEq] at hc
    subst hc
    change ¬ ascii "root" <+: (exSettings false).io.firstBuffer _
    decide +kernel

example (multi b : Bool) (lib : Mixed.RootLib ℚ) : (∃ res fs', Mixed.Run (exSettings multi).program lib [((0 : ℕ), 10), (1, 11)] exProgFS
      (some exProgEvents) (some [[2], [6], [2]]) res fs' ∧
      (buildNTuple b (exSettings multi).program).Run [((0 : ℕ), 10), (1, 11)] exProgFS
        (some exProgEvents) (some [[2], [6], [2]]) res fs') ∧ (exSettings multi).io.feat.ntuple = true := by
  obtain ⟨res, fs', h⟩ := exProg_run multi
  have h1 := (C113_build lib (exText multi) _ _ _ _).2 h
  exact ⟨⟨res, fs', h1, (C113_same lib b (exText multi) _ _ _ _).1 h1⟩, rfl⟩

/-- There are programs without the feature. -/
example (multi : Bool) (lib : Mixed.RootLib ℚ) : ∃ res fs', Mixed.Run (buildNTuple false (exSettings multi).program) lib [((0 : ℕ), 10), (1, 11)]
    exProgFS (some exProgEvents) (some [[2], [6], [2]]) res fs' := by
  obtain ⟨res, fs', h⟩ := exProg_run multi
  exact ⟨res, fs', (C113_without rfl lib _ _ _ _ _ _).2
    ((C113_same lib false (exText multi) _ _ _ _).1 ((C113_build lib (exText multi) _ _ _ _).2 h))⟩

end Cres

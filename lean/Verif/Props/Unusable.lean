import Verif.Spec.Unusable
import Verif.Props.MixedRun
import Verif.Props.TextOnly
import Verif.Props.Main

/-!
# C114: input files that cannot be used
-/

set_option linter.unusedSectionVars false

namespace Cres

open Spec Mixed

section

variable {K V D P : Type*} [Zero D] [Zero K] [One K] [Add K] [Mul K] [Div K] [NatCast K] [LinearOrder K] [LinearOrder V]
  [DecidableEq P]

theorem anyIO_unusable {cfg : IOConfig K V} {lib : RootLib K} {infile outfile : P} {fs : FS P} {e : CreateError}
    (h : Unusable cfg lib (fs infile) e) : AnyIO.new cfg lib infile outfile fs = (.err e, fs) := by
  unfold AnyIO.new
  generalize hc : fs infile = c at h
  cases h with
  | missing => rfl
  | root h1 h2 => simp [detectFormat, h1, h2, FileIO.new, hc, Outcome.map]
  | xml h1 h2 h3 => simp [detectFormat, h1, h2, h3, FileIO.new, hc, Outcome.map]
  | broken h1 h2 h3 => simp [detectFormat, h1, h2, h3]

/-- Opening a file changes at most its output file. -/
theorem anyIO_new_other {cfg : IOConfig K V} {lib : RootLib K} {infile outfile : P} {fs : FS P} {q : P} (hq : q ≠ outfile) :
    (AnyIO.new cfg lib infile outfile fs).2 q = fs q := by
  unfold AnyIO.new
  split
  · rfl
  · split
    · split
      · exact FS.create_other _ _ hq
      · rfl
      · rfl
    · exact (FileIO.new_fs cfg fs infile outfile).2 q hq

variable {cfg : IOConfig K V} {lib : RootLib K} {files a b : List (P × P)} {x : P × P} {fs : FS P} {e : CreateError}

theorem initLoop_unusable (hx : x.1 ∉ (a ++ x :: b).map Prod.snd) (hu : Unusable cfg lib (fs x.1) e) :
    ∀ (n i : Nat) (s : Combined K P) (fs1 : FS P), s.files = a ++ x :: b → i ≤ a.length → a.length < i + n →
      (∀ q ∉ a.map Prod.snd, fs1 q = fs q) →
      ((∃ e', (s.initLoop cfg lib n i fs1).1 = .err (.create e')) ∨ (s.initLoop cfg lib n i fs1).1 = .panic) ∧
      ∀ q ∉ a.map Prod.snd, (s.initLoop cfg lib n i fs1).2.2 q = fs q
  | 0, i, s, fs1, _, hi, hn, _ => by omega
  | n + 1, i, s, fs1, hs, hi, hn, hfs => by
    rw [Combined.initLoop]
    rcases Nat.eq_or_lt_of_le hi with rfl | hi
    · have hf : s.files[a.length]? = some x := by rw [hs]; simp
      have hq : fs1 x.1 = fs x.1 := hfs _ fun h => hx (by rw [List.map_append]; exact List.mem_append_left _ h)
      have : s.openFile cfg lib a.length fs1 = (.err (.create e), s, fs1) := by
        unfold Combined.openFile
        rw [hf]
        simp only [anyIO_unusable (outfile := x.2) (by rw [hq]; exact hu : Unusable cfg lib (fs1 x.1) e)]
      rw [this]
      exact ⟨.inl ⟨e, rfl⟩, hfs⟩
    · obtain ⟨y, hy⟩ : ∃ y, a[i]? = some y := ⟨_, List.getElem?_eq_getElem hi⟩
      have hf : s.files[i]? = some y := by rw [hs, List.getElem?_append_left hi, hy]
      have hmem : y.2 ∈ a.map Prod.snd := List.mem_map_of_mem (List.mem_of_getElem? hy)
      have ho : ∀ q ∉ a.map Prod.snd, (AnyIO.new cfg lib y.1 y.2 fs1).2 q = fs q := by
        intro q hq
        rw [anyIO_new_other (fun h : q = y.2 => hq (h ▸ hmem)), hfs q hq]
      unfold Combined.openFile
      rw [hf]
      simp only
      cases hn' : AnyIO.new cfg lib y.1 y.2 fs1 with
      | mk o fs2 =>
        rw [hn'] at ho
        cases o with
        | ok io => exact initLoop_unusable hx hu n (i + 1) { s with current := some io, idx := i } fs2 hs (by omega) (by omega) ho
        | err e' => exact ⟨.inl ⟨e', rfl⟩, ho⟩
        | panic => exact ⟨.inr rfl, ho⟩

theorem new_unusable (hx : x.1 ∉ (a ++ x :: b).map Prod.snd) (hu : Unusable cfg lib (fs x.1) e) :
    ((∃ e', (Combined.new cfg lib (a ++ x :: b) fs).1 = .err (.create e')) ∨ (Combined.new cfg lib (a ++ x :: b) fs).1 = .panic) ∧
      ∀ q ∉ a.map Prod.snd, (Combined.new cfg lib (a ++ x :: b) fs).2.2 q = fs q := by
  unfold Combined.new
  rw [if_neg (by simp)]
  have h := initLoop_unusable hx hu (a ++ x :: b).length 0 ⟨a ++ x :: b, none, 0⟩ fs rfl (by omega) (by simp) (fun _ _ => rfl)
  generalize Combined.initLoop cfg lib (a ++ x :: b).length 0 ⟨a ++ x :: b, none, 0⟩ fs = r at h
  obtain ⟨o, s, fs1⟩ := r
  rcases h with ⟨⟨e', h1⟩ | h1, h2⟩
  · simp only at h1
    subst h1
    exact ⟨.inl ⟨e', rfl⟩, h2⟩
  · simp only at h1
    subst h1
    exact ⟨.inr rfl, h2⟩

/-- **C114**: if an input file does not exist, has a format that is not supported or is an unreadable ROOT file then no run succeeds,
no event is read and no weight is changed. There is an error for this file or for one before it, and neither the output file for this file nor
the ones for later files are changed, unless an earlier input file has the same output file. -/
theorem C114_fails {p : Program K V D} {lib : RootLib K} {a b : List (P × P)} {x : P × P} {fs fs' : FS P} {e : CreateError}
    (hx : x.1 ∉ (a ++ x :: b).map Prod.snd) (hu : Unusable p.io lib (fs x.1) e) {events : Option (List (Event K V))}
    {ws : Option (List (Weights K))} {res : Outcome (CresError IOError) Unit} (h : Mixed.Run p lib (a ++ x :: b) fs events ws res fs') :
    events = none ∧ ws = none ∧ ((∃ e', res = .err (.io (.create e'))) ∨ res = .panic) ∧ ∀ q ∉ a.map Prod.snd, fs' q = fs q := by
  obtain ⟨h1, h2⟩ := new_unusable hx hu
  cases h with
  | createErr g =>
    rw [g] at h1 h2
    rcases h1 with ⟨e', h1⟩ | h1
    · simp only [Outcome.err.injEq] at h1
      subst h1
      exact ⟨rfl, rfl, .inl ⟨e', rfl⟩, h2⟩
    · simp at h1
  | createPanic g =>
    rw [g] at h2
    exact ⟨rfl, rfl, .inr rfl, h2⟩
  | readErr g _ | readPanic g _ | weightsErr g _ _ | weightsPanic g _ _ | update g _ _ =>
    rw [g] at h1
    simp at h1

/-- **C114**, which error: if all files before the one that cannot be used are event files in a supported format then there is only one
outcome, the error for this file. -/
theorem C114_error {p : Program K V D} {lib : RootLib K} (hlib : GoodRootLib p.io lib)
    (hn : p.io.ctx.multi = true → p.io.ctx.names = []) {a b : List (P × P)} {x : P × P} {fs : FS P} {e : CreateError}
    (hin : ∃ ins, AnyFiles p.io lib fs (a.map Prod.fst) ins) (ha : ∀ y ∈ a ++ [x], y.1 ∉ (a ++ x :: b).map Prod.snd)
    (hu : Unusable p.io lib (fs x.1) e) :
    ∃ fs', ∀ events ws res fs'', Mixed.Run p lib (a ++ x :: b) fs events ws res fs'' ↔
      events = none ∧ ws = none ∧ res = .err (.io (.create e)) ∧ fs'' = fs' := by
  have hx : x.1 ∉ (a ++ x :: b).map Prod.snd := ha x (by simp)
  obtain ⟨ins, hin⟩ := hin
  have key : ∀ (n i : Nat) (s : Combined K P) (fs1 : FS P), s.files = a ++ x :: b → i ≤ a.length → a.length < i + n →
      (∀ q ∉ a.map Prod.snd, fs1 q = fs q) → (s.initLoop p.io lib n i fs1).1 = .err (.create e) := by
    intro n
    induction n with
    | zero => intro i s fs1 _ _ h1; omega
    | succ n ih =>
      intro i s fs1 hs hi hn' hfs
      rw [Combined.initLoop]
      rcases Nat.eq_or_lt_of_le hi with rfl | hi
      · have hf : s.files[a.length]? = some x := by rw [hs]; simp
        have hq : fs1 x.1 = fs x.1 := hfs _ fun h => hx (by rw [List.map_append]; exact List.mem_append_left _ h)
        unfold Combined.openFile
        rw [hf]
        simp only [anyIO_unusable (outfile := x.2) (by rw [hq]; exact hu : Unusable p.io lib (fs1 x.1) e)]
      · obtain ⟨d, content, -, h2, h3⟩ := input_get hin (fun q hq h => by
          obtain ⟨y, hy, rfl⟩ := List.mem_map.1 hq
          exact ha y (List.mem_append_left _ hy) (by rw [List.map_append]; exact List.mem_append_left _ h)) hfs hi
        obtain ⟨io, start, h4, -⟩ := file_handled hlib hn h3 (outfile := a[i].2) h2
        have hf : s.files[i]? = some a[i] := by rw [hs, List.getElem?_append_left hi, List.getElem?_eq_getElem hi]
        unfold Combined.openFile
        rw [hf]
        simp only [h4]
        refine ih (i + 1) _ _ hs (by omega) (by omega) fun q hq => ?_
        rw [FS.create_other _ _ (fun h : q = a[i].2 => hq (h ▸ List.mem_map_of_mem (List.getElem_mem hi))), hfs q hq]
  have hnew : ∃ s fs', Combined.new p.io lib (a ++ x :: b) fs = (.err (.create e), s, fs') := by
    unfold Combined.new
    rw [if_neg (by simp)]
    have h := key (a ++ x :: b).length 0 ⟨a ++ x :: b, none, 0⟩ fs rfl (by omega) (by simp) (fun _ _ => rfl)
    generalize Combined.initLoop p.io lib (a ++ x :: b).length 0 ⟨a ++ x :: b, none, 0⟩ fs = r at h
    obtain ⟨o, s, fs1⟩ := r
    simp only at h
    subst h
    exact ⟨s, fs1, rfl⟩
  obtain ⟨s, fs', hnew⟩ := hnew
  refine ⟨fs', fun events ws res fs'' => ⟨fun h => ?_, ?_⟩⟩
  · cases h with
    | createErr g =>
      rw [hnew] at g
      simp only [Prod.mk.injEq, Outcome.err.injEq] at g
      obtain ⟨rfl, -, rfl⟩ := g
      exact ⟨rfl, rfl, rfl, rfl⟩
    | createPanic g | readErr g _ | readPanic g _ | weightsErr g _ _ | weightsPanic g _ _ | update g _ _ =>
      rw [hnew] at g
      simp at g
  · rintro ⟨rfl, rfl, rfl, rfl⟩
    exact .createErr hnew

end

/-! ### The command line program -/

section

variable {K V D P : Type*} [Zero D] [DistNum D] [Zero K] [One K] [Add K] [Mul K] [Div K] [Neg K] [NatCast K]
  [LinearOrder K] [LinearOrder V]

theorem scanFiles_unusable {cfg : IOConfig K V} {fs : FS P} {f : P × P}
    (hf : fs f.1 = none ∨ ∃ c e, fs f.1 = some c ∧ ascii "<?xml" <+: trimAsciiStart (cfg.firstBuffer c) ∧ cfg.xmlInfo c = .err e) :
    ∀ {files : List (Option (P × P))}, some f ∈ files → ∀ r, scanFiles cfg fs files ≠ .ok r
  | [], h, _ => by simp at h
  | none :: _, _, _ => by simp [scanFiles]
  | some g :: files, h, r => by
    intro hr
    rw [scanFiles] at hr
    cases hg : fs g.1 with
    | none => rw [hg] at hr; simp at hr
    | some c =>
      rw [hg] at hr
      simp only at hr
      rcases List.mem_cons.1 h with h | h
      · simp only [Option.some.injEq] at h
        subst h
        rcases hf with hf | ⟨c', e, h1, h2, h3⟩
        · rw [hf] at hg; cases hg
        · rw [h1] at hg
          cases hg
          rw [if_pos h2, h3] at hr
          simp [Outcome.map, Outcome.bind] at hr
      · have ih := scanFiles_unusable hf h
        cases hs : scanFiles cfg fs files with
        | ok r' => exact ih r' hs
        | err e =>
          rw [hs] at hr
          split at hr
          · cases hx : cfg.xmlInfo c <;> rw [hx] at hr <;> simp [Outcome.map, Outcome.bind] at hr
          · simp [Outcome.map, Outcome.bind] at hr
        | panic =>
          rw [hs] at hr
          split at hr
          · cases hx : cfg.xmlInfo c <;> rw [hx] at hr <;> simp [Outcome.map, Outcome.bind] at hr
          · simp [Outcome.map, Outcome.bind] at hr

/-- **C114** for the command line program with support for STRIPPER XML: if one of the input files does not exist, or is an XML file
without the required information, the program fails without having changed any file, wherever the input file is in the list. -/
theorem C114_main {s : CresSettings K V D} (hx : s.io.feat.stripperXml = true) {cwd : List Bytes} {outdir : Bytes} {infiles : List Bytes}
    {fs fs' : FS (List Bytes)} {f : Bytes} (hf : f ∈ infiles)
    (hu : fs (Path.locate cwd f) = none ∨ ∃ c e, fs (Path.locate cwd f) = some c ∧
      ascii "<?xml" <+: trimAsciiStart (s.io.firstBuffer c) ∧ s.io.xmlInfo c = .err e)
    {ws : Option (List (Weights K))} {res : Outcome MainError Unit} (h : MainRun s cwd outdir infiles fs ws res fs') :
    ws = none ∧ ((∃ e, res = .err (.scaling e)) ∨ res = .panic) ∧ fs' = fs := by
  cases h with
  | scalingErr _ => exact ⟨rfl, .inl ⟨_, rfl⟩, rfl⟩
  | scalingPanic _ => exact ⟨rfl, .inr rfl, rfl⟩
  | run h1 h2 =>
    exfalso
    unfold prepareFiles at h1
    rw [if_pos hx] at h1
    cases hs : scanFiles s.io fs (locatedPairs cwd outdir infiles) with
    | err e => rw [hs] at h1; simp at h1
    | panic => rw [hs] at h1; simp at h1
    | ok r =>
      cases hn : Path.fileName f with
      | none =>
        have hmem : none ∈ locatedPairs cwd outdir infiles := by
          rw [locatedPairs, List.mem_map]
          exact ⟨f, hf, by rw [Path.filePair, hn]; rfl⟩
        rw [scanFiles_files _ _ hs] at hmem
        simp at hmem
      | some n =>
        have hmem : some (Path.locate cwd f, Path.locate cwd (Path.fromPair outdir n)) ∈ locatedPairs cwd outdir infiles := by
          rw [locatedPairs, List.mem_map]
          exact ⟨f, hf, by rw [Path.filePair, hn]; rfl⟩
        exact scanFiles_unusable hu hmem r hs

end

/-! ### Examples -/

/-- The hypotheses are satisfied if a file between two event files is missing, and there is a run. -/
example (multi : Bool) : (∃ fs', Mixed.Run (exSettings multi).program exRootLib [((0 : ℕ), 10), (5, 15), (1, 11)] exMixedFS none none
      (.err (.io (.create .openInput))) fs') ∧ ∀ q ∈ [(15 : ℕ), 11], q ∉ [((0 : ℕ), 10)].map Prod.snd := by
  refine ⟨?_, by decide⟩
  obtain ⟨fs', h⟩ := C114_error (p := (exSettings multi).program) (a := [((0 : ℕ), 10)]) (x := (5, 15)) (b := [(1, 11)]) (fs := exMixedFS)
    (exRootLib_good multi) (fun _ => rfl)
    ⟨[.text exProgHepmc], .cons ⟨_, rfl, exProgHepmc_ok multi⟩ .nil⟩ (by decide) (e := .openInput) .missing
  exact ⟨fs', (h _ _ _ _).2 ⟨rfl, rfl, rfl, rfl⟩⟩

/-- The other kinds of files that cannot be used. -/
example (multi : Bool) (lib : RootLib ℚ) (h : lib.read (ascii "root") = .err .openInput) :
    Unusable (exSettings multi).io lib (some (ascii "root")) .openInput ∧
    Unusable (setNTuple false (exSettings multi).io) lib (some (ascii "root")) .rootUnsupported ∧
    Unusable { (exSettings multi).io with feat := ⟨false, false, false⟩ } lib (some (ascii " <?xml ?>")) .xmlUnsupported := by
  have h1 : ∀ c, (exSettings multi).io.firstBuffer c = c := fun _ => rfl
  refine ⟨.broken rfl ?_ h, .root rfl ?_, .xml rfl ?_ ?_⟩
  · rw [h1]
  · exact List.prefix_refl _
  · change _ <+: trimAsciiStart (ascii " <?xml ?>")
    decide +kernel
  · change ¬ _ <+: ascii " <?xml ?>"
    decide +kernel

/-- An input file that cannot be used does not protect the output files for the input files before it. If there is something from an
earlier run in the file `10`, only the header of the input file `0` is left. -/
example (lib : RootLib ℚ) : ∃ fs', Mixed.Run (exSettings false).program lib [((0 : ℕ), 10), (5, 15)]
    (fun q => if q = 10 then some (ascii "results") else exProgFS q) none none (.err (.io (.create .openInput))) fs' ∧
    fs' 10 = some exProgHepmc.header :=
  ⟨_, .createErr rfl, rfl⟩

/-- The command line program with a missing file. -/
example (multi : Bool) : ∃ f ∈ [ascii "/data/a.hepmc", ascii "missing.lhe"],
    exMainFS (Path.locate [ascii "home"] f) = none ∧ (exMain multi fun _ => none).io.feat.stripperXml = true ∧
    MainRun (exMain multi fun _ => none) [ascii "home"] (ascii "out") [ascii "/data/a.hepmc", ascii "missing.lhe"] exMainFS none
      (.err (.scaling .openInput)) exMainFS := by
  refine ⟨ascii "missing.lhe", by simp, by decide +kernel, rfl, .scalingErr ?_⟩
  have : scanFiles (exMain multi fun _ => none).io exMainFS
      (locatedPairs [ascii "home"] (ascii "out") [ascii "/data/a.hepmc", ascii "missing.lhe"]) = .err .openInput := by
    cases multi <;> rfl
  rw [prepareFiles, if_pos (show (exMain multi fun _ => none).io.feat.stripperXml = true from rfl), this]
  rfl

end Cres

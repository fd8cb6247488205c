import Verif.Spec.NTupleRun
import Verif.Props.NTuple
import Verif.Props.Negative

/-!
Lemmas about complete runs on ntuples: reading and writing files.
-/

namespace Cres.NTuple

open Spec

set_option linter.unusedSectionVars false

variable {K V D P : Type*} [DecidableEq P]

theorem OnlyOutputs.refl (files : List (P × P)) (fs : Files K P) : OnlyOutputs files fs fs := fun _ _ => rfl

theorem OnlyOutputs.update {files : List (P × P)} {fs fs' : Files K P} (h : OnlyOutputs files fs fs') {q : P}
    (hq : q ∈ files.map Prod.snd) (x : Option (List (Record K))) : OnlyOutputs files fs (Function.update fs' q x) := by
  intro p hp
  rw [Function.update_of_ne (fun e => hp (by rw [e]; exact hq)), h p hp]

theorem Inputs.mono {files : List (P × P)} {fs fs' : Files K P} {ins : List (List (Record K))} (hin : Inputs fs files ins)
    (hd : ∀ p ∈ files.map Prod.fst, p ∉ files.map Prod.snd) (h : OnlyOutputs files fs fs') : Inputs fs' files ins := by
  have : ∀ (fl : List (P × P)) (rl : List (List (Record K))), (∀ f ∈ fl, f ∈ files) → Inputs fs fl rl → Inputs fs' fl rl := by
    intro fl rl hsub hfl
    induction hfl with
    | nil => exact .nil
    | @cons f rs fl rl h1 _ ih =>
      refine .cons ?_ (ih fun f hf => hsub f (by simp [hf]))
      rw [h _ (hd _ (List.mem_map_of_mem (hsub f (by simp)))), h1]
  exact this files ins (fun _ h => h) hin

theorem Inputs.get {files : List (P × P)} {fs : Files K P} {ins : List (List (Record K))} (hin : Inputs fs files ins) {i : Nat}
    (hi : i < files.length) : ∃ rs, ins[i]? = some rs ∧ fs files[i].1 = some rs := by
  have hl := hin.length_eq
  exact ⟨ins[i], List.getElem?_eq_getElem (by omega), List.forall₂_iff_get.1 hin |>.2 i hi (by omega)⟩

namespace Combined

/-- Opening an input file. -/
theorem openFile_ok {names : List Bytes} {files : List (P × P)} {fs fs1 : Files K P} {ins : List (List (Record K))}
    (hin : Inputs fs files ins) (hd : ∀ p ∈ files.map Prod.fst, p ∉ files.map Prod.snd) (hfs : OnlyOutputs files fs fs1)
    {s : Combined K P} (hs : s.files = files) {i : Nat} (hi : i < files.length) :
    ∃ rs, ins[i]? = some rs ∧ s.openFile names i fs1 =
        (.ok (), { s with current := some (FileIO.new names rs), idx := i }, Function.update fs1 files[i].2 (some [])) ∧
      OnlyOutputs files fs (Function.update fs1 files[i].2 (some [])) := by
  obtain ⟨rs, h1, h2⟩ := (hin.mono hd hfs).get hi
  refine ⟨rs, h1, ?_, hfs.update (List.mem_map_of_mem (List.getElem_mem hi)) _⟩
  have : s.files[i]? = some (files[i].1, files[i].2) := by rw [hs, List.getElem?_eq_getElem hi]
  simp only [openFile, this, h2]

theorem initLoop_ok {names : List Bytes} {files : List (P × P)} {fs : Files K P} {ins : List (List (Record K))}
    (hin : Inputs fs files ins) (hd : ∀ p ∈ files.map Prod.fst, p ∉ files.map Prod.snd) :
    ∀ (n i : Nat) (s : Combined K P) (fs1 : Files K P), OnlyOutputs files fs fs1 → s.files = files → i + n ≤ files.length →
      ∃ s' fs', initLoop names n i s fs1 = (.ok (), s', fs') ∧ OnlyOutputs files fs fs' ∧ s'.files = files := by
  intro n
  induction n with
  | zero => exact fun i s fs1 h hs _ => ⟨s, fs1, rfl, h, hs⟩
  | succ n ih =>
    intro i s fs1 h hs hle
    obtain ⟨rs, -, h2, h3⟩ := openFile_ok (names := names) hin hd h hs (i := i) (by omega)
    obtain ⟨s', fs', h4, h5, h6⟩ := ih (i + 1) { s with current := some (FileIO.new names rs), idx := i } _ h3 hs (by omega)
    exact ⟨s', fs', by rw [initLoop, h2]; exact h4, h5, h6⟩

/-- The state of the reader: the records in `rest` are still to be read. -/
def Ready (files : List (P × P)) (ins : List (List (Record K))) (fs : Files K P) (s : Combined K P)
    (fs1 : Files K P) (rest : List (Record K)) : Prop :=
  s.files = files ∧ OnlyOutputs files fs fs1 ∧
    ((files = [] ∧ s.current = none ∧ rest = []) ∨
      ∃ io, s.current = some io ∧ s.idx < files.length ∧ ins[s.idx]? = some io.records ∧
        rest = io.records.drop io.nevent ++ (ins.drop (s.idx + 1)).flatten)

theorem new_ready {names : List Bytes} {files : List (P × P)} {fs : Files K P} {ins : List (List (Record K))}
    (hin : Inputs fs files ins) (hd : ∀ p ∈ files.map Prod.fst, p ∉ files.map Prod.snd) :
    ∃ s fs1, new names files fs = (.ok (), s, fs1) ∧ Ready files ins fs s fs1 ins.flatten := by
  unfold new
  split_ifs with he
  · subst he
    cases hin
    exact ⟨_, _, rfl, rfl, OnlyOutputs.refl _ _, Or.inl ⟨rfl, rfl, rfl⟩⟩
  · obtain ⟨s', fs', h1, h2, h3⟩ := initLoop_ok (names := names) hin hd files.length 0 ⟨files, none, 0⟩ fs (OnlyOutputs.refl _ _) rfl (by omega)
    have hpos : 0 < files.length := List.length_pos_iff.2 he
    obtain ⟨rs, h4, h5, h6⟩ := openFile_ok (names := names) hin hd h2 h3 hpos
    rw [h1]
    refine ⟨_, _, h5, h3, h6, Or.inr ⟨_, rfl, hpos, h4, ?_⟩⟩
    cases ins with
    | nil => simp at h4
    | cons r ins =>
      simp only [List.getElem?_cons_zero, Option.some.injEq] at h4
      subst h4
      simp [FileIO.new]

theorem nextLoop_ready {names : List Bytes} {files : List (P × P)} {fs : Files K P} {ins : List (List (Record K))}
    (hin : Inputs fs files ins) (hd : ∀ p ∈ files.map Prod.fst, p ∉ files.map Prod.snd) :
    ∀ (fuel : Nat) (s : Combined K P) (fs1 : Files K P) (rest : List (Record K)), Ready files ins fs s fs1 rest →
      files.length - s.idx < fuel →
      ∃ s' fs', Ready files ins fs s' fs' rest.tail ∧ nextLoop names fuel s fs1 = (rest.head?.map .ok, s', fs') := by
  intro fuel
  induction fuel with
  | zero => intro s fs1 rest _ h; omega
  | succ fuel ih =>
    intro s fs1 rest h hlt
    obtain ⟨h1, h2, h3⟩ := h
    rcases h3 with ⟨rfl, h4, rfl⟩ | ⟨io, h4, h5, h6, h7⟩
    · refine ⟨s, fs1, ⟨h1, h2, Or.inl ⟨rfl, h4, rfl⟩⟩, ?_⟩
      simp [nextLoop, h4, h1]
    · cases hr : io.records[io.nevent]? with
      | some r =>
        have hlt' := (List.getElem?_eq_some_iff.1 hr).1
        have hrr := (List.getElem?_eq_some_iff.1 hr).2
        refine ⟨{ s with current := some { io with nevent := io.nevent + 1 } }, fs1,
          ⟨h1, h2, Or.inr ⟨_, rfl, h5, h6, ?_⟩⟩, ?_⟩
        · rw [h7, List.drop_eq_getElem_cons hlt']
          rfl
        · rw [h7, List.drop_eq_getElem_cons hlt', hrr]
          simp [nextLoop, h4, FileIO.next, hr]
      | none =>
        have hle : io.records.length ≤ io.nevent := List.getElem?_eq_none_iff.1 hr
        have hlen := hin.length_eq
        rw [List.drop_eq_nil_of_le hle, List.nil_append] at h7
        by_cases hend : s.idx + 1 = files.length
        · have h8 : rest = [] := by
            rw [h7, List.drop_eq_nil_of_le (by omega)]
            rfl
          subst h8
          refine ⟨{ s with current := some io }, fs1, ⟨h1, h2, Or.inr ⟨io, rfl, h5, h6, ?_⟩⟩, ?_⟩
          · rw [List.drop_eq_nil_of_le hle, List.drop_eq_nil_of_le (show ins.length ≤ s.idx + 1 by omega)]
            rfl
          · simp [nextLoop, h4, FileIO.next, hr, h1, hend]
        · have hi : s.idx + 1 < files.length := by omega
          obtain ⟨rs, g1, g2, g3⟩ := openFile_ok (names := names) hin hd h2 (s := { s with current := some io }) h1 hi
          obtain ⟨s', fs', g4, g5⟩ := ih { s with current := some (FileIO.new names rs), idx := s.idx + 1 } _ rest
            ⟨h1, g3, Or.inr ⟨_, rfl, hi, g1, by
              rw [h7, List.drop_eq_getElem_cons (by omega)]
              have := (List.getElem?_eq_some_iff.1 g1).2
              rw [this]
              simp [FileIO.new]⟩⟩ (by simp only; omega)
          refine ⟨s', fs', g4, ?_⟩
          rw [← g5, nextLoop]
          simp only [h4, FileIO.next, hr]
          rw [if_neg (by rw [h1]; exact hend), g2]

theorem next_ready {names : List Bytes} {files : List (P × P)} {fs : Files K P} {ins : List (List (Record K))}
    (hin : Inputs fs files ins) (hd : ∀ p ∈ files.map Prod.fst, p ∉ files.map Prod.snd) {s : Combined K P} {fs1 : Files K P}
    {rest : List (Record K)} (h : Ready files ins fs s fs1 rest) :
    ∃ s' fs', Ready files ins fs s' fs' rest.tail ∧ s.next names fs1 = (rest.head?.map .ok, s', fs') :=
  nextLoop_ready hin hd _ s fs1 rest h (by rw [h.1]; omega)

/-- All remaining records are read. -/
theorem items_ready {names : List Bytes} {files : List (P × P)} {fs : Files K P} {ins : List (List (Record K))}
    (hin : Inputs fs files ins) (hd : ∀ p ∈ files.map Prod.fst, p ∉ files.map Prod.snd) :
    ∀ (n : Nat) (s : Combined K P) (fs1 : Files K P) (rest : List (Record K)), Ready files ins fs s fs1 rest →
      ∃ s' fs', s'.files = files ∧ OnlyOutputs files fs fs' ∧
        s.items names n fs1 = (if rest.length < n then some (.ok (rest.map .ok)) else none, s', fs') := by
  intro n
  induction n with
  | zero => exact fun s fs1 rest h => ⟨s, fs1, h.1, h.2.1, by simp [items]⟩
  | succ n ih =>
    intro s fs1 rest h
    obtain ⟨s1, fs2, h1, h2⟩ := next_ready (names := names) hin hd h
    cases rest with
    | nil => exact ⟨s1, fs2, h1.1, h1.2.1, by simp [items, h2]⟩
    | cons r rest =>
      obtain ⟨s', fs', h3, h4, h5⟩ := ih s1 fs2 rest h1
      refine ⟨s', fs', h3, h4, ?_⟩
      simp only [items, h2, List.head?_cons, Option.map_some, h5, List.length_cons, Nat.add_lt_add_iff_right]
      split_ifs <;> simp [Outcome.map]

/-! ### writing -/

/-- What has been written so far is in the output file. -/
theorem updateLoop_eq (multi : Bool) (outfile : P) : ∀ (ws : List (List K)) (io : FileIO K) (fs : Files K P),
    fs outfile = some io.written →
    ∃ fs', updateLoop multi outfile ws io fs = ((updateWhile multi ws io).1, (updateWhile (E := IOError) multi ws io).2, fs') ∧
      fs' outfile = some (updateWhile (E := IOError) multi ws io).2.written ∧ ∀ p ≠ outfile, fs' p = fs p := by
  intro ws
  induction ws with
  | nil => exact fun io fs h => ⟨fs, rfl, h, fun _ _ => rfl⟩
  | cons w ws ih =>
    intro io fs h
    have hw : ∀ o io', io.updateNext (E := IOError) multi w = (o, io') → o ≠ .ok true → io'.written = io.written := by
      intro o io' ho hne
      unfold FileIO.updateNext FileIO.next at ho
      cases hr : io.records[io.nevent]? with
      | none =>
        simp only [hr, Prod.mk.injEq] at ho
        rw [← ho.2]
      | some r =>
        simp only [hr] at ho
        cases hu : update (E := IOError) multi io.names w r with
        | ok r' =>
          simp only [hu, Prod.mk.injEq] at ho
          exact absurd ho.1.symm hne
        | err e =>
          simp only [hu, Prod.mk.injEq] at ho
          rw [← ho.2]
        | panic =>
          simp only [hu, Prod.mk.injEq] at ho
          rw [← ho.2]
    cases ho : io.updateNext (E := IOError) multi w with
    | mk o io' =>
      cases o with
      | ok b =>
        cases b with
        | true =>
          obtain ⟨fs', h1, h2, h3⟩ := ih io' (Function.update fs outfile (some io'.written)) (by simp)
          refine ⟨fs', ?_, ?_, ?_⟩
          · rw [updateLoop, updateWhile, ho]
            exact h1
          · rw [updateWhile, ho]
            exact h2
          · intro p hp
            rw [h3 p hp, Function.update_of_ne hp]
        | false =>
          have := hw _ _ ho (by simp)
          exact ⟨fs, by simp [updateLoop, updateWhile, ho], by simp [updateWhile, ho, this, h], fun _ _ => rfl⟩
      | err e =>
        have := hw _ _ ho (by simp)
        exact ⟨fs, by simp [updateLoop, updateWhile, ho], by simp [updateWhile, ho, this, h], fun _ _ => rfl⟩
      | panic =>
        have := hw _ _ ho (by simp)
        exact ⟨fs, by simp [updateLoop, updateWhile, ho], by simp [updateWhile, ho, this, h], fun _ _ => rfl⟩

/-- The records in output files, one after the other. -/
theorem updateFiles_ok {multi : Bool} {names : List Bytes} {files : List (P × P)} {fs : Files K P} {ins : List (List (Record K))}
    (hin : Inputs fs files ins) (hf : GoodFiles files) :
    ∀ (fl : List (P × P)) (rl : List (List (Record K))) (i : Nat) (ws : List (List K)) (s : Combined K P) (fs1 : Files K P),
      files.drop i = fl → ins.drop i = rl → OnlyOutputs files fs fs1 → s.files = files →
      ws.length = rl.flatten.length → (∀ w ∈ ws, GoodWeights multi names w) →
      ∃ out s' fs', updateFiles multi names fl.length i ws s fs1 = (.ok [], s', fs') ∧
        OnlyOutputs files fs fs' ∧ (∀ p ∉ fl.map Prod.snd, fs' p = fs1 p) ∧
        List.Forall₂ (fun f rs => fs' f.2 = some rs) fl out ∧
        List.Forall₂ (List.Forall₂ fun r r' => ∃ w, NTupleUpdate multi names w r r') rl out ∧
        List.Forall₂ (fun (x : List K × Record K) r' => NTupleUpdate multi names x.1 x.2 r') (ws.zip rl.flatten) out.flatten := by
  intro fl
  induction fl with
  | nil =>
    intro rl i ws s fs1 h1 h2 h3 h4 h5 h6
    have hlen := hin.length_eq
    have hi : files.length ≤ i := List.drop_eq_nil_iff.1 h1
    have : rl = [] := by rw [← h2]; exact List.drop_eq_nil_of_le (by omega)
    subst this
    have : ws = [] := List.length_eq_zero_iff.1 h5
    subst this
    exact ⟨[], s, fs1, rfl, h3, fun _ _ => rfl, .nil, .nil, .nil⟩
  | cons f fl ih =>
    intro rl i ws s fs1 h1 h2 h3 h4 h5 h6
    have hlen := hin.length_eq
    have hi : i < files.length := by
      by_contra hc
      rw [List.drop_eq_nil_of_le (by omega)] at h1
      cases h1
    rw [List.drop_eq_getElem_cons hi] at h1
    have hi' : i < ins.length := hlen ▸ hi
    rw [List.drop_eq_getElem_cons hi'] at h2
    obtain ⟨hf1, hf2⟩ := List.cons.inj h1
    subst h2
    obtain ⟨rs, g1, g2, g3⟩ := openFile_ok (names := names) hin hf.disjoint h3 h4 hi
    have hrs := (List.getElem?_eq_some_iff.1 g1).2
    rw [hrs] at h5 ⊢
    rw [List.flatten_cons, List.length_append] at h5
    obtain ⟨new, io', k1, k2, k3⟩ := updateWhile_ok (E := IOError) multi ws (FileIO.new names rs) h6
    simp only [FileIO.new, List.drop_zero, Nat.sub_zero, List.nil_append] at k1 k2 k3
    have hnew : new.length = rs.length := by
      rw [← k1.length_eq, List.length_zip]; omega
    obtain ⟨fs2, l1, l2, l3⟩ := updateLoop_eq multi files[i].2 ws (FileIO.new names rs)
      (Function.update fs1 files[i].2 (some [])) (by simp [FileIO.new])
    simp only [FileIO.new] at l1 l2
    rw [k2] at l1 l2
    simp only at l1 l2
    have hmem : files[i].2 ∈ files.map Prod.snd := List.mem_map_of_mem (List.getElem_mem hi)
    have hoo : OnlyOutputs files fs fs2 := by
      intro p hp
      rw [l3 p (fun e => hp (by rw [e]; exact hmem))]
      exact g3 p hp
    obtain ⟨out, s', fs', m1, m2, m3, m4, m5, m6⟩ := ih _ (i + 1) (ws.drop rs.length) { s with current := some io', idx := i } fs2
      hf2 rfl hoo h4 (by rw [List.length_drop]; omega) (fun w h => h6 w (List.mem_of_mem_drop h))
    have hnot : f.2 ∉ fl.map Prod.snd := by
      have := hf.nodup.sublist ((List.drop_sublist i files).map Prod.snd)
      rw [List.drop_eq_getElem_cons hi, hf1, hf2, List.map_cons, List.nodup_cons] at this
      exact this.1
    have hzip : ws.zip rs = (ws.take rs.length).zip rs := by
      conv_lhs => rw [← List.take_append_drop rs.length ws, ← List.append_nil rs]
      rw [List.zip_append (by simp; omega)]
      simp
    refine ⟨new :: out, s', fs', ?_, m2, ?_, ?_, ?_, ?_⟩
    · rw [List.length_cons, updateFiles, g2]
      simp only [h4, List.getElem?_eq_getElem hi]
      simp only [FileIO.new]
      rw [l1]
      simp only [h4] at m1
      exact m1
    · intro p hp
      rw [List.map_cons, List.mem_cons, not_or] at hp
      rw [m3 p hp.2, l3 p (by rw [hf1]; exact hp.1), Function.update_of_ne (by rw [hf1]; exact hp.1)]
    · refine .cons ?_ m4
      rw [m3 _ hnot, ← hf1, l2, k3]
    · refine .cons ?_ m5
      rw [hzip] at k1
      have : ∀ (a : List (List K)) (b c : List (Record K)), a.length = b.length →
          List.Forall₂ (fun (x : List K × Record K) r' => NTupleUpdate multi names x.1 x.2 r') (a.zip b) c →
          List.Forall₂ (fun r r' => ∃ w, NTupleUpdate multi names w r r') b c := by
        intro a
        induction a with
        | nil =>
          intro b c hab h
          have : b = [] := List.length_eq_zero_iff.1 hab.symm
          subst this
          cases h
          exact .nil
        | cons x a iha =>
          intro b c hab h
          cases b with
          | nil => simp at hab
          | cons y b =>
            rw [List.zip_cons_cons] at h
            cases h with
            | cons h1 h2 => exact .cons ⟨x, h1⟩ (iha b _ (by simpa using hab) h2)
      exact this _ _ _ (by rw [List.length_take]; omega) k1
    · rw [List.flatten_cons, List.flatten_cons]
      conv_lhs => rw [← List.take_append_drop rs.length ws]
      rw [List.zip_append (by rw [List.length_take]; omega)]
      refine List.rel_append ?_ m6
      rw [← hzip]
      exact k1

/-- Updating all files. -/
theorem updateAll_ok {multi : Bool} {names : List Bytes} {files : List (P × P)} {fs : Files K P} {ins : List (List (Record K))}
    (hin : Inputs fs files ins) (hf : GoodFiles files) {s : Combined K P} {fs1 : Files K P} (hs : s.files = files)
    (hfs : OnlyOutputs files fs fs1) {ws : List (List K)} (hlen : ws.length = ins.flatten.length)
    (hw : ∀ w ∈ ws, GoodWeights multi names w) :
    ∃ out s' fs', s.updateAll multi names ws fs1 = (.ok ins.flatten.length, s', fs') ∧ OnlyOutputs files fs fs' ∧
      List.Forall₂ (fun f rs => fs' f.2 = some rs) files out ∧
      List.Forall₂ (List.Forall₂ fun r r' => ∃ w, NTupleUpdate multi names w r r') ins out ∧
      List.Forall₂ (fun (x : List K × Record K) r' => NTupleUpdate multi names x.1 x.2 r') (ws.zip ins.flatten) out.flatten := by
  obtain ⟨out, s', fs', h1, h2, -, h3, h4, h5⟩ := updateFiles_ok (multi := multi) (names := names) hin hf files ins 0 ws
    { s with current := none } fs1 rfl rfl hfs hs hlen hw
  refine ⟨out, s', fs', ?_, h2, h3, h4, h5⟩
  unfold updateAll
  rw [show s.files.length = files.length by rw [hs], h1]
  simp [hlen]

end Combined

end Cres.NTuple

namespace Cres.NTuple

open Spec Program

/-- The number of weights of an event. -/
theorem ntupleWeights_length {K : Type*} (multi : Bool) (names : List Bytes) (r r' : Record K) :
    (ntupleWeights multi names r).length = (ntupleWeights multi names r').length := by
  simp only [ntupleWeights]
  split_ifs <;> simp

theorem convert_weights {K V : Type*} [Zero K] [LinearOrder V] {c : ParseCtx K V} {r : Record K} {ev : Event K V}
    (h : convert c r = .ok ev) : ev.weights = ntupleWeights c.multi c.names r ∧ ev.id = 0 := by
  obtain ⟨-, h⟩ := (convert_eq c r).1 h
  obtain ⟨b, h1, rfl⟩ := Outcome.map_eq_ok.1 h
  have : ∀ (n i : Nat) (b b' : EventBuilder K V), addParticles c r n i b = .ok b' → b'.weights = b.weights := by
    intro n
    induction n with
    | zero =>
      intro i b b' h
      simp only [addParticles, Outcome.ok.injEq] at h
      rw [h]
    | succ n ih =>
      intro i b b' h
      simp only [addParticles] at h
      obtain ⟨b1, h1, h2⟩ := Outcome.bind_eq_ok.1 h
      rw [ih _ _ _ h2]
      simp only [addParticle, Outcome.bind_eq_ok] at h1
      obtain ⟨_, -, _, -, _, -, _, -, _, -, _, -, _, -, _, -, _, -, h1⟩ := h1
      simp only [Outcome.ok.injEq] at h1
      rw [← h1]
      rfl
  exact ⟨this _ _ _ _ h1, rfl⟩

/-- A file with these events. The rest of the file does not matter for events. -/
def asFile {K V : Type*} (evs : List (Event K V)) : List (EventFile K V) := [⟨⟨.hepmc2, [], []⟩, evs⟩]

theorem allEvents_asFile {K V : Type*} (evs : List (Event K V)) : allEvents (asFile evs) = evs := by
  simp [allEvents, asFile]

variable {K V D P : Type*} [Zero D] [LinearOrder D] [Zero K] [One K] [Add K] [Mul K] [Div K] [NatCast K] [LinearOrder K]
  [LinearOrder V] [DecidableEq P]

/-- The number of weights per event. -/
def numWeights (multi : Bool) (names : List Bytes) : Nat := (ntupleWeights multi names (⟨0, 0, 0, 0, 0, [], [], [], [], [], []⟩ : Record ℕ)).length

theorem numWeights_eq (multi : Bool) (names : List Bytes) (r : Record K) :
    (ntupleWeights multi names r).length = numWeights multi names := by
  unfold numWeights
  simp only [ntupleWeights]
  split_ifs <;> simp

theorem numWeights_pos (multi : Bool) (names : List Bytes) : 0 < numWeights multi names := by
  simp [numWeights, ntupleWeights]

theorem numWeights_single (names : List Bytes) : numWeights false names = 1 := by
  simp [numWeights, ntupleWeights]

/-- Reading from ntuples. -/
theorem reads_ntuples {p : Program K V D} {fs : Files K P} {files : List (P × P)} {ins : List (List (Record K))}
    (hin : Inputs fs files ins) (hf : GoodFiles files) :
    ∃ s fs1, Combined.new p.io.ctx.names files fs = (.ok (), s, fs1) ∧
      (∀ res x, ReadsEvents p s fs1 res x → x.1.files = files ∧ OnlyOutputs files fs x.2 ∧
        (∀ events, res = .ok events → ∃ evs, List.Forall₂ (fun r ev => convert p.io.ctx r = .ok ev) ins.flatten evs ∧
          EventsRead p (numWeights p.io.ctx.multi p.io.ctx.names) (asFile evs) events) ∧
        ((∀ r ∈ ins.flatten, ∃ ev ev', convert p.io.ctx r = .ok ev ∧ p.cluster ev = .ok ev' ∧ ev'.id = 0) →
          ∃ events, res = .ok events)) ∧
      ∃ res x, ReadsEvents p s fs1 res x := by
  obtain ⟨s, fs1, h1, h2⟩ := Combined.new_ready (names := p.io.ctx.names) hin hf.disjoint
  have hitems := fun n => Combined.items_ready (names := p.io.ctx.names) hin hf.disjoint n s fs1 _ h2
  refine ⟨s, fs1, h1, ?_, ?_⟩
  · intro res x hr
    cases hr with
    | @panic n x hx =>
      obtain ⟨s', fs', h3, h4, h5⟩ := hitems n
      rw [hx] at h5
      simp only [Prod.mk.injEq] at h5
      obtain ⟨h5, -⟩ := h5
      split_ifs at h5
      simp at h5
    | @done n items x r hx hreach hfin =>
      obtain ⟨s', fs', h3, h4, h5⟩ := hitems n
      rw [hx] at h5
      simp only [Prod.mk.injEq] at h5
      obtain ⟨h5, rfl⟩ := h5
      split_ifs at h5
      simp only [Option.some.injEq, Outcome.ok.injEq] at h5
      subst h5
      refine ⟨h3, h4, ?_, ?_⟩
      · intro events hev
        have hall := (C29_succeeds_iff hreach hfin).1 ⟨events, hev⟩
        have hconv : ∀ (l : List (Record K)), (∀ r ∈ l, ∃ ev, convert p.io.ctx r = .ok ev) →
            ∃ evs, List.Forall₂ (fun r ev => convert p.io.ctx r = .ok ev) l evs := by
          intro l
          induction l with
          | nil => exact fun _ => ⟨[], .nil⟩
          | cons r l ih =>
            intro h
            obtain ⟨ev, hev⟩ := h r (by simp)
            obtain ⟨evs, hevs⟩ := ih fun r hr => h r (by simp [hr])
            exact ⟨ev :: evs, .cons hev hevs⟩
        obtain ⟨evs, hevs⟩ := hconv ins.flatten fun r hr => by
          obtain ⟨i, hi⟩ := List.getElem?_of_mem hr
          obtain ⟨ev, r', ev0, ev1, g1, g2, -⟩ := hall i (.ok r) (by rw [List.getElem?_map, hi]; rfl)
          cases g1
          exact ⟨ev0, Outcome.mapErr_eq_ok.1 g2⟩
        refine ⟨evs, hevs, ?_⟩
        obtain ⟨h6, h7⟩ := C29_ids_by_position hreach hfin hev
        rw [List.length_map, hevs.length_eq] at h6
        refine ⟨by rw [allEvents_asFile]; exact h6, fun ev hev => ?_⟩
        rw [allEvents_asFile]
        obtain ⟨item, h8, r', ev0, ev1, rfl, h10, h11, -, h12⟩ := h7 ev hev
        rw [List.getElem?_map] at h8
        obtain ⟨r'', h13, h14⟩ := Option.map_eq_some_iff.1 h8
        cases h14
        have hlt : ev.id < evs.length := by
          rw [← hevs.length_eq]
          exact (List.getElem?_eq_some_iff.1 h13).1
        have h15 := forall₂_get hevs h13 (List.getElem?_eq_getElem hlt)
        rw [Outcome.mapErr_eq_ok.1 h10] at h15
        cases h15
        refine ⟨_, ev1, List.getElem?_eq_getElem hlt, h11, h12, ?_⟩
        rw [(convert_weights (Outcome.mapErr_eq_ok.1 h10)).1, numWeights_eq]
      · intro hcl
        refine (C29_succeeds_iff hreach hfin).2 ?_
        intro i item hi
        rw [List.getElem?_map] at hi
        obtain ⟨r', h13, rfl⟩ := Option.map_eq_some_iff.1 hi
        obtain ⟨ev, ev', h14, h15, h16⟩ := hcl r' (List.mem_of_getElem? h13)
        exact ⟨_, r', ev, ev', rfl, Outcome.mapErr_eq_ok.2 h14, h15, h16, rfl⟩
  · obtain ⟨s', fs', -, -, h5⟩ := hitems (ins.flatten.length + 1)
    rw [if_pos (Nat.lt_succ_self _)] at h5
    have hend : ∀ (items : List (Except IOError (Record K))) (n : Nat) (r : ReadState IOError (Record K) K V),
        ReadReachable (tryConvert p.io.ctx) p.cluster (fun _ => true) items r → readMeasure items r ≤ n →
        ∃ r', ReadReachable (tryConvert p.io.ctx) p.cluster (fun _ => true) items r' ∧ r'.Finished := by
      intro items n
      induction n with
      | zero =>
        intro r hr hm
        by_cases hfin : r.Finished
        · exact ⟨r, hr, hfin⟩
        · obtain ⟨a, r', hs⟩ := (C29_terminates (convert := tryConvert p.io.ctx) (cluster := p.cluster)
            (sequential := fun _ => true) (items := items) r).1 hfin
          have := (C29_terminates r).2 a r' hs
          omega
      | succ n ih =>
        intro r hr hm
        by_cases hfin : r.Finished
        · exact ⟨r, hr, hfin⟩
        · obtain ⟨a, r', hs⟩ := (C29_terminates (convert := tryConvert p.io.ctx) (cluster := p.cluster)
            (sequential := fun _ => true) (items := items) r).1 hfin
          have := (C29_terminates r).2 a r' hs
          exact ih r' (.step hr hs) (by omega)
    obtain ⟨r, hr1, hr2⟩ := hend (ins.flatten.map .ok) _ .init .init (le_refl _)
    exact ⟨_, _, .done h5 hr1 hr2⟩

/-- What is written in a run on ntuples without unweighting. -/
theorem run_ntuples {p : Program K V D} (hg : GoodComponents p) (hun : p.unweight = .ok) {fs fs' : Files K P}
    {files : List (P × P)} {ins : List (List (Record K))} (hin : Inputs fs files ins) (hf : GoodFiles files)
    {oevents : Option (List (Event K V))} {ws : List (Weights K)} {res : Outcome (CresError IOError) Unit}
    (h : Run p files fs oevents (some ws) res fs') :
    ∃ evs events, oevents = some events ∧ List.Forall₂ (fun r ev => convert p.io.ctx r = .ok ev) ins.flatten evs ∧
      EventsRead p (numWeights p.io.ctx.multi p.io.ctx.names) (asFile evs) events ∧ p.ComputesWeights events (.ok ws) ∧
      res = .ok () ∧ OnlyOutputs files fs fs' ∧
      ∃ outs, List.Forall₂ (fun f rs => fs' f.2 = some rs) files outs ∧
        List.Forall₂ (List.Forall₂ (NTupleSame p.io.ctx.multi p.io.ctx.names)) ins outs ∧
        List.Forall₂ (fun (x : List K × Record K) r' => NTupleUpdate p.io.ctx.multi p.io.ctx.names x.1 x.2 r')
          (ws.zip ins.flatten) outs.flatten := by
  obtain ⟨s0, fs0, hnew, hread, -⟩ := reads_ntuples (p := p) hin hf
  generalize hws : some ws = ows at h
  cases h with
  | createErr _ | createPanic _ | readErr _ _ | readPanic _ _ | weightsErr _ _ _ | weightsPanic _ _ _ => simp at hws
  | @update s fs1 events ws' x g1 g2 g3 =>
    simp only [Option.some.injEq] at hws
    subst hws
    rw [hnew] at g1
    simp only [Prod.mk.injEq, true_and] at g1
    obtain ⟨rfl, rfl⟩ := g1
    obtain ⟨k1, k2, k3, -⟩ := hread _ _ g2
    obtain ⟨evs, k4, k5⟩ := k3 events rfl
    obtain ⟨k6, k7⟩ := weights_length hg hun (numWeights_pos _ _) (fun h => by rw [h, numWeights_single]) k5 g3
    rw [allEvents_asFile, ← k4.length_eq] at k6
    obtain ⟨outs, s', fs', l1, l2, l3, l4, l5⟩ := Combined.updateAll_ok (multi := p.io.ctx.multi) (names := p.io.ctx.names) hin hf k1 k2 k6 (by
      intro w hw
      rcases k7 w hw with h | h
      · exact Or.inr fun r => by rw [h, numWeights_eq]
      · unfold defaultWeights at h
        split_ifs at h with hm
        · exact Or.inl h
        · refine Or.inr fun r => ?_
          have : p.io.ctx.multi = false := by simpa [Program.cfg] using hm
          rw [this, h]
          rfl)
    refine ⟨evs, events, rfl, k4, k5, g3, ?_, ?_, outs, ?_, ?_, l5⟩
    · rw [l1]
      rfl
    · rw [l1]
      exact l2
    · rw [l1]
      exact l3
    · refine l4.imp fun a b hab => hab.imp fun r r' ⟨w, hw⟩ => ⟨hw.weight2, hw.meWeight, hw.meWeight2, hw.rest⟩

omit [Zero D] [LinearOrder D] [Zero K] [One K] [Add K] [Mul K] [Div K] [NatCast K] [LinearOrder K] [LinearOrder V] [DecidableEq P] in
theorem outputs_unique {fs : Files K P} {files : List (P × P)} {a b : List (List (Record K))} (ha : Outputs fs files a)
    (hb : Outputs fs files b) : a = b := by
  unfold Outputs at ha hb
  induction ha generalizing b with
  | nil => cases hb; rfl
  | cons h1 _ ih =>
    cases hb with
    | cons h2 h3 =>
      rw [h1] at h2
      cases h2
      rw [ih h3]

end Cres.NTuple

namespace Cres

open Spec Program

variable {K V D P : Type*} [Zero D] [LinearOrder D] [DistNum D] [ExactComparison D] [Field K] [LinearOrder K]
  [IsStrictOrderedRing K] [LinearOrder V] [DecidableEq P]

/-- The new weights after resampling on one thread without a limit on the size of cells. -/
theorem one_thread_nonneg {s : CresSettings K V D} (hc : GoodChoices s) (h0 : s.minWeight = 0) {m : Nat} (hm0 : 0 < m)
    (hm1 : s.program.io.ctx.multi = false → m = 1) {ds : List (EventFile K V)}
    {events : List (Event K V)} (he : EventsRead s.program m ds events) {ws : List (Weights K)}
    (hone : OneThreadWeights s.program events ws)
    (hlen : events.length ≤ usizeMax) (hno : NoLimit s events)
    (hpos : 0 ≤ centralSum ((allEvents ds).filter (HasParticles s.program))) :
    ∀ (i : Nat) ev ev', (allEvents ds)[i]? = some ev → (List.zipWith reweighted ws (allEvents ds))[i]? = some ev' →
      (HasParticles s.program ev = true → 0 ≤ centralWeight ev') ∧
      (HasParticles s.program ev = false → centralWeight ev' = if s.io.ctx.multi then centralWeight ev else 0) := by
  have hg := cres_goodComponents hc
  have hun := cres_unweight h0
  obtain ⟨evs, ks, st, rfl, hks, hsched, hfin, hrun⟩ := hone
  change ks.length = (s.program.seeds (identified events)).length at hks
  change runSchedule _ (identified events).length (s.program.nearest (identified events)) (s.program.seeds (identified events))
    (serialSchedule 0 ks) (State.init (memOf (identified events))) = some st at hsched
  change st.Finished (s.program.seeds (identified events)) at hfin
  change runWeights _ _ (fun _ => (.ok (withWeights (identified events) st.mem) : Outcome IOError _)) _ _ = _ at hrun
  have hr := runSchedule_reachable _ Reachable.init hsched
  have hu := read_weights hg hm0 hm1 he
  have hsub : ∀ e ∈ identified events, e ∈ events := fun e hem => (List.mem_filter.1 hem).1
  have hilen : (identified events).length ≤ usizeMax := (List.length_filter_le _ _).trans hlen
  have hseeds : s.program.seeds (identified events) =
      (selectSeeds s.sortSeeds s.strategy (identified events).length (memOf (identified events))).getD [] := rfl
  obtain ⟨seeds, hsel, -, hmem⟩ := selectSeeds_mem hc.seeds s.strategy hu
  have hsel' : s.program.seeds (identified events) = seeds := by rw [hseeds, hsel]; rfl
  have hlt : ∀ i ∈ s.program.seeds (identified events), i < (identified events).length := by
    intro i hi
    rw [hsel'] at hi
    exact ((hmem i).1 hi).1
  obtain ⟨hsum, hwt⟩ := weights_written hg hun hm0 hm1 he hr hfin hrun
  have hneg := C04_all_neighbours (hg.valid _)
    (fun i hi => cres_all_found hc hilen ⟨fun e he e' he' => hno.dist e (hsub e he) e' (hsub e' he'),
      fun e₁ h₁ e₂ h₂ e₃ h₃ e₄ h₄ => hno.diff _ (hsub _ h₁) _ (hsub _ h₂) _ (hsub _ h₃) _ (hsub _ h₄)⟩ (hlt i hi)) hu (by
      have := (hsum id).2.2
      simp only [id] at this
      change 0 ≤ ∑ j ∈ Finset.range (identified events).length, wt (memOf (identified events)) 0 j
      rw [← this]
      exact hpos)
    (fun i hi hwi => by rw [hsel']; exact (hmem i).2 ⟨hi, hwi⟩) (C05_one_thread_partial (hg.valid _) hu ks hks hsched hfin)
  intro i ev ev' g1 g2
  obtain ⟨g3, g4⟩ := hwt i ev ev' g1 g2
  refine ⟨fun hp => ?_, g4⟩
  obtain ⟨j, hj, g5⟩ := g3 hp
  rw [g5]
  exact hneg j hj

end Cres

import Verif.Proofs.Main

/-!
Runs do not depend on what output files contain in the beginning.
-/

set_option linter.unusedSectionVars false

namespace Cres

open Spec CombinedIO Program

variable {K V D P : Type*} [DecidableEq P] {cfg : IOConfig K V} {files : List (P × P)} {f0 g0 : FS P}

/-- Two states of the files that differ only in output files that were not written yet. -/
structure Alike (files : List (P × P)) (f0 g0 f g : FS P) : Prop where
  other : ∀ q, q ∉ files.map Prod.snd → f q = g q
  diff : ∀ q, f q = g q ∨ (f q = f0 q ∧ g q = g0 q)

theorem FileIO.new_alike {f g : FS P} {inn : P} (out : P) (h : f inn = g inn) :
    (FileIO.new cfg inn out f).1 = (FileIO.new cfg inn out g).1 ∧
      (((∀ io, (FileIO.new cfg inn out f).1 ≠ .ok io) ∧ (FileIO.new cfg inn out f).2 = f ∧ (FileIO.new cfg inn out g).2 = g) ∨
        ∃ hd, (FileIO.new cfg inn out f).2 = f.create out hd ∧ (FileIO.new cfg inn out g).2 = g.create out hd) := by
  unfold FileIO.new
  rw [← h]
  split
  · exact ⟨rfl, .inl ⟨by simp, rfl, rfl⟩⟩
  · split
    · exact ⟨rfl, .inl ⟨by simp, rfl, rfl⟩⟩
    · exact ⟨rfl, .inl ⟨by simp, rfl, rfl⟩⟩
    · split
      · exact ⟨rfl, .inl ⟨by simp, rfl, rfl⟩⟩
      · exact ⟨rfl, .inl ⟨by simp, rfl, rfl⟩⟩
      · exact ⟨rfl, .inr ⟨_, rfl, rfl⟩⟩

theorem create_alike {f g : FS P} {out : P} (hd : Bytes) (q : P) (h : f q = g q ∨ (f q = f0 q ∧ g q = g0 q)) :
    f.create out hd q = g.create out hd q ∨ (f.create out hd q = f0 q ∧ g.create out hd q = g0 q) := by
  by_cases hq : q = out
  · subst hq
    exact .inl (by rw [FS.create_self, FS.create_self])
  · rw [FS.create_other _ _ hq, FS.create_other _ _ hq]
    exact h

theorem create_same {f g : FS P} {out : P} (hd : Bytes) (q : P) (h : f q = g q) : f.create out hd q = g.create out hd q := by
  by_cases hq : q = out
  · subst hq
    rw [FS.create_self, FS.create_self]
  · rw [FS.create_other _ _ hq, FS.create_other _ _ hq, h]

theorem openFile_alike (hdis : ∀ p ∈ files.map Prod.fst, p ∉ files.map Prod.snd) {s : CombinedIO K P} {f g : FS P}
    (hs : s.files = files) (h : Alike files f0 g0 f g) (i : Nat) :
    ∃ r s' f' g', s.openFile cfg i f = (r, s', f') ∧ s.openFile cfg i g = (r, s', g') ∧ s'.files = files ∧
      Alike files f0 g0 f' g' ∧ (∀ q, f q = g q → f' q = g' q) ∧
      (r = .ok () → ∀ x, files[i]? = some x → f' x.2 = g' x.2) := by
  unfold openFile
  subst hs
  cases hi : s.files[i]? with
  | none => exact ⟨_, _, _, _, rfl, rfl, rfl, h, fun _ h => h, fun hr => by cases hr⟩
  | some x =>
    obtain ⟨inn, out⟩ := x
    simp only
    have hmem : (inn, out) ∈ s.files := List.mem_of_getElem? hi
    have hin := h.other inn (hdis inn (List.mem_map_of_mem (f := Prod.fst) hmem))
    obtain ⟨h1, h2⟩ := FileIO.new_alike (cfg := cfg) out hin
    generalize FileIO.new cfg inn out f = x at h1 h2
    generalize FileIO.new cfg inn out g = y at h1 h2
    obtain ⟨x, f'⟩ := x
    obtain ⟨y, g'⟩ := y
    simp only at h1 h2
    subst h1
    have hal : Alike s.files f0 g0 f' g' := by
      rcases h2 with ⟨-, rfl, rfl⟩ | ⟨hd, rfl, rfl⟩
      · exact h
      · exact ⟨fun q hq => create_same hd q (h.other q hq), fun q => create_alike hd q (h.diff q)⟩
    have hkeep : ∀ q, f q = g q → f' q = g' q := by
      rcases h2 with ⟨-, rfl, rfl⟩ | ⟨hd, rfl, rfl⟩
      · exact fun _ h => h
      · exact create_same hd
    cases x with
    | err e => exact ⟨_, _, _, _, rfl, rfl, rfl, hal, hkeep, fun hr => by cases hr⟩
    | panic => exact ⟨_, _, _, _, rfl, rfl, rfl, hal, hkeep, fun hr => by cases hr⟩
    | ok io =>
      refine ⟨_, _, _, _, rfl, rfl, rfl, hal, hkeep, fun _ x hx => ?_⟩
      rcases h2 with ⟨h2, -⟩ | ⟨hd, rfl, rfl⟩
      · exact absurd rfl (h2 io)
      · simp only [Option.some.injEq] at hx
        subst hx
        rw [FS.create_self, FS.create_self]

theorem initLoop_alike (hdis : ∀ p ∈ files.map Prod.fst, p ∉ files.map Prod.snd) : ∀ (n i : Nat) {s : CombinedIO K P}
    {f g : FS P}, s.files = files → Alike files f0 g0 f g →
    ∃ r s' f' g', initLoop cfg n i s f = (r, s', f') ∧ initLoop cfg n i s g = (r, s', g') ∧ s'.files = files ∧
      Alike files f0 g0 f' g' ∧ (∀ q, f q = g q → f' q = g' q) ∧
      (r = .ok () → ∀ j < n, ∀ x, files[i + j]? = some x → f' x.2 = g' x.2) := by
  intro n
  induction n with
  | zero => exact fun i s f g hs h => ⟨_, _, _, _, rfl, rfl, hs, h, fun _ h => h, fun _ j hj => absurd hj (by omega)⟩
  | succ n ih =>
    intro i s f g hs h
    obtain ⟨r, s1, f1, g1, h1, h2, h3, h4, h5, h6⟩ := openFile_alike (cfg := cfg) hdis hs h i
    rw [initLoop, initLoop, h1, h2]
    cases r with
    | err e => exact ⟨_, _, _, _, rfl, rfl, h3, h4, h5, fun hr => by cases hr⟩
    | panic => exact ⟨_, _, _, _, rfl, rfl, h3, h4, h5, fun hr => by cases hr⟩
    | ok u =>
      simp only
      cases hc : s1.current with
      | none => exact ⟨_, _, _, _, rfl, rfl, h3, h4, h5, fun hr => by cases hr⟩
      | some io =>
        simp only
        obtain ⟨r2, s2, f2, g2, j1, j2, j3, j4, j5, j6⟩ := ih (i + 1)
          (s := { s1 with current := some io, hint := combineHints s1.hint io.reader.sizeHint }) h3 h4
        refine ⟨_, _, _, _, j1, j2, j3, j4, fun q hq => j5 q (h5 q hq), fun hr j hj x hx => ?_⟩
        cases j with
        | zero => exact j5 _ (h6 rfl x hx)
        | succ j => exact j6 hr j (by omega) x (by rw [← hx]; congr 1; omega)

theorem new_alike (hdis : ∀ p ∈ files.map Prod.fst, p ∉ files.map Prod.snd) (hother : ∀ q, q ∉ files.map Prod.snd → f0 q = g0 q) :
    ∃ r s' f' g', CombinedIO.new cfg files f0 = (r, s', f') ∧ CombinedIO.new cfg files g0 = (r, s', g') ∧
      Alike files f0 g0 f' g' ∧ (r = .ok () → f' = g') := by
  have h0 : Alike files f0 g0 f0 g0 := ⟨hother, fun _ => .inr ⟨rfl, rfl⟩⟩
  unfold CombinedIO.new
  simp only
  split_ifs with hfiles
  · refine ⟨_, _, _, _, rfl, rfl, h0, fun _ => ?_⟩
    subst hfiles
    exact funext fun q => hother q (by simp)
  · obtain ⟨r, s1, f1, g1, h1, h2, h3, h4, h5, h6⟩ := initLoop_alike (cfg := cfg) hdis files.length 0
      (s := (⟨files, none, 0, 0, (0, some 0)⟩ : CombinedIO K P)) rfl h0
    rw [h1, h2]
    cases r with
    | err e => exact ⟨_, _, _, _, rfl, rfl, h4, fun hr => by cases hr⟩
    | panic => exact ⟨_, _, _, _, rfl, rfl, h4, fun hr => by cases hr⟩
    | ok u =>
      obtain ⟨r2, s2, f2, g2, j1, j2, j3, j4, j5, j6⟩ := openFile_alike (cfg := cfg) hdis h3 h4 0
      refine ⟨r2, s2, f2, g2, j1, j2, j4, fun _ => funext fun q => ?_⟩
      by_cases hq : q ∈ files.map Prod.snd
      · obtain ⟨x, hx, rfl⟩ := List.mem_map.1 hq
        obtain ⟨j, hj, rfl⟩ := List.getElem_of_mem hx
        exact j5 _ (h6 rfl j hj _ (by simp [hj]))
      · exact j4.other q hq

/-- A run from files that differ only in output files. -/
theorem run_alike [Zero D] [Zero K] [One K] [Add K] [Mul K] [Div K] [NatCast K] [LinearOrder K] [LinearOrder V]
    {p : Program K V D} (hdis : ∀ q ∈ files.map Prod.fst, q ∉ files.map Prod.snd)
    (hother : ∀ q, q ∉ files.map Prod.snd → f0 q = g0 q) {events : Option (List (Event K V))} {ws : Option (List (Weights K))}
    {res : Outcome (CresError IOError) Unit} {f' : FS P} (h : p.Run files f0 events ws res f') :
    ∃ g', p.Run files g0 events ws res g' ∧ (∀ q, g' q = f' q ∨ (f' q = f0 q ∧ g' q = g0 q)) ∧
      (events.isSome ∨ res = .ok () → g' = f') := by
  obtain ⟨r, s, f1, g1, h1, h2, h3, h4⟩ := new_alike (cfg := p.io) hdis hother
  have hsame : ∀ {s' fs1}, CombinedIO.new p.io files f0 = (.ok (), s', fs1) → CombinedIO.new p.io files g0 = (.ok (), s', fs1) := by
    intro s' fs1 h
    rw [h1] at h
    simp only [Prod.mk.injEq] at h
    obtain ⟨rfl, rfl, rfl⟩ := h
    rw [h2, h4 rfl]
  cases h with
  | createErr k1 =>
    rw [h1] at k1
    simp only [Prod.mk.injEq] at k1
    obtain ⟨rfl, rfl, rfl⟩ := k1
    exact ⟨g1, .createErr h2, fun q => (h3.diff q).imp_left Eq.symm, by simp⟩
  | createPanic k1 =>
    rw [h1] at k1
    simp only [Prod.mk.injEq] at k1
    obtain ⟨rfl, rfl, rfl⟩ := k1
    exact ⟨g1, .createPanic h2, fun q => (h3.diff q).imp_left Eq.symm, by simp⟩
  | readErr k1 k2 => exact ⟨_, .readErr (hsame k1) k2, fun _ => .inl rfl, fun _ => rfl⟩
  | readPanic k1 k2 => exact ⟨_, .readPanic (hsame k1) k2, fun _ => .inl rfl, fun _ => rfl⟩
  | weightsErr k1 k2 kw => exact ⟨_, .weightsErr (hsame k1) k2 kw, fun _ => .inl rfl, fun _ => rfl⟩
  | weightsPanic k1 k2 kw => exact ⟨_, .weightsPanic (hsame k1) k2 kw, fun _ => .inl rfl, fun _ => rfl⟩
  | update k1 k2 kw => exact ⟨_, .update (hsame k1) k2 kw, fun _ => .inl rfl, fun _ => rfl⟩

end Cres

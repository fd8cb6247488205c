import Verif.Spec.Layout
import Verif.Props.Program

/-!
Reading the same events from different files.
-/

set_option linter.unusedSectionVars false

namespace Cres

open Spec CombinedIO Program

section
variable {E R R' K V : Type*} {convert : R → Outcome E (Event K V)} {convert' : R' → Outcome E (Event K V)}
  {cluster : Event K V → Outcome E (Event K V)} {sequential : R → Bool} {sequential' : R' → Bool}

/-- States of reading for different records with the same events. -/
structure SameReading (T : R → R' → Prop) (s : ReadState E R K V) (s' : ReadState E R' K V) : Prop where
  next : s'.next = s.next
  pending : List.Forall₂ (fun x y => y.1 = x.1 ∧ T x.2 y.2) s.pending s'.pending
  pushed : s'.pushed = s.pushed
  stopped : s'.stopped = s.stopped
  panicked : s'.panicked = s.panicked

theorem forall₂_getElem? {α β : Type*} {T : α → β → Prop} {l : List α} {l' : List β} (h : List.Forall₂ T l l') (i : Nat) :
    (l[i]? = none ∧ l'[i]? = none) ∨ ∃ a b, l[i]? = some a ∧ l'[i]? = some b ∧ T a b := by
  induction h generalizing i with
  | nil => simp
  | cons h _ ih =>
    cases i with
    | zero => exact Or.inr ⟨_, _, rfl, rfl, h⟩
    | succ i => simpa using ih i

theorem forall₂_eraseIdx {α β : Type*} {T : α → β → Prop} {l : List α} {l' : List β} (h : List.Forall₂ T l l') (i : Nat) :
    List.Forall₂ T (l.eraseIdx i) (l'.eraseIdx i) := by
  induction h generalizing i with
  | nil => simp
  | cons h h' ih =>
    cases i with
    | zero => simpa using h'
    | succ i => exact .cons h (ih i)

theorem sameReading_step {T : R → R' → Prop} (hT : ∀ r r', T r r' → convert' r' = convert r ∧ sequential' r' = sequential r)
    {items : List R} {items' : List R'} (hi : List.Forall₂ T items items')
    {s : ReadState E R K V} {s' : ReadState E R' K V} (hs : SameReading T s s') {a : ReadAction} {t : ReadState E R K V}
    (h : readStep convert cluster sequential (items.map .ok) s a = some t) :
    ∃ t', readStep convert' cluster sequential' (items'.map .ok) s' a = some t' ∧ SameReading T t t' := by
  obtain ⟨next, pending, pushed, stopped, panicked⟩ := s
  obtain ⟨next', pending', pushed', stopped', panicked'⟩ := s'
  obtain ⟨h1, h2, h3, h4, h5⟩ := hs
  simp only at h1 h2 h3 h4 h5
  subst h1 h3 h4 h5
  have hconv : ∀ r r' id, T r r' → convertRecord convert' cluster id r' = convertRecord convert cluster id r := by
    intro r r' id hr
    simp only [convertRecord, (hT r r' hr).1]
  cases a with
  | main =>
    simp only [readStep] at h ⊢
    cases stopped' with
    | some x => simp at h
    | none =>
      simp only [List.getElem?_map] at h ⊢
      rcases forall₂_getElem? hi next' with ⟨g1, g2⟩ | ⟨r, r', g1, g2, g3⟩
      · rw [g1] at h
        rw [g2]
        simp only [Option.map_none, Option.some.injEq] at h ⊢
        subst h
        exact ⟨_, rfl, rfl, h2, rfl, rfl, rfl⟩
      · rw [g1] at h
        rw [g2]
        simp only [Option.map_some] at h ⊢
        rw [(hT r r' g3).2, hconv r r' _ g3]
        split_ifs at h ⊢
        · split at h <;> (simp only [Option.some.injEq] at h; subst h)
          · exact ⟨_, rfl, rfl, h2, rfl, rfl, rfl⟩
          · exact ⟨_, rfl, rfl, h2, rfl, rfl, rfl⟩
          · exact ⟨_, rfl, rfl, h2, rfl, rfl, rfl⟩
        · simp only [Option.some.injEq] at h
          subst h
          exact ⟨_, rfl, rfl, List.rel_append h2 (.cons ⟨rfl, g3⟩ .nil), rfl, rfl, rfl⟩
  | task k =>
    simp only [readStep] at h ⊢
    rcases forall₂_getElem? h2 k with ⟨g1, g2⟩ | ⟨⟨id, r⟩, ⟨id', r'⟩, g1, g2, g3, g4⟩
    · rw [g1] at h
      simp at h
    · simp only at g3 g4
      subst g3
      rw [g1] at h
      rw [g2]
      simp only at h ⊢
      rw [hconv r r' _ g4]
      split at h <;> (simp only [Option.some.injEq] at h; subst h)
      · exact ⟨_, rfl, rfl, forall₂_eraseIdx h2 k, rfl, rfl, rfl⟩
      · exact ⟨_, rfl, rfl, forall₂_eraseIdx h2 k, rfl, rfl, rfl⟩
      · exact ⟨_, rfl, rfl, forall₂_eraseIdx h2 k, rfl, rfl, rfl⟩

theorem sameReading_reachable {T : R → R' → Prop} (hT : ∀ r r', T r r' → convert' r' = convert r ∧ sequential' r' = sequential r)
    {items : List R} {items' : List R'} (hi : List.Forall₂ T items items')
    {s : ReadState E R K V} (h : ReadReachable convert cluster sequential (items.map .ok) s) :
    ∃ s', ReadReachable convert' cluster sequential' (items'.map .ok) s' ∧ SameReading T s s' := by
  induction h with
  | init => exact ⟨_, .init, rfl, .nil, rfl, rfl, rfl⟩
  | step _ hs ih =>
    obtain ⟨s', h1, h2⟩ := ih
    obtain ⟨t', h3, h4⟩ := sameReading_step hT hi h2 hs
    exact ⟨t', .step h1 h3, h4⟩

theorem SameReading.result_eq {T : R → R' → Prop} {s : ReadState E R K V} {s' : ReadState E R' K V} (h : SameReading T s s') :
    s'.result = s.result := by
  unfold ReadState.result
  rw [h.panicked, h.stopped, h.pushed]

theorem SameReading.finished {T : R → R' → Prop} {s : ReadState E R K V} {s' : ReadState E R' K V} (h : SameReading T s s')
    (hf : s.Finished) : s'.Finished := by
  refine ⟨by rw [h.stopped]; exact hf.1, ?_⟩
  have := h.pending
  rw [hf.2] at this
  exact List.forall₂_nil_left_iff.1 this
end

section
variable {K V D P P' : Type*} [Zero D] [LinearOrder D] [Zero K] [One K] [Add K] [Mul K] [Div K] [NatCast K] [LinearOrder K]
  [LinearOrder V] [DecidableEq P] [DecidableEq P']

theorem fileItems_format (cfg : IOConfig K V) (ds : List (EventFile K V)) :
    ∀ x ∈ fileItems cfg (ds.map EventFile.toFileData), x.1 ≠ .ntuple := by
  intro x hx
  simp only [fileItems, List.mem_flatMap, List.mem_map] at hx
  obtain ⟨d, -, r, -, rfl⟩ := hx
  cases d.kind <;> simp [Kind.format]

/-- The items that are read from files. -/
theorem reads_items {p : Program K V D} {fs : FS P} {files : List (P × P)} {ds : List (EventFile K V)}
    (hin : EventFiles p.io fs (files.map Prod.fst) ds) (hf : GoodFiles files) :
    ∃ s fs1, CombinedIO.new p.io files fs = (.ok (), s, fs1) ∧
      ∀ res, (∃ x, p.ReadsEvents s fs1 res x) ↔ ∃ r, ReadReachable (tryConvert p.io.ctx) p.cluster (fun r => r.1 == .ntuple)
        ((fileItems p.io (ds.map EventFile.toFileData)).map .ok) r ∧ r.Finished ∧ r.result = res := by
  obtain ⟨h1, h2⟩ := files_items hin
  have hps : ∀ d ∈ ds.map EventFile.toFileData, Presentable p.io d.kind d.records := by
    intro d hd
    obtain ⟨d', hd', rfl⟩ := List.mem_map.1 hd
    exact h1 d' hd'
  obtain ⟨s, fs1, h3, h4⟩ := new_ready (eventFiles_inputs hin) hf.disjoint hps
  have hitems := fun n => recordItems_ready _ n s fs1 h4
  refine ⟨s, fs1, h3, fun res => ⟨?_, ?_⟩⟩
  · rintro ⟨x, hr⟩
    cases hr with
    | @panic n x hx =>
      have := hitems n
      rw [hx] at this
      simp only at this
      split_ifs at this
      simp at this
    | @done n items x r hx hreach hfin =>
      have h5 := hitems n
      rw [hx] at h5
      simp only at h5
      split_ifs at h5
      simp only [Option.some.injEq, Outcome.ok.injEq] at h5
      subst h5
      exact ⟨r, hreach, hfin, rfl⟩
  · rintro ⟨r, hr1, hr2, rfl⟩
    have h5 := hitems ((fileItems p.io (ds.map EventFile.toFileData)).length + 1)
    rw [if_pos (Nat.lt_succ_self _)] at h5
    generalize hx : s.recordItems p.io ((fileItems p.io (ds.map EventFile.toFileData)).length + 1) fs1 = y at h5
    obtain ⟨y, x⟩ := y
    simp only at h5
    subst h5
    exact ⟨x, .done hx hr1 hr2⟩

/-- Files with the same events give the same results of reading. -/
theorem reads_same {p q : Program K V D} (hpq : SameSettings p q) {fs : FS P} {files : List (P × P)}
    {ds : List (EventFile K V)} (hin : EventFiles p.io fs (files.map Prod.fst) ds) (hf : GoodFiles files)
    {fs' : FS P'} {files' : List (P' × P')} {ds' : List (EventFile K V)}
    (hin' : EventFiles q.io fs' (files'.map Prod.fst) ds') (hf' : GoodFiles files') (hsame : allEvents ds' = allEvents ds) :
    ∃ s fs1 s' fs1', CombinedIO.new p.io files fs = (.ok (), s, fs1) ∧ CombinedIO.new q.io files' fs' = (.ok (), s', fs1') ∧
      ∀ res x, p.ReadsEvents s fs1 res x → ∃ x', q.ReadsEvents s' fs1' res x' := by
  obtain ⟨s, fs1, h1, h2⟩ := reads_items hin hf
  obtain ⟨s', fs1', h3, h4⟩ := reads_items hin' hf'
  refine ⟨s, fs1, s', fs1', h1, h3, fun res x hx => ?_⟩
  obtain ⟨r, h5, h6, h7⟩ := (h2 res).1 ⟨x, hx⟩
  have g1 := (files_items hin).2
  have g2 := (files_items hin').2
  rw [hsame] at g2
  have g3 : List.Forall₂ (fun a b => tryConvert q.io.ctx b = tryConvert p.io.ctx a ∧ a.1 ≠ .ntuple ∧ b.1 ≠ .ntuple)
      (fileItems p.io (ds.map EventFile.toFileData)) (fileItems q.io (ds'.map EventFile.toFileData)) := by
    have n1 := fileItems_format p.io ds
    have n2 := fileItems_format q.io ds'
    generalize fileItems p.io (ds.map EventFile.toFileData) = l1 at g1 n1
    generalize fileItems q.io (ds'.map EventFile.toFileData) = l2 at g2 n2
    generalize allEvents ds = l at g1 g2
    clear h2 h4 h5 hsame
    induction g1 generalizing l2 with
    | nil => cases g2; exact .nil
    | cons h _ ih =>
      cases g2 with
      | cons h' g2 =>
        exact .cons ⟨h'.trans h.symm, n1 _ (by simp), n2 _ (by simp)⟩
          (ih (fun x hx => n1 x (by simp [hx])) _ (fun x hx => n2 x (by simp [hx])) g2)
  obtain ⟨r', h8, h9⟩ := sameReading_reachable (convert' := tryConvert q.io.ctx) (sequential' := fun r => r.1 == .ntuple)
    (fun a b hab => ⟨hab.1, by
      have := hab.2.1
      have := hab.2.2
      simp_all⟩) g3 h5
  rw [← hpq.cluster] at h8
  exact (h4 res).2 ⟨r', h8, h9.finished h6, by rw [h9.result_eq, h7]⟩
end

end Cres

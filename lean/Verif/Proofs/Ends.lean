import Verif.Proofs.ConcurrentProgress

/-!
Parallel resampling never gets stuck, whatever the weights of events are.
-/

set_option linter.unusedSectionVars false

namespace Cres

open Spec

variable {D K : Type*} [Zero D] [Add K] [Zero K] [One K] [Mul K] [Div K] [NatCast K] [LinearOrder K]

/-- What holds for a task. -/
def LockOK (nearest : Nat → List (Nat × D)) (seed : Nat) : Task D K → Prop
  | .growing c rest => ∃ m, m ≤ (nearest seed).length ∧ c.members = seed :: ((nearest seed).take m).map Prod.fst ∧
      rest = (nearest seed).drop m
  | .locking c held todo => CellFrom nearest seed c ∧ held ++ todo = c.members
  | _ => True

/-- The locks that are held. -/
structure Locks (cfg : Cfg) (n : Nat) (nearest : Nat → List (Nat × D)) (seeds : List Nat) (s : State D K) : Prop where
  owner : ∀ e u, s.owner e = some u → e < n ∧ u < seeds.length ∧ (s.tasks u = .panicked ∨ e ∈ heldBy cfg (s.tasks u))
  ok : ∀ t seed, seeds[t]? = some seed → LockOK nearest seed (s.tasks t)

variable {cfg : Cfg} {n : Nat} {nearest : Nat → List (Nat × D)} {seeds : List Nat} {s s' : State D K}

theorem Locks.update (h : Locks cfg n nearest seeds s) {t seed : Nat} (ht : seeds[t]? = some seed) {new : Task D K}
    (htasks : s'.tasks = Function.update s.tasks t new) (hok : LockOK nearest seed new)
    (ho : ∀ e u, s'.owner e = some u → (u ≠ t ∧ s.owner e = some u) ∨ (u = t ∧ e < n ∧ (new = .panicked ∨ e ∈ heldBy cfg new))) :
    Locks cfg n nearest seeds s' := by
  refine ⟨fun e u he => ?_, fun t' seed' ht' => ?_⟩
  · rcases ho e u he with ⟨h1, h2⟩ | ⟨rfl, h1, h2⟩
    · rw [htasks, Function.update_of_ne h1]
      exact h.owner e u h2
    · rw [htasks, Function.update_self]
      exact ⟨h1, (List.getElem?_eq_some_iff.1 ht).1, h2⟩
  · rw [htasks]
    by_cases htt : t' = t
    · subst htt
      rw [Function.update_self]
      rw [ht, Option.some.injEq] at ht'
      exact ht' ▸ hok
    · rw [Function.update_of_ne htt]
      exact h.ok t' seed' ht'

theorem locks_startResample (hv : ValidInput n nearest seeds) {seed : Nat} (hs : seed ∈ seeds) {m : Nat} {c : Cell D K}
    (hc : c.members = seed :: ((nearest seed).take m).map Prod.fst) : LockOK nearest seed (startResample c) :=
  ⟨sortMembers_cellFrom hv hs m hc, by simp⟩

/-- Steps in which the locks do not change. -/
theorem Locks.same (h : Locks cfg n nearest seeds s) {t seed : Nat} (ht : seeds[t]? = some seed) {new : Task D K}
    (htasks : s'.tasks = Function.update s.tasks t new) (hok : LockOK nearest seed new) (howner : s'.owner = s.owner)
    (hnp : s.tasks t ≠ .panicked) (hheld : new = .panicked ∨ ∀ e ∈ heldBy cfg (s.tasks t), e ∈ heldBy cfg new) :
    Locks cfg n nearest seeds s' := by
  refine h.update ht htasks hok fun e u he => ?_
  rw [howner] at he
  by_cases hu : u = t
  · subst hu
    obtain ⟨h1, -, h2⟩ := h.owner e u he
    exact Or.inr ⟨rfl, h1, hheld.imp id fun h' => h' e (h2.resolve_left hnp)⟩
  · exact Or.inl ⟨hu, he⟩

/-- Steps in which a lock is released. -/
theorem Locks.release (h : Locks cfg n nearest seeds s) {t seed e0 : Nat} (ht : seeds[t]? = some seed) {new : Task D K}
    (htasks : s'.tasks = Function.update s.tasks t new) (hok : LockOK nearest seed new)
    (howner : s'.owner = Function.update s.owner e0 none) (hnp : s.tasks t ≠ .panicked)
    (hheld : ∀ e ∈ heldBy cfg (s.tasks t), e ≠ e0 → e ∈ heldBy cfg new) : Locks cfg n nearest seeds s' := by
  refine h.update ht htasks hok fun e u he => ?_
  rw [howner] at he
  by_cases he0 : e = e0
  · subst he0
    rw [Function.update_self] at he
    cases he
  · rw [Function.update_of_ne he0] at he
    by_cases hu : u = t
    · subst hu
      obtain ⟨h1, -, h2⟩ := h.owner e u he
      exact Or.inr ⟨rfl, h1, Or.inr (hheld e (h2.resolve_left hnp) he0)⟩
    · exact Or.inl ⟨hu, he⟩

/-- Steps in which a lock is acquired. -/
theorem Locks.acquire (h : Locks cfg n nearest seeds s) {t seed e0 : Nat} (ht : seeds[t]? = some seed) {new : Task D K}
    (htasks : s'.tasks = Function.update s.tasks t new) (hok : LockOK nearest seed new)
    (howner : s'.owner = Function.update s.owner e0 (some t)) (hlt : e0 < n) (hnp : s.tasks t ≠ .panicked)
    (hnew : e0 ∈ heldBy cfg new) (hheld : ∀ e ∈ heldBy cfg (s.tasks t), e ∈ heldBy cfg new) : Locks cfg n nearest seeds s' := by
  refine h.update ht htasks hok fun e u he => ?_
  rw [howner] at he
  by_cases he0 : e = e0
  · subst he0
    rw [Function.update_self, Option.some.injEq] at he
    exact Or.inr ⟨he.symm, hlt, Or.inr hnew⟩
  · rw [Function.update_of_ne he0] at he
    by_cases hu : u = t
    · subst hu
      obtain ⟨h1, -, h2⟩ := h.owner e u he
      exact Or.inr ⟨rfl, h1, Or.inr (hheld e (h2.resolve_left hnp))⟩
    · exact Or.inl ⟨hu, he⟩

theorem locks_step (hv : ValidInput n nearest seeds) (h : Locks cfg n nearest seeds s) {t : Nat}
    (hstep : stepAll cfg n nearest seeds s t = some s') : Locks cfg n nearest seeds s' := by
  unfold stepAll at hstep
  cases ht : seeds[t]? with
  | none => rw [ht] at hstep; simp at hstep
  | some seed =>
  rw [ht] at hstep
  simp only at hstep
  have hs : seed ∈ seeds := List.mem_of_getElem? ht
  have htask := h.ok t seed ht
  unfold step at hstep
  have hno : ∀ {l : List Nat}, (∀ e ∈ heldBy cfg (.waiting : Task D K), e ∈ l) := fun e he => by simp [heldBy] at he
  cases hst : s.tasks t with
  | waiting =>
    rw [hst] at hstep
    simp only at hstep
    split_ifs at hstep
    split at hstep
    · cases hstep
      exact h.same ht rfl trivial rfl (by rw [hst]; simp) (Or.inl rfl)
    · split_ifs at hstep <;> cases hstep
      all_goals exact h.same ht rfl trivial rfl (by rw [hst]; simp) (Or.inr (by rw [hst]; simp [heldBy]))
  | checked =>
    rw [hst] at hstep
    simp only at hstep
    split_ifs at hstep
    split at hstep
    · cases hstep
      exact h.same ht rfl trivial rfl (by rw [hst]; simp) (Or.inl rfl)
    · split_ifs at hstep <;> cases hstep
      · exact h.same ht rfl trivial rfl (by rw [hst]; simp) (Or.inl rfl)
      · refine h.same ht rfl ?_ rfl (by rw [hst]; simp) (Or.inr (by rw [hst]; simp [heldBy]))
        exact ⟨0, Nat.zero_le _, by simp, by simp⟩
  | growing c rest =>
    rw [hst] at hstep htask
    obtain ⟨m, hm, hc, hrest⟩ := htask
    cases rest with
    | nil =>
      simp only at hstep
      cases hstep
      exact h.same ht rfl (locks_startResample hv hs hc) rfl (by rw [hst]; simp) (Or.inr (by rw [hst]; simp [heldBy]))
    | cons x rest =>
      obtain ⟨i, d⟩ := x
      simp only at hstep
      have hlt : m < (nearest seed).length := by
        by_contra hcon
        rw [List.drop_eq_nil_of_le (by omega)] at hrest
        cases hrest
      have hdrop := List.drop_eq_getElem_cons hlt
      rw [hdrop, List.cons.injEq] at hrest
      have hc' : c.members ++ [i] = seed :: ((nearest seed).take (m + 1)).map Prod.fst := by
        rw [hc, List.take_succ_eq_append_getElem hlt, ← hrest.1]
        simp
      split_ifs at hstep
      split at hstep
      · cases hstep
        exact h.same ht rfl trivial rfl (by rw [hst]; simp) (Or.inl rfl)
      · split_ifs at hstep <;> cases hstep
        · exact h.same ht rfl (locks_startResample hv hs hc') rfl (by rw [hst]; simp) (Or.inr (by rw [hst]; simp [heldBy]))
        · exact h.same ht rfl ⟨m + 1, hlt, hc', hrest.2⟩ rfl (by rw [hst]; simp) (Or.inr (by rw [hst]; simp [heldBy]))
  | locking c held todo =>
    rw [hst] at hstep htask
    obtain ⟨hc, hht⟩ := htask
    cases todo with
    | nil =>
      simp only at hstep
      cases hstep
      exact h.same ht rfl trivial rfl (by rw [hst]; simp) (Or.inl rfl)
    | cons e todo =>
      have hmem : ∀ x, x ∈ held ++ e :: todo → x ∈ c.members := fun x hx => hht ▸ hx
      simp only at hstep
      split_ifs at hstep <;> cases hstep
      · refine h.acquire ht rfl trivial rfl (hc.lt hv hs e (hmem e (by simp))) (by rw [hst]; simp) (hmem e (by simp)) ?_
        rw [hst]
        exact fun x hx => hmem x (List.mem_append_left _ hx)
      · refine h.acquire ht rfl ⟨hc, by rw [List.append_assoc]; exact hht⟩ rfl (hc.lt hv hs e (hmem e (by simp)))
          (by rw [hst]; simp) (by simp [heldBy]) ?_
        rw [hst]
        exact fun x hx => List.mem_append_left _ hx
  | reading c acc todo =>
    rw [hst] at hstep
    cases todo with
    | nil =>
      simp only at hstep
      cases hstep
      exact h.same ht rfl trivial rfl (by rw [hst]; simp) (Or.inl rfl)
    | cons e todo =>
      simp only at hstep
      split at hstep
      · cases hstep
        exact h.same ht rfl trivial rfl (by rw [hst]; simp) (Or.inl rfl)
      · cases hstep
        refine h.same ht rfl (by split_ifs <;> trivial) rfl (by rw [hst]; simp) (Or.inr ?_)
        rw [hst]
        intro x hx
        have hx' : x ∈ c.members := hx
        split_ifs
        · simp only [heldBy]
          split_ifs
          · exact hx'
          · rename_i hm
            simp only [writeOrder, if_neg hm]
            exact hx'
        · exact hx'
  | writing c avg todo =>
    rw [hst] at hstep
    cases todo with
    | nil =>
      simp only at hstep
      cases hstep
      exact h.same ht rfl trivial rfl (by rw [hst]; simp) (Or.inl rfl)
    | cons e todo =>
      simp only at hstep
      split_ifs at hstep with hm h1 h2 h3
      · cases hstep
        exact h.same ht rfl trivial rfl (by rw [hst]; simp) (Or.inl rfl)
      · cases hstep
        refine h.same ht rfl trivial rfl (by rw [hst]; simp) (Or.inr ?_)
        rw [hst]
        simp only [heldBy, if_pos hm]
        exact fun _ h => h
      · cases hstep
        refine h.same ht rfl trivial rfl (by rw [hst]; simp) (Or.inr ?_)
        rw [hst]
        simp only [heldBy, if_pos hm]
        exact fun _ h => h
      · cases hstep
        refine h.release ht rfl trivial rfl (by rw [hst]; simp) ?_
        rw [hst]
        simp only [heldBy, if_neg hm]
        intro x hx hne
        rw [List.isEmpty_iff.1 h3] at hx
        simp at hx
        exact absurd hx hne
      · cases hstep
        refine h.release ht rfl trivial rfl (by rw [hst]; simp) ?_
        rw [hst]
        simp only [heldBy, if_neg hm]
        exact fun x hx hne => (List.mem_cons.1 hx).resolve_left hne
  | releasing c todo =>
    rw [hst] at hstep
    cases todo with
    | nil =>
      simp only at hstep
      cases hstep
      exact h.same ht rfl trivial rfl (by rw [hst]; simp) (Or.inr (by rw [hst]; simp [heldBy]))
    | cons e todo =>
      simp only at hstep
      cases hstep
      refine h.release ht rfl (by split_ifs <;> trivial) rfl (by rw [hst]; simp) ?_
      rw [hst]
      intro x hx hne
      have hx' : x ∈ todo := (List.mem_cons.1 hx).resolve_left hne
      split_ifs with h0
      · rw [List.isEmpty_iff.1 h0] at hx'
        simp at hx'
      · exact hx'
  | done c => rw [hst] at hstep; simp at hstep
  | panicked => rw [hst] at hstep; simp at hstep

theorem locks_reachable (hv : ValidInput n nearest seeds) {mem : Mem K} (h : Reachable cfg n nearest seeds mem s) :
    Locks cfg n nearest seeds s := by
  induction h with
  | init => exact ⟨fun e u he => by simp [State.init] at he, fun _ _ _ => trivial⟩
  | step _ hs ih => exact locks_step hv ih hs

/-- If a lock is held and no task has panicked then some task can take a step. -/
theorem Locks.progress (h : Locks cfg n nearest seeds s) (hnp : ∀ t, s.tasks t ≠ .panicked) (k : Nat) :
    ∀ e u, n - e ≤ k → s.owner e = some u → ∃ u' s', stepAll cfg n nearest seeds s u' = some s' := by
  induction k with
  | zero =>
    intro e u hk ho
    have := (h.owner e u ho).1
    omega
  | succ k ih =>
    intro e u hk ho
    obtain ⟨hlt, hu, hh⟩ := h.owner e u ho
    have hh := hh.resolve_left (hnp u)
    have hs : seeds[u]? = some seeds[u] := List.getElem?_eq_getElem hu
    have hok := h.ok u _ hs
    have hst : stepAll cfg n nearest seeds s u = step cfg n nearest seeds[u] s u := by unfold stepAll; rw [hs]
    cases ht : s.tasks u with
    | waiting => rw [ht] at hh; simp [heldBy] at hh
    | checked => rw [ht] at hh; simp [heldBy] at hh
    | growing _ _ => rw [ht] at hh; simp [heldBy] at hh
    | done _ => rw [ht] at hh; simp [heldBy] at hh
    | panicked => exact absurd ht (hnp u)
    | locking c held todo =>
      rw [ht] at hok hh
      obtain ⟨hc, hht⟩ := hok
      cases todo with
      | nil => exact ⟨u, _, by rw [hst]; unfold step; rw [ht]⟩
      | cons e' todo =>
        cases ho' : s.owner e' with
        | none =>
          refine ⟨u, ?_⟩
          rw [hst]
          unfold step
          rw [ht]
          simp only [ho', Option.isSome_none, Bool.false_eq_true, if_false]
          split_ifs <;> exact ⟨_, rfl⟩
        | some u' =>
          have hlt' := (h.owner e' u' ho').1
          have hp := hc.2
          rw [← hht, List.pairwise_append] at hp
          have := hp.2.2 e hh e' (by simp)
          exact ih e' u' (by omega) ho'
    | reading c acc todo =>
      refine ⟨u, ?_⟩
      rw [hst]
      unfold step
      rw [ht]
      cases todo with
      | nil => exact ⟨_, rfl⟩
      | cons x todo =>
        simp only
        split <;> exact ⟨_, rfl⟩
    | writing c avg todo =>
      refine ⟨u, ?_⟩
      rw [hst]
      unfold step
      rw [ht]
      cases todo with
      | nil => exact ⟨_, rfl⟩
      | cons x todo =>
        simp only
        split_ifs <;> exact ⟨_, rfl⟩
    | releasing c todo =>
      refine ⟨u, ?_⟩
      rw [hst]
      unfold step
      rw [ht]
      cases todo <;> exact ⟨_, rfl⟩

/-- Executions that cannot be continued are at an end. -/
theorem stuck_ends (hv : ValidInput n nearest seeds) {mem : Mem K} (h : Reachable cfg n nearest seeds mem s)
    (hstuck : ∀ t, stepAll cfg n nearest seeds s t = none) : s.Finished seeds ∨ ∃ t, s.tasks t = .panicked := by
  by_cases hp : ∃ t, s.tasks t = .panicked
  · exact Or.inr hp
  left
  have hnp : ∀ t, s.tasks t ≠ .panicked := fun t ht => hp ⟨t, ht⟩
  intro t ht
  by_contra hcon
  rcases step_or_blocked (cfg := cfg) (n := n) (nearest := nearest) (List.getElem?_eq_getElem ht) (fun c hc => hcon ⟨c, hc⟩)
    (hnp t) with ⟨s', h1⟩ | ⟨e, u, ho⟩
  · rw [hstuck t] at h1; cases h1
  · obtain ⟨u', s', h2⟩ := (locks_reachable hv h).progress hnp _ e u (le_refl _) ho
    rw [hstuck u'] at h2; cases h2

end Cres

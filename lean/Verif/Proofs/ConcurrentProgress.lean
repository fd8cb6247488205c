import Verif.Proofs.Concurrent
import Mathlib.Algebra.Order.BigOperators.Group.Finset
import Mathlib.Algebra.Order.BigOperators.Group.List

/-!
Progress and termination of parallel resampling, and what a single thread does.
-/

set_option linter.unusedSectionVars false

namespace Cres

open Spec

variable {D K : Type*} [Zero D] [Add K] [Zero K] [One K] [Mul K] [Div K] [NatCast K] [LinearOrder K]

/-! ### deadlock freedom -/

/-- If the lock of some event is held, then some task holding a lock can take a step. -/
theorem holder_can_step {cfg : Cfg} {n L : Nat} {nearest : Nat → List (Nat × D)} {seeds : List Nat}
    (hv : ValidInput n nearest seeds) {mem0 : Mem K} {s : State D K} {A : Mem K}
    (h : Inv cfg n L nearest seeds mem0 s A) (k : Nat) : ∀ e u, n - e ≤ k → s.owner e = some u →
      ∃ u', (heldBy cfg (s.tasks u')) ≠ [] ∧ ∃ s', stepAll cfg n nearest seeds s u' = some s' := by
  induction k with
  | zero =>
    intro e u hk ho
    exfalso
    have hh := (h.owner e u).1 ho
    cases hs : seeds[u]? with
    | none => rw [h.idle u hs] at hh; simp [heldBy] at hh
    | some seed =>
      have hok := h.ok u seed hs
      have hmem := List.mem_of_getElem? hs
      have hlt : e < n := by
        cases ht : s.tasks u with
        | locking c held todo =>
          rw [ht] at hok hh
          exact hok.1.lt hv hmem e (by rw [← hok.2.1]; exact List.mem_append_left _ hh)
        | reading c acc todo => rw [ht] at hok hh; exact hok.1.lt hv hmem e hh
        | writing c avg todo =>
          rw [ht] at hok hh
          refine hok.1.lt hv hmem e ?_
          simp only [heldBy] at hh
          split at hh
          · exact hh
          · exact hok.2.2.2.1 e hh
        | releasing c todo =>
          rw [ht] at hok hh
          exact hok.1.lt hv hmem e (hok.2.2.2.2 e hh)
        | waiting => rw [ht] at hh; simp [heldBy] at hh
        | checked => rw [ht] at hh; simp [heldBy] at hh
        | growing _ _ => rw [ht] at hh; simp [heldBy] at hh
        | done _ => rw [ht] at hh; simp [heldBy] at hh
        | panicked => rw [ht] at hh; simp [heldBy] at hh
      omega
  | succ k ih =>
    intro e u hk ho
    have hh := (h.owner e u).1 ho
    have hne : heldBy cfg (s.tasks u) ≠ [] := List.ne_nil_of_mem hh
    cases hs : seeds[u]? with
    | none => rw [h.idle u hs] at hh; simp [heldBy] at hh
    | some seed =>
      have hok := h.ok u seed hs
      have hmem := List.mem_of_getElem? hs
      have hst : stepAll cfg n nearest seeds s u = step cfg n nearest seed s u := by unfold stepAll; rw [hs]
      cases ht : s.tasks u with
      | waiting => rw [ht] at hh; simp [heldBy] at hh
      | checked => rw [ht] at hh; simp [heldBy] at hh
      | growing _ _ => rw [ht] at hh; simp [heldBy] at hh
      | done _ => rw [ht] at hh; simp [heldBy] at hh
      | panicked => rw [ht] at hh; simp [heldBy] at hh
      | locking c held todo =>
        rw [ht] at hok hh
        obtain ⟨hc, hht, htne, -⟩ := hok
        cases todo with
        | nil => exact absurd rfl htne
        | cons e' todo =>
          cases ho' : s.owner e' with
          | none =>
            refine ⟨u, hne, ?_⟩
            rw [hst]
            unfold step
            rw [ht]
            simp only [ho', Option.isSome_none, Bool.false_eq_true, if_false]
            split <;> exact ⟨_, rfl⟩
          | some u' =>
            refine ih e' u' ?_ ho'
            have hlt : e < e' := by
              have := hc.2
              rw [← hht] at this
              exact (List.pairwise_append.1 this).2.2 e hh e' List.mem_cons_self
            have he' : e' < n := hc.lt hv hmem e' (by rw [← hht]; simp)
            omega
      | reading c acc todo =>
        refine ⟨u, hne, ?_⟩
        rw [hst]
        unfold step
        rw [ht]
        cases todo with
        | nil => exact ⟨_, rfl⟩
        | cons e' todo =>
          simp only
          split <;> exact ⟨_, rfl⟩
      | writing c acc todo =>
        refine ⟨u, hne, ?_⟩
        rw [hst]
        unfold step
        rw [ht]
        cases todo with
        | nil => exact ⟨_, rfl⟩
        | cons e' todo =>
          simp only
          split
          · split <;> exact ⟨_, rfl⟩
          · exact ⟨_, rfl⟩
      | releasing c todo =>
        refine ⟨u, hne, ?_⟩
        rw [hst]
        unfold step
        rw [ht]
        cases todo with
        | nil => exact ⟨_, rfl⟩
        | cons e' todo => exact ⟨_, rfl⟩

/-- A task that has not ended can take a step unless it waits for an event whose lock is held. -/
theorem step_or_blocked {cfg : Cfg} {n : Nat} {nearest : Nat → List (Nat × D)} {seeds : List Nat} {s : State D K}
    {t seed : Nat} (hs : seeds[t]? = some seed) (hnd : ∀ c, s.tasks t ≠ .done c) (hnp : s.tasks t ≠ .panicked) :
    (∃ s', stepAll cfg n nearest seeds s t = some s') ∨ ∃ e u, s.owner e = some u := by
  have hst : stepAll cfg n nearest seeds s t = step cfg n nearest seed s t := by unfold stepAll; rw [hs]
  by_cases hfree : ∃ e u, s.owner e = some u
  · exact Or.inr hfree
  left
  have hnone : ∀ e, s.owner e = none := by
    intro e
    cases ho : s.owner e with
    | none => rfl
    | some u => exact absurd ⟨e, u, ho⟩ hfree
  rw [hst]
  unfold step
  cases ht : s.tasks t with
  | waiting =>
    simp only [hnone, Option.isSome_none, Bool.false_eq_true, if_false]
    split
    · exact ⟨_, rfl⟩
    · split <;> exact ⟨_, rfl⟩
  | checked =>
    simp only [hnone, Option.isSome_none, Bool.false_eq_true, if_false]
    split
    · exact ⟨_, rfl⟩
    · split <;> exact ⟨_, rfl⟩
  | growing c rest =>
    cases rest with
    | nil => exact ⟨_, rfl⟩
    | cons x rest =>
      obtain ⟨i, d⟩ := x
      simp only [hnone, Option.isSome_none, Bool.false_eq_true, if_false]
      split
      · exact ⟨_, rfl⟩
      · split <;> exact ⟨_, rfl⟩
  | locking c held todo =>
    cases todo with
    | nil => exact ⟨_, rfl⟩
    | cons x rest =>
      simp only [hnone, Option.isSome_none, Bool.false_eq_true, if_false]
      split <;> exact ⟨_, rfl⟩
  | reading c acc todo =>
    cases todo with
    | nil => exact ⟨_, rfl⟩
    | cons x rest =>
      simp only
      split <;> exact ⟨_, rfl⟩
  | writing c acc todo =>
    cases todo with
    | nil => exact ⟨_, rfl⟩
    | cons x rest =>
      simp only
      split
      · split <;> exact ⟨_, rfl⟩
      · exact ⟨_, rfl⟩
  | releasing c todo =>
    cases todo with
    | nil => exact ⟨_, rfl⟩
    | cons x rest => exact ⟨_, rfl⟩
  | done c => exact absurd ht (hnd c)
  | panicked => exact absurd ht hnp

/-! ### termination -/

/-- An upper bound on the number of steps a task can still take; `N` is the number of neighbours of its seed. -/
def Task.measure (N : Nat) : Task D K → Nat
  | .waiting => 5 * N + 11
  | .checked => 5 * N + 10
  | .growing c rest => 4 * (c.members.length + rest.length) + rest.length + 5
  | .locking c _ todo => 3 * c.members.length + todo.length + 4
  | .reading c _ todo => 2 * c.members.length + todo.length + 3
  | .writing c _ todo => c.members.length + todo.length + 2
  | .releasing _ todo => todo.length + 1
  | .done _ => 0
  | .panicked => 0

theorem measure_startResample (N : Nat) (c : Cell D K) :
    (startResample c).measure N = 4 * c.members.length + 4 := by
  have := (sortMembers_perm c).length_eq
  simp only [startResample, Task.measure]
  omega

theorem step_measure {cfg : Cfg} {n : Nat} {nearest : Nat → List (Nat × D)} {seed : Nat} {s s' : State D K} {t : Nat}
    (h : step cfg n nearest seed s t = some s') :
    ∃ new, s'.tasks = Function.update s.tasks t new ∧
      new.measure (nearest seed).length < (s.tasks t).measure (nearest seed).length := by
  unfold step at h
  cases ht : s.tasks t with
  | waiting =>
    rw [ht] at h
    simp only at h
    split at h
    · simp at h
    · split at h
      · simp only [Option.some.injEq] at h; subst h; exact ⟨_, rfl, by simp [Task.measure]⟩
      · split at h
        · simp only [Option.some.injEq] at h; subst h; exact ⟨_, rfl, by simp [Task.measure]⟩
        · simp only [Option.some.injEq] at h; subst h; exact ⟨_, rfl, by simp [Task.measure]⟩
  | checked =>
    rw [ht] at h
    simp only at h
    split at h
    · simp at h
    · split at h
      · simp only [Option.some.injEq] at h; subst h; exact ⟨_, rfl, by simp [Task.measure]⟩
      · split at h
        · simp only [Option.some.injEq] at h; subst h; exact ⟨_, rfl, by simp [Task.measure]⟩
        · simp only [Option.some.injEq] at h; subst h
          refine ⟨_, rfl, ?_⟩
          simp only [Task.measure, List.length_cons, List.length_nil]
          omega
  | growing c rest =>
    rw [ht] at h
    cases rest with
    | nil =>
      simp only [Option.some.injEq] at h; subst h
      refine ⟨_, rfl, ?_⟩
      rw [measure_startResample]
      simp only [Task.measure, List.length_nil]
      omega
    | cons x rest =>
      obtain ⟨i, d⟩ := x
      simp only at h
      split at h
      · simp at h
      · split at h
        · simp only [Option.some.injEq] at h; subst h; exact ⟨_, rfl, by simp [Task.measure]⟩
        · split at h
          · simp only [Option.some.injEq] at h; subst h
            refine ⟨_, rfl, ?_⟩
            rw [measure_startResample]
            simp only [Task.measure, List.length_cons, List.length_append, List.length_nil]
            omega
          · simp only [Option.some.injEq] at h; subst h
            refine ⟨_, rfl, ?_⟩
            simp only [Task.measure, List.length_cons, List.length_append, List.length_nil]
            omega
  | locking c held todo =>
    rw [ht] at h
    cases todo with
    | nil => simp only [Option.some.injEq] at h; subst h; exact ⟨_, rfl, by simp [Task.measure]⟩
    | cons e todo =>
      simp only at h
      split at h
      · simp at h
      · split at h
        · simp only [Option.some.injEq] at h; subst h
          refine ⟨_, rfl, ?_⟩
          simp only [Task.measure, List.length_cons]
          omega
        · simp only [Option.some.injEq] at h; subst h
          refine ⟨_, rfl, ?_⟩
          simp only [Task.measure, List.length_cons]
          omega
  | reading c acc todo =>
    rw [ht] at h
    cases todo with
    | nil => simp only [Option.some.injEq] at h; subst h; exact ⟨_, rfl, by simp [Task.measure]⟩
    | cons e todo =>
      simp only at h
      split at h
      · simp only [Option.some.injEq] at h; subst h; exact ⟨_, rfl, by simp [Task.measure]⟩
      · simp only [Option.some.injEq] at h; subst h
        refine ⟨_, rfl, ?_⟩
        split
        · have := (writeOrder_perm cfg c.members).length_eq
          simp only [Task.measure, List.length_cons]
          omega
        · simp only [Task.measure, List.length_cons]
          omega
  | writing c avg todo =>
    rw [ht] at h
    cases todo with
    | nil => simp only [Option.some.injEq] at h; subst h; exact ⟨_, rfl, by simp [Task.measure]⟩
    | cons e todo =>
      simp only at h
      split at h
      · split at h
        · simp only [Option.some.injEq] at h; subst h; exact ⟨_, rfl, by simp [Task.measure]⟩
        · simp only [Option.some.injEq] at h; subst h
          refine ⟨_, rfl, ?_⟩
          split
          · simp only [Task.measure, List.length_cons]; omega
          · simp only [Task.measure, List.length_cons]; omega
      · simp only [Option.some.injEq] at h; subst h
        refine ⟨_, rfl, ?_⟩
        split
        · simp only [Task.measure, List.length_cons]; omega
        · simp only [Task.measure, List.length_cons]; omega
  | releasing c todo =>
    rw [ht] at h
    cases todo with
    | nil => simp only [Option.some.injEq] at h; subst h; exact ⟨_, rfl, by simp [Task.measure]⟩
    | cons e todo =>
      simp only [Option.some.injEq] at h; subst h
      refine ⟨_, rfl, ?_⟩
      split
      · simp only [Task.measure, List.length_cons]; omega
      · simp only [Task.measure, List.length_cons]; omega
  | done c => rw [ht] at h; simp at h
  | panicked => rw [ht] at h; simp at h

/-- Bound on the number of steps all tasks together can still take. -/
def totalMeasure (nearest : Nat → List (Nat × D)) (seeds : List Nat) (s : State D K) : Nat :=
  ∑ t ∈ Finset.range seeds.length, (s.tasks t).measure (nearest (seeds.getD t 0)).length

theorem stepAll_measure {cfg : Cfg} {n : Nat} {nearest : Nat → List (Nat × D)} {seeds : List Nat} {s s' : State D K}
    {t : Nat} (h : stepAll cfg n nearest seeds s t = some s') :
    totalMeasure nearest seeds s' < totalMeasure nearest seeds s := by
  unfold stepAll at h
  cases hs : seeds[t]? with
  | none => rw [hs] at h; simp at h
  | some seed =>
    rw [hs] at h
    obtain ⟨new, h1, h2⟩ := step_measure h
    have hlt : t < seeds.length := (List.getElem?_eq_some_iff.1 hs).1
    have hseed : seeds.getD t 0 = seed := by simp [List.getD_eq_getElem?_getD, hs]
    unfold totalMeasure
    rw [h1]
    refine Finset.sum_lt_sum ?_ ⟨t, Finset.mem_range.2 hlt, ?_⟩
    · intro t' _
      by_cases htt : t' = t
      · subst htt; rw [Function.update_self, hseed]; exact le_of_lt h2
      · rw [Function.update_of_ne htt]
    · rw [Function.update_self, hseed]; exact h2

theorem runSchedule_measure {cfg : Cfg} {n : Nat} {nearest : Nat → List (Nat × D)} {seeds : List Nat}
    (sched : List Nat) : ∀ {s s' : State D K}, runSchedule cfg n nearest seeds sched s = some s' →
      sched.length + totalMeasure nearest seeds s' ≤ totalMeasure nearest seeds s := by
  induction sched with
  | nil => intro s s' h; simp only [runSchedule, Option.some.injEq] at h; subst h; simp
  | cons t sched ih =>
    intro s s' h
    rw [runSchedule] at h
    cases hs : stepAll cfg n nearest seeds s t with
    | none => rw [hs] at h; simp at h
    | some s1 =>
      rw [hs] at h
      have h1 := ih h
      have h2 := stepAll_measure hs
      simp only [List.length_cons]
      omega

theorem totalMeasure_init (nearest : Nat → List (Nat × D)) (seeds : List Nat) (mem : Mem K) :
    totalMeasure nearest seeds (State.init mem) = (seeds.map (fun s => 5 * (nearest s).length + 11)).sum := by
  unfold totalMeasure
  simp only [State.init, Task.measure]
  induction seeds using List.reverseRecOn with
  | nil => simp
  | append_singleton l a ih =>
    rw [List.length_append, List.length_singleton, Finset.sum_range_succ, List.map_append, List.sum_append, ← ih]
    congr 1
    · refine Finset.sum_congr rfl (fun t ht => ?_)
      have := Finset.mem_range.1 ht
      simp [List.getD_eq_getElem?_getD, List.getElem?_append_left this]
    · simp [List.getD_eq_getElem?_getD]

theorem runSchedule_append {cfg : Cfg} {n : Nat} {nearest : Nat → List (Nat × D)} {seeds : List Nat}
    (l1 l2 : List Nat) : ∀ (s : State D K), runSchedule cfg n nearest seeds (l1 ++ l2) s =
      (runSchedule cfg n nearest seeds l1 s).bind (runSchedule cfg n nearest seeds l2) := by
  induction l1 with
  | nil => intro s; rfl
  | cons t l1 ih =>
    intro s
    simp only [List.cons_append, runSchedule]
    cases stepAll cfg n nearest seeds s t with
    | none => rfl
    | some s1 => exact ih s1

theorem runSchedule_reachable {cfg : Cfg} {n : Nat} {nearest : Nat → List (Nat × D)} {seeds : List Nat} {mem : Mem K}
    (sched : List Nat) : ∀ {s s' : State D K}, Reachable cfg n nearest seeds mem s →
      runSchedule cfg n nearest seeds sched s = some s' → Reachable cfg n nearest seeds mem s' := by
  induction sched with
  | nil => intro s s' hr h; simp only [runSchedule, Option.some.injEq] at h; subst h; exact hr
  | cons t sched ih =>
    intro s s' hr h
    rw [runSchedule] at h
    cases hs : stepAll cfg n nearest seeds s t with
    | none => rw [hs] at h; simp at h
    | some s1 => rw [hs] at h; exact ih (hr.step hs) h

end Cres

import Verif.Props.Resample

/-!
A single thread can always finish.
-/

set_option linter.unusedSectionVars false

namespace Cres

open Spec

variable {D K : Type*} [Zero D] [Add K] [Zero K] [One K] [Mul K] [Div K] [NatCast K] [LinearOrder K]

theorem serialSchedule_append (ks : List Nat) (k : Nat) : ∀ t, serialSchedule t (ks ++ [k]) =
    serialSchedule t ks ++ List.replicate k (t + ks.length) := by
  induction ks with
  | nil => intro t; simp [serialSchedule]
  | cons a ks ih =>
    intro t
    rw [List.cons_append, serialSchedule, ih, serialSchedule, List.append_assoc, List.length_cons]
    congr 3
    omega

theorem stepAll_take {cfg : Cfg} {n : Nat} {nearest : Nat → List (Nat × D)} {seeds : List Nat} {m t : Nat} {s s' : State D K}
    (h : stepAll cfg n nearest (seeds.take m) s t = some s') : stepAll cfg n nearest seeds s t = some s' := by
  unfold stepAll at h ⊢
  rw [List.getElem?_take] at h
  split_ifs at h with hm
  exact h

theorem runSchedule_take {cfg : Cfg} {n : Nat} {nearest : Nat → List (Nat × D)} {seeds : List Nat} {m : Nat} :
    ∀ (sched : List Nat) {s s' : State D K}, runSchedule cfg n nearest (seeds.take m) sched s = some s' →
      runSchedule cfg n nearest seeds sched s = some s'
  | [], s, s', h => h
  | t :: sched, s, s', h => by
    rw [runSchedule] at h ⊢
    cases hs : stepAll cfg n nearest (seeds.take m) s t with
    | none => rw [hs] at h; simp at h
    | some s1 =>
      rw [hs] at h
      rw [stepAll_take hs]
      exact runSchedule_take sched h

/-- If all tasks before `t` have ended, only task `t` can run among the first `t + 1`. -/
theorem schedule_last {cfg : Cfg} {n : Nat} {nearest : Nat → List (Nat × D)} {seeds : List Nat} {t : Nat} :
    ∀ (sched : List Nat) {s s' : State D K}, (∀ u < t, ∃ c, s.tasks u = .done c) →
      runSchedule cfg n nearest (seeds.take (t + 1)) sched s = some s' → sched = List.replicate sched.length t
  | [], _, _, _, _ => rfl
  | u :: sched, s, s', hd, h => by
    rw [runSchedule] at h
    cases hs : stepAll cfg n nearest (seeds.take (t + 1)) s u with
    | none => rw [hs] at h; simp at h
    | some s1 =>
      rw [hs] at h
      have hu : u = t := by
        by_contra hne
        unfold stepAll at hs
        rw [List.getElem?_take] at hs
        split_ifs at hs with hm
        obtain ⟨c, hc⟩ := hd u (by omega)
        split at hs
        · simp at hs
        · rw [step, hc] at hs
          simp at hs
      subst hu
      have hd1 : ∀ v < u, ∃ c, s1.tasks v = .done c := by
        intro v hv
        obtain ⟨c, hc⟩ := hd v hv
        refine ⟨c, ?_⟩
        rw [← hc]
        exact step_others hs (by omega)
      rw [List.length_cons, List.replicate_succ]
      congr 1
      exact schedule_last sched hd1 h

theorem serial_exists {cfg : Cfg} (hd : cfg.debug = false) {n L : Nat} {nearest : Nat → List (Nat × D)} {seeds : List Nat}
    (hv : ValidInput n nearest seeds) {mem : Mem K} (hu : Uniform cfg n L mem) : ∀ t ≤ seeds.length,
    ∃ ks s, ks.length = t ∧ runSchedule cfg n nearest (seeds.take t) (serialSchedule 0 ks) (State.init mem) = some s ∧
      s.Finished (seeds.take t)
  | 0, _ => ⟨[], State.init mem, rfl, rfl, fun t ht => by simp at ht⟩
  | t + 1, ht => by
    obtain ⟨ks, s, h1, h2, h3⟩ := serial_exists hd hv hu t (by omega)
    have hv' : ValidInput n nearest (seeds.take (t + 1)) :=
      ⟨fun x hx => hv.seeds_lt x (List.mem_of_mem_take hx), fun x hx => hv.neighbours_lt x (List.mem_of_mem_take hx),
        fun x hx => hv.neighbours_nodup x (List.mem_of_mem_take hx)⟩
    have h4 : runSchedule cfg n nearest (seeds.take (t + 1)) (serialSchedule 0 ks) (State.init mem) = some s := by
      refine runSchedule_take (m := t) _ ?_
      rw [List.take_take, min_eq_left (by omega)]
      exact h2
    obtain ⟨sched, s', h5, h6⟩ := C08_can_finish hd hv' hu (runSchedule_reachable _ Reachable.init h4)
    have hdone : ∀ u < t, ∃ c, s.tasks u = .done c := by
      intro u hu
      exact h3 u (by rw [List.length_take]; omega)
    have h7 := schedule_last sched hdone h5
    refine ⟨ks ++ [sched.length], s', by simp [h1], ?_, h6⟩
    rw [serialSchedule_append, h1, Nat.zero_add, ← h7, runSchedule_append, h4]
    exact h5

/-- **C05**: with one worker thread, resampling can always finish (in release builds); the result is then the one described
by C04. -/
theorem C05_one_thread_completes {cfg : Cfg} (hd : cfg.debug = false) {n L : Nat} {nearest : Nat → List (Nat × D)}
    {seeds : List Nat} (hv : ValidInput n nearest seeds) {mem : Mem K} (hu : Uniform cfg n L mem) :
    ∃ ks s, ks.length = seeds.length ∧
      runSchedule cfg n nearest seeds (serialSchedule 0 ks) (State.init mem) = some s ∧ s.Finished seeds := by
  obtain ⟨ks, s, h1, h2, h3⟩ := serial_exists hd hv hu seeds.length le_rfl
  rw [List.take_length] at h2 h3
  exact ⟨ks, s, h1, h2, h3⟩

end Cres

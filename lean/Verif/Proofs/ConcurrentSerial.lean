import Verif.Proofs.ConcurrentProgress

/-!
A single thread, which processes the seeds one after the other, computes what `resampleAll` describes.
-/

set_option linter.unusedSectionVars false

namespace Cres

open Spec

variable {D K : Type*} [Zero D] [Add K] [Zero K] [One K] [Mul K] [Div K] [NatCast K] [LinearOrder K]

/-- The cell a seed gets when nothing else runs. -/
def SerialCell (cfg : Cfg) (n : Nat) (nearest : Nat → List (Nat × D)) (seed : Nat) (m0 : Mem K) (c : Cell D K) : Prop :=
  (∃ w, weightAt n m0 seed = some w ∧ ¬ 0 < w) ∧
    ∃ c0, Cell.new cfg n m0 seed (nearest seed) = some c0 ∧ c = c0.sortMembers

/-- What holds while a single task runs, starting from weights `m0` and log `log0`. -/
def SerialOK (cfg : Cfg) (n : Nat) (nearest : Nat → List (Nat × D)) (seed : Nat) (m0 : Mem K) (log0 : List (Cell D K))
    (mem : Mem K) (log : List (Cell D K)) : Task D K → Prop
  | .waiting => mem = m0 ∧ log = log0
  | .checked => mem = m0 ∧ log = log0 ∧ ∃ w, weightAt n m0 seed = some w ∧ ¬ 0 < w
  | .growing c rest => mem = m0 ∧ log = log0 ∧ (∃ w, weightAt n m0 seed = some w ∧ ¬ 0 < w) ∧
      Cell.new cfg n m0 seed (nearest seed) = Cell.grow (weightAt n m0) rest c
  | .locking c _ _ => log = log0 ∧ SerialCell cfg n nearest seed m0 c
  | .reading c _ _ => log = log0 ++ [c] ∧ SerialCell cfg n nearest seed m0 c
  | .writing c _ _ => log = log0 ++ [c] ∧ SerialCell cfg n nearest seed m0 c
  | .releasing c _ => log = log0 ++ [c] ∧ SerialCell cfg n nearest seed m0 c
  | .done none => log = log0 ∧ ∃ w, weightAt n m0 seed = some w ∧ 0 < w
  | .done (some c) => log = log0 ++ [c] ∧ SerialCell cfg n nearest seed m0 c
  | .panicked => True

theorem serial_step {cfg : Cfg} {n : Nat} {nearest : Nat → List (Nat × D)} {seed t : Nat} {m0 : Mem K}
    {log0 : List (Cell D K)} {s s' : State D K} (h : SerialOK cfg n nearest seed m0 log0 s.mem s.log (s.tasks t))
    (hs : step cfg n nearest seed s t = some s') :
    SerialOK cfg n nearest seed m0 log0 s'.mem s'.log (s'.tasks t) := by
  unfold step at hs
  cases ht : s.tasks t with
  | waiting =>
    rw [ht] at hs h
    obtain ⟨h1, h2⟩ := h
    simp only at hs
    split at hs
    · simp at hs
    · split at hs
      · simp only [Option.some.injEq] at hs; subst hs; simp only [Function.update_self]; trivial
      · next w hw =>
        rw [h1] at hw
        split at hs
        · simp only [Option.some.injEq] at hs; subst hs; simp only [Function.update_self]; exact ⟨h2, w, hw, by assumption⟩
        · simp only [Option.some.injEq] at hs; subst hs; simp only [Function.update_self]
          exact ⟨h1, h2, w, hw, by assumption⟩
  | checked =>
    rw [ht] at hs h
    obtain ⟨h1, h2, w0, hw0, hw0'⟩ := h
    simp only at hs
    split at hs
    · simp at hs
    · split at hs
      · simp only [Option.some.injEq] at hs; subst hs; simp only [Function.update_self]; trivial
      · next w hw =>
        rw [h1] at hw
        split at hs
        · simp only [Option.some.injEq] at hs; subst hs; simp only [Function.update_self]; trivial
        · next hdb =>
          simp only [Option.some.injEq] at hs; subst hs; simp only [Function.update_self]
          refine ⟨h1, h2, ⟨w0, hw0, hw0'⟩, ?_⟩
          unfold Cell.new
          rw [hw]
          simp only
          rw [if_neg hdb]
  | growing c rest =>
    rw [ht] at hs h
    obtain ⟨h1, h2, h3, h4⟩ := h
    cases rest with
    | nil =>
      simp only [Option.some.injEq] at hs; subst hs
      simp only [Function.update_self]
      exact ⟨h2, h3, c, by rw [h4]; rfl, rfl⟩
    | cons x rest =>
      obtain ⟨i, d⟩ := x
      rw [Cell.grow] at h4
      simp only at hs
      split at hs
      · simp at hs
      · split at hs
        · simp only [Option.some.injEq] at hs; subst hs; simp only [Function.update_self]; trivial
        · next w hw =>
          rw [h1] at hw
          rw [hw] at h4
          simp only at h4
          split at hs
          · next h0 =>
            rw [if_pos h0] at h4
            simp only [Option.some.injEq] at hs; subst hs; simp only [Function.update_self]
            exact ⟨h2, h3, _, h4, rfl⟩
          · next h0 =>
            rw [if_neg h0] at h4
            simp only [Option.some.injEq] at hs; subst hs; simp only [Function.update_self]
            exact ⟨h1, h2, h3, h4⟩
  | locking c held todo =>
    rw [ht] at hs h
    obtain ⟨h1, h2⟩ := h
    cases todo with
    | nil => simp only [Option.some.injEq] at hs; subst hs; simp only [Function.update_self]; trivial
    | cons e todo =>
      simp only at hs
      split at hs
      · simp at hs
      · split at hs
        · simp only [Option.some.injEq] at hs; subst hs; simp only [Function.update_self]
          exact ⟨by rw [h1], h2⟩
        · simp only [Option.some.injEq] at hs; subst hs; simp only [Function.update_self]
          exact ⟨h1, h2⟩
  | reading c acc todo =>
    rw [ht] at hs h
    cases todo with
    | nil => simp only [Option.some.injEq] at hs; subst hs; simp only [Function.update_self]; trivial
    | cons e todo =>
      simp only at hs
      split at hs
      · simp only [Option.some.injEq] at hs; subst hs; simp only [Function.update_self]; trivial
      · simp only [Option.some.injEq] at hs; subst hs; simp only [Function.update_self]
        split <;> split <;> exact h
  | writing c avg todo =>
    rw [ht] at hs h
    cases todo with
    | nil => simp only [Option.some.injEq] at hs; subst hs; simp only [Function.update_self]; trivial
    | cons e todo =>
      simp only at hs
      split at hs
      · split at hs
        · simp only [Option.some.injEq] at hs; subst hs; simp only [Function.update_self]; trivial
        · simp only [Option.some.injEq] at hs; subst hs; simp only [Function.update_self]
          split <;> exact h
      · simp only [Option.some.injEq] at hs; subst hs; simp only [Function.update_self]
        split <;> exact h
  | releasing c todo =>
    rw [ht] at hs h
    cases todo with
    | nil => simp only [Option.some.injEq] at hs; subst hs; simp only [Function.update_self]; exact h
    | cons e todo =>
      simp only [Option.some.injEq] at hs; subst hs; simp only [Function.update_self]
      split <;> exact h
  | done c => rw [ht] at hs; simp at hs
  | panicked => rw [ht] at hs; simp at hs

theorem step_others {cfg : Cfg} {n : Nat} {nearest : Nat → List (Nat × D)} {seeds : List Nat} {s s' : State D K}
    {t t' : Nat} (h : stepAll cfg n nearest seeds s t = some s') (htt : t' ≠ t) : s'.tasks t' = s.tasks t' := by
  unfold stepAll at h
  cases hs : seeds[t]? with
  | none => rw [hs] at h; simp at h
  | some seed =>
    rw [hs] at h
    obtain ⟨new, h1, -⟩ := step_measure h
    rw [h1, Function.update_of_ne htt]

theorem serial_block {cfg : Cfg} {n : Nat} {nearest : Nat → List (Nat × D)} {seeds : List Nat} {seed t : Nat}
    (hseed : seeds[t]? = some seed) {m0 : Mem K} {log0 : List (Cell D K)} (k : Nat) : ∀ {s s' : State D K},
      SerialOK cfg n nearest seed m0 log0 s.mem s.log (s.tasks t) →
      runSchedule cfg n nearest seeds (List.replicate k t) s = some s' →
      SerialOK cfg n nearest seed m0 log0 s'.mem s'.log (s'.tasks t) ∧ ∀ t', t' ≠ t → s'.tasks t' = s.tasks t' := by
  induction k with
  | zero =>
    intro s s' h hr
    simp only [List.replicate_zero, runSchedule, Option.some.injEq] at hr
    subst hr
    exact ⟨h, fun _ _ => rfl⟩
  | succ k ih =>
    intro s s' h hr
    rw [List.replicate_succ, runSchedule] at hr
    cases hs : stepAll cfg n nearest seeds s t with
    | none => rw [hs] at hr; simp at hr
    | some s1 =>
      rw [hs] at hr
      have hs' := hs
      unfold stepAll at hs'
      rw [hseed] at hs'
      obtain ⟨h1, h2⟩ := ih (serial_step h hs') hr
      exact ⟨h1, fun t' htt => by rw [h2 t' htt, step_others hs htt]⟩

theorem resampleAll_append (cfg : Cfg) (n : Nat) (nearest : Nat → List (Nat × D)) (l1 l2 : List Nat) :
    ∀ (mem : Mem K), resampleAll cfg n nearest (l1 ++ l2) mem =
      (resampleAll cfg n nearest l1 mem).bind
        (fun r => (resampleAll cfg n nearest l2 r.1).map (fun r' => (r'.1, r.2 ++ r'.2))) := by
  induction l1 with
  | nil => intro mem; simp [resampleAll]
  | cons a l1 ih =>
    intro mem
    rw [List.cons_append, resampleAll, resampleAll]
    cases hr : resampleSeed cfg n nearest mem a with
    | none => rfl
    | some r =>
      obtain ⟨m', oc⟩ := r
      simp only
      rw [ih]
      cases resampleAll cfg n nearest l1 m' with
      | none => rfl
      | some r1 =>
        simp only [Option.map_some, Option.bind_some]
        cases resampleAll cfg n nearest l2 r1.1 with
        | none => rfl
        | some r2 => simp

theorem serial_keeps {cfg : Cfg} {n : Nat} {nearest : Nat → List (Nat × D)} {seeds : List Nat} (ks : List Nat) :
    ∀ (t : Nat) {s s' : State D K}, runSchedule cfg n nearest seeds (serialSchedule t ks) s = some s' →
      ∀ t' < t, s'.tasks t' = s.tasks t' := by
  induction ks with
  | nil => intro t s s' h t' _; simp only [serialSchedule, runSchedule, Option.some.injEq] at h; subst h; rfl
  | cons k ks ih =>
    intro t s s' h t' ht'
    rw [serialSchedule, runSchedule_append] at h
    cases hr : runSchedule cfg n nearest seeds (List.replicate k t) s with
    | none => rw [hr] at h; simp at h
    | some s1 =>
      rw [hr] at h
      rw [ih (t + 1) h t' (by omega)]
      clear h ih
      induction k generalizing s with
      | zero => simp only [List.replicate_zero, runSchedule, Option.some.injEq] at hr; subst hr; rfl
      | succ k ihk =>
        rw [List.replicate_succ, runSchedule] at hr
        cases hs : stepAll cfg n nearest seeds s t with
        | none => rw [hs] at hr; simp at hr
        | some s2 =>
          rw [hs] at hr
          rw [ihk hr, step_others hs (by omega)]

theorem serial_run {cfg : Cfg} {n L : Nat} {nearest : Nat → List (Nat × D)} {seeds : List Nat}
    (hv : ValidInput n nearest seeds) {mem0 : Mem K} (hu : Uniform cfg n L mem0) (ks : List Nat) :
    ∀ (t : Nat) {s s' : State D K}, t + ks.length = seeds.length → Reachable cfg n nearest seeds mem0 s →
      resampleAll cfg n nearest (seeds.take t) mem0 = some (s.mem, s.log) →
      (∀ t' < t, ∃ c, s.tasks t' = .done c) → (∀ t', t ≤ t' → s.tasks t' = .waiting) →
      runSchedule cfg n nearest seeds (serialSchedule t ks) s = some s' → s'.Finished seeds →
      resampleAll cfg n nearest seeds mem0 = some (s'.mem, s'.log) := by
  induction ks with
  | nil =>
    intro t s s' hl _ hres _ _ hrun _
    simp only [serialSchedule, runSchedule, Option.some.injEq] at hrun
    subst hrun
    rw [List.length_nil, Nat.add_zero] at hl
    rwa [hl, List.take_length] at hres
  | cons k ks ih =>
    intro t s s' hl hreach hres hdone hwait hrun hfin
    rw [serialSchedule, runSchedule_append] at hrun
    cases hr : runSchedule cfg n nearest seeds (List.replicate k t) s with
    | none => rw [hr] at hrun; simp at hrun
    | some s1 =>
      rw [hr] at hrun
      simp only [Option.bind_some] at hrun
      have htl : t < seeds.length := by simp only [List.length_cons] at hl; omega
      have hseed : seeds[t]? = some seeds[t] := List.getElem?_eq_getElem htl
      have hst : SerialOK cfg n nearest seeds[t] s.mem s.log s.mem s.log (s.tasks t) := by
        rw [hwait t (le_refl _)]; exact ⟨rfl, rfl⟩
      obtain ⟨h1, h2⟩ := serial_block hseed k hst hr
      have hreach1 := runSchedule_reachable _ hreach hr
      obtain ⟨oc, hoc⟩ := hfin t htl
      rw [serial_keeps ks (t + 1) hrun t (by omega)] at hoc
      have hdone1 : ∀ t' < t + 1, ∃ c, s1.tasks t' = .done c := by
        intro t' ht'
        by_cases htt : t' = t
        · subst htt; exact ⟨oc, hoc⟩
        · rw [h2 t' htt]; exact hdone t' (by omega)
      have hwait1 : ∀ t', t + 1 ≤ t' → s1.tasks t' = .waiting := by
        intro t' ht'
        rw [h2 t' (by omega)]; exact hwait t' (by omega)
      refine ih (t + 1) (by simp only [List.length_cons] at hl; omega) hreach1 ?_ hdone1 hwait1 hrun hfin
      -- the weights after the block
      obtain ⟨A0, hA0⟩ := inv_reachable hv hu hreach
      obtain ⟨A1, hA1⟩ := inv_reachable hv hu hreach1
      have hfree0 : ∀ e, s.owner e = none := by
        intro e
        cases ho : s.owner e with
        | none => rfl
        | some u =>
          have := (hA0.owner e u).1 ho
          by_cases hu : u < t
          · obtain ⟨c, hc⟩ := hdone u hu
            rw [hc] at this; simp [heldBy] at this
          · rw [hwait u (by omega)] at this; simp [heldBy] at this
      have hfree1 : ∀ e, s1.owner e = none := by
        intro e
        cases ho : s1.owner e with
        | none => rfl
        | some u =>
          have := (hA1.owner e u).1 ho
          by_cases hu : u < t + 1
          · obtain ⟨c, hc⟩ := hdone1 u hu
            rw [hc] at this; simp [heldBy] at this
          · rw [hwait1 u (by omega)] at this; simp [heldBy] at this
      have hm0 : s.mem = A0 := funext (fun e => hA0.free e (hfree0 e))
      have hm1 : s1.mem = A1 := funext (fun e => hA1.free e (hfree1 e))
      have hl0 := hA0.log
      have hl1 := hA1.log
      rw [List.take_add_one, hseed, resampleAll_append, hres]
      simp only [Option.toList_some, Option.bind_some, resampleAll]
      rw [hoc] at h1
      cases oc with
      | none =>
        obtain ⟨hlog, w, hw, hw0⟩ := h1
        rw [hlog, hl0] at hl1
        simp only [Option.some.injEq] at hl1
        unfold resampleSeed
        rw [hw]
        simp only [if_pos hw0, Option.map_some, Option.toList_none, List.append_nil]
        rw [hlog, hm1, ← hl1, hm0]
      | some c =>
        obtain ⟨hlog, ⟨w, hw, hw0⟩, c0, hc0, rfl⟩ := h1
        unfold applyCells at hl0 hl1
        rw [hlog, List.foldlM_append, hl0] at hl1
        have hl1 : Cell.resample cfg c0.sortMembers A0 = some A1 := by simpa using hl1
        have hss : c0.sortMembers.sortMembers = c0.sortMembers := by
          unfold Cell.sortMembers
          simp only
          rw [List.Pairwise.insertionSort_eq (List.pairwise_insertionSort _ _)]
        have hrs : Cell.resample cfg c0 A0 = some A1 := by
          rw [← hl1]
          unfold Cell.resample
          simp only [hss]
        unfold resampleSeed
        rw [hw]
        simp only [if_neg hw0]
        rw [hc0]
        simp only
        rw [hm0, hrs]
        simp [hlog, hm1]

end Cres

import Verif.Model.Varying
import Verif.Props.Negative

/-!
Lemmas for C112: runs with distances that change are runs with fixed distances.
-/

set_option linter.unusedSectionVars false

namespace Cres

open Spec CombinedIO Program

section Machine

variable {D K : Type*} [Zero D] [Add K] [Zero K] [One K] [Mul K] [Div K] [NatCast K] [LinearOrder K]

/-- A task that looks for neighbours, with all neighbours that will be found. -/
def fillTask (list : List (Nat × D)) : Task D K → Task D K
  | .growing c _ => .growing c (list.drop (c.members.length - 1))
  | t => t

/-- The state with the neighbours that will be found. -/
def fill (nearest : Nat → List (Nat × D)) (seeds : List Nat) (s : State D K) : State D K :=
  { s with tasks := fun t => match seeds[t]? with
      | some seed => fillTask (nearest seed) (s.tasks t)
      | none => s.tasks t }

variable {cfg : Cfg} {n : Nat} {nearest : Nat → List (Nat × D)} {seeds : List Nat} {s s' : State D K} {tid seed : Nat}

theorem fill_task (h : seeds[tid]? = some seed) : (fill nearest seeds s).tasks tid = fillTask (nearest seed) (s.tasks tid) := by
  simp [fill, h]

theorem fill_update (h : seeds[tid]? = some seed) (t : Task D K) (mem : Mem K) (owner : Nat → Option Nat) (log : List (Cell D K)) :
    fill nearest seeds ⟨mem, owner, Function.update s.tasks tid t, log⟩ =
      ⟨mem, owner, Function.update (fill nearest seeds s).tasks tid (fillTask (nearest seed) t), log⟩ := by
  unfold fill
  simp only [State.mk.injEq, true_and, and_true]
  funext t'
  by_cases ht : t' = tid
  · subst ht
    simp [h]
  · rw [Function.update_of_ne ht, Function.update_of_ne ht]

theorem fillTask_start (list : List (Nat × D)) (c : Cell D K) : fillTask list (startResample c) = startResample c := rfl

/-- A step that has nothing to do with neighbours. -/
theorem fill_other (hs : seeds[tid]? = some seed) (hg : ∀ c rest, s.tasks tid ≠ .growing c rest)
    (h : step cfg n (fun _ => []) seed s tid = some s') : step cfg n nearest seed (fill nearest seeds s) tid = some (fill nearest seeds s') := by
  have hft := fill_task (nearest := nearest) (s := s) hs
  unfold step at h ⊢
  rw [hft]
  have hm : (fill nearest seeds s).mem = s.mem := rfl
  have ho : (fill nearest seeds s).owner = s.owner := rfl
  have hl : (fill nearest seeds s).log = s.log := rfl
  cases ht : s.tasks tid with
  | growing c rest => exact absurd ht (hg c rest)
  | waiting =>
    rw [ht] at h
    simp only [fillTask, hm, ho, hl] at h ⊢
    split at h
    · simp at h
    · split at h
      · cases h; simp_all [fill_update hs, fillTask]
      · split at h <;> cases h <;> simp_all [fill_update hs, fillTask]
  | checked =>
    rw [ht] at h
    simp only [fillTask, hm, ho, hl] at h ⊢
    split at h
    · simp at h
    · split at h
      · cases h; simp_all [fill_update hs, fillTask]
      · split at h <;> cases h <;> simp_all [fill_update hs, fillTask]
  | locking c held todo =>
    rw [ht] at h
    cases todo with
    | nil => cases h; simp only [fill_update hs, fillTask, hm, ho, hl]
    | cons e todo =>
      simp only [fillTask, hm, ho, hl] at h ⊢
      split at h
      · simp at h
      · split at h <;> cases h <;> simp_all [fill_update hs, fillTask]
  | reading c acc todo =>
    rw [ht] at h
    cases todo with
    | nil => cases h; simp only [fill_update hs, fillTask, hm, ho, hl]
    | cons e todo =>
      simp only [fillTask, hm, ho, hl] at h ⊢
      split at h
      · cases h; simp_all [fill_update hs, fillTask]
      · cases h
        rename_i a ha
        simp only [fill_update hs, ha]
        split_ifs <;> rfl
  | writing c avg todo =>
    rw [ht] at h
    cases todo with
    | nil => cases h; simp only [fill_update hs, fillTask, hm, ho, hl]
    | cons e todo =>
      simp only [fillTask, hm, ho, hl] at h ⊢
      split at h
      · split at h
        · cases h; simp_all [fill_update hs, fillTask]
        · cases h
          rename_i h1 h2
          rw [if_pos h1, if_neg h2, fill_update hs]
          split_ifs <;> rfl
      · cases h
        rename_i h1
        rw [if_neg h1, fill_update hs]
        split_ifs <;> rfl
  | releasing c todo =>
    rw [ht] at h
    cases todo with
    | nil => cases h; simp only [fill_update hs, fillTask, hm, ho, hl]
    | cons e todo =>
      simp only [fillTask, hm, ho, hl] at h ⊢
      cases h
      simp only [fill_update hs]
      split_ifs <;> rfl
  | done c => rw [ht] at h; simp at h
  | panicked => rw [ht] at h; simp at h

/-- A step with the next neighbour. -/
theorem fill_next (hs : seeds[tid]? = some seed) {c : Cell D K} (hc : 0 < c.members.length) (ht : s.tasks tid = .growing c []) {x : Nat × D}
    (hx : (nearest seed)[c.members.length - 1]? = some x)
    (h : step cfg n (fun _ => []) seed { s with tasks := Function.update s.tasks tid (.growing c [x]) } tid = some s') :
    step cfg n nearest seed (fill nearest seeds s) tid = some (fill nearest seeds s') := by
  have hft := fill_task (nearest := nearest) (s := s) hs
  obtain ⟨hlt, hx'⟩ := List.getElem?_eq_some_iff.1 hx
  have hd : (nearest seed).drop (c.members.length - 1) = x :: (nearest seed).drop (c.members.length) := by
    rw [List.drop_eq_getElem_cons hlt, hx']
    congr 2
    omega
  obtain ⟨i, d⟩ := x
  unfold step at h ⊢
  rw [hft, ht]
  simp only [fillTask, hd, Function.update_self, Function.update_idem] at h ⊢
  have hm : (fill nearest seeds s).mem = s.mem := rfl
  have ho : (fill nearest seeds s).owner = s.owner := rfl
  have hl : (fill nearest seeds s).log = s.log := rfl
  rw [hm, ho]
  split at h
  · simp at h
  · split at h
    · cases h; simp_all [fill_update hs, fillTask]
    · split at h
      · cases h
        rename_i h1 _ _ h2 h3
        simp only [fill_update hs, h1, h2, h3, fillTask_start]
        rfl
      · cases h
        rename_i h1 _ _ h2 h3
        simp only [fill_update hs, h1, h2, h3]
        simp [fillTask, hl]

/-- A step without further neighbours. -/
theorem fill_last (hs : seeds[tid]? = some seed) {c : Cell D K} (ht : s.tasks tid = .growing c [])
    (hx : (nearest seed)[c.members.length - 1]? = none) (h : step cfg n (fun _ => []) seed s tid = some s') :
    step cfg n nearest seed (fill nearest seeds s) tid = some (fill nearest seeds s') := by
  have hft := fill_task (nearest := nearest) (s := s) hs
  unfold step at h ⊢
  rw [hft, ht]
  rw [ht] at h
  have hd : (nearest seed).drop (c.members.length - 1) = [] := List.drop_eq_nil_of_le (List.getElem?_eq_none_iff.1 hx)
  simp only [fillTask, hd] at h ⊢
  cases h
  rw [fill_update hs, fillTask_start]
  rfl

/-- Cells have members, and neighbours are looked for when they are needed. -/
def GrowsOK (s : State D K) : Prop := ∀ t c rest, s.tasks t = .growing c rest → 0 < c.members.length ∧ rest = []

theorem growsOK_update {s s' : State D K} (h : GrowsOK s) {t : Task D K} (hs : s'.tasks = Function.update s.tasks tid t)
    (ht : ∀ c rest, t = .growing c rest → 0 < c.members.length ∧ rest = []) : GrowsOK s' := by
  intro t' c rest h'
  rw [hs] at h'
  by_cases htt : t' = tid
  · subst htt
    rw [Function.update_self] at h'
    exact ht c rest h'
  · rw [Function.update_of_ne htt] at h'
    exact h t' c rest h'

/-- The task after a step. -/
theorem step_task (h : step cfg n nearest seed s tid = some s') :
    ∃ t, s'.tasks = Function.update s.tasks tid t ∧ (∀ c rest, t = .growing c rest → 0 < c.members.length ∧
      (rest = nearest seed ∨ ∃ c' x, s.tasks tid = .growing c' (x :: rest))) := by
  unfold step at h
  cases ht : s.tasks tid with
  | waiting =>
    rw [ht] at h
    simp only at h
    split at h
    · simp at h
    · split at h
      · cases h; exact ⟨_, rfl, by simp⟩
      · split at h <;> cases h <;> exact ⟨_, rfl, by simp⟩
  | checked =>
    rw [ht] at h
    simp only at h
    split at h
    · simp at h
    · split at h
      · cases h; exact ⟨_, rfl, by simp⟩
      · split at h <;> cases h
        · exact ⟨_, rfl, by simp⟩
        · refine ⟨_, rfl, ?_⟩
          intro c rest hc
          cases hc
          exact ⟨by simp, Or.inl rfl⟩
  | growing c rest =>
    rw [ht] at h
    cases rest with
    | nil => cases h; exact ⟨_, rfl, by simp [startResample]⟩
    | cons x rest =>
      obtain ⟨i, d⟩ := x
      simp only at h
      split at h
      · simp at h
      · split at h
        · cases h; exact ⟨_, rfl, by simp⟩
        · split at h <;> cases h
          · exact ⟨_, rfl, by simp [startResample]⟩
          · refine ⟨_, rfl, ?_⟩
            intro c' rest' hc
            cases hc
            exact ⟨by simp, Or.inr ⟨_, _, rfl⟩⟩
  | locking c held todo =>
    rw [ht] at h
    cases todo with
    | nil => cases h; exact ⟨_, rfl, by simp⟩
    | cons e todo =>
      simp only at h
      split at h
      · simp at h
      · split at h <;> cases h <;> exact ⟨_, rfl, by simp⟩
  | reading c acc todo =>
    rw [ht] at h
    cases todo with
    | nil => cases h; exact ⟨_, rfl, by simp⟩
    | cons e todo =>
      simp only at h
      split at h
      · cases h; exact ⟨_, rfl, by simp⟩
      · cases h
        refine ⟨_, rfl, ?_⟩
        intro c' rest' hc
        split_ifs at hc
  | writing c avg todo =>
    rw [ht] at h
    cases todo with
    | nil => cases h; exact ⟨_, rfl, by simp⟩
    | cons e todo =>
      simp only at h
      split at h
      · split at h
        · cases h; exact ⟨_, rfl, by simp⟩
        · cases h
          refine ⟨_, rfl, ?_⟩
          intro c' rest' hc
          split_ifs at hc
      · cases h
        refine ⟨_, rfl, ?_⟩
        intro c' rest' hc
        split_ifs at hc
  | releasing c todo =>
    rw [ht] at h
    cases todo with
    | nil => cases h; exact ⟨_, rfl, by simp⟩
    | cons e todo =>
      simp only at h
      cases h
      refine ⟨_, rfl, ?_⟩
      intro c' rest' hc
      split_ifs at hc
  | done c => rw [ht] at h; simp at h
  | panicked => rw [ht] at h; simp at h

variable {search : (Nat → D) → Nat → List (Nat × D)} {mem : Mem K}

theorem vreachable_grows {v : VState D K} (h : VReachable cfg n search seeds mem v) : GrowsOK v.core := by
  induction h with
  | init =>
    intro t c rest h
    simp [VState.init, State.init] at h
  | @step v v' _ h ih =>
    cases h with
    | evaluate _ => exact ih
    | @other core tid seed h1 h2 h3 =>
      obtain ⟨t, g1, g2⟩ := step_task h3
      refine growsOK_update ih g1 fun c rest hc => ?_
      obtain ⟨q1, q2⟩ := g2 c rest hc
      refine ⟨q1, q2.resolve_right ?_⟩
      rintro ⟨c', x, hx⟩
      exact h2 _ _ hx
    | @next core tid seed c x h1 h2 h3 h4 =>
      obtain ⟨t, g1, g2⟩ := step_task h4
      rw [Function.update_idem] at g1
      refine growsOK_update ih g1 fun c rest hc => ?_
      obtain ⟨q1, q2⟩ := g2 c rest hc
      refine ⟨q1, ?_⟩
      rcases q2 with q2 | ⟨c', x', hx⟩
      · exact q2
      · simp only [Function.update_self, Task.growing.injEq, List.cons.injEq] at hx
        exact hx.2.2.symm
    | @last core tid seed c h1 h2 h3 h4 =>
      obtain ⟨t, g1, g2⟩ := step_task h4
      refine growsOK_update ih g1 fun c rest hc => ?_
      obtain ⟨q1, q2⟩ := g2 c rest hc
      refine ⟨q1, ?_⟩
      rcases q2 with q2 | ⟨c', x', hx⟩
      · exact q2
      · rw [h2] at hx
        simp at hx

/-- States that can be reached with distances that change can be reached with fixed distances for each seed. -/
theorem vreachable_fixed {v : VState D K} (h : VReachable cfg n search seeds mem v) :
    ∀ d : Nat → Nat → D, (∀ seed, Extends (v.cache seed) (d seed)) →
      Reachable cfg n (fun seed => search (d seed) seed) seeds mem (fill (fun seed => search (d seed) seed) seeds v.core) := by
  induction h with
  | init =>
    intro d _
    have : fill (fun seed => search (d seed) seed) seeds (State.init mem) = (State.init mem : State D K) := by
      unfold fill State.init
      simp only [State.mk.injEq, true_and, and_true]
      funext t
      split <;> rfl
    change Reachable _ _ _ _ _ (fill _ _ (State.init mem))
    rw [this]
    exact .init
  | @step v v' hv h ih =>
    intro d hd
    have hgr := vreachable_grows hv
    cases h with
    | @evaluate seed i x hn =>
      refine ih d fun seed' j y hy => hd seed' j y ?_
      by_cases hs : seed' = seed
      · subst hs
        have hji : j ≠ i := by
          rintro rfl
          rw [hn] at hy
          simp at hy
        simp [Function.update_of_ne hji, hy]
      · simp [Function.update_of_ne hs, hy]
    | @other core tid seed h1 h2 h3 =>
      refine .step (tid := tid) (ih d hd) ?_
      simp only [stepAll, h1]
      exact fill_other h1 h2 h3
    | @next core tid seed c x h1 h2 h3 h4 =>
      refine .step (tid := tid) (ih d hd) ?_
      simp only [stepAll, h1]
      exact fill_next h1 (hgr _ _ _ h2).1 h2 (h3 _ (hd seed)) h4
    | @last core tid seed c h1 h2 h3 h4 =>
      refine .step (tid := tid) (ih d hd) ?_
      simp only [stepAll, h1]
      exact fill_last h1 h2 (h3 _ (hd seed)) h4

/-! ### fixed distances are a special case -/

/-- Only distances to events matter. -/
def Local (n : Nat) (search : (Nat → D) → Nat → List (Nat × D)) : Prop :=
  ∀ d d' seed, (∀ i < n, d i = d' i) → search d seed = search d' seed

theorem fill_blocked (hs : seeds[tid]? = some seed) (hg : ∀ c rest, s.tasks tid ≠ .growing c rest)
    (h : step cfg n (fun _ => []) seed s tid = none) : step cfg n nearest seed (fill nearest seeds s) tid = none := by
  have hft := fill_task (nearest := nearest) (s := s) hs
  unfold step at h ⊢
  rw [hft]
  have hm : (fill nearest seeds s).mem = s.mem := rfl
  have ho : (fill nearest seeds s).owner = s.owner := rfl
  cases ht : s.tasks tid with
  | growing c rest => exact absurd ht (hg c rest)
  | waiting =>
    rw [ht] at h
    simp only [fillTask, hm, ho] at h ⊢
    split at h
    · simp_all
    · split at h
      · simp at h
      · split at h <;> simp at h
  | checked =>
    rw [ht] at h
    simp only [fillTask, hm, ho] at h ⊢
    split at h
    · simp_all
    · split at h
      · simp at h
      · split at h <;> simp at h
  | locking c held todo =>
    rw [ht] at h
    cases todo with
    | nil => simp at h
    | cons e todo =>
      simp only [fillTask, ho] at h ⊢
      split at h
      · simp_all
      · split at h <;> simp at h
  | reading c acc todo =>
    rw [ht] at h
    cases todo with
    | nil => simp at h
    | cons e todo =>
      simp only at h
      split at h <;> simp at h
  | writing c avg todo =>
    rw [ht] at h
    cases todo with
    | nil => simp at h
    | cons e todo =>
      simp only at h
      split at h
      · split at h <;> simp at h
      · simp at h
  | releasing c todo =>
    rw [ht] at h
    cases todo <;> simp at h
  | done c => rfl
  | panicked => rfl

theorem fill_blocked_next (hs : seeds[tid]? = some seed) {c : Cell D K} (hc : 0 < c.members.length) (ht : s.tasks tid = .growing c [])
    {x : Nat × D} (hx : (nearest seed)[c.members.length - 1]? = some x)
    (h : step cfg n (fun _ => []) seed { s with tasks := Function.update s.tasks tid (.growing c [x]) } tid = none) :
    step cfg n nearest seed (fill nearest seeds s) tid = none := by
  have hft := fill_task (nearest := nearest) (s := s) hs
  obtain ⟨hlt, hx'⟩ := List.getElem?_eq_some_iff.1 hx
  have hd : (nearest seed).drop (c.members.length - 1) = x :: (nearest seed).drop (c.members.length) := by
    rw [List.drop_eq_getElem_cons hlt, hx']
    congr 2
    omega
  obtain ⟨i, d⟩ := x
  unfold step at h ⊢
  rw [hft, ht]
  simp only [fillTask, hd, Function.update_self, Function.update_idem] at h ⊢
  have hm : (fill nearest seeds s).mem = s.mem := rfl
  have ho : (fill nearest seeds s).owner = s.owner := rfl
  rw [hm, ho]
  split at h
  · simp_all
  · split at h
    · simp at h
    · split at h <;> simp at h

/-- All distances were evaluated. -/
def AllEvaluated (n : Nat) (seeds : List Nat) (d : Nat → Nat → D) (v : VState D K) : Prop :=
  ∀ seed ∈ seeds, ∀ i < n, v.cache seed i = some (d seed i)

/-- If all distances were evaluated, steps with fixed distances can be made. -/
theorem lift_step (hl : Local n search) {d : Nat → Nat → D} {v : VState D K} (hv : GrowsOK v.core) (ha : AllEvaluated n seeds d v)
    (h : stepAll cfg n (fun seed => search (d seed) seed) seeds (fill (fun seed => search (d seed) seed) seeds v.core) tid = some s') :
    ∃ core, VStep cfg n search seeds v ⟨core, v.cache⟩ ∧ s' = fill (fun seed => search (d seed) seed) seeds core := by
  unfold stepAll at h
  cases hs : seeds[tid]? with
  | none => rw [hs] at h; simp at h
  | some seed =>
    rw [hs] at h
    simp only at h
    have hloc : ∀ d', Extends (v.cache seed) d' → search d' seed = search (d seed) seed := by
      intro d' hd'
      refine hl _ _ _ fun i hi => hd' i _ (ha seed ?_ i hi)
      exact List.mem_of_getElem? hs
    by_cases hg : ∃ c rest, v.core.tasks tid = .growing c rest
    · obtain ⟨c, rest, ht⟩ := hg
      obtain ⟨hc, rfl⟩ := hv _ _ _ ht
      cases hx : (search (d seed) seed)[c.members.length - 1]? with
      | none =>
        cases hst : step cfg n (fun _ => []) seed v.core tid with
        | none =>
          unfold step at hst
          rw [ht] at hst
          simp at hst
        | some core =>
          have := fill_last (nearest := fun seed => search (d seed) seed) hs ht hx hst
          rw [this] at h
          refine ⟨core, .last hs ht (fun d' hd' => by rw [hloc d' hd', hx]) hst, ?_⟩
          cases h
          rfl
      | some x =>
        cases hst : step cfg n (fun _ => []) seed { v.core with tasks := Function.update v.core.tasks tid (.growing c [x]) } tid with
        | none =>
          rw [fill_blocked_next (nearest := fun seed => search (d seed) seed) hs hc ht hx hst] at h
          simp at h
        | some core =>
          have := fill_next (nearest := fun seed => search (d seed) seed) hs hc ht hx hst
          rw [this] at h
          refine ⟨core, .next hs ht (fun d' hd' => by rw [hloc d' hd', hx]) hst, ?_⟩
          cases h
          rfl
    · simp only [not_exists] at hg
      cases hst : step cfg n (fun _ => []) seed v.core tid with
      | none =>
        rw [fill_blocked (nearest := fun seed => search (d seed) seed) hs hg hst] at h
        simp at h
      | some core =>
        have := fill_other (nearest := fun seed => search (d seed) seed) hs hg hst
        rw [this] at h
        refine ⟨core, .other hs hg hst, ?_⟩
        cases h
        rfl

theorem vreachable_path {v v' : VState D K} (h : VReachable cfg n search seeds mem v)
    (h' : Relation.ReflTransGen (VStep cfg n search seeds) v v') : VReachable cfg n search seeds mem v' := by
  induction h' with
  | refl => exact h
  | tail _ h2 ih => exact .step ih h2

/-- Distances can be evaluated. -/
theorem evaluate_list (d : Nat → Nat → D) (l : List (Nat × Nat)) (v : VState D K) (hd : ∀ seed, Extends (v.cache seed) (d seed)) :
    ∃ v' : VState D K, Relation.ReflTransGen (VStep cfg n search seeds) v v' ∧ v'.core = v.core ∧
      (∀ seed, Extends (v'.cache seed) (d seed)) ∧ (∀ seed i, v.cache seed i ≠ none → v'.cache seed i ≠ none) ∧
      ∀ x ∈ l, v'.cache x.1 x.2 ≠ none := by
  induction l generalizing v with
  | nil => exact ⟨v, .refl, rfl, hd, fun _ _ h => h, by simp⟩
  | cons x l ih =>
    obtain ⟨a, b⟩ := x
    by_cases hc : v.cache a b = none
    · have key : ∀ seed, Extends ((Function.update v.cache a (Function.update (v.cache a) b (some (d a b)))) seed) (d seed) := by
        intro seed i w hw
        by_cases hs : seed = a
        · subst hs
          rw [Function.update_self] at hw
          by_cases hi : i = b
          · subst hi
            rw [Function.update_self] at hw
            exact Option.some.inj hw
          · rw [Function.update_of_ne hi] at hw
            exact hd _ _ _ hw
        · rw [Function.update_of_ne hs] at hw
          exact hd _ _ _ hw
      obtain ⟨v', h1, h2, h3, h4, h5⟩ := ih ⟨v.core, Function.update v.cache a (Function.update (v.cache a) b (some (d a b)))⟩ key
      refine ⟨v', .head (.evaluate hc) h1, h2, h3, fun seed i hi => h4 seed i ?_, ?_⟩
      · by_cases hs : seed = a
        · subst hs
          by_cases hi' : i = b
          · subst hi'; simp
          · simpa [Function.update_of_ne hi'] using hi
        · simpa [Function.update_of_ne hs] using hi
      · intro x hx
        rcases List.mem_cons.1 hx with rfl | hx
        · exact h4 _ _ (by simp)
        · exact h5 x hx
    · obtain ⟨v', h1, h2, h3, h4, h5⟩ := ih v hd
      refine ⟨v', h1, h2, h3, h4, ?_⟩
      intro x hx
      rcases List.mem_cons.1 hx with rfl | hx
      · exact h4 _ _ hc
      · exact h5 x hx

theorem evaluate_all (d : Nat → Nat → D) (v : VState D K) (hd : ∀ seed, Extends (v.cache seed) (d seed)) :
    ∃ v' : VState D K, Relation.ReflTransGen (VStep cfg n search seeds) v v' ∧ v'.core = v.core ∧
      (∀ seed, Extends (v'.cache seed) (d seed)) ∧ AllEvaluated n seeds d v' := by
  obtain ⟨v', h1, h2, h3, -, h5⟩ := evaluate_list (cfg := cfg) (n := n) (search := search) (seeds := seeds) d
    (seeds.flatMap fun a => (List.range n).map fun b => (a, b)) v hd
  refine ⟨v', h1, h2, h3, fun seed hs i hi => ?_⟩
  have := h5 (seed, i) (List.mem_flatMap.2 ⟨seed, hs, List.mem_map.2 ⟨i, List.mem_range.2 hi, rfl⟩⟩)
  cases hc : v'.cache seed i with
  | none => exact absurd hc this
  | some w => rw [h3 seed i w hc]

/-- What can be reached with fixed distances can be reached. -/
theorem lift_schedule (hl : Local n search) {d : Nat → Nat → D} {v : VState D K} (hr : VReachable cfg n search seeds mem v)
    (ha : AllEvaluated n seeds d v) {sched : List Nat}
    (h : runSchedule cfg n (fun seed => search (d seed) seed) seeds sched (fill (fun seed => search (d seed) seed) seeds v.core) = some s') :
    ∃ v' : VState D K, Relation.ReflTransGen (VStep cfg n search seeds) v v' ∧
      s' = fill (fun seed => search (d seed) seed) seeds v'.core := by
  induction sched generalizing v with
  | nil =>
    simp only [runSchedule, Option.some.injEq] at h
    exact ⟨v, .refl, h.symm⟩
  | cons t sched ih =>
    simp only [runSchedule] at h
    cases hst : stepAll cfg n (fun seed => search (d seed) seed) seeds (fill (fun seed => search (d seed) seed) seeds v.core) t with
    | none => rw [hst] at h; simp at h
    | some s1 =>
      rw [hst] at h
      obtain ⟨core, h1, rfl⟩ := lift_step hl (vreachable_grows hr) ha hst
      obtain ⟨v', h2, h3⟩ := ih (v := ⟨core, v.cache⟩) (.step hr h1) ha h
      exact ⟨v', .head h1 h2, h3⟩

theorem lift_reachable (hl : Local n search) (d : Nat → Nat → D) (h : Reachable cfg n (fun seed => search (d seed) seed) seeds mem s) :
    ∃ v : VState D K, VReachable cfg n search seeds mem v ∧ AllEvaluated n seeds d v ∧
      s = fill (fun seed => search (d seed) seed) seeds v.core := by
  induction h with
  | init =>
    obtain ⟨v, h1, h2, -, h4⟩ := evaluate_all (cfg := cfg) (n := n) (search := search) (seeds := seeds) d (VState.init mem : VState D K)
      (by intro seed i w hw; simp [VState.init] at hw)
    refine ⟨v, vreachable_path .init h1, h4, ?_⟩
    rw [h2]
    unfold fill VState.init State.init
    simp only [State.mk.injEq, true_and, and_true]
    funext t
    split <;> rfl
  | step _ h ih =>
    obtain ⟨v, h1, h2, rfl⟩ := ih
    obtain ⟨core, g1, g2⟩ := lift_step hl (vreachable_grows h1) h2 h
    exact ⟨⟨core, v.cache⟩, .step h1 g1, h2, g2⟩

theorem fill_finished : (fill nearest seeds s).Finished seeds ↔ s.Finished seeds := by
  unfold State.Finished
  constructor
  · intro h t ht
    obtain ⟨c, hc⟩ := h t ht
    rw [fill_task (List.getElem?_eq_getElem ht)] at hc
    cases hs : s.tasks t <;> rw [hs] at hc <;> simp [fillTask] at hc
    exact ⟨_, rfl⟩
  · intro h t ht
    obtain ⟨c, hc⟩ := h t ht
    rw [fill_task (List.getElem?_eq_getElem ht), hc]
    exact ⟨c, rfl⟩

theorem fill_panicked {t : Nat} : (fill nearest seeds s).tasks t = .panicked ↔ s.tasks t = .panicked := by
  unfold fill
  simp only
  split
  · cases hs : s.tasks t <;> simp [fillTask]
  · rfl

end Machine

end Cres

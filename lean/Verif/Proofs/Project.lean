import Verif.Proofs.Relabel

/-!
Lemmas for C100: parallel resampling of events of which some are isolated from the others. Leaving out all steps of the
tasks for the other events gives resampling of the isolated events alone.
-/

set_option linter.unusedSectionVars false

namespace Cres

section

variable {D K : Type*}

/-- The events that occur in the state of a task. -/
def Task.idx : Task D K → List Nat
  | .growing c rest => c.members ++ rest.map Prod.fst
  | .locking c held todo => c.members ++ held ++ todo
  | .reading c _ todo => c.members ++ todo
  | .writing c _ todo => c.members ++ todo
  | .releasing c todo => c.members ++ todo
  | _ => []

/-- The state of a task with other numbers for the events. -/
def Task.relabel (σ : Nat → Nat) : Task D K → Task D K
  | .waiting => .waiting
  | .checked => .checked
  | .growing c rest => .growing (c.relabel σ) (rest.map fun x => (σ x.1, x.2))
  | .locking c held todo => .locking (c.relabel σ) (held.map σ) (todo.map σ)
  | .reading c acc todo => .reading (c.relabel σ) acc (todo.map σ)
  | .writing c avg todo => .writing (c.relabel σ) avg (todo.map σ)
  | .releasing c todo => .releasing (c.relabel σ) (todo.map σ)
  | .done c => .done (c.map (Cell.relabel σ))
  | .panicked => .panicked

/-- The numbers `i < n'` stand for events `σ i`, and the tasks for these events are the tasks `θ t`. These tasks and the
other tasks do not have events in common. -/
structure Isolated (n n' : Nat) (σ θ : Nat → Nat) (nearest nearest' : Nat → List (Nat × D)) (seeds seeds' : List Nat) : Prop where
  lt : ∀ i < n', σ i < n
  mono : ∀ i < n', ∀ j < n', i < j → σ i < σ j
  task_inj : ∀ t < seeds'.length, ∀ t' < seeds'.length, θ t = θ t' → t = t'
  seed : ∀ t i, seeds'[t]? = some i → i < n' ∧ seeds[θ t]? = some (σ i) ∧
    nearest (σ i) = ((nearest' i).map fun x => (σ x.1, x.2)) ∧ ∀ x ∈ nearest' i, x.1 < n'
  other : ∀ t i, seeds[t]? = some i → (∀ t' < seeds'.length, θ t' ≠ t) → ∀ e ∈ i :: (nearest i).map Prod.fst, ∀ j < n', e ≠ σ j

/-- The state of resampling for the isolated events is part of the state for all events. -/
structure PartOf (n' : Nat) (σ θ : Nat → Nat) (seeds seeds' : List Nat) (s s' : State D K) : Prop where
  mem : ∀ i < n', s.mem (σ i) = s'.mem i
  owner : ∀ i < n', s.owner (σ i) = (s'.owner i).map θ
  tasks : ∀ t < seeds'.length, s.tasks (θ t) = (s'.tasks t).relabel σ
  inside : ∀ t < seeds'.length, ∀ e ∈ (s'.tasks t).idx, e < n'
  outside : ∀ t < seeds.length, (∀ t' < seeds'.length, θ t' ≠ t) → ∀ e ∈ (s.tasks t).idx, ∀ i < n', e ≠ σ i

variable {n n' : Nat} {σ θ : Nat → Nat} {nearest nearest' : Nat → List (Nat × D)} {seeds seeds' : List Nat}
  {s s' : State D K}

theorem Isolated.inj (h : Isolated n n' σ θ nearest nearest' seeds seeds') {i j : Nat} (hi : i < n') (hj : j < n')
    (hij : σ i = σ j) : i = j := by
  rcases lt_trichotomy i j with hlt | rfl | hlt
  · have := h.mono i hi j hj hlt; omega
  · rfl
  · have := h.mono j hj i hi hlt; omega

theorem Isolated.le_iff (h : Isolated n n' σ θ nearest nearest' seeds seeds') {i j : Nat} (hi : i < n') (hj : j < n') :
    i ≤ j ↔ σ i ≤ σ j := by
  constructor
  · intro hle
    rcases Nat.lt_or_eq_of_le hle with hlt | rfl
    · exact (h.mono i hi j hj hlt).le
    · exact le_rfl
  · intro hle
    by_contra hlt
    have := h.mono j hj i hi (by omega)
    omega

theorem Isolated.update (h : Isolated n n' σ θ nearest nearest' seeds seeds') {α : Type*} {f f' : Nat → α} {g : α → α}
    (hf : ∀ i < n', f (σ i) = g (f' i)) {e : Nat} (he : e < n') (x : α) :
    ∀ i < n', Function.update f (σ e) (g x) (σ i) = g (Function.update f' e x i) := by
  intro i hi
  by_cases hie : i = e
  · subst hie; simp
  · rw [Function.update_of_ne (fun h' => hie (h.inj hi he h')), Function.update_of_ne hie, hf i hi]

theorem PartOf.set (h : PartOf n' σ θ seeds seeds' s s') (hi : Isolated n n' σ θ nearest nearest' seeds seeds') {t : Nat}
    (ht : t < seeds'.length) {k : Task D K} (hk : ∀ e ∈ k.idx, e < n') {mem mem' : Mem K} (hm : ∀ i < n', mem (σ i) = mem' i)
    {owner owner' : Nat → Option Nat} (ho : ∀ i < n', owner (σ i) = (owner' i).map θ) (log log' : List (Cell D K)) :
    PartOf n' σ θ seeds seeds' ⟨mem, owner, Function.update s.tasks (θ t) (k.relabel σ), log⟩
      ⟨mem', owner', Function.update s'.tasks t k, log'⟩ := by
  refine ⟨hm, ho, fun t' ht' => ?_, fun t' ht' => ?_, fun t' ht' hne => ?_⟩
  · by_cases htt : t' = t
    · subst htt; simp
    · simp only
      rw [Function.update_of_ne (fun h' => htt (hi.task_inj _ ht' _ ht h')), Function.update_of_ne htt, h.tasks t' ht']
  · by_cases htt : t' = t
    · subst htt; simpa using hk
    · simp only
      rw [Function.update_of_ne htt]
      exact h.inside t' ht'
  · simp only
    rw [Function.update_of_ne (fun h' => hne t ht h'.symm)]
    exact h.outside t' ht' hne

theorem PartOf.upd (h : PartOf n' σ θ seeds seeds' s s') (hi : Isolated n n' σ θ nearest nearest' seeds seeds') {t : Nat}
    (ht : t < seeds'.length) {k : Task D K} (hk : ∀ e ∈ k.idx, e < n') :
    PartOf n' σ θ seeds seeds' { s with tasks := Function.update s.tasks (θ t) (k.relabel σ) }
      { s' with tasks := Function.update s'.tasks t k } := h.set hi ht hk h.mem h.owner _ _

theorem sortMembers_relabel (hi : Isolated n n' σ θ nearest nearest' seeds seeds') {c : Cell D K} (hc : ∀ i ∈ c.members, i < n') :
    (c.relabel σ).sortMembers = (c.sortMembers).relabel σ := by
  unfold Cell.sortMembers Cell.relabel
  simp only
  congr 1
  exact (List.map_insertionSort (r := (· ≤ ·)) (s := (· ≤ ·)) σ c.members fun a ha b hb => hi.le_iff (hc a ha) (hc b hb)).symm

theorem sortMembers_mem {c : Cell D K} {i : Nat} : i ∈ c.sortMembers.members ↔ i ∈ c.members :=
  (List.perm_insertionSort _ _).mem_iff

variable [Zero D] [Add K] [Zero K] [One K] [Mul K] [Div K] [NatCast K] [LinearOrder K] {cfg : Cfg}

theorem startResample_relabel (hi : Isolated n n' σ θ nearest nearest' seeds seeds') {c : Cell D K} (hc : ∀ i ∈ c.members, i < n') :
    startResample (c.relabel σ) = (startResample c).relabel σ := by
  unfold startResample
  rw [sortMembers_relabel hi hc]
  rfl

theorem startResample_idx {c : Cell D K} {e : Nat} (he : e ∈ (startResample c).idx) : e ∈ c.members := by
  simp only [startResample, Task.idx, List.append_nil, List.mem_append, or_self] at he
  exact sortMembers_mem.1 he

/-- A step of a task for an isolated event. -/
theorem PartOf.own (h : PartOf n' σ θ seeds seeds' s s') (hi : Isolated n n' σ θ nearest nearest' seeds seeds') {t : Nat}
    (ht : t < seeds'.length) :
    (stepAll cfg n nearest seeds s (θ t) = none ∧ stepAll cfg n' nearest' seeds' s' t = none) ∨
    ∃ s1 s1', stepAll cfg n nearest seeds s (θ t) = some s1 ∧ stepAll cfg n' nearest' seeds' s' t = some s1' ∧
      PartOf n' σ θ seeds seeds' s1 s1' := by
  obtain ⟨g1, g2, g3, g4⟩ := hi.seed t _ (List.getElem?_eq_getElem ht)
  generalize hseed : seeds'[t] = seed at g1 g2 g3 g4
  have hst' : seeds'[t]? = some seed := by rw [List.getElem?_eq_getElem ht, hseed]
  unfold stepAll
  rw [g2, hst']
  simp only
  have hown : ∀ i < n', (s.owner (σ i)).isSome = (s'.owner i).isSome := fun i hin => by rw [h.owner i hin, Option.isSome_map]
  have hwt : ∀ i < n', weightAt n s.mem (σ i) = weightAt n' s'.mem i := by
    intro i hin
    unfold weightAt
    rw [if_pos (hi.lt i hin), if_pos hin, h.mem i hin]
  have hins := h.inside t ht
  have htask := h.tasks t ht
  unfold step
  simp only
  cases hk : s'.tasks t with
  | waiting =>
    rw [hk] at htask
    simp only [htask, Task.relabel, hown seed g1, hwt seed g1]
    by_cases h1 : (s'.owner seed).isSome = true
    · exact Or.inl ⟨by simp [h1], by simp [h1]⟩
    · simp only [h1, if_false]
      right
      cases weightAt n' s'.mem seed with
      | none => exact ⟨_, _, rfl, rfl, h.upd hi ht (k := .panicked) (by simp [Task.idx])⟩
      | some w =>
        by_cases h2 : 0 < w
        · simp only [h2, if_true]
          exact ⟨_, _, rfl, rfl, h.upd hi ht (k := .done none) (by simp [Task.idx])⟩
        · simp only [h2, if_false]
          exact ⟨_, _, rfl, rfl, h.upd hi ht (k := .checked) (by simp [Task.idx])⟩
  | checked =>
    rw [hk] at htask
    simp only [htask, Task.relabel, hown seed g1, hwt seed g1]
    by_cases h1 : (s'.owner seed).isSome = true
    · exact Or.inl ⟨by simp [h1], by simp [h1]⟩
    · simp only [h1, if_false]
      right
      cases weightAt n' s'.mem seed with
      | none => exact ⟨_, _, rfl, rfl, h.upd hi ht (k := .panicked) (by simp [Task.idx])⟩
      | some w =>
        by_cases h2 : cfg.debug = true ∧ ¬ w < 0
        · simp only [if_pos h2]
          exact ⟨_, _, rfl, rfl, h.upd hi ht (k := .panicked) (by simp [Task.idx])⟩
        · simp only [if_neg h2]
          refine ⟨_, _, rfl, rfl, ?_⟩
          rw [g3]
          refine h.upd hi ht (k := .growing ⟨[seed], 0, w⟩ (nearest' seed)) ?_
          intro e he
          simp only [Task.idx, List.mem_append, List.mem_singleton, List.mem_map] at he
          rcases he with rfl | ⟨x, hx, rfl⟩
          · exact g1
          · exact g4 x hx
  | growing c rest =>
    rw [hk] at htask hins
    simp only [Task.idx, List.mem_append] at hins
    have hc : ∀ i ∈ c.members, i < n' := fun i him => hins i (Or.inl him)
    cases rest with
    | nil =>
      simp only [htask, Task.relabel, List.map_nil]
      refine Or.inr ⟨_, _, rfl, rfl, ?_⟩
      rw [startResample_relabel hi hc]
      exact h.upd hi ht fun e he => hc e (startResample_idx he)
    | cons x rest =>
      obtain ⟨i, d⟩ := x
      have hin : i < n' := hins i (Or.inr (by simp))
      simp only [htask, Task.relabel, List.map_cons, hown i hin, hwt i hin]
      by_cases h1 : (s'.owner i).isSome = true
      · exact Or.inl ⟨by simp [h1], by simp [h1]⟩
      · simp only [h1, if_false]
        right
        cases weightAt n' s'.mem i with
        | none => exact ⟨_, _, rfl, rfl, h.upd hi ht (k := .panicked) (by simp [Task.idx])⟩
        | some w =>
          have hc' : ∀ j ∈ (⟨c.members ++ [i], d, c.weightSum + w⟩ : Cell D K).members, j < n' := by
            intro j hj
            simp only [List.mem_append, List.mem_singleton] at hj
            rcases hj with hj | rfl
            · exact hc j hj
            · exact hin
          have hrel : (⟨(c.relabel σ).members ++ [σ i], d, (c.relabel σ).weightSum + w⟩ : Cell D K) =
              (⟨c.members ++ [i], d, c.weightSum + w⟩ : Cell D K).relabel σ := by simp [Cell.relabel]
          simp only
          rw [hrel]
          simp only [Cell.relabel]
          by_cases h2 : 0 ≤ c.weightSum + w
          · simp only [h2, if_true]
            refine ⟨_, _, rfl, rfl, ?_⟩
            have := startResample_relabel hi hc'
            simp only [Cell.relabel] at this
            rw [this]
            exact h.upd hi ht fun e he => hc' e (startResample_idx he)
          · simp only [h2, if_false]
            refine ⟨_, _, rfl, rfl, ?_⟩
            refine h.upd hi ht (k := .growing ⟨c.members ++ [i], d, c.weightSum + w⟩ rest) ?_
            intro e he
            simp only [Task.idx, List.mem_append] at he
            rcases he with he | he
            · exact hc' e (by simpa using he)
            · exact hins e (Or.inr (by simp only [List.map_cons, List.mem_cons]; exact Or.inr he))
  | locking c held todo =>
    rw [hk] at htask hins
    simp only [Task.idx, List.mem_append] at hins
    cases todo with
    | nil =>
      simp only [htask, Task.relabel, List.map_nil]
      exact Or.inr ⟨_, _, rfl, rfl, h.upd hi ht (k := .panicked) (by simp [Task.idx])⟩
    | cons e todo =>
      have hen : e < n' := hins e (Or.inr (by simp))
      simp only [htask, Task.relabel, List.map_cons, hown e hen]
      by_cases h1 : (s'.owner e).isSome = true
      · exact Or.inl ⟨by simp [h1], by simp [h1]⟩
      · simp only [h1, if_false, List.isEmpty_map]
        right
        have ho := hi.update (g := Option.map θ) h.owner hen (some t)
        by_cases h2 : todo.isEmpty = true
        · simp only [h2, if_true]
          refine ⟨_, _, rfl, rfl, ?_⟩
          refine h.set hi ht (k := .reading c none c.members) ?_ h.mem ho _ _
          intro e he
          simp only [Task.idx, List.mem_append, or_self] at he
          exact hins e (Or.inl (Or.inl he))
        · simp only [h2]
          refine ⟨_, _, rfl, rfl, ?_⟩
          have := h.set hi ht (k := .locking c (held ++ [e]) todo) (fun e' he => by
            simp only [Task.idx, List.mem_append, List.mem_singleton] at he
            refine hins e' ?_
            simp only [List.mem_cons]
            tauto) h.mem ho s.log s'.log
          simpa [Task.relabel] using this
  | reading c acc todo =>
    rw [hk] at htask hins
    simp only [Task.idx, List.mem_append] at hins
    cases todo with
    | nil =>
      simp only [htask, Task.relabel, List.map_nil]
      exact Or.inr ⟨_, _, rfl, rfl, h.upd hi ht (k := .panicked) (by simp [Task.idx])⟩
    | cons e todo =>
      have hen : e < n' := hins e (Or.inr (by simp))
      have hc : ∀ i ∈ c.members, i < n' := fun i him => hins i (Or.inl him)
      simp only [htask, Task.relabel, List.map_cons, h.mem e hen]
      right
      cases accumulate cfg acc (s'.mem e) with
      | none => exact ⟨_, _, rfl, rfl, h.upd hi ht (k := .panicked) (by simp [Task.idx])⟩
      | some a =>
        refine ⟨_, _, rfl, rfl, ?_⟩
        have htk : (if (todo.map σ).isEmpty = true then Task.writing (c.relabel σ) (normalise cfg (c.relabel σ).members.length a)
            (writeOrder cfg (c.relabel σ).members) else Task.reading (c.relabel σ) (some a) (todo.map σ)) =
            (if todo.isEmpty = true then Task.writing c (normalise cfg c.members.length a)
            (writeOrder cfg c.members) else Task.reading c (some a) todo).relabel σ := by
          rw [List.isEmpty_map]
          split_ifs
          · simp [Task.relabel, Cell.relabel, writeOrder]
            split_ifs <;> simp [List.map_append, List.map_tail, List.map_take]
          · rfl
        rw [htk]
        refine h.set hi ht ?_ ?_ h.owner _ _
        · intro e' he
          split_ifs at he with h3
          · simp only [Task.idx, List.mem_append, writeOrder] at he
            rcases he with he | he
            · exact hc e' he
            · refine hc e' ?_
              split_ifs at he
              · rcases List.mem_append.1 he with he | he
                · exact List.mem_of_mem_tail he
                · exact List.mem_of_mem_take he
              · exact he
          · simp only [Task.idx, List.mem_append] at he
            refine hins e' ?_
            simp only [List.mem_cons]
            tauto
        · by_cases h3 : cfg.multi = true ∧ acc = none
          · simp only [if_pos h3]
            exact hi.update (g := _root_.id) h.mem hen []
          · simp only [if_neg h3]
            exact h.mem
  | writing c avg todo =>
    rw [hk] at htask hins
    simp only [Task.idx, List.mem_append] at hins
    cases todo with
    | nil =>
      simp only [htask, Task.relabel, List.map_nil]
      exact Or.inr ⟨_, _, rfl, rfl, h.upd hi ht (k := .panicked) (by simp [Task.idx])⟩
    | cons e todo =>
      have hen : e < n' := hins e (Or.inr (by simp))
      have hc : ∀ i ∈ c.members, i < n' := fun i him => hins i (Or.inl him)
      have htail : σ e ∈ (c.relabel σ).members.tail ↔ e ∈ c.members.tail := by
        simp only [Cell.relabel, ← List.map_tail, List.mem_map]
        constructor
        · rintro ⟨j, hj, hje⟩
          rw [← hi.inj (hc j (List.mem_of_mem_tail hj)) hen hje]
          exact hj
        · exact fun h => ⟨e, h, rfl⟩
      simp only [htask, Task.relabel, List.map_cons, h.mem e hen, htail]
      right
      have hmem := hi.update (g := _root_.id) h.mem hen avg
      cases hmul : cfg.multi with
      | true =>
        simp only [if_true]
        by_cases h3 : e ∈ c.members.tail ∧ (s'.mem e).length ≠ avg.length
        · simp only [if_pos h3]
          exact ⟨_, _, rfl, rfl, h.upd hi ht (k := .panicked) (by simp [Task.idx])⟩
        · simp only [if_neg h3]
          refine ⟨_, _, rfl, rfl, ?_⟩
          have htk : (if (todo.map σ).isEmpty = true then Task.releasing (c.relabel σ) (c.relabel σ).members
              else Task.writing (c.relabel σ) avg (todo.map σ)) =
              (if todo.isEmpty = true then Task.releasing c c.members else Task.writing c avg todo).relabel σ := by
            rw [List.isEmpty_map]
            split_ifs <;> rfl
          rw [htk]
          refine h.set hi ht ?_ hmem h.owner _ _
          intro e' he
          split_ifs at he
          · simp only [Task.idx, List.mem_append, or_self] at he
            exact hc e' he
          · simp only [Task.idx, List.mem_append] at he
            refine hins e' ?_
            simp only [List.mem_cons]
            tauto
      | false =>
        simp only [Bool.false_eq_true, if_false]
        refine ⟨_, _, rfl, rfl, ?_⟩
        have htk : (if (todo.map σ).isEmpty = true then Task.done (some (c.relabel σ))
            else Task.writing (c.relabel σ) avg (todo.map σ)) =
            (if todo.isEmpty = true then Task.done (some c) else Task.writing c avg todo).relabel σ := by
          rw [List.isEmpty_map]
          split_ifs <;> rfl
        rw [htk]
        refine h.set hi ht ?_ hmem (hi.update (g := Option.map θ) h.owner hen none) _ _
        intro e' he
        split_ifs at he
        · simp [Task.idx] at he
        · simp only [Task.idx, List.mem_append] at he
          refine hins e' ?_
          simp only [List.mem_cons]
          tauto
  | releasing c todo =>
    rw [hk] at htask hins
    simp only [Task.idx, List.mem_append] at hins
    cases todo with
    | nil =>
      simp only [htask, Task.relabel, List.map_nil]
      exact Or.inr ⟨_, _, rfl, rfl, h.upd hi ht (k := .done (some c)) (by simp [Task.idx])⟩
    | cons e todo =>
      have hen : e < n' := hins e (Or.inr (by simp))
      simp only [htask, Task.relabel, List.map_cons]
      refine Or.inr ⟨_, _, rfl, rfl, ?_⟩
      have htk : (if (todo.map σ).isEmpty = true then Task.done (some (c.relabel σ))
          else Task.releasing (c.relabel σ) (todo.map σ)) =
          (if todo.isEmpty = true then Task.done (some c) else Task.releasing c todo).relabel σ := by
        rw [List.isEmpty_map]
        split_ifs <;> rfl
      rw [htk]
      refine h.set hi ht ?_ h.mem (hi.update (g := Option.map θ) h.owner hen none) _ _
      intro e' he
      split_ifs at he
      · simp [Task.idx] at he
      · simp only [Task.idx, List.mem_append] at he
        refine hins e' ?_
        simp only [List.mem_cons]
        tauto
  | done c =>
    rw [hk] at htask
    exact Or.inl ⟨by simp [htask, Task.relabel], by simp⟩
  | panicked =>
    rw [hk] at htask
    exact Or.inl ⟨by simp [htask, Task.relabel], by simp⟩

/-- What a step changes. -/
theorem step_frame {seed t : Nat} {s s1 : State D K} (h : step cfg n nearest seed s t = some s1) :
    (∀ e ∈ (s1.tasks t).idx, e ∈ seed :: (nearest seed).map Prod.fst ∨ e ∈ (s.tasks t).idx) ∧
    (∀ t' ≠ t, s1.tasks t' = s.tasks t') ∧
    ∀ e ∉ (s.tasks t).idx, s1.mem e = s.mem e ∧ s1.owner e = s.owner e := by
  have hupd : ∀ k : Task D K, (∀ e ∈ k.idx, e ∈ seed :: (nearest seed).map Prod.fst ∨ e ∈ (s.tasks t).idx) →
      ∀ {mem : Mem K} {owner : Nat → Option Nat} {log : List (Cell D K)},
      (∀ e ∉ (s.tasks t).idx, mem e = s.mem e ∧ owner e = s.owner e) →
      s1 = ⟨mem, owner, Function.update s.tasks t k, log⟩ →
      (∀ e ∈ (s1.tasks t).idx, e ∈ seed :: (nearest seed).map Prod.fst ∨ e ∈ (s.tasks t).idx) ∧
      (∀ t' ≠ t, s1.tasks t' = s.tasks t') ∧
      ∀ e ∉ (s.tasks t).idx, s1.mem e = s.mem e ∧ s1.owner e = s.owner e := by
    rintro k hk mem owner log hm rfl
    exact ⟨by simpa using hk, fun t' ht' => by simp [Function.update_of_ne ht'], hm⟩
  have hsame : ∀ e ∉ (s.tasks t).idx, s.mem e = s.mem e ∧ s.owner e = s.owner e := fun _ _ => ⟨rfl, rfl⟩
  have hne : ∀ {e e' : Nat}, e' ∈ (s.tasks t).idx → e ∉ (s.tasks t).idx → e ≠ e' := by
    rintro e e' h1 h2 rfl
    exact h2 h1
  unfold step at h
  simp only at h
  obtain ⟨T, hT⟩ : ∃ T, s.tasks t = T := ⟨_, rfl⟩
  rw [hT] at hupd hsame hne h ⊢
  have hstart : ∀ {c : Cell D K} {e : Nat}, (∀ i ∈ c.members, i ∈ seed :: (nearest seed).map Prod.fst ∨ i ∈ T.idx) →
      e ∈ (startResample c).idx → e ∈ seed :: (nearest seed).map Prod.fst ∨ e ∈ T.idx := fun hc he => hc _ (startResample_idx he)
  cases T with
  | waiting =>
    simp only at h
    split at h
    · simp at h
    · split at h
      · exact hupd .panicked (by simp [Task.idx]) hsame (Option.some.inj h).symm
      · split at h
        · exact hupd (.done none) (by simp [Task.idx]) hsame (Option.some.inj h).symm
        · exact hupd .checked (by simp [Task.idx]) hsame (Option.some.inj h).symm
  | checked =>
    simp only at h
    split at h
    · simp at h
    · split at h
      · exact hupd .panicked (by simp [Task.idx]) hsame (Option.some.inj h).symm
      · split at h
        · exact hupd .panicked (by simp [Task.idx]) hsame (Option.some.inj h).symm
        · refine hupd _ ?_ hsame (Option.some.inj h).symm
          intro e he
          simp only [Task.idx, List.mem_append, List.mem_singleton] at he
          exact Or.inl (List.mem_cons.2 he)
  | growing c rest =>
    cases rest with
    | nil =>
      simp only at h
      refine hupd _ ?_ hsame (Option.some.inj h).symm
      intro e he
      exact hstart (fun i hi => Or.inr (by simp [Task.idx, hi])) he
    | cons x rest =>
      obtain ⟨i, d⟩ := x
      simp only at h
      split at h
      · simp at h
      · split at h
        · exact hupd .panicked (by simp [Task.idx]) hsame (Option.some.inj h).symm
        · split at h
          · refine hupd _ ?_ hsame (Option.some.inj h).symm
            intro e he
            refine hstart (fun j hj => Or.inr ?_) he
            simp only [List.mem_append, List.mem_singleton] at hj
            simp only [Task.idx, List.map_cons, List.mem_append, List.mem_cons]
            tauto
          · refine hupd _ ?_ hsame (Option.some.inj h).symm
            intro e he
            simp only [Task.idx, List.mem_append, List.mem_singleton] at he
            simp only [Task.idx, List.map_cons, List.mem_append, List.mem_cons]
            tauto
  | locking c held todo =>
    cases todo with
    | nil =>
      simp only at h
      exact hupd .panicked (by simp [Task.idx]) hsame (Option.some.inj h).symm
    | cons e todo =>
      simp only at h
      have ho : ∀ e' ∉ (Task.locking c held (e :: todo) : Task D K).idx,
          s.mem e' = s.mem e' ∧ Function.update s.owner e (some t) e' = s.owner e' := fun e' he' =>
        ⟨rfl, Function.update_of_ne (hne (by simp [Task.idx]) he') _ _⟩
      split at h
      · simp at h
      · split at h
        · refine hupd _ ?_ ho (Option.some.inj h).symm
          intro e' he
          simp only [Task.idx, List.mem_append] at he
          simp only [Task.idx, List.mem_append]
          tauto
        · refine hupd _ ?_ ho (Option.some.inj h).symm
          intro e' he
          simp only [Task.idx, List.mem_append, List.mem_singleton] at he
          simp only [Task.idx, List.mem_append, List.mem_cons]
          tauto
  | reading c acc todo =>
    cases todo with
    | nil =>
      simp only at h
      exact hupd .panicked (by simp [Task.idx]) hsame (Option.some.inj h).symm
    | cons e todo =>
      simp only at h
      split at h
      · exact hupd .panicked (by simp [Task.idx]) hsame (Option.some.inj h).symm
      · refine hupd _ ?_ ?_ (Option.some.inj h).symm
        · intro e' he
          split_ifs at he
          · simp only [Task.idx, List.mem_append, writeOrder] at he
            simp only [Task.idx, List.mem_append]
            rcases he with he | he
            · exact Or.inr (Or.inl he)
            · refine Or.inr (Or.inl ?_)
              split_ifs at he
              · rcases List.mem_append.1 he with he | he
                · exact List.mem_of_mem_tail he
                · exact List.mem_of_mem_take he
              · exact he
          · simp only [Task.idx, List.mem_append] at he
            simp only [Task.idx, List.mem_append, List.mem_cons]
            tauto
        · intro e' he'
          refine ⟨?_, rfl⟩
          split_ifs
          · exact Function.update_of_ne (hne (by simp [Task.idx]) he') _ _
          · rfl
  | writing c avg todo =>
    cases todo with
    | nil =>
      simp only at h
      exact hupd .panicked (by simp [Task.idx]) hsame (Option.some.inj h).symm
    | cons e todo =>
      simp only at h
      split at h
      · split at h
        · exact hupd .panicked (by simp [Task.idx]) hsame (Option.some.inj h).symm
        · refine hupd _ ?_ ?_ (Option.some.inj h).symm
          · intro e' he
            split_ifs at he <;> simp only [Task.idx, List.mem_append] at he <;>
              simp only [Task.idx, List.mem_append, List.mem_cons] <;> tauto
          · exact fun e' he' => ⟨Function.update_of_ne (hne (by simp [Task.idx]) he') _ _, rfl⟩
      · refine hupd _ ?_ ?_ (Option.some.inj h).symm
        · intro e' he
          split_ifs at he
          · simp [Task.idx] at he
          · simp only [Task.idx, List.mem_append] at he
            simp only [Task.idx, List.mem_append, List.mem_cons]
            tauto
        · exact fun e' he' => ⟨Function.update_of_ne (hne (by simp [Task.idx]) he') _ _,
            Function.update_of_ne (hne (by simp [Task.idx]) he') _ _⟩
  | releasing c todo =>
    cases todo with
    | nil =>
      simp only at h
      exact hupd (.done (some c)) (by simp [Task.idx]) hsame (Option.some.inj h).symm
    | cons e todo =>
      simp only at h
      refine hupd _ ?_ ?_ (Option.some.inj h).symm
      · intro e' he
        split_ifs at he
        · simp [Task.idx] at he
        · simp only [Task.idx, List.mem_append] at he
          simp only [Task.idx, List.mem_append, List.mem_cons]
          tauto
      · exact fun e' he' => ⟨rfl, Function.update_of_ne (hne (by simp [Task.idx]) he') _ _⟩
  | done c => simp at h
  | panicked => simp at h

/-- A step of a task for another event. -/
theorem PartOf.foreign (h : PartOf n' σ θ seeds seeds' s s') (hi : Isolated n n' σ θ nearest nearest' seeds seeds') {t : Nat}
    (ht : ∀ t' < seeds'.length, θ t' ≠ t) {s1 : State D K} (hs : stepAll cfg n nearest seeds s t = some s1) :
    PartOf n' σ θ seeds seeds' s1 s' := by
  unfold stepAll at hs
  cases hseed : seeds[t]? with
  | none => rw [hseed] at hs; simp at hs
  | some seed =>
    rw [hseed] at hs
    obtain ⟨h1, h2, h3⟩ := step_frame hs
    have hout := h.outside t (List.getElem?_eq_some_iff.1 hseed).1 ht
    have hnot : ∀ i < n', σ i ∉ (s.tasks t).idx := fun i hin hmem => hout _ hmem i hin rfl
    refine ⟨fun i hin => by rw [(h3 _ (hnot i hin)).1, h.mem i hin], fun i hin => by rw [(h3 _ (hnot i hin)).2, h.owner i hin],
      fun t' ht' => by rw [h2 _ (ht t' ht'), h.tasks t' ht'], h.inside, fun t' ht' hne => ?_⟩
    by_cases htt : t' = t
    · subst htt
      intro e he
      rcases h1 e he with he | he
      · exact hi.other t' seed hseed ht e he
      · exact hout e he
    · rw [h2 t' htt]
      exact h.outside t' ht' hne

theorem PartOf.init {mem mem' : Mem K} (hm : ∀ i < n', mem (σ i) = mem' i) :
    PartOf n' σ θ seeds seeds' (State.init mem : State D K) (State.init mem') :=
  ⟨hm, fun _ _ => rfl, fun _ _ => rfl, by simp [State.init, Task.idx], by simp [State.init, Task.idx]⟩

/-- Leaving out the other events. -/
theorem reachable_part (hi : Isolated n n' σ θ nearest nearest' seeds seeds') {mem mem' : Mem K}
    (hm : ∀ i < n', mem (σ i) = mem' i) (h : Reachable cfg n nearest seeds mem s) :
    ∃ s' : State D K, Reachable cfg n' nearest' seeds' mem' s' ∧ PartOf n' σ θ seeds seeds' s s' := by
  induction h with
  | init => exact ⟨_, .init, .init hm⟩
  | @step s s1 t _ hs ih =>
    obtain ⟨s', h1, h2⟩ := ih
    by_cases ht : ∃ t' < seeds'.length, θ t' = t
    · obtain ⟨t', ht', rfl⟩ := ht
      rcases h2.own (cfg := cfg) hi ht' with ⟨g1, -⟩ | ⟨q, q', g1, g2, g3⟩
      · rw [g1] at hs; simp at hs
      · rw [g1, Option.some.injEq] at hs
        subst hs
        exact ⟨q', .step h1 g2, g3⟩
    · push Not at ht
      exact ⟨s', h1, h2.foreign hi ht hs⟩

theorem PartOf.finished (h : PartOf n' σ θ seeds seeds' s s') (hi : Isolated n n' σ θ nearest nearest' seeds seeds')
    (hf : s.Finished seeds) : s'.Finished seeds' := by
  intro t ht
  have hlt : θ t < seeds.length := by
    obtain ⟨-, g2, -⟩ := hi.seed t _ (List.getElem?_eq_getElem ht)
    exact (List.getElem?_eq_some_iff.1 g2).1
  obtain ⟨c, hc⟩ := hf (θ t) hlt
  rw [h.tasks t ht] at hc
  cases hk : s'.tasks t with
  | done c' => exact ⟨c', rfl⟩
  | _ => rw [hk] at hc; simp [Task.relabel] at hc

/-- Putting two isolated parts together. -/
theorem reachable_both {n1 n2 : Nat} {σ1 σ2 θ1 θ2 : Nat → Nat} {nearest1 nearest2 : Nat → List (Nat × D)} {seeds1 seeds2 : List Nat}
    (h1 : Isolated n n1 σ1 θ1 nearest nearest1 seeds seeds1) (h2 : Isolated n n2 σ2 θ2 nearest nearest2 seeds seeds2)
    (hdis : ∀ t < seeds1.length, ∀ t' < seeds2.length, θ1 t ≠ θ2 t') {mem mem1 mem2 : Mem K}
    (hm1 : ∀ i < n1, mem (σ1 i) = mem1 i) (hm2 : ∀ i < n2, mem (σ2 i) = mem2 i) {s1 s2 : State D K}
    (hr1 : Reachable cfg n1 nearest1 seeds1 mem1 s1) (hr2 : Reachable cfg n2 nearest2 seeds2 mem2 s2) :
    ∃ s : State D K, Reachable cfg n nearest seeds mem s ∧ PartOf n1 σ1 θ1 seeds seeds1 s s1 ∧ PartOf n2 σ2 θ2 seeds seeds2 s s2 := by
  have first : ∃ s : State D K, Reachable cfg n nearest seeds mem s ∧ PartOf n1 σ1 θ1 seeds seeds1 s s1 ∧
      PartOf n2 σ2 θ2 seeds seeds2 s (State.init mem2) := by
    induction hr1 with
    | init => exact ⟨_, .init, .init hm1, .init hm2⟩
    | @step q q1 t _ hs ih =>
      obtain ⟨s, g1, g2, g3⟩ := ih
      have ht : t < seeds1.length := by
        unfold stepAll at hs
        cases hseed : seeds1[t]? with
        | none => rw [hseed] at hs; simp at hs
        | some seed => exact (List.getElem?_eq_some_iff.1 hseed).1
      rcases g2.own (cfg := cfg) h1 ht with ⟨-, k⟩ | ⟨p, p', k1, k2, k3⟩
      · rw [k] at hs; simp at hs
      · rw [k2, Option.some.injEq] at hs
        subst hs
        exact ⟨p, .step g1 k1, k3, g3.foreign h2 (fun t' ht' h => hdis t ht t' ht' h.symm) k1⟩
  induction hr2 with
  | init => exact first
  | @step q q1 t _ hs ih =>
    obtain ⟨s, g1, g2, g3⟩ := ih
    have ht : t < seeds2.length := by
      unfold stepAll at hs
      cases hseed : seeds2[t]? with
      | none => rw [hseed] at hs; simp at hs
      | some seed => exact (List.getElem?_eq_some_iff.1 hseed).1
    rcases g3.own (cfg := cfg) h2 ht with ⟨-, k⟩ | ⟨p, p', k1, k2, k3⟩
    · rw [k] at hs; simp at hs
    · rw [k2, Option.some.injEq] at hs
      subst hs
      exact ⟨p, .step g1 k1, g2.foreign h1 (fun t' ht' => hdis t' ht' t ht) k1, k3⟩

theorem finished_both {n1 n2 : Nat} {σ1 σ2 θ1 θ2 : Nat → Nat} {nearest1 nearest2 : Nat → List (Nat × D)} {seeds1 seeds2 : List Nat}
    (h1 : Isolated n n1 σ1 θ1 nearest nearest1 seeds seeds1) (h2 : Isolated n n2 σ2 θ2 nearest nearest2 seeds seeds2)
    {s s1 s2 : State D K} (p1 : PartOf n1 σ1 θ1 seeds seeds1 s s1) (p2 : PartOf n2 σ2 θ2 seeds seeds2 s s2)
    (f1 : s1.Finished seeds1) (f2 : s2.Finished seeds2)
    (hcov : ∀ t i : Nat, seeds[t]? = some i → (∃ j < n1, i = σ1 j) ∨ ∃ j < n2, i = σ2 j) : s.Finished seeds := by
  intro t ht
  have hti := List.getElem?_eq_getElem ht
  by_cases e1 : ∃ t' < seeds1.length, θ1 t' = t
  · obtain ⟨t', ht', rfl⟩ := e1
    obtain ⟨c, hc⟩ := f1 t' ht'
    exact ⟨_, by rw [p1.tasks t' ht', hc]; rfl⟩
  by_cases e2 : ∃ t' < seeds2.length, θ2 t' = t
  · obtain ⟨t', ht', rfl⟩ := e2
    obtain ⟨c, hc⟩ := f2 t' ht'
    exact ⟨_, by rw [p2.tasks t' ht', hc]; rfl⟩
  push Not at e1 e2
  rcases hcov t _ hti with ⟨j, hj, hij⟩ | ⟨j, hj, hij⟩
  · exact absurd hij (h1.other t _ hti e1 _ List.mem_cons_self j hj)
  · exact absurd hij (h2.other t _ hti e2 _ List.mem_cons_self j hj)

end

end Cres

import Verif.Model.Concurrent
import Verif.Proofs.ResampleSeq

/-!
Invariant of parallel resampling: mutual exclusion, and the memory seen through the locks is the result of averaging the
logged cells one after the other.
-/

set_option linter.unusedSectionVars false

namespace Cres

open Spec

variable {D K : Type*} [Zero D] [Add K] [Zero K] [One K] [Mul K] [Div K] [NatCast K] [LinearOrder K]

/-- Averaging cells one after the other. -/
def applyCells (cfg : Cfg) (cells : List (Cell D K)) (mem : Mem K) : Option (Mem K) :=
  cells.foldlM (fun m c => c.resample cfg m) mem

/-- The sum over several members. -/
def accAll (cfg : Cfg) : Option (Weights K) → List (Weights K) → Option (Weights K)
  | acc, [] => acc
  | acc, w :: ws =>
    match accumulate cfg acc w with
    | none => none
    | some a => accAll cfg (some a) ws

theorem accAll_multi {cfg : Cfg} (hm : cfg.multi = true) (ws : List (Weights K)) : ∀ a,
    accAll cfg (some a) ws = ws.foldlM Weights.addAssign a := by
  induction ws with
  | nil => intro a; rfl
  | cons w ws ih =>
    intro a
    rw [accAll, List.foldlM_cons]
    unfold accumulate
    rw [if_pos hm]
    simp only
    cases Weights.addAssign a w with
    | none => rfl
    | some b => exact ih b

theorem accAll_single {cfg : Cfg} (hm : cfg.multi = false) (ws : List (Weights K)) : ∀ x : K,
    accAll cfg (some [x]) ws = (ws.mapM Weights.central).map (fun cs => [cs.foldl (· + ·) x]) := by
  induction ws with
  | nil => intro x; simp [accAll]
  | cons w ws ih =>
    intro x
    rw [accAll, List.mapM_cons]
    unfold accumulate
    rw [if_neg (by simp [hm])]
    cases hw : Weights.central w with
    | none => rfl
    | some y =>
      simp only [List.map_cons, List.map_nil]
      rw [ih]
      cases ws.mapM Weights.central with
      | none => rfl
      | some cs => rfl

theorem average_eq_accAll (cfg : Cfg) (ws : List (Weights K)) (hne : ws ≠ []) :
    average cfg ws = (accAll cfg none ws).map (normalise cfg ws.length) := by
  obtain ⟨w, ws, rfl⟩ := List.exists_cons_of_ne_nil hne
  unfold average
  by_cases hm : cfg.multi = true
  · rw [if_pos hm, averageMulti, accAll]
    have hacc : accumulate cfg none w = some w := by simp [accumulate, hm]
    rw [hacc]
    simp only
    rw [accAll_multi hm]
    unfold normalise
    simp [hm]
  · rw [if_neg hm, averageSingle, accAll]
    have hm' : cfg.multi = false := by simpa using hm
    unfold accumulate
    rw [if_neg hm, List.mapM_cons]
    cases hw : Weights.central w with
    | none => rfl
    | some x =>
      simp only
      rw [accAll_single hm']
      cases ws.mapM Weights.central with
      | none => rfl
      | some cs => simp [normalise, hm']

theorem accumulate_length {cfg : Cfg} {L : Nat} {acc : Option (Weights K)} {w a : Weights K}
    (hs : cfg.multi = false → L = 1) (hw : w.length = L) (hacc : ∀ a, acc = some a → a.length = L)
    (h : accumulate cfg acc w = some a) : a.length = L := by
  unfold accumulate at h
  by_cases hm : cfg.multi = true
  · rw [if_pos hm] at h
    cases acc with
    | none => simp only [Option.some.injEq] at h; rw [← h]; exact hw
    | some b =>
      simp only [Weights.addAssign] at h
      have hb := hacc b rfl
      rw [if_pos (by rw [hb, hw])] at h
      simp only [Option.some.injEq] at h
      rw [← h]
      simp [hb, hw]
  · rw [if_neg hm] at h
    have := hs (by simpa using hm)
    cases hc : Weights.central w with
    | none => rw [hc] at h; simp at h
    | some x =>
      rw [hc] at h
      cases acc with
      | none => simp only [Option.some.injEq] at h; rw [← h, this]; rfl
      | some b => simp only [Option.some.injEq] at h; rw [← h, List.length_map]; exact hacc b rfl

theorem normalise_length {cfg : Cfg} {L : Nat} {a : Weights K} (hs : cfg.multi = false → L = 1) (ha : a.length = L)
    (n : Nat) : (normalise cfg n a).length = L := by
  unfold normalise
  by_cases hm : cfg.multi = true
  · simp [hm, ha]
  · rw [if_neg hm, List.length_map]; exact ha

/-- The cell of a task that has acquired all its locks. -/
def Task.committed : Task D K → Option (Cell D K)
  | .reading c _ _ => some c
  | .writing c _ _ => some c
  | .releasing c _ => some c
  | .done c => c
  | _ => none

/-- The cell consists of the seed and its first neighbours, and has been sorted. -/
def CellFrom (nearest : Nat → List (Nat × D)) (seed : Nat) (c : Cell D K) : Prop :=
  (∃ m, c.members.Perm (seed :: ((nearest seed).take m).map Prod.fst)) ∧ c.members.Pairwise (· < ·)

theorem CellFrom.lt {n : Nat} {nearest : Nat → List (Nat × D)} {seeds : List Nat} {seed : Nat} {c : Cell D K}
    (hv : ValidInput n nearest seeds) (hs : seed ∈ seeds) (h : CellFrom nearest seed c) : ∀ i ∈ c.members, i < n := by
  intro i hi
  obtain ⟨⟨m, hm⟩, -⟩ := h
  rcases List.mem_cons.1 (hm.mem_iff.1 hi) with rfl | hi
  · exact hv.seeds_lt _ hs
  · obtain ⟨x, hx, rfl⟩ := List.mem_map.1 hi
    exact hv.neighbours_lt _ hs x (List.mem_of_mem_take hx)

theorem CellFrom.ne_nil {nearest : Nat → List (Nat × D)} {seed : Nat} {c : Cell D K}
    (h : CellFrom nearest seed c) : c.members ≠ [] := by
  intro h0
  obtain ⟨⟨m, hm⟩, -⟩ := h
  rw [h0] at hm
  have := hm.length_eq
  simp at this

theorem CellFrom.nodup {nearest : Nat → List (Nat × D)} {seed : Nat} {c : Cell D K}
    (h : CellFrom nearest seed c) : c.members.Nodup := h.2.imp (fun h => ne_of_lt h)

theorem sortMembers_cellFrom {n : Nat} {nearest : Nat → List (Nat × D)} {seeds : List Nat} {seed : Nat} {c : Cell D K}
    (hv : ValidInput n nearest seeds) (hs : seed ∈ seeds) (m : Nat)
    (hc : c.members = seed :: ((nearest seed).take m).map Prod.fst) : CellFrom nearest seed c.sortMembers := by
  have hp := sortMembers_perm c
  refine ⟨⟨m, by rw [← hc]; exact hp⟩, ?_⟩
  have hnd : c.sortMembers.members.Nodup := by
    rw [hp.nodup_iff, hc]
    refine (hv.neighbours_nodup seed hs).sublist ?_
    exact List.Sublist.cons_cons _ ((List.take_sublist _ _).map _)
  have hle : c.sortMembers.members.Pairwise (· ≤ ·) := List.pairwise_insertionSort _ _
  exact (hle.and hnd).imp (fun ⟨h1, h2⟩ => lt_of_le_of_ne h1 h2)

theorem sortMembers_of_sorted {c : Cell D K} (h : c.members.Pairwise (· < ·)) : c.sortMembers = c := by
  unfold Cell.sortMembers
  rw [List.Pairwise.insertionSort_eq (h.imp le_of_lt)]

/-- What holds for a task, given the current weights `mem` and the weights `A` after averaging the logged cells. -/
def TaskOK (cfg : Cfg) (L : Nat) (nearest : Nat → List (Nat × D)) (seed : Nat) (mem A : Mem K) : Task D K → Prop
  | .waiting => True
  | .checked => True
  | .growing c rest => ∃ m, m ≤ (nearest seed).length ∧ c.members = seed :: ((nearest seed).take m).map Prod.fst ∧
      rest = (nearest seed).drop m
  | .locking c held todo => CellFrom nearest seed c ∧ held ++ todo = c.members ∧ todo ≠ [] ∧ ∀ e ∈ held, mem e = A e
  | .reading c acc todo => CellFrom nearest seed c ∧ todo ≠ [] ∧
      (∃ pre, pre ++ todo = c.members ∧ (acc = none ↔ pre = [])) ∧ (∀ a, acc = some a → a.length = L) ∧
      (∃ avg, (accAll cfg acc (todo.map mem)).map (normalise cfg c.members.length) = some avg ∧
        avg.length = L ∧ ∀ e ∈ c.members, A e = avg) ∧
      (∀ e ∈ todo, (mem e).length = L) ∧ (∀ e ∈ c.members.tail, (mem e).length = L)
  | .writing c avg todo => CellFrom nearest seed c ∧ todo ≠ [] ∧ todo.Nodup ∧ (∀ e ∈ todo, e ∈ c.members) ∧
      avg.length = L ∧ (∀ e ∈ heldBy cfg (Task.writing c avg todo), A e = avg) ∧
      (∀ e ∈ heldBy cfg (Task.writing c avg todo), e ∉ todo → mem e = avg) ∧
      (cfg.multi = true → ∀ e ∈ c.members.tail, (mem e).length = L)
  | .releasing c todo => CellFrom nearest seed c ∧ todo ≠ [] ∧ todo.Nodup ∧ (∀ e ∈ todo, mem e = A e) ∧
      ∀ e ∈ todo, e ∈ c.members
  | .done none => True
  | .done (some c) => CellFrom nearest seed c
  | .panicked => cfg.debug = true

theorem TaskOK.frame {cfg : Cfg} {L : Nat} {nearest : Nat → List (Nat × D)} {seed : Nat} {mem A mem' A' : Mem K}
    {t : Task D K} (h : TaskOK cfg L nearest seed mem A t) (hm : ∀ e ∈ heldBy cfg t, mem' e = mem e)
    (hA : ∀ e ∈ heldBy cfg t, A' e = A e) : TaskOK cfg L nearest seed mem' A' t := by
  cases t with
  | waiting => trivial
  | checked => trivial
  | growing c rest => exact h
  | locking c held todo =>
    obtain ⟨h1, h2, h3, h4⟩ := h
    exact ⟨h1, h2, h3, fun e he => by rw [hm e he, hA e he, h4 e he]⟩
  | reading c acc todo =>
    obtain ⟨h1, h2, ⟨pre, h3, h3'⟩, h4, ⟨avg, h5, h6, h7⟩, h8, h9⟩ := h
    have hsub : ∀ e ∈ todo, e ∈ c.members := fun e he => by rw [← h3]; exact List.mem_append_right _ he
    have htail : ∀ e ∈ c.members.tail, e ∈ c.members := fun e he => List.mem_of_mem_tail he
    refine ⟨h1, h2, ⟨pre, h3, h3'⟩, h4, ⟨avg, ?_, h6, ?_⟩, ?_, ?_⟩
    · rw [List.map_congr_left (fun e he => hm e (hsub e he))]; exact h5
    · intro e he; rw [hA e he, h7 e he]
    · intro e he; rw [hm e (hsub e he), h8 e he]
    · intro e he; rw [hm e (htail e he), h9 e he]
  | writing c avg todo =>
    obtain ⟨h1, h2, h3, h4, h5, h6, h7, h8⟩ := h
    refine ⟨h1, h2, h3, h4, h5, ?_, ?_, ?_⟩
    · intro e he; rw [hA e he, h6 e he]
    · intro e he hn; rw [hm e he, h7 e he hn]
    · intro hmu e he
      rw [hm e (by simp only [heldBy, hmu, if_true]; exact List.mem_of_mem_tail he), h8 hmu e he]
  | releasing c todo =>
    obtain ⟨h1, h2, h3, h4, h5⟩ := h
    exact ⟨h1, h2, h3, fun e he => by rw [hm e he, hA e he, h4 e he], h5⟩
  | done c =>
    cases c with
    | none => trivial
    | some c => exact h
  | panicked => exact h

/-- The invariant. `A` are the weights after averaging the logged cells one after the other. -/
structure Inv (cfg : Cfg) (n L : Nat) (nearest : Nat → List (Nat × D)) (seeds : List Nat) (mem0 : Mem K)
    (s : State D K) (A : Mem K) : Prop where
  log : applyCells cfg s.log mem0 = some A
  uniform : Uniform cfg n L A
  free : ∀ e, s.owner e = none → s.mem e = A e
  owner : ∀ e t, s.owner e = some t ↔ e ∈ heldBy cfg (s.tasks t)
  ok : ∀ t seed, seeds[t]? = some seed → TaskOK cfg L nearest seed s.mem A (s.tasks t)
  idle : ∀ t, seeds[t]? = none → s.tasks t = .waiting
  logged : s.log.Perm ((List.range seeds.length).filterMap (fun t => (s.tasks t).committed))

/-- How the invariant is preserved by a step of task `t`. -/
theorem Inv.update {cfg : Cfg} {n L : Nat} {nearest : Nat → List (Nat × D)} {seeds : List Nat} {mem0 : Mem K}
    {s : State D K} {A : Mem K} (h : Inv cfg n L nearest seeds mem0 s A) {t seed : Nat} (ht : seeds[t]? = some seed)
    {s' : State D K} {A' : Mem K} {new : Task D K} (htasks : s'.tasks = Function.update s.tasks t new)
    (hlog : applyCells cfg s'.log mem0 = some A') (hu : Uniform cfg n L A')
    (hother : ∀ e t', t' ≠ t → s.owner e = some t' → s'.owner e = some t' ∧ s'.mem e = s.mem e ∧ A' e = A e)
    (hmine : ∀ e, s'.owner e = some t ↔ e ∈ heldBy cfg new)
    (hnew : ∀ e t', t' ≠ t → s'.owner e = some t' → s.owner e = some t')
    (hfree : ∀ e, s'.owner e = none → s'.mem e = A' e)
    (hok : TaskOK cfg L nearest seed s'.mem A' new)
    (hlg : (s'.log = s.log ∧ new.committed = (s.tasks t).committed) ∨
      ∃ c, s'.log = s.log ++ [c] ∧ new.committed = some c ∧ (s.tasks t).committed = none) :
    Inv cfg n L nearest seeds mem0 s' A' := by
  refine ⟨hlog, hu, hfree, ?_, ?_, ?_, ?_⟩
  · intro e t'
    by_cases htt : t' = t
    · subst htt; rw [htasks, Function.update_self]; exact hmine e
    · rw [htasks, Function.update_of_ne htt, ← h.owner e t']
      exact ⟨fun ho => hnew e t' htt ho, fun ho => (hother e t' htt ho).1⟩
  · intro t' seed' ht'
    by_cases htt : t' = t
    · subst htt
      rw [ht] at ht'
      simp only [Option.some.injEq] at ht'
      subst ht'
      rw [htasks, Function.update_self]; exact hok
    · rw [htasks, Function.update_of_ne htt]
      refine (h.ok t' seed' ht').frame ?_ ?_
      · intro e he; exact (hother e t' htt ((h.owner e t').2 he)).2.1
      · intro e he; exact (hother e t' htt ((h.owner e t').2 he)).2.2
  · intro t' ht'
    have htt : t' ≠ t := by rintro rfl; rw [ht] at ht'; simp at ht'
    rw [htasks, Function.update_of_ne htt]
    exact h.idle t' ht'
  · rw [htasks]
    rcases hlg with ⟨h1, h2⟩ | ⟨c, h1, h2, h3⟩
    · rw [h1]
      have : (fun t' => (Function.update s.tasks t new t').committed) = (fun t' => (s.tasks t').committed) := by
        funext t'
        by_cases htt : t' = t
        · subst htt; rw [Function.update_self, h2]
        · rw [Function.update_of_ne htt]
      rw [this]; exact h.logged
    · rw [h1]
      refine (h.logged.append_right [c]).trans ?_
      have hlt : t < seeds.length := (List.getElem?_eq_some_iff.1 ht).1
      obtain ⟨l1, l2, hl⟩ : ∃ l1 l2, List.range seeds.length = l1 ++ t :: l2 :=
        List.append_of_mem (List.mem_range.2 hlt)
      have hnd : (l1 ++ t :: l2).Nodup := hl ▸ List.nodup_range
      have hn1 : ∀ x ∈ l1, x ≠ t := by
        intro x hx hxt
        have := (List.nodup_append.1 hnd).2.2 x hx t (by simp)
        exact this hxt
      have hn2 : ∀ x ∈ l2, x ≠ t := by
        intro x hx hxt
        have := (List.nodup_cons.1 (List.nodup_append.1 hnd).2.1).1
        exact this (hxt ▸ hx)
      rw [hl, List.filterMap_append, List.filterMap_append, List.filterMap_cons_none (f := fun t' => (s.tasks t').committed) h3,
        List.filterMap_cons_some (f := fun t' => (Function.update s.tasks t new t').committed)
          (by rw [Function.update_self]; exact h2)]
      have e1 : l1.filterMap (fun t' => (Function.update s.tasks t new t').committed) =
          l1.filterMap (fun t' => (s.tasks t').committed) :=
        List.filterMap_congr (fun x hx => by rw [Function.update_of_ne (hn1 x hx)])
      have e2 : l2.filterMap (fun t' => (Function.update s.tasks t new t').committed) =
          l2.filterMap (fun t' => (s.tasks t').committed) :=
        List.filterMap_congr (fun x hx => by rw [Function.update_of_ne (hn2 x hx)])
      rw [e1, e2, List.append_assoc]
      refine List.Perm.append_left _ ?_
      exact List.perm_append_comm

/-- A step that only changes the task state, not the locks it holds. -/
theorem Inv.updateTask {cfg : Cfg} {n L : Nat} {nearest : Nat → List (Nat × D)} {seeds : List Nat} {mem0 : Mem K}
    {s : State D K} {A : Mem K} (h : Inv cfg n L nearest seeds mem0 s A) {t seed : Nat} (ht : seeds[t]? = some seed)
    {new : Task D K} (hheld : ∀ e, e ∈ heldBy cfg new ↔ e ∈ heldBy cfg (s.tasks t))
    (hok : TaskOK cfg L nearest seed s.mem A new) (hc : new.committed = (s.tasks t).committed) :
    Inv cfg n L nearest seeds mem0 { s with tasks := Function.update s.tasks t new } A :=
  h.update ht rfl h.log h.uniform (fun e t' _ ho => ⟨ho, rfl, rfl⟩)
    (fun e => by rw [hheld]; exact h.owner e t) (fun e t' _ ho => ho) h.free hok (Or.inl ⟨rfl, hc⟩)

theorem inv_init {cfg : Cfg} {n L : Nat} {nearest : Nat → List (Nat × D)} {seeds : List Nat} {mem0 : Mem K}
    (hu : Uniform cfg n L mem0) : Inv cfg n L nearest seeds mem0 (State.init mem0) mem0 := by
  refine ⟨rfl, hu, fun _ _ => rfl, ?_, ?_, fun _ _ => rfl, ?_⟩
  · intro e t; simp [State.init, heldBy]
  · intro t seed _; trivial
  · have : (fun t => ((State.init mem0 : State D K).tasks t).committed) = fun _ => none := by funext t; rfl
    rw [this]
    simp [State.init]

theorem writeOrder_perm (cfg : Cfg) (l : List Nat) : (writeOrder cfg l).Perm l := by
  unfold writeOrder
  split
  · cases l with
    | nil => simp
    | cons a l => simpa using List.perm_append_comm (l₁ := l) (l₂ := [a])
  · exact List.Perm.refl _

theorem isSome_false_none {α : Type*} {o : Option α} (h : ¬ o.isSome = true) : o = none := by
  cases o with
  | none => rfl
  | some _ => simp at h

/-- Every step preserves the invariant. -/
theorem inv_step {cfg : Cfg} {n L : Nat} {nearest : Nat → List (Nat × D)} {seeds : List Nat}
    (hv : ValidInput n nearest seeds) {mem0 : Mem K} {s s' : State D K} {A : Mem K}
    (h : Inv cfg n L nearest seeds mem0 s A) {t : Nat} (hstep : stepAll cfg n nearest seeds s t = some s') :
    ∃ A', Inv cfg n L nearest seeds mem0 s' A' := by
  unfold stepAll at hstep
  cases ht : seeds[t]? with
  | none => rw [ht] at hstep; simp at hstep
  | some seed =>
  rw [ht] at hstep
  simp only at hstep
  have hs : seed ∈ seeds := List.mem_of_getElem? ht
  have htask := h.ok t seed ht
  have howner := fun e => h.owner e t
  have hweight : ∀ i, i < n → s.owner i = none → weightAt n s.mem i = some (wt s.mem 0 i) := by
    intro i hi ho
    refine weightAt_isSome hi ?_
    rw [h.free i ho]
    exact h.uniform.ne_nil hi
  unfold step at hstep
  cases hst : s.tasks t with
  | waiting =>
    rw [hst] at hstep
    simp only at hstep
    by_cases ho : (s.owner seed).isSome
    · rw [if_pos ho] at hstep; simp at hstep
    · rw [if_neg ho, hweight seed (hv.seeds_lt _ hs) (isSome_false_none ho)] at hstep
      simp only at hstep
      split at hstep
      · simp only [Option.some.injEq] at hstep
        subst hstep
        exact ⟨A, h.updateTask ht (by rw [hst]; simp [heldBy]) trivial (by rw [hst]; rfl)⟩
      · simp only [Option.some.injEq] at hstep
        subst hstep
        exact ⟨A, h.updateTask ht (by rw [hst]; simp [heldBy]) trivial (by rw [hst]; rfl)⟩
  | checked =>
    rw [hst] at hstep
    simp only at hstep
    by_cases ho : (s.owner seed).isSome
    · rw [if_pos ho] at hstep; simp at hstep
    · rw [if_neg ho, hweight seed (hv.seeds_lt _ hs) (isSome_false_none ho)] at hstep
      simp only at hstep
      split at hstep
      · next hdb =>
        simp only [Option.some.injEq] at hstep
        subst hstep
        exact ⟨A, h.updateTask ht (by rw [hst]; simp [heldBy]) hdb.1 (by rw [hst]; rfl)⟩
      · simp only [Option.some.injEq] at hstep
        subst hstep
        exact ⟨A, h.updateTask ht (by rw [hst]; simp [heldBy]) ⟨0, by simp, by simp, by simp⟩ (by rw [hst]; rfl)⟩
  | growing c rest =>
    rw [hst] at hstep htask
    obtain ⟨m, hm, hc, hrest⟩ := htask
    have hstart : ∀ c' : Cell D K, ∀ m', c'.members = seed :: ((nearest seed).take m').map Prod.fst →
        ∃ A', Inv cfg n L nearest seeds mem0 { s with tasks := Function.update s.tasks t (startResample c') } A' := by
      intro c' m' hc'
      have hcf := sortMembers_cellFrom hv hs m' hc'
      refine ⟨A, h.updateTask ht (by rw [hst]; simp [heldBy, startResample]) ?_ (by rw [hst]; rfl)⟩
      exact ⟨hcf, by simp, hcf.ne_nil, by simp⟩
    cases rest with
    | nil =>
      simp only [Option.some.injEq] at hstep
      subst hstep
      exact hstart c m hc
    | cons x rest =>
      obtain ⟨i, d⟩ := x
      simp only at hstep
      have hmem : (i, d) ∈ nearest seed := List.mem_of_mem_drop (i := m) (by rw [← hrest]; exact List.mem_cons_self)
      have hml : m < (nearest seed).length := by
        by_contra hcon
        rw [List.drop_eq_nil_of_le (by omega)] at hrest
        simp at hrest
      have hget : (nearest seed)[m]? = some (i, d) := by
        have := congrArg (fun l => l[0]?) hrest
        simpa [List.getElem?_drop] using this.symm
      have htake : (nearest seed).take (m + 1) = (nearest seed).take m ++ [(i, d)] := by
        rw [List.take_add_one, hget]; rfl
      have hdrop : rest = (nearest seed).drop (m + 1) := by
        have := congrArg List.tail hrest
        simpa [List.tail_drop] using this
      by_cases ho : (s.owner i).isSome
      · rw [if_pos ho] at hstep; simp at hstep
      · rw [if_neg ho, hweight i (hv.neighbours_lt _ hs _ hmem) (isSome_false_none ho)] at hstep
        simp only at hstep
        have hc' : c.members ++ [i] = seed :: ((nearest seed).take (m + 1)).map Prod.fst := by
          rw [htake, hc]; simp
        split at hstep
        · simp only [Option.some.injEq] at hstep
          subst hstep
          exact hstart _ (m + 1) hc'
        · simp only [Option.some.injEq] at hstep
          subst hstep
          exact ⟨A, h.updateTask ht (by rw [hst]; simp [heldBy]) ⟨m + 1, by omega, hc', hdrop⟩ (by rw [hst]; rfl)⟩
  | locking c held todo =>
    rw [hst] at hstep htask
    obtain ⟨hcf, hht, hne, hA⟩ := htask
    cases todo with
    | nil => exact absurd rfl hne
    | cons e todo =>
      simp only at hstep
      by_cases ho : (s.owner e).isSome
      · rw [if_pos ho] at hstep; simp at hstep
      rw [if_neg ho] at hstep
      have ho := isSome_false_none ho
      have hheld : ∀ e', s.owner e' = some t ↔ e' ∈ held := fun e' => by
        rw [howner e', hst]; rfl
      have hown : ∀ e', Function.update s.owner e (some t) e' = some t ↔ e' ∈ held ++ [e] := by
        intro e'
        by_cases hee : e' = e
        · subst hee; simp
        · rw [Function.update_of_ne hee, hheld]; simp [hee]
      have hother : ∀ e' t', t' ≠ t → s.owner e' = some t' → Function.update s.owner e (some t) e' = some t' := by
        intro e' t' htt hoo
        have : e' ≠ e := by rintro rfl; rw [ho] at hoo; simp at hoo
        rw [Function.update_of_ne this]; exact hoo
      have hback : ∀ e' t', t' ≠ t → Function.update s.owner e (some t) e' = some t' → s.owner e' = some t' := by
        intro e' t' htt hoo
        by_cases hee : e' = e
        · subst hee
          rw [Function.update_self] at hoo
          simp only [Option.some.injEq] at hoo
          exact absurd hoo.symm htt
        · rwa [Function.update_of_ne hee] at hoo
      have hnone : ∀ e', Function.update s.owner e (some t) e' = none → e' ≠ e ∧ s.owner e' = none := by
        intro e' hoo
        by_cases hee : e' = e
        · subst hee; rw [Function.update_self] at hoo; simp at hoo
        · rw [Function.update_of_ne hee] at hoo; exact ⟨hee, hoo⟩
      by_cases hte : todo = []
      · -- all locks acquired
        subst hte
        simp only [List.isEmpty_nil, if_true, Option.some.injEq] at hstep
        subst hstep
        have hlt := hcf.lt hv hs
        have hmemA : ∀ i ∈ c.members, s.mem i = A i := by
          intro i hi
          rw [← hht] at hi
          rcases List.mem_append.1 hi with hi | hi
          · exact hA i hi
          · simp only [List.mem_singleton] at hi; subst hi; exact h.free i ho
        have hneA : c.members.map A ≠ [] := by simp [hcf.ne_nil]
        obtain ⟨avg, havg⟩ := average_isSome (cfg := cfg) (ws := c.members.map A) L h.uniform.pos hneA
          (by
            intro w hw
            obtain ⟨i, hi, rfl⟩ := List.mem_map.1 hw
            exact h.uniform.length i (hlt i hi))
        have hlen : avg.length = L := by
          have a1 := average_length (h.uniform.fits hlt) havg hneA
          obtain ⟨i, hi⟩ := List.exists_mem_of_ne_nil _ hcf.ne_nil
          rw [← a1 (A i) (List.mem_map.2 ⟨i, hi, rfl⟩), h.uniform.length i (hlt i hi)]
        have hres : c.resample cfg A = some (fun i => if i ∈ c.members then avg else A i) := by
          unfold Cell.resample
          rw [sortMembers_of_sorted hcf.2]
          simp only
          rw [havg]; rfl
        refine ⟨fun i => if i ∈ c.members then avg else A i, h.update ht rfl ?_ ?_ ?_ ?_ hback ?_ ?_ ?_⟩
        · have hl := h.log
          unfold applyCells at hl ⊢
          simp only
          rw [List.foldlM_append, hl]
          simp [hres]
        · exact ⟨h.uniform.pos, h.uniform.single, fun i hi => by
            by_cases hm : i ∈ c.members
            · simp only [if_pos hm]; exact hlen
            · simp only [if_neg hm]; exact h.uniform.length i hi⟩
        · intro e' t' htt hoo
          refine ⟨hother e' t' htt hoo, rfl, ?_⟩
          have : e' ∉ c.members := by
            intro hm
            rw [← hht] at hm
            rcases List.mem_append.1 hm with hm | hm
            · have := (hheld e').2 hm
              rw [hoo] at this
              simp only [Option.some.injEq] at this
              exact htt this
            · simp only [List.mem_singleton] at hm; subst hm; rw [ho] at hoo; simp at hoo
          simp only [if_neg this]
        · intro e'
          simp only
          rw [hown e', hht]; rfl
        · intro e' hoo
          obtain ⟨hee, hoo⟩ := hnone e' hoo
          have : e' ∉ c.members := by
            intro hm
            rw [← hht] at hm
            rcases List.mem_append.1 hm with hm | hm
            · have := (hheld e').2 hm
              rw [hoo] at this
              simp at this
            · simp only [List.mem_singleton] at hm; exact hee hm
          simp only [if_neg this]
          exact h.free e' hoo
        · refine ⟨hcf, hcf.ne_nil, ⟨[], by simp, by simp⟩, by simp, ⟨avg, ?_, hlen, ?_⟩, ?_, ?_⟩
          · have := average_eq_accAll cfg (c.members.map A) hneA
            rw [havg, List.length_map] at this
            rw [List.map_congr_left hmemA]
            exact this.symm
          · intro e' he'; simp only [if_pos he']
          · intro e' he'; simp only; rw [hmemA e' he']; exact h.uniform.length _ (hlt e' he')
          · intro e' he'
            have he' := List.mem_of_mem_tail he'
            simp only; rw [hmemA e' he']; exact h.uniform.length _ (hlt e' he')
        · exact Or.inr ⟨c, rfl, rfl, by rw [hst]; rfl⟩
      · have hemp : todo.isEmpty = false := by simpa using hte
        rw [hemp] at hstep
        simp only [Bool.false_eq_true, if_false, Option.some.injEq] at hstep
        subst hstep
        refine ⟨A, h.update ht rfl h.log h.uniform ?_ ?_ hback ?_ ?_ (Or.inl ⟨rfl, by rw [hst]; rfl⟩)⟩
        · intro e' t' htt hoo; exact ⟨hother e' t' htt hoo, rfl, rfl⟩
        · intro e'; exact hown e'
        · intro e' hoo; exact h.free e' (hnone e' hoo).2
        · refine ⟨hcf, by rw [← hht]; simp, hte, ?_⟩
          intro e' he'
          rcases List.mem_append.1 he' with he' | he'
          · exact hA e' he'
          · simp only [List.mem_singleton] at he'; subst he'; exact h.free _ ho
  | reading c acc todo =>
    rw [hst] at hstep htask
    obtain ⟨hcf, hne, ⟨pre, hpre, hacc⟩, haccL, ⟨avg, havg, hlen, hA⟩, htodoL, htailL⟩ := htask
    cases todo with
    | nil => exact absurd rfl hne
    | cons e todo =>
      simp only at hstep
      have hheld : ∀ e', s.owner e' = some t ↔ e' ∈ c.members := fun e' => by rw [howner e', hst]; rfl
      rw [List.map_cons, accAll] at havg
      cases hac : accumulate cfg acc (s.mem e) with
      | none => rw [hac] at havg; simp at havg
      | some a =>
        rw [hac] at hstep havg
        simp only [Option.some.injEq] at hstep havg
        have haL : a.length = L := accumulate_length h.uniform.single (htodoL e List.mem_cons_self) haccL hac
        have hem : e ∈ c.members := by rw [← hpre]; simp
        have hnd := hcf.nodup
        -- the new memory differs at most at `e`, which is the first member
        have hmem' : ∀ e', e' ≠ e → (if cfg.multi ∧ acc = none then Function.update s.mem e [] else s.mem) e' = s.mem e' := by
          intro e' hee
          split
          · exact Function.update_of_ne hee _ _
          · rfl
        have hmemtail : ∀ e' ∈ c.members.tail,
            (if cfg.multi ∧ acc = none then Function.update s.mem e [] else s.mem) e' = s.mem e' := by
          intro e' he'
          split
          · next hcond =>
            have hp := hacc.1 hcond.2
            subst hp
            rw [List.nil_append] at hpre
            rw [← hpre] at he' hnd
            simp only [List.tail_cons] at he'
            refine Function.update_of_ne ?_ _ _
            rintro rfl
            exact (List.nodup_cons.1 hnd).1 he'
          · rfl
        have hetodo : ∀ e' ∈ todo, e' ≠ e := by
          intro e' he' hee
          subst hee
          rw [← hpre] at hnd
          have := (List.nodup_cons.1 (List.nodup_append.1 hnd).2.1).1
          exact this he'
        by_cases hte : todo = []
        · subst hte
          simp only [List.isEmpty_nil, if_true] at hstep
          subst hstep
          have hav : normalise cfg c.members.length a = avg := by
            simpa [accAll] using havg
          rw [hav]
          refine ⟨A, h.update ht rfl h.log h.uniform ?_ ?_ (fun e' t' _ ho => ho) ?_ ?_ (Or.inl ⟨rfl, by rw [hst]; rfl⟩)⟩
          · intro e' t' htt hoo
            refine ⟨hoo, hmem' e' ?_, rfl⟩
            rintro rfl
            have := (hheld e').2 hem
            rw [hoo] at this
            simp only [Option.some.injEq] at this
            exact htt this
          · intro e'
            simp only [heldBy]
            rw [hheld e']
            by_cases hm : cfg.multi = true
            · rw [if_pos hm]
            · rw [if_neg hm, (writeOrder_perm cfg c.members).mem_iff]
          · intro e' hoo
            have : e' ≠ e := by
              rintro rfl
              have := (hheld e').2 hem
              simp only at hoo
              rw [hoo] at this
              simp at this
            simp only
            rw [hmem' e' this]
            exact h.free e' hoo
          · have hwp := writeOrder_perm cfg c.members
            have hsub : ∀ e' ∈ heldBy cfg (Task.writing c avg (writeOrder cfg c.members)), e' ∈ c.members := by
              intro e' he'
              simp only [heldBy] at he'
              split at he'
              · exact he'
              · exact hwp.mem_iff.1 he'
            refine ⟨hcf, ?_, hwp.nodup_iff.2 hnd, fun e' he' => hwp.mem_iff.1 he', hlen, ?_, ?_, ?_⟩
            · intro h0
              rw [h0] at hwp
              exact hcf.ne_nil hwp.nil_eq.symm
            · intro e' he'; exact hA e' (hsub e' he')
            · intro e' he' hn
              exact absurd (hwp.mem_iff.2 (hsub e' he')) hn
            · intro hm e' he'
              simp only
              rw [hmemtail e' he']
              exact htailL e' he'
        · have hemp : todo.isEmpty = false := by simpa using hte
          rw [hemp] at hstep
          simp only [Bool.false_eq_true, if_false] at hstep
          subst hstep
          refine ⟨A, h.update ht rfl h.log h.uniform ?_ ?_ (fun e' t' _ ho => ho) ?_ ?_ (Or.inl ⟨rfl, by rw [hst]; rfl⟩)⟩
          · intro e' t' htt hoo
            refine ⟨hoo, hmem' e' ?_, rfl⟩
            rintro rfl
            have := (hheld e').2 hem
            rw [hoo] at this
            simp only [Option.some.injEq] at this
            exact htt this
          · intro e'; exact hheld e'
          · intro e' hoo
            have : e' ≠ e := by
              rintro rfl
              have := (hheld e').2 hem
              simp only at hoo
              rw [hoo] at this
              simp at this
            simp only
            rw [hmem' e' this]
            exact h.free e' hoo
          · refine ⟨hcf, hte, ⟨pre ++ [e], by rw [← hpre]; simp, by simp⟩, ?_, ⟨avg, ?_, hlen, hA⟩, ?_, ?_⟩
            · intro a' ha'
              simp only [Option.some.injEq] at ha'
              rw [← ha']; exact haL
            · rw [List.map_congr_left (fun e' he' => hmem' e' (hetodo e' he'))]
              exact havg
            · intro e' he'
              simp only
              rw [hmem' e' (hetodo e' he')]
              exact htodoL e' (List.mem_cons_of_mem _ he')
            · intro e' he'
              simp only
              rw [hmemtail e' he']
              exact htailL e' he'
  | writing c avg todo =>
    rw [hst] at hstep htask
    obtain ⟨hcf, hne, hnd, hsub, hlen, hA, hdone, htailL⟩ := htask
    cases todo with
    | nil => exact absurd rfl hne
    | cons e todo =>
      simp only at hstep
      have hem : e ∈ c.members := hsub e List.mem_cons_self
      have hnd' := List.nodup_cons.1 hnd
      by_cases hm : cfg.multi = true
      · rw [if_pos hm] at hstep
        have hheld : ∀ e', s.owner e' = some t ↔ e' ∈ c.members := fun e' => by
          rw [howner e', hst]; simp [heldBy, hm]
        have hA' : ∀ e' ∈ c.members, A e' = avg := fun e' he' => hA e' (by simpa [heldBy, hm] using he')
        have hdone' : ∀ e' ∈ c.members, e' ∉ e :: todo → s.mem e' = avg := fun e' he' hn =>
          hdone e' (by simpa [heldBy, hm] using he') hn
        rw [if_neg (by
          rintro ⟨h1, h2⟩
          exact h2 (by rw [htailL hm e h1, hlen]))] at hstep
        simp only [Option.some.injEq] at hstep
        have hoth : ∀ e' t', t' ≠ t → s.owner e' = some t' → Function.update s.mem e avg e' = s.mem e' := by
          intro e' t' htt hoo
          refine Function.update_of_ne ?_ _ _
          rintro rfl
          have := (hheld e').2 hem
          rw [hoo] at this
          simp only [Option.some.injEq] at this
          exact htt this
        have hfr : ∀ e', s.owner e' = none → Function.update s.mem e avg e' = A e' := by
          intro e' hoo
          rw [Function.update_of_ne]
          · exact h.free e' hoo
          · rintro rfl
            have := (hheld e').2 hem
            rw [hoo] at this
            simp at this
        by_cases hte : todo = []
        · subst hte
          simp only [List.isEmpty_nil, if_true] at hstep
          subst hstep
          refine ⟨A, h.update ht rfl h.log h.uniform ?_ ?_ (fun e' t' _ ho => ho) hfr ?_ (Or.inl ⟨rfl, by rw [hst]; rfl⟩)⟩
          · intro e' t' htt hoo; exact ⟨hoo, hoth e' t' htt hoo, rfl⟩
          · intro e'; exact hheld e'
          · refine ⟨hcf, hcf.ne_nil, hcf.nodup, ?_, fun _ h => h⟩
            intro e' he'
            simp only
            rw [hA' e' he']
            by_cases hee : e' = e
            · subst hee; rw [Function.update_self]
            · rw [Function.update_of_ne hee]
              exact hdone' e' he' (by simpa using hee)
        · have hemp : todo.isEmpty = false := by simpa using hte
          rw [hemp] at hstep
          simp only [Bool.false_eq_true, if_false] at hstep
          subst hstep
          refine ⟨A, h.update ht rfl h.log h.uniform ?_ ?_ (fun e' t' _ ho => ho) hfr ?_ (Or.inl ⟨rfl, by rw [hst]; rfl⟩)⟩
          · intro e' t' htt hoo; exact ⟨hoo, hoth e' t' htt hoo, rfl⟩
          · intro e'; rw [show heldBy cfg (Task.writing c avg todo) = c.members by simp [heldBy, hm]]; exact hheld e'
          · refine ⟨hcf, hte, hnd'.2, fun e' he' => hsub e' (List.mem_cons_of_mem _ he'), hlen, ?_, ?_, ?_⟩
            · intro e' he'; exact hA' e' (by simpa [heldBy, hm] using he')
            · intro e' he' hn
              simp only
              by_cases hee : e' = e
              · subst hee; rw [Function.update_self]
              · rw [Function.update_of_ne hee]
                exact hdone' e' (by simpa [heldBy, hm] using he') (by simp [hee, hn])
            · intro _ e' he'
              simp only
              by_cases hee : e' = e
              · subst hee; rw [Function.update_self]; exact hlen
              · rw [Function.update_of_ne hee]; exact htailL hm e' he'
      · rw [if_neg hm] at hstep
        have hheld : ∀ e', s.owner e' = some t ↔ e' ∈ e :: todo := fun e' => by
          rw [howner e', hst]; simp [heldBy, hm]
        have hA' : ∀ e' ∈ e :: todo, A e' = avg := fun e' he' => hA e' (by simpa [heldBy, hm] using he')
        simp only [Option.some.injEq] at hstep
        have hoe : s.owner e = some t := (hheld e).2 List.mem_cons_self
        have hoth : ∀ e' t', t' ≠ t → s.owner e' = some t' → Function.update s.owner e none e' = some t' ∧
            Function.update s.mem e avg e' = s.mem e' ∧ A e' = A e' := by
          intro e' t' htt hoo
          have : e' ≠ e := by
            rintro rfl
            rw [hoo] at hoe
            simp only [Option.some.injEq] at hoe
            exact htt hoe
          exact ⟨by rw [Function.update_of_ne this]; exact hoo, Function.update_of_ne this _ _, rfl⟩
        have hback : ∀ e' t', t' ≠ t → Function.update s.owner e none e' = some t' → s.owner e' = some t' := by
          intro e' t' htt hoo
          by_cases hee : e' = e
          · subst hee; rw [Function.update_self] at hoo; simp at hoo
          · rwa [Function.update_of_ne hee] at hoo
        have hown : ∀ e', Function.update s.owner e none e' = some t ↔ e' ∈ todo := by
          intro e'
          by_cases hee : e' = e
          · subst hee; rw [Function.update_self]; simp [hnd'.1]
          · rw [Function.update_of_ne hee, hheld]; simp [hee]
        have hfr : ∀ e', Function.update s.owner e none e' = none → Function.update s.mem e avg e' = A e' := by
          intro e' hoo
          by_cases hee : e' = e
          · subst hee; rw [Function.update_self, hA' e' List.mem_cons_self]
          · rw [Function.update_of_ne hee] at hoo ⊢
            exact h.free e' hoo
        by_cases hte : todo = []
        · subst hte
          simp only [List.isEmpty_nil, if_true] at hstep
          subst hstep
          refine ⟨A, h.update ht rfl h.log h.uniform hoth ?_ hback hfr ?_ (Or.inl ⟨rfl, by rw [hst]; rfl⟩)⟩
          · intro e'; exact hown e'
          · exact hcf
        · have hemp : todo.isEmpty = false := by simpa using hte
          rw [hemp] at hstep
          simp only [Bool.false_eq_true, if_false] at hstep
          subst hstep
          have hb : heldBy cfg (Task.writing c avg todo) = todo := by simp [heldBy, hm]
          refine ⟨A, h.update ht rfl h.log h.uniform hoth ?_ hback hfr ?_ (Or.inl ⟨rfl, by rw [hst]; rfl⟩)⟩
          · intro e'; rw [hb]; exact hown e'
          · refine ⟨hcf, hte, hnd'.2, fun e' he' => hsub e' (List.mem_cons_of_mem _ he'), hlen, ?_, ?_, ?_⟩
            · intro e' he'; rw [hb] at he'; exact hA' e' (List.mem_cons_of_mem _ he')
            · intro e' he' hn; rw [hb] at he'; exact absurd he' hn
            · intro hmm; exact absurd hmm hm
  | releasing c todo =>
    rw [hst] at hstep htask
    obtain ⟨hcf, hne, hnd, hA, hsub⟩ := htask
    cases todo with
    | nil => exact absurd rfl hne
    | cons e todo =>
      simp only [Option.some.injEq] at hstep
      have hnd' := List.nodup_cons.1 hnd
      have hheld : ∀ e', s.owner e' = some t ↔ e' ∈ e :: todo := fun e' => by rw [howner e', hst]; rfl
      have hoe : s.owner e = some t := (hheld e).2 List.mem_cons_self
      have hoth : ∀ e' t', t' ≠ t → s.owner e' = some t' → Function.update s.owner e none e' = some t' ∧
          s.mem e' = s.mem e' ∧ A e' = A e' := by
        intro e' t' htt hoo
        have : e' ≠ e := by
          rintro rfl
          rw [hoo] at hoe
          simp only [Option.some.injEq] at hoe
          exact htt hoe
        exact ⟨by rw [Function.update_of_ne this]; exact hoo, rfl, rfl⟩
      have hback : ∀ e' t', t' ≠ t → Function.update s.owner e none e' = some t' → s.owner e' = some t' := by
        intro e' t' htt hoo
        by_cases hee : e' = e
        · subst hee; rw [Function.update_self] at hoo; simp at hoo
        · rwa [Function.update_of_ne hee] at hoo
      have hown : ∀ e', Function.update s.owner e none e' = some t ↔ e' ∈ todo := by
        intro e'
        by_cases hee : e' = e
        · subst hee; rw [Function.update_self]; simp [hnd'.1]
        · rw [Function.update_of_ne hee, hheld]; simp [hee]
      have hfr : ∀ e', Function.update s.owner e none e' = none → s.mem e' = A e' := by
        intro e' hoo
        by_cases hee : e' = e
        · subst hee; exact hA e' List.mem_cons_self
        · rw [Function.update_of_ne hee] at hoo
          exact h.free e' hoo
      by_cases hte : todo = []
      · subst hte
        simp only [List.isEmpty_nil, if_true] at hstep
        subst hstep
        refine ⟨A, h.update ht rfl h.log h.uniform hoth ?_ hback hfr ?_ (Or.inl ⟨rfl, by rw [hst]; rfl⟩)⟩
        · intro e'; exact hown e'
        · exact hcf
      · have hemp : todo.isEmpty = false := by simpa using hte
        rw [hemp] at hstep
        simp only [Bool.false_eq_true, if_false] at hstep
        subst hstep
        refine ⟨A, h.update ht rfl h.log h.uniform hoth ?_ hback hfr ?_ (Or.inl ⟨rfl, by rw [hst]; rfl⟩)⟩
        · intro e'; exact hown e'
        · exact ⟨hcf, hte, hnd'.2, fun e' he' => hA e' (List.mem_cons_of_mem _ he'),
            fun e' he' => hsub e' (List.mem_cons_of_mem _ he')⟩
  | done c => rw [hst] at hstep; simp at hstep
  | panicked => rw [hst] at hstep; simp at hstep

theorem inv_reachable {cfg : Cfg} {n L : Nat} {nearest : Nat → List (Nat × D)}
    {seeds : List Nat} (hv : ValidInput n nearest seeds) {mem0 : Mem K} (hu : Uniform cfg n L mem0) {s : State D K}
    (h : Reachable cfg n nearest seeds mem0 s) : ∃ A, Inv cfg n L nearest seeds mem0 s A := by
  induction h with
  | init => exact ⟨mem0, inv_init hu⟩
  | step _ hs ih =>
    obtain ⟨A, hA⟩ := ih
    exact inv_step hv hA hs

end Cres

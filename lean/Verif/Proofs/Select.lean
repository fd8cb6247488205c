import Verif.Spec.Select
import Verif.Proofs.Scaled

/-!
Runs with some of the weights.
-/

set_option linter.unusedSectionVars false

namespace Cres

open Spec CombinedIO Program

section
variable {D K V : Type*}

theorem onlyWeights_nil (I : List Nat) : onlyWeights I ([] : List K) = [] := by
  unfold onlyWeights
  induction I with
  | nil => rfl
  | cons i I ih => simpa using ih

theorem onlyWeights_map (I : List Nat) (f : K → K) (w : List K) : onlyWeights I (w.map f) = (onlyWeights I w).map f := by
  unfold onlyWeights
  rw [List.map_filterMap]
  congr 1
  funext i
  rw [List.getElem?_map]

theorem onlyWeights_zipWith (I : List Nat) (f : K → K → K) {a b : List K} (h : a.length = b.length) :
    onlyWeights I (List.zipWith f a b) = List.zipWith f (onlyWeights I a) (onlyWeights I b) := by
  unfold onlyWeights
  induction I with
  | nil => rfl
  | cons i I ih =>
    rw [List.filterMap_cons, List.filterMap_cons, List.filterMap_cons, List.getElem?_zipWith]
    by_cases hi : i < a.length
    · rw [List.getElem?_eq_getElem hi, List.getElem?_eq_getElem (h ▸ hi)]
      simp [ih]
    · rw [List.getElem?_eq_none (by omega), List.getElem?_eq_none (by omega)]
      simpa using ih

theorem onlyWeights_head (I : List Nat) (w : List K) : (onlyWeights (0 :: I) w).head? = w.head? := by
  cases w with
  | nil => rw [onlyWeights_nil]
  | cons a w => simp [onlyWeights]

theorem onlyWeights_length (I : List Nat) {a b : List K} (h : a.length = b.length) :
    (onlyWeights I a).length = (onlyWeights I b).length := by
  unfold onlyWeights
  induction I with
  | nil => rfl
  | cons i I ih =>
    rw [List.filterMap_cons, List.filterMap_cons]
    by_cases hi : i < a.length
    · rw [List.getElem?_eq_getElem hi, List.getElem?_eq_getElem (h ▸ hi)]
      simp [ih]
    · rw [List.getElem?_eq_none (by omega), List.getElem?_eq_none (by omega)]
      simpa using ih

theorem onlyWeights_eq_nil (I : List Nat) {w : List K} : onlyWeights (0 :: I) w = [] ↔ w = [] := by
  constructor
  · intro h
    have := onlyWeights_head I w
    rw [h] at this
    cases w with
    | nil => rfl
    | cons => simp at this
  · rintro rfl
    exact onlyWeights_nil _

/-- All weights are there, or none. -/
def AllOrNone (L : Nat) (w : List K) : Prop := w = [] ∨ w.length = L

theorem onlyWeights_length_iff {L : Nat} (I : List Nat) {a b : List K} (ha : AllOrNone L a) (hb : AllOrNone L b) :
    (onlyWeights (0 :: I) a).length = (onlyWeights (0 :: I) b).length ↔ a.length = b.length := by
  refine ⟨fun h => ?_, onlyWeights_length _⟩
  rcases ha with rfl | ha
  · rw [onlyWeights_nil, List.length_nil, eq_comm, List.length_eq_zero_iff, onlyWeights_eq_nil] at h
    rw [h]
  · rcases hb with rfl | hb
    · rw [onlyWeights_nil, List.length_nil, List.length_eq_zero_iff, onlyWeights_eq_nil] at h
      rw [h]
    · rw [ha, hb]

def Task.keeping (I : List Nat) : Task D K → Task D K
  | .reading c acc todo => .reading c (acc.map (onlyWeights I)) todo
  | .writing c avg todo => .writing c (onlyWeights I avg) todo
  | t => t

def State.keeping (I : List Nat) (s : State D K) : State D K :=
  ⟨fun i => onlyWeights I (s.mem i), s.owner, fun t => (s.tasks t).keeping I, s.log⟩

/-- Weights in a task. -/
def Task.AllOrNone (L : Nat) : Task D K → Prop
  | .reading _ acc _ => ∀ a ∈ acc, Cres.AllOrNone L a
  | .writing _ avg _ => Cres.AllOrNone L avg
  | _ => True

structure State.AllOrNone (L : Nat) (s : State D K) : Prop where
  mem : ∀ i, Cres.AllOrNone L (s.mem i)
  tasks : ∀ t, (s.tasks t).AllOrNone L

variable [Zero D] [Zero K] [One K] [Add K] [Mul K] [Div K] [NatCast K] [Neg K] [LinearOrder K] {I : List Nat} {L : Nat}

theorem weightAt_keeping (n : Nat) (mem : Mem K) (i : Nat) :
    weightAt n (fun j => onlyWeights (0 :: I) (mem j)) i = weightAt n mem i := by
  unfold weightAt Weights.central
  rw [onlyWeights_head]

theorem accumulate_keeping {cfg : Cfg} (hm : cfg.multi = true) {acc : Option (Weights K)} {w : Weights K}
    (ha : ∀ a ∈ acc, AllOrNone L a) (hw : AllOrNone L w) :
    accumulate cfg (acc.map (onlyWeights (0 :: I))) (onlyWeights (0 :: I) w) = (accumulate cfg acc w).map (onlyWeights (0 :: I)) := by
  unfold accumulate
  rw [if_pos hm, if_pos hm]
  cases acc with
  | none => rfl
  | some a =>
    simp only [Option.map_some, Weights.addAssign, onlyWeights_length_iff I (ha a rfl) hw]
    split_ifs with h
    · rw [Option.map_some, onlyWeights_zipWith _ _ h]
    · rfl

theorem accumulate_allOrNone {cfg : Cfg} (hm : cfg.multi = true) {acc : Option (Weights K)} {w a : Weights K}
    (ha : ∀ a ∈ acc, AllOrNone L a) (hw : AllOrNone L w) (h : accumulate cfg acc w = some a) : AllOrNone L a := by
  unfold accumulate at h
  rw [if_pos hm] at h
  cases acc with
  | none =>
    simp only [Option.some.injEq] at h
    exact h ▸ hw
  | some b =>
    simp only [Weights.addAssign] at h
    split_ifs at h with hl
    simp only [Option.some.injEq] at h
    subst h
    rcases hw with rfl | hw
    · left; simp
    · right; simp [hl, hw]

theorem normalise_keeping (cfg : Cfg) (n : Nat) (s : Weights K) :
    normalise cfg n (onlyWeights I s) = onlyWeights I (normalise cfg n s) := by
  unfold normalise
  split_ifs <;> rw [onlyWeights_map]

theorem normalise_allOrNone {cfg : Cfg} {n : Nat} {s : Weights K} (h : AllOrNone L s) : AllOrNone L (normalise cfg n s) := by
  unfold normalise
  rcases h with rfl | h
  · left; split_ifs <;> rfl
  · right; split_ifs <;> simpa using h

theorem step_keeping {cfg : Cfg} (hm : cfg.multi = true) (n : Nat) (nearest : Nat → List (Nat × D)) (seed : Nat) {s : State D K}
    (hs : s.AllOrNone L) (tid : Nat) :
    step cfg n nearest seed (s.keeping (0 :: I)) tid = (step cfg n nearest seed s tid).map (State.keeping (0 :: I)) := by
  have hupd : ∀ t : Task D K, ({ s.keeping (0 :: I) with
      tasks := Function.update (s.keeping (0 :: I)).tasks tid (t.keeping (0 :: I)) } : State D K) =
      State.keeping (0 :: I) { s with tasks := Function.update s.tasks tid t } := by
    intro t
    simp only [State.keeping, State.mk.injEq, true_and, and_true]
    exact (update_scale (Task.keeping (0 :: I)) s.tasks tid t).symm
  have hw : ∀ i, weightAt n (s.keeping (0 :: I)).mem i = weightAt n s.mem i := fun i => weightAt_keeping n s.mem i
  have ho : (s.keeping (0 :: I)).owner = s.owner := rfl
  have htid := hs.tasks tid
  unfold step
  rw [show (s.keeping (0 :: I)).tasks tid = (s.tasks tid).keeping (0 :: I) from rfl]
  cases ht : s.tasks tid with
  | waiting =>
    simp only [Task.keeping, ho, hw]
    split_ifs
    · rfl
    · cases weightAt n s.mem seed with
      | none => exact congrArg some (hupd .panicked)
      | some w =>
        simp only
        split_ifs
        · exact congrArg some (hupd (.done none))
        · exact congrArg some (hupd .checked)
  | checked =>
    simp only [Task.keeping, ho, hw]
    split_ifs
    · rfl
    · cases weightAt n s.mem seed with
      | none => exact congrArg some (hupd .panicked)
      | some w =>
        simp only
        split_ifs
        · exact congrArg some (hupd .panicked)
        · exact congrArg some (hupd (.growing ⟨[seed], 0, w⟩ (nearest seed)))
  | growing c rest =>
    cases rest with
    | nil => exact congrArg some (hupd (startResample c))
    | cons x rest =>
      obtain ⟨i, d⟩ := x
      simp only [Task.keeping, ho, hw]
      split_ifs
      · rfl
      · cases weightAt n s.mem i with
        | none => exact congrArg some (hupd .panicked)
        | some w =>
          simp only
          split_ifs
          · exact congrArg some (hupd (startResample ⟨c.members ++ [i], d, c.weightSum + w⟩))
          · exact congrArg some (hupd (.growing ⟨c.members ++ [i], d, c.weightSum + w⟩ rest))
  | locking c held todo =>
    cases todo with
    | nil => exact congrArg some (hupd .panicked)
    | cons e todo =>
      simp only [Task.keeping, ho]
      split_ifs
      · rfl
      · simp only [Option.map_some, Option.some.injEq, State.keeping, State.mk.injEq, true_and, and_true]
        rw [update_scale]
        rfl
      · simp only [Option.map_some, Option.some.injEq, State.keeping, State.mk.injEq, true_and, and_true]
        rw [update_scale]
        rfl
  | reading c acc todo =>
    rw [ht] at htid
    cases todo with
    | nil => exact congrArg some (hupd .panicked)
    | cons e todo =>
      simp only [Task.keeping]
      rw [show (s.keeping (0 :: I)).mem e = onlyWeights (0 :: I) (s.mem e) from rfl, accumulate_keeping hm htid (hs.mem e)]
      cases accumulate cfg acc (s.mem e) with
      | none => exact congrArg some (hupd .panicked)
      | some a =>
        simp only [Option.map_some, Option.some.injEq, State.keeping, State.mk.injEq, true_and, and_true]
        constructor
        · simp only [Option.map_eq_none_iff]
          split_ifs
          · rw [update_scale, onlyWeights_nil]
          · rfl
        · rw [update_scale]
          congr 1
          split_ifs
          · simp only [Task.keeping, ← normalise_keeping]
          · rfl
  | writing c avg todo =>
    rw [ht] at htid
    cases todo with
    | nil => exact congrArg some (hupd .panicked)
    | cons e todo =>
      simp only [Task.keeping]
      rw [show (s.keeping (0 :: I)).mem e = onlyWeights (0 :: I) (s.mem e) from rfl]
      simp only [hm, if_true, ne_eq, onlyWeights_length_iff I (hs.mem e) htid]
      split_ifs
      · exact congrArg some (hupd .panicked)
      · simp only [Option.map_some, Option.some.injEq, State.keeping, State.mk.injEq, true_and, and_true]
        rw [update_scale, update_scale]
        exact ⟨rfl, rfl⟩
      · simp only [Option.map_some, Option.some.injEq, State.keeping, State.mk.injEq, true_and, and_true]
        rw [update_scale, update_scale]
        exact ⟨rfl, rfl⟩
  | releasing c todo =>
    cases todo with
    | nil => exact congrArg some (hupd (.done (some c)))
    | cons e todo =>
      rw [show (Task.releasing c (e :: todo)).keeping (0 :: I) = .releasing c (e :: todo) from rfl]
      simp only [Option.map_some, Option.some.injEq, State.keeping, State.mk.injEq, true_and, and_true]
      rw [update_scale]
      congr 1
      split_ifs <;> rfl
  | done c => rfl
  | panicked => rfl

theorem forall_update {α : Type*} {p : α → Prop} {f : Nat → α} {i : Nat} {a : α} (h : ∀ j, p (f j)) (ha : p a) :
    ∀ j, p (Function.update f i a j) := by
  intro j
  by_cases hj : j = i
  · subst hj; simpa using ha
  · simpa [hj] using h j

theorem step_allOrNone {cfg : Cfg} (hm : cfg.multi = true) {n : Nat} {nearest : Nat → List (Nat × D)} {seed : Nat} {s s' : State D K}
    (hs : s.AllOrNone L) {tid : Nat} (h : step cfg n nearest seed s tid = some s') : s'.AllOrNone L := by
  have hupd : ∀ t : Task D K, t.AllOrNone L → State.AllOrNone L { s with tasks := Function.update s.tasks tid t } :=
    fun t ht => ⟨hs.mem, forall_update hs.tasks ht⟩
  have htid := hs.tasks tid
  unfold step at h
  cases ht : s.tasks tid with
  | waiting =>
    simp only [ht] at h
    split_ifs at h
    cases hw : weightAt n s.mem seed with
    | none => rw [hw] at h; simp only [Option.some.injEq] at h; subst h; exact hupd _ trivial
    | some w =>
      rw [hw] at h
      simp only at h
      split_ifs at h <;> (simp only [Option.some.injEq] at h; subst h; exact hupd _ trivial)
  | checked =>
    simp only [ht] at h
    split_ifs at h
    cases hw : weightAt n s.mem seed with
    | none => rw [hw] at h; simp only [Option.some.injEq] at h; subst h; exact hupd _ trivial
    | some w =>
      rw [hw] at h
      simp only at h
      split_ifs at h <;> (simp only [Option.some.injEq] at h; subst h; exact hupd _ trivial)
  | growing c rest =>
    cases rest with
    | nil => simp only [ht, Option.some.injEq] at h; subst h; exact hupd _ trivial
    | cons x rest =>
      obtain ⟨i, d⟩ := x
      simp only [ht] at h
      split_ifs at h
      cases hw : weightAt n s.mem i with
      | none => rw [hw] at h; simp only [Option.some.injEq] at h; subst h; exact hupd _ trivial
      | some w =>
        rw [hw] at h
        simp only at h
        split_ifs at h <;> (simp only [Option.some.injEq] at h; subst h; exact hupd _ trivial)
  | locking c held todo =>
    cases todo with
    | nil => simp only [ht, Option.some.injEq] at h; subst h; exact hupd _ trivial
    | cons e todo =>
      simp only [ht] at h
      split_ifs at h
      · simp only [Option.some.injEq] at h
        subst h
        exact ⟨hs.mem, forall_update hs.tasks (show (Task.reading c none c.members : Task D K).AllOrNone L by
          intro a ha; simp at ha)⟩
      · simp only [Option.some.injEq] at h
        subst h
        exact ⟨hs.mem, forall_update hs.tasks trivial⟩
  | reading c acc todo =>
    rw [ht] at htid
    cases todo with
    | nil => simp only [ht, Option.some.injEq] at h; subst h; exact hupd _ trivial
    | cons e todo =>
      simp only [ht] at h
      cases ha : accumulate cfg acc (s.mem e) with
      | none => rw [ha] at h; simp only [Option.some.injEq] at h; subst h; exact hupd _ trivial
      | some a =>
        rw [ha] at h
        simp only [Option.some.injEq] at h
        have haa := accumulate_allOrNone hm htid (hs.mem e) ha
        subst h
        refine ⟨?_, forall_update hs.tasks ?_⟩
        · simp only
          split_ifs
          · exact forall_update hs.mem (Or.inl rfl)
          · exact hs.mem
        · split_ifs
          · exact normalise_allOrNone haa
          · intro b hb
            simp only [Option.mem_def, Option.some.injEq] at hb
            exact hb ▸ haa
  | writing c avg todo =>
    rw [ht] at htid
    cases todo with
    | nil => simp only [ht, Option.some.injEq] at h; subst h; exact hupd _ trivial
    | cons e todo =>
      simp only [ht, hm, if_true] at h
      split_ifs at h
      · simp only [Option.some.injEq] at h; subst h; exact hupd _ trivial
      all_goals
        simp only [Option.some.injEq] at h
        subst h
        refine ⟨forall_update hs.mem htid, forall_update hs.tasks ?_⟩
        first | trivial | exact htid
  | releasing c todo =>
    cases todo with
    | nil => simp only [ht, Option.some.injEq] at h; subst h; exact hupd _ trivial
    | cons e todo =>
      simp only [ht, Option.some.injEq] at h
      subst h
      refine ⟨hs.mem, forall_update hs.tasks ?_⟩
      split_ifs <;> trivial
  | done c => simp only [ht] at h; cases h
  | panicked => simp only [ht] at h; cases h

theorem reachable_allOrNone {cfg : Cfg} (hm : cfg.multi = true) {n : Nat} {nearest : Nat → List (Nat × D)} {seeds : List Nat}
    {mem : Mem K} (hmem : ∀ i, AllOrNone L (mem i)) {s : State D K} (h : Reachable cfg n nearest seeds mem s) : s.AllOrNone L := by
  induction h with
  | init => exact ⟨hmem, fun _ => trivial⟩
  | @step s s' tid _ hs ih =>
    unfold stepAll at hs
    cases hseed : seeds[tid]? with
    | none => rw [hseed] at hs; cases hs
    | some seed =>
      rw [hseed] at hs
      exact step_allOrNone hm ih hs

theorem reachable_keeping {cfg : Cfg} (hm : cfg.multi = true) {n : Nat} {nearest : Nat → List (Nat × D)} {seeds : List Nat} {mem : Mem K}
    (hmem : ∀ i, AllOrNone L (mem i)) {s : State D K} (h : Reachable cfg n nearest seeds mem s) :
    Reachable cfg n nearest seeds (fun i => onlyWeights (0 :: I) (mem i)) (s.keeping (0 :: I)) := by
  induction h with
  | init => exact .init
  | @step s s' tid h0 hs ih =>
    refine .step (tid := tid) ih ?_
    unfold stepAll at hs ⊢
    cases hseed : seeds[tid]? with
    | none => rw [hseed] at hs; cases hs
    | some seed =>
      rw [hseed] at hs
      simp only at hs ⊢
      rw [step_keeping hm _ _ _ (reachable_allOrNone hm hmem h0), hs]
      rfl

theorem reachable_of_keeping {cfg : Cfg} (hm : cfg.multi = true) {n : Nat} {nearest : Nat → List (Nat × D)} {seeds : List Nat} {mem : Mem K}
    (hmem : ∀ i, AllOrNone L (mem i)) {t : State D K}
    (h : Reachable cfg n nearest seeds (fun i => onlyWeights (0 :: I) (mem i)) t) :
    ∃ s, Reachable cfg n nearest seeds mem s ∧ t = s.keeping (0 :: I) := by
  induction h with
  | init => exact ⟨_, .init, rfl⟩
  | @step t t' tid h0 ht ih =>
    obtain ⟨s, h1, rfl⟩ := ih
    unfold stepAll at ht
    cases hseed : seeds[tid]? with
    | none => rw [hseed] at ht; cases ht
    | some seed =>
      rw [hseed] at ht
      simp only at ht
      rw [step_keeping hm _ _ _ (reachable_allOrNone hm hmem h1)] at ht
      obtain ⟨s', h2, rfl⟩ := Option.map_eq_some_iff.1 ht
      refine ⟨s', .step (tid := tid) h1 ?_, rfl⟩
      unfold stepAll
      rw [hseed]
      exact h2

theorem finished_keeping {seeds : List Nat} {s : State D K} : (s.keeping I).Finished seeds ↔ s.Finished seeds := by
  constructor
  · intro h tid ht
    obtain ⟨c, hc⟩ := h tid ht
    refine ⟨c, ?_⟩
    simp only [State.keeping] at hc
    cases hk : s.tasks tid <;> rw [hk] at hc <;> simp_all [Task.keeping]
  · intro h tid ht
    obtain ⟨c, hc⟩ := h tid ht
    exact ⟨c, by simp [State.keeping, hc, Task.keeping]⟩

theorem panicked_keeping {s : State D K} {t : Nat} : (s.keeping I).tasks t = .panicked ↔ s.tasks t = .panicked := by
  simp only [State.keeping]
  cases hk : s.tasks t <;> simp [Task.keeping]

/-! ### events -/

theorem weight_keeping (e : Event K V) : (keepingWeights (0 :: I) e).weight = e.weight := by
  unfold Event.weight Weights.central keepingWeights
  rw [onlyWeights_head]

theorem mapM_weight_keeping (l : List (Event K V)) :
    (l.map (keepingWeights (0 :: I))).mapM Event.weight = l.mapM Event.weight := by
  induction l with
  | nil => rfl
  | cons e l ih => rw [List.map_cons, List.mapM_cons, List.mapM_cons, ih, weight_keeping]

theorem weightSum_keeping (l : List (Event K V)) : weightSum (l.map (keepingWeights (0 :: I))) = weightSum l := by
  unfold weightSum
  rw [mapM_weight_keeping]

theorem logSums_keeping (cfg : Cfg) (infoLog : Bool) (l : List (Event K V)) :
    logSumsPanics cfg infoLog (l.map (keepingWeights (0 :: I))) = logSumsPanics cfg infoLog l := by
  unfold logSumsPanics
  rw [mapM_weight_keeping]

theorem memOf_keeping (evs : List (Event K V)) : memOf (evs.map (keepingWeights I)) = fun i => onlyWeights I (memOf evs i) := by
  funext i
  simp only [memOf, List.getElem?_map, Option.map_map]
  cases evs[i]?
  · exact (onlyWeights_nil I).symm
  · rfl

theorem withWeights_keeping (evs : List (Event K V)) (mem : Mem K) :
    withWeights (evs.map (keepingWeights I)) (fun i => onlyWeights I (mem i)) = (withWeights evs mem).map (keepingWeights I) := by
  apply List.ext_getElem?
  intro i
  simp only [withWeights, List.getElem?_mapIdx, List.getElem?_map, Option.map_map]
  cases evs[i]? <;> rfl

theorem identified_keeping (evs : List (Event K V)) :
    identified (evs.map (keepingWeights I)) = (identified evs).map (keepingWeights I) := by
  unfold identified
  rw [List.filter_map]
  rfl

theorem sortById_keeping (evs : List (Event K V)) :
    sortById (evs.map (keepingWeights I)) = (sortById evs).map (keepingWeights I) := by
  unfold sortById
  exact (List.map_insertionSort (r := fun a b : Event K V => a.id ≤ b.id) (s := fun a b : Event K V => a.id ≤ b.id)
    (keepingWeights I) evs fun _ _ _ _ => Iff.rfl).symm

theorem setWeights_keeping : ∀ (evs : List (Event K V)) (ws : List (Weights K)),
    setWeights (evs.map (keepingWeights I)) (ws.map (onlyWeights I)) = (setWeights evs ws).map (List.map (onlyWeights I)) := by
  intro evs
  induction evs with
  | nil => intro ws; rfl
  | cons e es ih =>
    intro ws
    simp only [List.map_cons, setWeights, List.length_map]
    rw [show (keepingWeights I e).id = e.id from rfl, show (keepingWeights I e).weights = onlyWeights I e.weights from rfl,
      ← List.map_set, ih]
    split_ifs <;> rfl

theorem reweighted_keeping (w : Weights K) (e : Event K V) :
    reweighted (onlyWeights (0 :: I) w) (keepingWeights (0 :: I) e) = keepingWeights (0 :: I) (reweighted w e) := by
  unfold reweighted
  simp only [onlyWeights_eq_nil]
  split_ifs <;> rfl

/-! ### unweighting -/

theorem retainEvents_keeping (minWt : K) (rng : Nat → K) : ∀ (evs : List (Event K V)) (n : Nat),
    retainEvents minWt rng n (evs.map (keepingWeights (0 :: I))) =
      (retainEvents minWt rng n evs).map (List.map (keepingWeights (0 :: I))) := by
  intro evs
  induction evs with
  | nil => intro n; rfl
  | cons e es ih =>
    intro n
    simp only [List.map_cons, retainEvents, weight_keeping]
    cases e.weight with
    | none => rfl
    | some wt =>
      simp only [ih, Option.map_map]
      congr 1
      funext rest
      simp only [Function.comp_apply]
      split_ifs <;> rfl

theorem rescale_keeping (c : K) (e : Event K V) : (keepingWeights I e).rescaleWeights c = keepingWeights I (e.rescaleWeights c) := by
  simp [Event.rescaleWeights, keepingWeights, onlyWeights_map]

theorem raise_keeping (minWt : K) (e : Event K V) :
    raiseWeight minWt (keepingWeights (0 :: I) e) = (raiseWeight minWt e).map (keepingWeights (0 :: I)) := by
  unfold raiseWeight
  rw [weight_keeping]
  cases e.weight with
  | none => rfl
  | some wt =>
    simp only
    split_ifs
    · rw [rescale_keeping]; rfl
    · rfl

theorem mapM_raise_keeping (minWt : K) (evs : List (Event K V)) :
    (evs.map (keepingWeights (0 :: I))).mapM (raiseWeight minWt) =
      (evs.mapM (raiseWeight minWt)).map (List.map (keepingWeights (0 :: I))) := by
  induction evs with
  | nil => rfl
  | cons e es ih =>
    rw [List.map_cons, List.mapM_cons, List.mapM_cons, ih, raise_keeping]
    cases raiseWeight minWt e with
    | none => rfl
    | some e' => cases es.mapM (raiseWeight minWt) <;> rfl

/-- The result of unweighting with some of the weights. -/
def UnweightResult.keeping (I : List Nat) : UnweightResult K V → UnweightResult K V
  | .ok evs => .ok (evs.map (keepingWeights I))
  | .panic => .panic
  | .nonFinite evs => .nonFinite (evs.map (keepingWeights I))

theorem unweight_keeping (debug : Bool) (minWt : K) (rng : Nat → K) (evs : List (Event K V)) :
    unweight debug minWt rng (evs.map (keepingWeights (0 :: I))) = (unweight debug minWt rng evs).keeping (0 :: I) := by
  unfold unweight
  simp only [weightSum_keeping, retainEvents_keeping, List.isEmpty_map]
  split_ifs with h1 h2
  · rfl
  · cases weightSum evs <;> rfl
  · cases weightSum evs with
    | none => rfl
    | some sum =>
      cases retainEvents minWt rng 0 evs with
      | none => rfl
      | some kept =>
        simp only [Option.map_some]
        rw [mapM_raise_keeping]
        cases kept.mapM (raiseWeight minWt) with
        | none => rfl
        | some raised =>
          simp only [Option.map_some]
          rw [weightSum_keeping, List.isEmpty_map]
          cases weightSum raised with
          | none => rfl
          | some total =>
            simp only
            split_ifs
            · rfl
            · rfl
            · rfl
            · simp [UnweightResult.keeping, rescale_keeping]

theorem unweightStep_keeping {E : Type*} (debug : Bool) (minWt : K) (rng : Nat → K) (evs : List (Event K V)) :
    (unweightStep debug minWt rng (evs.map (keepingWeights (0 :: I))) : Outcome E _) =
      (unweightStep debug minWt rng evs : Outcome E _).map (List.map (keepingWeights (0 :: I))) := by
  simp only [unweightStep, unweight_keeping]
  cases unweight debug minWt rng evs <;> rfl

/-! ### seeds -/

theorem selectSeeds_keeping (sort : (Nat → K) → List Nat → List Nat) (strategy : Strategy) (n : Nat) (mem : Mem K) :
    selectSeeds sort strategy n (fun j => onlyWeights (0 :: I) (mem j)) = selectSeeds sort strategy n mem := by
  have hw : ∀ i, Weights.central (onlyWeights (0 :: I) (mem i)) = Weights.central (mem i) := fun i => onlyWeights_head I (mem i)
  unfold selectSeeds
  simp only [weightAt_keeping, hw]

/-! ### whole runs -/

/-- The same components for fewer weights. -/
structure SameComponents (I : List Nat) (p q : Program K V D) : Prop where
  multi : p.io.ctx.multi = true
  cfg : q.cfg = p.cfg
  infoLog : q.infoLog = p.infoLog
  nearest : ∀ evs, q.nearest (evs.map (keepingWeights I)) = p.nearest evs
  seeds : ∀ evs, q.seeds (evs.map (keepingWeights I)) = p.seeds evs
  unweight : ∀ evs, q.unweight (evs.map (keepingWeights I)) = (p.unweight evs).map (List.map (keepingWeights I))

theorem memOf_allOrNone {evs : List (Event K V)} (h : ∀ e ∈ evs, e.weights.length = L) : ∀ i, AllOrNone L (memOf evs i) := by
  intro i
  unfold memOf
  cases hi : evs[i]? with
  | none => left; rfl
  | some e => right; exact h e (List.mem_of_getElem? hi)

theorem resamples_keeping {p q : Program K V D} (hpq : SameComponents (0 :: I) p q) {events : List (Event K V)}
    (hl : ∀ e ∈ events, e.weights.length = L) {o : Outcome IOError (List (Event K V))} (h : p.Resamples events o) :
    q.Resamples (events.map (keepingWeights (0 :: I))) (o.map (List.map (keepingWeights (0 :: I)))) := by
  have hm : p.cfg.multi = true := hpq.multi
  have hmem := memOf_allOrNone hl
  cases h with
  | log h => exact .log (by rw [hpq.cfg, hpq.infoLog, logSums_keeping]; exact h)
  | @task s t h1 h2 h3 =>
    refine .task (s := s.keeping (0 :: I)) (t := t) (by rw [hpq.cfg, hpq.infoLog, logSums_keeping]; exact h1) ?_ (panicked_keeping.2 h3)
    rw [hpq.cfg, List.length_map, hpq.nearest, hpq.seeds, memOf_keeping]
    exact reachable_keeping hm hmem h2
  | ok h1 h2 =>
    obtain ⟨s, g1, g2, rfl⟩ := h2
    refine .ok (by rw [hpq.cfg, hpq.infoLog, logSums_keeping]; exact h1)
      ⟨s.keeping (0 :: I), ?_, ?_, (withWeights_keeping _ _).symm⟩
    · rw [hpq.cfg, List.length_map, hpq.nearest, hpq.seeds, memOf_keeping]
      exact reachable_keeping hm hmem g1
    · rw [hpq.seeds]
      exact finished_keeping.2 g2

theorem resamples_of_keeping {p q : Program K V D} (hpq : SameComponents (0 :: I) p q) {events : List (Event K V)}
    (hl : ∀ e ∈ events, e.weights.length = L) {o : Outcome IOError (List (Event K V))}
    (h : q.Resamples (events.map (keepingWeights (0 :: I))) o) :
    ∃ o', p.Resamples events o' ∧ o = o'.map (List.map (keepingWeights (0 :: I))) := by
  have hm : p.cfg.multi = true := hpq.multi
  have hmem := memOf_allOrNone hl
  cases h with
  | log h => exact ⟨_, .log (by rw [hpq.cfg, hpq.infoLog, logSums_keeping] at h; exact h), rfl⟩
  | @task s t h1 h2 h3 =>
    rw [hpq.cfg, hpq.infoLog, logSums_keeping] at h1
    rw [hpq.cfg, List.length_map, hpq.nearest, hpq.seeds, memOf_keeping] at h2
    obtain ⟨s, h4, rfl⟩ := reachable_of_keeping hm hmem h2
    exact ⟨_, .task (s := s) (t := t) h1 h4 (panicked_keeping.1 h3), rfl⟩
  | ok h1 h2 =>
    obtain ⟨s, g1, g2, rfl⟩ := h2
    rw [hpq.cfg, hpq.infoLog, logSums_keeping] at h1
    rw [hpq.cfg, List.length_map, hpq.nearest, hpq.seeds, memOf_keeping] at g1
    rw [hpq.seeds] at g2
    obtain ⟨s, h4, rfl⟩ := reachable_of_keeping hm hmem g1
    exact ⟨_, .ok h1 ⟨s, h4, finished_keeping.1 g2, rfl⟩, by
      simp only [Outcome.map, Outcome.ok.injEq]
      exact withWeights_keeping _ _⟩

theorem runWeights_keeping {p q : Program K V D} (hpq : SameComponents (0 :: I) p q)
    (resampled : Outcome IOError (List (Event K V))) (events : List (Event K V)) :
    runWeights q.cfg q.infoLog (fun _ => resampled.map (List.map (keepingWeights (0 :: I)))) q.unweight
        (events.map (keepingWeights (0 :: I))) =
      (runWeights p.cfg p.infoLog (fun _ => resampled) p.unweight events).map (List.map (onlyWeights (0 :: I))) := by
  have hm : p.cfg.multi = true := hpq.multi
  unfold runWeights
  rw [hpq.cfg, hpq.infoLog]
  cases resampled with
  | err e => rfl
  | panic => rfl
  | ok evs =>
    simp only [Outcome.map, Outcome.mapErr, Outcome.bind]
    rw [hpq.unweight]
    cases p.unweight evs with
    | err e => rfl
    | panic => rfl
    | ok evs =>
      simp only [Outcome.map]
      rw [sortById_keeping, logSums_keeping]
      rw [List.length_map]
      have : (List.replicate events.length (defaultWeights (K := K) p.cfg)) =
          (List.replicate events.length (defaultWeights p.cfg)).map (onlyWeights (0 :: I)) := by
        rw [List.map_replicate, defaultWeights, if_pos hm, onlyWeights_nil]
      split_ifs
      · rfl
      · rw [this, setWeights_keeping]
        rw [← this]
        cases setWeights (sortById evs) (List.replicate events.length (defaultWeights p.cfg)) <;> rfl

theorem computes_keeping {p q : Program K V D} (hpq : SameComponents (0 :: I) p q) {events : List (Event K V)}
    (hl : ∀ e ∈ events, e.weights.length = L)
    {o : Outcome (CresError IOError) (List (Weights K))} (h : p.ComputesWeights events o) :
    q.ComputesWeights (events.map (keepingWeights (0 :: I))) (o.map (List.map (onlyWeights (0 :: I)))) := by
  cases h with
  | @mk resampled h =>
    have h1 := resamples_keeping hpq (fun e he => hl e (List.mem_of_mem_filter he)) h
    have h2 : q.Resamples ((events.map (keepingWeights (0 :: I))).filter fun e => !e.outgoingByPid.isEmpty)
        (resampled.map (List.map (keepingWeights (0 :: I)))) := by
      rw [show ((events.map (keepingWeights (0 :: I))).filter fun e => !e.outgoingByPid.isEmpty) =
        identified (events.map (keepingWeights (0 :: I))) from rfl, identified_keeping]
      exact h1
    have h3 := ComputesWeights.mk h2
    rw [runWeights_keeping hpq] at h3
    exact h3

theorem computes_of_keeping {p q : Program K V D} (hpq : SameComponents (0 :: I) p q) {events : List (Event K V)}
    (hl : ∀ e ∈ events, e.weights.length = L) {o : Outcome (CresError IOError) (List (Weights K))}
    (h : q.ComputesWeights (events.map (keepingWeights (0 :: I))) o) :
    ∃ o', p.ComputesWeights events o' ∧ o = o'.map (List.map (onlyWeights (0 :: I))) := by
  cases h with
  | @mk resampled h =>
    rw [show ((events.map (keepingWeights (0 :: I))).filter fun e => !e.outgoingByPid.isEmpty) =
        identified (events.map (keepingWeights (0 :: I))) from rfl, identified_keeping] at h
    obtain ⟨r', h1, rfl⟩ := resamples_of_keeping hpq (fun e he => hl e (List.mem_of_mem_filter he)) h
    refine ⟨_, ComputesWeights.mk h1, ?_⟩
    rw [runWeights_keeping hpq]


end

end Cres

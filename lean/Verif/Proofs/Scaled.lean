import Verif.Spec.Scaled
import Verif.Proofs.Reorder

/-!
Runs with weights in other units.
-/

set_option linter.unusedSectionVars false

namespace Cres

open Spec CombinedIO Program

section
variable {D K V : Type*}

def Cell.scale (φ : K → K) (c : Cell D K) : Cell D K := { c with weightSum := φ c.weightSum }

def Task.scale (φ : K → K) : Task D K → Task D K
  | .waiting => .waiting
  | .checked => .checked
  | .growing c rest => .growing (c.scale φ) rest
  | .locking c held todo => .locking (c.scale φ) held todo
  | .reading c acc todo => .reading (c.scale φ) (acc.map (List.map φ)) todo
  | .writing c avg todo => .writing (c.scale φ) (avg.map φ) todo
  | .releasing c todo => .releasing (c.scale φ) todo
  | .done c => .done (c.map (Cell.scale φ))
  | .panicked => .panicked

def State.scale (φ : K → K) (s : State D K) : State D K :=
  ⟨fun i => (s.mem i).map φ, s.owner, fun t => (s.tasks t).scale φ, s.log.map (Cell.scale φ)⟩

theorem update_scale {α β : Type*} (f : α → β) (g : Nat → α) (i : Nat) (a : α) :
    (fun t => f (Function.update g i a t)) = Function.update (fun t => f (g t)) i (f a) := by
  funext t
  by_cases h : t = i
  · subst h; simp
  · simp [h]

variable [Zero D] [Zero K] [One K] [Add K] [Mul K] [Div K] [NatCast K] [Neg K] [LinearOrder K] {φ : K → K}

theorem _root_.Cres.Spec.IsScaling.lt (hφ : IsScaling φ) (a b : K) : φ a < φ b ↔ a < b := by
  rw [← not_le, ← not_le, hφ.le]

theorem _root_.Cres.Spec.IsScaling.inj (hφ : IsScaling φ) (a b : K) : φ a = φ b ↔ a = b := by
  rw [le_antisymm_iff, le_antisymm_iff, hφ.le, hφ.le]

theorem _root_.Cres.Spec.IsScaling.lt_zero (hφ : IsScaling φ) (a : K) : φ a < 0 ↔ a < 0 := by
  rw [← hφ.lt a 0, hφ.zero]

theorem _root_.Cres.Spec.IsScaling.zero_lt (hφ : IsScaling φ) (a : K) : 0 < φ a ↔ 0 < a := by
  rw [← hφ.lt 0 a, hφ.zero]

theorem _root_.Cres.Spec.IsScaling.zero_le (hφ : IsScaling φ) (a : K) : 0 ≤ φ a ↔ 0 ≤ a := by
  rw [← hφ.le 0 a, hφ.zero]

theorem _root_.Cres.Spec.IsScaling.eq_zero (hφ : IsScaling φ) (a : K) : φ a = 0 ↔ a = 0 := by
  rw [← hφ.inj a 0, hφ.zero]

theorem weightAt_scale (n : Nat) (mem : Mem K) (i : Nat) :
    weightAt n (fun j => (mem j).map φ) i = (weightAt n mem i).map φ := by
  unfold weightAt Weights.central
  split_ifs
  · show (List.map φ (mem i)).head? = _
    cases mem i <;> rfl
  · rfl

theorem accumulate_scale (hφ : IsScaling φ) (cfg : Cfg) (acc : Option (Weights K)) (w : Weights K) :
    accumulate cfg (acc.map (List.map φ)) (w.map φ) = (accumulate cfg acc w).map (List.map φ) := by
  unfold accumulate
  split_ifs
  · cases acc with
    | none => rfl
    | some a =>
      simp only [Option.map_some, Weights.addAssign, List.length_map]
      split_ifs
      · simp only [Option.map_some, Option.some.injEq, List.map_zipWith, hφ.add, List.zipWith_map]
      · rfl
  · have : (Weights.central (List.map φ w)) = (Weights.central w).map φ := by cases w <;> rfl
    rw [this]
    cases Weights.central w with
    | none => rfl
    | some x =>
      cases acc with
      | none => simp [hφ.add, hφ.zero]
      | some a => simp [hφ.add]

theorem normalise_scale (hφ : IsScaling φ) (cfg : Cfg) (n : Nat) (s : Weights K) :
    normalise cfg n (s.map φ) = (normalise cfg n s).map φ := by
  unfold normalise
  split_ifs <;> simp [hφ.mul, hφ.div]

theorem sortMembers_scale (c : Cell D K) : (c.scale φ).sortMembers = c.sortMembers.scale φ := rfl

theorem step_scale (hφ : IsScaling φ) (cfg : Cfg) (n : Nat) (nearest : Nat → List (Nat × D)) (seed : Nat) (s : State D K) (tid : Nat) :
    step cfg n nearest seed (s.scale φ) tid = (step cfg n nearest seed s tid).map (State.scale φ) := by
  have hupd : ∀ t : Task D K, ({ s.scale φ with tasks := Function.update (s.scale φ).tasks tid (t.scale φ) } : State D K) =
      State.scale φ { s with tasks := Function.update s.tasks tid t } := by
    intro t
    simp only [State.scale, State.mk.injEq, true_and, and_true]
    exact (update_scale (Task.scale φ) s.tasks tid t).symm
  have hw : ∀ i, weightAt n (s.scale φ).mem i = (weightAt n s.mem i).map φ := fun i => weightAt_scale n s.mem i
  have ho : (s.scale φ).owner = s.owner := rfl
  unfold step
  rw [show (s.scale φ).tasks tid = (s.tasks tid).scale φ from rfl]
  cases ht : s.tasks tid with
  | waiting =>
    simp only [Task.scale, ho, hw]
    split_ifs
    · rfl
    · cases weightAt n s.mem seed with
      | none => exact congrArg some (hupd .panicked)
      | some w =>
        simp only [Option.map_some, hφ.zero_lt]
        split_ifs
        · exact congrArg some (hupd (.done none))
        · exact congrArg some (hupd .checked)
  | checked =>
    simp only [Task.scale, ho, hw]
    split_ifs
    · rfl
    · cases weightAt n s.mem seed with
      | none => exact congrArg some (hupd .panicked)
      | some w =>
        simp only [Option.map_some, hφ.lt_zero]
        split_ifs
        · exact congrArg some (hupd .panicked)
        · exact congrArg some (hupd (.growing ⟨[seed], 0, w⟩ (nearest seed)))
  | growing c rest =>
    cases rest with
    | nil => exact congrArg some (hupd (startResample c))
    | cons x rest =>
      obtain ⟨i, d⟩ := x
      simp only [Task.scale, ho, hw]
      split_ifs
      · rfl
      · cases weightAt n s.mem i with
        | none => exact congrArg some (hupd .panicked)
        | some w =>
          simp only [Option.map_some, Cell.scale, ← hφ.add, hφ.zero_le]
          split_ifs
          · exact congrArg some (hupd (startResample ⟨c.members ++ [i], d, c.weightSum + w⟩))
          · exact congrArg some (hupd (.growing ⟨c.members ++ [i], d, c.weightSum + w⟩ rest))
  | locking c held todo =>
    cases todo with
    | nil => exact congrArg some (hupd .panicked)
    | cons e todo =>
      simp only [Task.scale, ho]
      split_ifs
      · rfl
      · simp only [Option.map_some, Option.some.injEq, State.scale, State.mk.injEq, true_and]
        refine ⟨?_, by simp⟩
        rw [update_scale]
        rfl
      · simp only [Option.map_some, Option.some.injEq, State.scale, State.mk.injEq, true_and, and_true]
        rw [update_scale]
        rfl
  | reading c acc todo =>
    cases todo with
    | nil => exact congrArg some (hupd .panicked)
    | cons e todo =>
      simp only [Task.scale]
      rw [show (s.scale φ).mem e = (s.mem e).map φ from rfl, accumulate_scale hφ]
      cases accumulate cfg acc (s.mem e) with
      | none => exact congrArg some (hupd .panicked)
      | some a =>
        simp only [Option.map_some, Option.some.injEq, State.scale, State.mk.injEq, true_and, and_true]
        constructor
        · simp only [Option.map_eq_none_iff]
          split_ifs
          · rw [update_scale]
            rfl
          · rfl
        · rw [update_scale]
          congr 1
          split_ifs
          · simp only [Task.scale, ← normalise_scale hφ]
            rfl
          · rfl
  | writing c avg todo =>
    cases todo with
    | nil => exact congrArg some (hupd .panicked)
    | cons e todo =>
      simp only [Task.scale]
      rw [show (s.scale φ).mem e = (s.mem e).map φ from rfl, List.length_map, List.length_map,
        show (c.scale φ).members = c.members from rfl]
      split_ifs
      · exact congrArg some (hupd .panicked)
      · simp only [Option.map_some, Option.some.injEq, State.scale, State.mk.injEq, true_and, and_true]
        rw [update_scale, update_scale]
        exact ⟨rfl, rfl⟩
      · simp only [Option.map_some, Option.some.injEq, State.scale, State.mk.injEq, true_and, and_true]
        rw [update_scale, update_scale]
        exact ⟨rfl, rfl⟩
      · simp only [Option.map_some, Option.some.injEq, State.scale, State.mk.injEq, true_and, and_true]
        rw [update_scale, update_scale]
        exact ⟨rfl, rfl⟩
      · simp only [Option.map_some, Option.some.injEq, State.scale, State.mk.injEq, true_and, and_true]
        rw [update_scale, update_scale]
        exact ⟨rfl, rfl⟩
  | releasing c todo =>
    cases todo with
    | nil => exact congrArg some (hupd (.done (some c)))
    | cons e todo =>
      rw [show (Task.releasing c (e :: todo)).scale φ = .releasing (c.scale φ) (e :: todo) from rfl]
      simp only [Option.map_some, Option.some.injEq, State.scale, State.mk.injEq, true_and, and_true]
      rw [update_scale]
      congr 1
      split_ifs <;> rfl
  | done c => rfl
  | panicked => rfl

theorem reachable_scale (hφ : IsScaling φ) {cfg : Cfg} {n : Nat} {nearest : Nat → List (Nat × D)} {seeds : List Nat} {mem : Mem K}
    {s : State D K} (h : Reachable cfg n nearest seeds mem s) :
    Reachable cfg n nearest seeds (fun i => (mem i).map φ) (s.scale φ) := by
  induction h with
  | init => exact .init
  | @step s s' tid _ hs ih =>
    refine .step (tid := tid) ih ?_
    unfold stepAll at hs ⊢
    cases hseed : seeds[tid]? with
    | none => rw [hseed] at hs; cases hs
    | some seed =>
      rw [hseed] at hs
      simp only at hs ⊢
      rw [step_scale hφ, hs]
      rfl

theorem finished_scale {seeds : List Nat} {s : State D K} (h : s.Finished seeds) : (s.scale φ).Finished seeds := by
  intro tid ht
  obtain ⟨c, hc⟩ := h tid ht
  exact ⟨c.map (Cell.scale φ), by simp [State.scale, hc, Task.scale]⟩

theorem sum_scale (hφ : IsScaling φ) (l : List K) : (l.map φ).sum = φ l.sum := by
  induction l with
  | nil => exact hφ.zero.symm
  | cons a l ih => rw [List.map_cons, List.sum_cons, List.sum_cons, ih, hφ.add]

theorem weight_scale (e : Event K V) : (scaledBy φ e).weight = e.weight.map φ := by
  unfold Event.weight Weights.central scaledBy
  cases e.weights <;> rfl

theorem mapM_weight_scale (l : List (Event K V)) :
    (l.map (scaledBy φ)).mapM Event.weight = (l.mapM Event.weight).map (List.map φ) := by
  induction l with
  | nil => rfl
  | cons e l ih =>
    rw [List.map_cons, List.mapM_cons, List.mapM_cons, ih, weight_scale]
    cases e.weight with
    | none => rfl
    | some w => cases l.mapM Event.weight <;> rfl

theorem weightSum_scale (hφ : IsScaling φ) (l : List (Event K V)) : weightSum (l.map (scaledBy φ)) = (weightSum l).map φ := by
  unfold weightSum
  rw [mapM_weight_scale]
  cases l.mapM Event.weight with
  | none => rfl
  | some w => simp [sum_scale hφ]

theorem logSums_scale (hφ : IsScaling φ) (cfg : Cfg) (infoLog : Bool) (l : List (Event K V)) :
    logSumsPanics cfg infoLog (l.map (scaledBy φ)) = logSumsPanics cfg infoLog l := by
  unfold logSumsPanics
  rw [mapM_weight_scale]
  cases l.mapM Event.weight with
  | none => rfl
  | some w =>
    simp only [Option.map_some]
    have : (w.map φ).filter (fun x => decide (x < 0)) = (w.filter fun x => decide (x < 0)).map φ := by
      rw [List.filter_map]
      congr 1
      apply List.filter_congr
      intro x _
      simp [hφ.lt_zero]
    rw [this, sum_scale hφ, sum_scale hφ, ← hφ.add]
    congr 1
    rw [decide_eq_decide]
    exact hφ.inj _ _

theorem memOf_scale (evs : List (Event K V)) : memOf (evs.map (scaledBy φ)) = fun i => (memOf evs i).map φ := by
  funext i
  simp only [memOf, List.getElem?_map, Option.map_map]
  cases evs[i]? <;> rfl

theorem withWeights_scale (evs : List (Event K V)) (mem : Mem K) :
    withWeights (evs.map (scaledBy φ)) (fun i => (mem i).map φ) = (withWeights evs mem).map (scaledBy φ) := by
  apply List.ext_getElem?
  intro i
  simp only [withWeights, List.getElem?_mapIdx, List.getElem?_map, Option.map_map]
  cases evs[i]? <;> rfl

theorem identified_scale (evs : List (Event K V)) :
    identified (evs.map (scaledBy φ)) = (identified evs).map (scaledBy φ) := by
  unfold identified
  rw [List.filter_map]
  rfl

theorem sortById_scale (evs : List (Event K V)) : sortById (evs.map (scaledBy φ)) = (sortById evs).map (scaledBy φ) := by
  unfold sortById
  exact (List.map_insertionSort (r := fun a b : Event K V => a.id ≤ b.id) (s := fun a b : Event K V => a.id ≤ b.id)
    (scaledBy φ) evs fun _ _ _ _ => Iff.rfl).symm

theorem setWeights_scale : ∀ (evs : List (Event K V)) (ws : List (Weights K)),
    setWeights (evs.map (scaledBy φ)) (ws.map (List.map φ)) = (setWeights evs ws).map (List.map (List.map φ)) := by
  intro evs
  induction evs with
  | nil => intro ws; rfl
  | cons e es ih =>
    intro ws
    simp only [List.map_cons, setWeights, List.length_map]
    rw [show (scaledBy φ e).id = e.id from rfl, show (scaledBy φ e).weights = e.weights.map φ from rfl, ← List.map_set, ih]
    split_ifs <;> rfl

theorem defaultWeights_scale (hφ : IsScaling φ) (cfg : Cfg) : (defaultWeights cfg : Weights K).map φ = defaultWeights cfg := by
  unfold defaultWeights
  split_ifs <;> simp [hφ.zero]

theorem reweighted_scale (w : Weights K) (e : Event K V) :
    reweighted (w.map φ) (scaledBy φ e) = scaledBy φ (reweighted w e) := by
  unfold reweighted
  simp only [List.map_eq_nil_iff]
  split_ifs <;> rfl

/-! ### unweighting -/

theorem absWeight_scale (hφ : IsScaling φ) (x : K) : absWeight (φ x) = φ (absWeight x) := by
  unfold absWeight
  rw [← hφ.neg]
  have hmono : Monotone φ := fun a b h => (hφ.le a b).2 h
  exact (hmono.map_max (a := x) (b := -x)).symm

theorem retainEvents_scale (hφ : IsScaling φ) (minWt : K) (rng : Nat → K) : ∀ (evs : List (Event K V)) (n : Nat),
    retainEvents (φ minWt) (fun n => φ (rng n)) n (evs.map (scaledBy φ)) =
      (retainEvents minWt rng n evs).map (List.map (scaledBy φ)) := by
  intro evs
  induction evs with
  | nil => intro n; rfl
  | cons e es ih =>
    intro n
    simp only [List.map_cons, retainEvents, weight_scale]
    cases e.weight with
    | none => rfl
    | some wt =>
      simp only [Option.map_some, absWeight_scale hφ, gt_iff_lt, hφ.lt, ih, Option.map_map, keepEvent]
      congr 1
      funext rest
      simp only [Function.comp_apply]
      split_ifs <;> rfl

theorem raise_scale (hφ : IsScaling φ) (minWt : K) (e : Event K V) :
    raiseWeight (φ minWt) (scaledBy φ e) = (raiseWeight minWt e).map (scaledBy φ) := by
  unfold raiseWeight
  rw [weight_scale]
  cases e.weight with
  | none => rfl
  | some wt =>
    simp only [Option.map_some, absWeight_scale hφ, hφ.lt, hφ.ratio]
    split_ifs
    · simp [Event.rescaleWeights, scaledBy, hφ.mul]
    · rfl

theorem mapM_raise_scale (hφ : IsScaling φ) (minWt : K) (evs : List (Event K V)) :
    (evs.map (scaledBy φ)).mapM (raiseWeight (φ minWt)) = (evs.mapM (raiseWeight minWt)).map (List.map (scaledBy φ)) := by
  induction evs with
  | nil => rfl
  | cons e es ih =>
    rw [List.map_cons, List.mapM_cons, List.mapM_cons, ih, raise_scale hφ]
    cases raiseWeight minWt e with
    | none => rfl
    | some e' => cases es.mapM (raiseWeight minWt) <;> rfl

/-- The result of unweighting with all weights converted. -/
def UnweightResult.scale (φ : K → K) : UnweightResult K V → UnweightResult K V
  | .ok evs => .ok (evs.map (scaledBy φ))
  | .panic => .panic
  | .nonFinite evs => .nonFinite (evs.map (scaledBy φ))

theorem unweight_scale (hφ : IsScaling φ) (debug : Bool) (minWt : K) (rng : Nat → K) (evs : List (Event K V)) :
    unweight debug (φ minWt) (fun n => φ (rng n)) (evs.map (scaledBy φ)) = (unweight debug minWt rng evs).scale φ := by
  unfold unweight
  simp only [weightSum_scale hφ, retainEvents_scale hφ, List.isEmpty_map, hφ.eq_zero, hφ.lt_zero]
  split_ifs with h1 h2
  · rfl
  · cases weightSum evs <;> rfl
  · cases weightSum evs with
    | none => rfl
    | some sum =>
      cases retainEvents minWt rng 0 evs with
      | none => rfl
      | some kept =>
        simp only [Option.map_some]
        rw [mapM_raise_scale hφ]
        cases kept.mapM (raiseWeight minWt) with
        | none => rfl
        | some raised =>
          simp only [Option.map_some]
          rw [weightSum_scale hφ, List.isEmpty_map]
          cases weightSum raised with
          | none => rfl
          | some total =>
            simp only [Option.map_some, hφ.eq_zero, hφ.ratio]
            split_ifs
            · rfl
            · rfl
            · rfl
            · simp [UnweightResult.scale, Event.rescaleWeights, scaledBy, hφ.mul]

theorem unweightStep_scale {E : Type*} (hφ : IsScaling φ) (debug : Bool) (minWt : K) (rng : Nat → K) (evs : List (Event K V)) :
    (unweightStep debug (φ minWt) (fun n => φ (rng n)) (evs.map (scaledBy φ)) : Outcome E _) =
      (unweightStep debug minWt rng evs : Outcome E _).map (List.map (scaledBy φ)) := by
  simp only [unweightStep, unweight_scale hφ]
  cases unweight debug minWt rng evs <;> rfl

/-! ### seeds -/

theorem mapM_weightAt_scale (n : Nat) (mem : Mem K) : ∀ l : List Nat,
    l.mapM (fun i => weightAt n (fun j => (mem j).map φ) i) = (l.mapM fun i => weightAt n mem i).map (List.map φ) := by
  intro l
  induction l with
  | nil => rfl
  | cons i l ih =>
    rw [List.mapM_cons, List.mapM_cons, ih, weightAt_scale]
    cases weightAt n mem i with
    | none => rfl
    | some w => cases l.mapM (fun i => weightAt n mem i) <;> rfl

theorem selectSeeds_scale (hφ : IsScaling φ) {sort : (Nat → K) → List Nat → List Nat} (hs : SortsByComparison sort)
    (strategy : Strategy) (n : Nat) (mem : Mem K) :
    selectSeeds sort strategy n (fun j => (mem j).map φ) = selectSeeds sort strategy n mem := by
  have hw : ∀ i, (Weights.central ((mem i).map φ)).getD 0 = φ ((Weights.central (mem i)).getD 0) := by
    intro i
    unfold Weights.central
    cases mem i
    · exact hφ.zero.symm
    · rfl
  unfold selectSeeds
  rw [mapM_weightAt_scale]
  cases (List.range n).mapM (fun i => weightAt n mem i) with
  | none => rfl
  | some _ =>
    simp only [Option.map_some, hw, hφ.lt_zero]
    cases strategy with
    | next => rfl
    | mostNegative =>
      simp only
      rw [hs _ _ _ fun a b => hφ.le _ _]
    | leastNegative =>
      simp only [← hφ.neg]
      rw [hs _ _ _ fun a b => hφ.le _ _]

/-! ### whole runs -/

/-- The same components for weights in other units. -/
structure ConvertedComponents (φ : K → K) (p q : Program K V D) : Prop where
  ctx : q.io.ctx = p.io.ctx
  infoLog : q.infoLog = p.infoLog
  cluster : ∀ e, q.cluster (scaledBy φ e) = (p.cluster e).map (scaledBy φ)
  nearest : ∀ evs, q.nearest (evs.map (scaledBy φ)) = p.nearest evs
  seeds : ∀ evs, q.seeds (evs.map (scaledBy φ)) = p.seeds evs
  unweight : ∀ evs, q.unweight (evs.map (scaledBy φ)) = (p.unweight evs).map (List.map (scaledBy φ))

theorem resamples_scale (hφ : IsScaling φ) {p q : Program K V D} (hpq : ConvertedComponents φ p q) {events : List (Event K V)}
    {o : Outcome IOError (List (Event K V))} (h : p.Resamples events o) :
    q.Resamples (events.map (scaledBy φ)) (o.map (List.map (scaledBy φ))) := by
  have hcfg : q.cfg = p.cfg := by simp [Program.cfg, hpq.ctx]
  cases h with
  | log h => exact .log (by rw [hcfg, hpq.infoLog, logSums_scale hφ]; exact h)
  | @task s t h1 h2 h3 =>
    refine .task (s := s.scale φ) (t := t) (by rw [hcfg, hpq.infoLog, logSums_scale hφ]; exact h1) ?_ ?_
    · rw [hcfg, List.length_map, hpq.nearest, hpq.seeds, memOf_scale]
      exact reachable_scale hφ h2
    · simp only [State.scale]
      rw [h3]
      rfl
  | ok h1 h2 =>
    obtain ⟨s, g1, g2, rfl⟩ := h2
    refine .ok (by rw [hcfg, hpq.infoLog, logSums_scale hφ]; exact h1) ⟨s.scale φ, ?_, ?_, (withWeights_scale _ _).symm⟩
    · rw [hcfg, List.length_map, hpq.nearest, hpq.seeds, memOf_scale]
      exact reachable_scale hφ g1
    · rw [hpq.seeds]
      exact finished_scale g2

theorem computes_scale (hφ : IsScaling φ) {p q : Program K V D} (hpq : ConvertedComponents φ p q) {events : List (Event K V)}
    {o : Outcome (CresError IOError) (List (Weights K))} (h : p.ComputesWeights events o) :
    q.ComputesWeights (events.map (scaledBy φ)) (o.map (List.map (List.map φ))) := by
  have hcfg : q.cfg = p.cfg := by simp [Program.cfg, hpq.ctx]
  cases h with
  | @mk resampled h =>
    have h1 := resamples_scale hφ hpq h
    have h2 : q.Resamples ((events.map (scaledBy φ)).filter fun e => !e.outgoingByPid.isEmpty) (resampled.map (List.map (scaledBy φ))) := by
      rw [show ((events.map (scaledBy φ)).filter fun e => !e.outgoingByPid.isEmpty) = identified (events.map (scaledBy φ)) from rfl,
        identified_scale]
      exact h1
    have h3 := ComputesWeights.mk h2
    convert h3 using 1
    unfold runWeights
    rw [hcfg, hpq.infoLog]
    cases resampled with
    | err e => rfl
    | panic => rfl
    | ok evs =>
      simp only [Outcome.map, Outcome.mapErr, Outcome.bind]
      rw [hpq.unweight]
      cases p.unweight evs with
      | err e => rfl
      | panic => rfl
      | ok evs =>
        simp only [Outcome.map]
        rw [sortById_scale, logSums_scale hφ, List.length_map]
        have : (List.replicate events.length (defaultWeights (K := K) p.cfg)) =
            (List.replicate events.length (defaultWeights p.cfg)).map (List.map φ) := by
          rw [List.map_replicate, defaultWeights_scale hφ]
        split_ifs
        · rfl
        · rw [this, setWeights_scale]
          rw [← this]
          cases setWeights (sortById evs) (List.replicate events.length (defaultWeights p.cfg)) <;> rfl

variable {P P' : Type*} [LinearOrder V] [DecidableEq P] [DecidableEq P'] [LinearOrder D]

/-- Reading the same events with weights in other units. -/
theorem reads_scale {p q : Program K V D} (hpq : ConvertedComponents φ p q) {fs : FS P} {files : List (P × P)}
    {ds : List (EventFile K V)} (hin : EventFiles p.io fs (files.map Prod.fst) ds) (hf : GoodFiles files)
    {fs' : FS P'} {files' : List (P' × P')} {ds' : List (EventFile K V)}
    (hin' : EventFiles q.io fs' (files'.map Prod.fst) ds') (hf' : GoodFiles files')
    (hsame : allEvents ds' = (allEvents ds).map (scaledBy φ)) :
    ∃ s fs1 s' fs1', CombinedIO.new p.io files fs = (.ok (), s, fs1) ∧ CombinedIO.new q.io files' fs' = (.ok (), s', fs1') ∧
      ∀ events x, p.ReadsEvents s fs1 (.ok events) x → ∃ x', q.ReadsEvents s' fs1' (.ok (events.map (scaledBy φ))) x' := by
  obtain ⟨s, fs1, g1, g2⟩ := reads_items hin hf
  obtain ⟨s', fs1', g3, g4⟩ := reads_items hin' hf'
  refine ⟨s, fs1, s', fs1', g1, g3, fun events x hx => ?_⟩
  obtain ⟨r, k1, k2, k3⟩ := (g2 _).1 ⟨x, hx⟩
  obtain ⟨k4, k5⟩ := C29_ids_by_position k1 k2 k3
  have c1 := (files_items hin).2
  have c2 := (files_items hin').2
  have hl : (allEvents ds').length = (allEvents ds).length := by rw [hsame, List.length_map]
  rw [List.length_map, c1.length_eq] at k4
  have hperm : ((events.map (scaledBy φ)).map Event.id).Perm (List.range (fileItems q.io (ds'.map EventFile.toFileData)).length) := by
    rw [c2.length_eq, hl, List.map_map]
    exact k4
  refine (g4 _).2 (read_any_order ?_ hperm ?_)
  · intro r hr
    have := fileItems_format q.io ds' r hr
    simp [this]
  · intro ev hev
    obtain ⟨e, he, rfl⟩ := List.mem_map.1 hev
    obtain ⟨item, m1, r', ev0, ev1, rfl, m2, m3, m4, m5⟩ := k5 e he
    rw [List.getElem?_map] at m1
    obtain ⟨r'', m6, m7⟩ := Option.map_eq_some_iff.1 m1
    cases m7
    have hlt : e.id < (allEvents ds).length := by
      rw [← c1.length_eq]
      exact (List.getElem?_eq_some_iff.1 m6).1
    have m8 := forall₂_get c1 m6 (List.getElem?_eq_getElem hlt)
    rw [m2] at m8
    cases m8
    have hlt' : e.id < (fileItems q.io (ds'.map EventFile.toFileData)).length := by
      rw [c2.length_eq, hl]
      exact hlt
    refine ⟨_, List.getElem?_eq_getElem hlt', ?_⟩
    have m9 := forall₂_get c2 (List.getElem?_eq_getElem hlt')
      (b := scaledBy φ (allEvents ds)[e.id]) (by rw [hsame, List.getElem?_map, List.getElem?_eq_getElem hlt]; rfl)
    show convertRecord _ _ e.id _ = _
    unfold convertRecord
    rw [m9]
    simp only [Outcome.mapErr, Outcome.bind]
    rw [hpq.cluster, m3]
    have m10 : (scaledBy φ ev1).id = 0 := m4
    simp only [Outcome.map, m10]
    rw [m5]
    rfl

theorem cres_converted [DistNum D] (hφ : IsScaling φ) {s : CresSettings K V D} (hd : IgnoresWeights s.distance)
    (hs : SortsByComparison s.sortSeeds) (scaling scaling' : Bytes → Option K) :
    ConvertedComponents φ (CresSettings.program { s with io := { s.io with scaling := scaling } })
      (CresSettings.program { CresSettings.scaledBy φ s with io := { s.io with scaling := scaling' } }) := by
  refine ⟨rfl, rfl, fun e => rfl, fun evs => ?_, fun evs => ?_, fun evs => unweightStep_scale hφ _ _ _ _⟩
  · have : distWrapper s.distance (evs.map (scaledBy φ)) = distWrapper s.distance evs := by
      funext i j
      unfold distWrapper
      rw [List.getElem?_map, List.getElem?_map]
      cases evs[i]? with
      | none => rfl
      | some e => cases evs[j]? with
        | none => rfl
        | some e' => exact hd e e' _ _
    show s.search.nearest s.distance s.maxCellSize _ = s.search.nearest s.distance s.maxCellSize _
    unfold SearchAlgo.nearest
    rw [this, List.length_map]
  · show (selectSeeds s.sortSeeds s.strategy _ _).getD [] = (selectSeeds s.sortSeeds s.strategy _ _).getD []
    rw [List.length_map, memOf_scale, selectSeeds_scale hφ hs]

end

end Cres

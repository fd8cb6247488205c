import Verif.Props.Unweight
import Verif.Spec.Bias
import Mathlib.MeasureTheory.Integral.Pi

/-!
Property C124: expected predictions after unweighting.
-/

set_option linter.unusedSectionVars false

namespace Cres

open Spec MeasureTheory

variable {V : Type*}

theorem weightNo_central (e : Event ℝ V) : weightNo 0 e = centralWeight e := by
  unfold weightNo centralWeight
  cases e.weights <;> rfl

theorem integral_uniform {m : ℝ} (hm : 0 < m) (g : ℝ → ℝ) : ∫ u, g u ∂uniform m = (∫ u in Set.Ico 0 m, g u) / m := by
  unfold uniform
  rw [integral_smul_measure, ENNReal.toReal_inv, ENNReal.toReal_ofReal hm.le, smul_eq_mul, div_eq_inv_mul]

theorem uniform_prob {m : ℝ} (hm : 0 < m) : IsProbabilityMeasure (uniform m) := by
  constructor
  unfold uniform
  rw [Measure.smul_apply, Measure.restrict_apply_univ, Real.volume_Ico, sub_zero, smul_eq_mul]
  exact ENNReal.inv_mul_cancel (by simpa using hm) ENNReal.ofReal_ne_top

/-- The prediction before the common factor is applied; `n` random numbers have been used. -/
noncomputable def rawPrediction (minWt : ℝ) (f : Event ℝ V → ℝ) (rng : Nat → ℝ) : Nat → List (Event ℝ V) → ℝ
  | _, [] => 0
  | n, e :: es => f e * unweightedWeight minWt e (rng n) +
      rawPrediction minWt f rng (if |centralWeight e| > minWt then n else n + 1) es

theorem observable_rescale {f : Event ℝ V → ℝ} (hf : IsObservable f) (e : Event ℝ V) (x : ℝ) : f (e.rescaleWeights x) = f e := hf e _

theorem retain_raw (minWt : ℝ) (rng : Nat → ℝ) : ∀ (events : List (Event ℝ V)) (n : Nat), (∀ e ∈ events, e.weights ≠ []) →
    ∃ kept, retainEvents minWt rng n events = some kept ∧ (∀ e ∈ kept, e.weights ≠ []) ∧ ∀ f, IsObservable f →
      prediction 0 f (kept.map fun e => e.rescaleWeights (raiseFactor minWt e)) = rawPrediction minWt f rng n events := by
  intro events
  induction events with
  | nil => exact fun n _ => ⟨[], rfl, by simp, fun f _ => rfl⟩
  | cons e es ih =>
    intro n h
    have he := h e (by simp)
    obtain ⟨kept, h1, h2, h3⟩ := ih (if |centralWeight e| > minWt then n else n + 1) fun x hx => h x (by simp [hx])
    unfold retainEvents
    rw [weight_eq he]
    simp only [absWeight_eq]
    rw [h1]
    simp only [Option.map_some, Option.some.injEq, exists_eq_left']
    cases hk : keepEvent minWt |centralWeight e| (rng n) with
    | true =>
      simp only [if_true]
      refine ⟨fun x hx => ?_, fun f hf => ?_⟩
      · rcases List.mem_cons.1 hx with rfl | hx
        · exact he
        · exact h2 x hx
      · have := h3 f hf
        unfold prediction at this ⊢
        rw [List.map_cons, List.map_cons, List.sum_cons, this, rawPrediction]
        congr 1
        rw [observable_rescale hf, weightNo_central]
        unfold unweightedWeight
        rw [if_pos hk, raiseWeight_eq he]
        rfl
    | false =>
      simp only [Bool.false_eq_true, if_false]
      refine ⟨h2, fun f hf => ?_⟩
      rw [h3 f hf, rawPrediction]
      unfold unweightedWeight
      rw [hk]
      simp

theorem prediction_one (l : List (Event ℝ V)) : prediction 0 (fun _ => 1) l = centralSum l := by
  unfold prediction centralSum
  simp only [one_mul, weightNo_central]

theorem prediction_rescale {f : Event ℝ V → ℝ} (hf : IsObservable f) (l : List (Event ℝ V)) (x : ℝ) :
    prediction 0 f (l.map fun e => e.rescaleWeights x) = prediction 0 f l * x := by
  unfold prediction
  induction l with
  | nil => simp
  | cons e l ih =>
    rw [List.map_cons, List.map_cons, List.sum_cons, ih, List.map_cons, List.sum_cons, observable_rescale hf, weightNo_central,
      weightNo_central, centralWeight_rescale]
    ring

theorem integrable_unweightedWeight {m : ℝ} (hm : 0 < m) (e : Event ℝ V) : Integrable (unweightedWeight m e) (uniform m) := by
  have := uniform_prob hm
  unfold unweightedWeight keepEvent
  generalize ((raiseWeight m e).map centralWeight).getD 0 = c
  by_cases h : |centralWeight e| > m
  · simp [h]
  · simp only [h, if_false, decide_eq_true_eq]
    have : (fun u : ℝ => if u < |centralWeight e| then c else 0) = (Set.Iio |centralWeight e|).indicator fun _ => c := by
      funext u; simp [Set.indicator, Set.mem_Iio]
    rw [this]
    exact (integrable_const c).indicator measurableSet_Iio

theorem expected_raw {m : ℝ} (hm : 0 < m) {N : Nat} (f : Event ℝ V → ℝ) : ∀ (events : List (Event ℝ V)) (n : Nat),
    (∀ e ∈ events, e.weights ≠ []) → n + events.length ≤ N →
    Integrable (fun u : Fin N → ℝ => rawPrediction m f (numbers u) n events) (uniforms N m) ∧
      ∫ u, rawPrediction m f (numbers u) n events ∂uniforms N m = prediction 0 f events := by
  have hp := uniform_prob hm
  intro events
  induction events with
  | nil => intro n _ _; simp [rawPrediction, prediction]
  | cons e es ih =>
    intro n h hn
    rw [List.length_cons] at hn
    have hnN : n < N := by omega
    obtain ⟨i1, i2⟩ := ih (if |centralWeight e| > m then n else n + 1) (fun x hx => h x (by simp [hx])) (by split_ifs <;> omega)
    have hnum : ∀ u : Fin N → ℝ, numbers u n = u ⟨n, hnN⟩ := fun u => dif_pos hnN
    have hi := integrable_unweightedWeight hm e
    have h1 : Integrable (fun u : Fin N → ℝ => f e * unweightedWeight m e (u ⟨n, hnN⟩)) (uniforms N m) :=
      (integrable_comp_eval (μ := fun _ : Fin N => uniform m) (i := ⟨n, hnN⟩) hi).const_mul _
    simp only [rawPrediction, hnum]
    refine ⟨h1.add i1, ?_⟩
    rw [integral_add h1 i1, i2, integral_const_mul]
    unfold uniforms
    rw [integral_comp_eval (μ := fun _ : Fin N => uniform m) (i := ⟨n, hnN⟩) hi.aestronglyMeasurable, integral_uniform hm,
      C27_expected_weight hm (h e (by simp))]
    unfold prediction
    rw [List.map_cons, List.sum_cons, weightNo_central]

/-- **C124** up to the common factor: whenever events are left after unweighting, the prediction for each observable is `X f`, multiplied
by the ratio of the original sum of weights and `X 1`. The expected value of `X f` is the original prediction, for each observable,
and so the expected value of `X 1` is the original sum of weights. -/
theorem C124_expected_partial {minWt : ℝ} (hm : 0 < minWt) {events : List (Event ℝ V)} (hw : ∀ e ∈ events, e.weights ≠ []) :
    ∃ X : (Event ℝ V → ℝ) → (Fin events.length → ℝ) → ℝ,
      (∀ f, IsObservable f → Integrable (X f) (uniforms events.length minWt) ∧
        ∫ u, X f u ∂uniforms events.length minWt = prediction 0 f events) ∧
      ∀ f, IsObservable f → ∀ debug u out, unweight debug minWt (numbers u) events = .ok out → out ≠ [] →
        X (fun _ => 1) u ≠ 0 ∧ prediction 0 f out = X f u * (prediction 0 (fun _ => 1) events / X (fun _ => 1) u) := by
  refine ⟨fun f u => rawPrediction minWt f (numbers u) 0 events, fun f _ => expected_raw hm f events 0 hw (by simp), ?_⟩
  intro f hf debug u out h hout
  have h1 : IsObservable (fun _ : Event ℝ V => (1 : ℝ)) := fun _ _ => rfl
  obtain ⟨kept, k1, k2, k3⟩ := retain_raw minWt (numbers u) events 0 hw
  have hr' : ∀ e ∈ kept.map (fun e => e.rescaleWeights (raiseFactor minWt e)), e.weights ≠ [] := by
    intro e he
    obtain ⟨x, hx, rfl⟩ := List.mem_map.1 he
    exact rescale_weights_ne _ (k2 x hx)
  have hne : events ≠ [] := by
    rintro rfl
    unfold unweight at h
    simp only [List.isEmpty_nil, or_true, if_true, UnweightResult.ok.injEq] at h
    exact hout h.symm
  have h0 : ¬ (minWt = 0 ∨ events.isEmpty = true) := by
    rintro (h | h)
    · exact hm.ne' h
    · exact hne (List.isEmpty_iff.1 h)
  unfold unweight at h
  rw [if_neg h0, weightSum_eq hw] at h
  simp only at h
  rw [if_neg (not_lt.2 hm.le), k1] at h
  simp only at h
  rw [mapM_raise k2] at h
  simp only at h
  rw [weightSum_eq hr'] at h
  simp only at h
  simp only
  rw [← k3 f hf, ← k3 _ h1, prediction_one, prediction_one]
  split_ifs at h with g1 g2 g3
  · simp only [UnweightResult.ok.injEq] at h
    exact absurd h.symm hout
  · simp only [UnweightResult.ok.injEq] at h
    refine ⟨g1, ?_⟩
    rw [← h, prediction_rescale hf]

/-! ### The number of events -/

theorem keep_integral {m : ℝ} (hm : 0 < m) (w : ℝ) :
    Integrable (fun u => if keepEvent m |w| u = true then (1 : ℝ) else 0) (uniform m) ∧
      ∫ u, (if keepEvent m |w| u = true then (1 : ℝ) else 0) ∂uniform m = min 1 (|w| / m) := by
  have := uniform_prob hm
  unfold keepEvent
  by_cases h : |w| > m
  · have h1 : 1 ≤ |w| / m := (one_le_div hm).2 h.le
    simp [h, min_eq_left h1]
  · have h1 : |w| / m ≤ 1 := (div_le_one hm).2 (not_lt.1 h)
    simp only [h, if_false, decide_eq_true_eq]
    have e : (fun u : ℝ => if u < |w| then (1 : ℝ) else 0) = (Set.Iio |w|).indicator fun _ => 1 := by
      funext u; simp [Set.indicator, Set.mem_Iio]
    rw [e, min_eq_right h1]
    refine ⟨(integrable_const 1).indicator measurableSet_Iio, ?_⟩
    rw [integral_uniform hm, setIntegral_indicator measurableSet_Iio, Set.Ico_inter_Iio, min_eq_right (not_lt.1 h), setIntegral_const]
    simp

theorem expected_kept {m : ℝ} (hm : 0 < m) {N : Nat} : ∀ (events : List (Event ℝ V)) (n : Nat),
    (∀ e ∈ events, e.weights ≠ []) → n + events.length ≤ N →
    Integrable (fun u : Fin N → ℝ => (((retainEvents m (numbers u) n events).map List.length).getD 0 : ℝ)) (uniforms N m) ∧
      ∫ u, (((retainEvents m (numbers u) n events).map List.length).getD 0 : ℝ) ∂uniforms N m =
        (events.map fun e => min 1 (|centralWeight e| / m)).sum := by
  have hp := uniform_prob hm
  intro events
  induction events with
  | nil => intro n _ _; simp [retainEvents]
  | cons e es ih =>
    intro n h hn
    rw [List.length_cons] at hn
    have hnN : n < N := by omega
    have he := h e (by simp)
    have hes : ∀ x ∈ es, x.weights ≠ [] := fun x hx => h x (by simp [hx])
    obtain ⟨i1, i2⟩ := ih (if |centralWeight e| > m then n else n + 1) hes (by split_ifs <;> omega)
    obtain ⟨k1, k2⟩ := keep_integral hm (centralWeight e)
    have hnum : ∀ u : Fin N → ℝ, numbers u n = u ⟨n, hnN⟩ := fun u => dif_pos hnN
    have hstep : ∀ u : Fin N → ℝ, (((retainEvents m (numbers u) n (e :: es)).map List.length).getD 0 : ℝ) =
        (if keepEvent m |centralWeight e| (u ⟨n, hnN⟩) = true then (1 : ℝ) else 0) +
          (((retainEvents m (numbers u) (if |centralWeight e| > m then n else n + 1) es).map List.length).getD 0 : ℝ) := by
      intro u
      obtain ⟨kept, g1, -⟩ := retain_raw m (numbers u) es (if |centralWeight e| > m then n else n + 1) hes
      rw [retainEvents, weight_eq he]
      simp only [absWeight_eq]
      rw [g1, hnum]
      cases keepEvent m |centralWeight e| (u ⟨n, hnN⟩) <;> simp [add_comm]
    have h1 : Integrable (fun u : Fin N → ℝ => if keepEvent m |centralWeight e| (u ⟨n, hnN⟩) = true then (1 : ℝ) else 0) (uniforms N m) :=
      integrable_comp_eval (μ := fun _ : Fin N => uniform m) (i := ⟨n, hnN⟩) k1
    simp only [hstep]
    refine ⟨h1.add i1, ?_⟩
    rw [integral_add h1 i1, i2]
    unfold uniforms
    rw [integral_comp_eval (μ := fun _ : Fin N => uniform m) (i := ⟨n, hnN⟩) k1.aestronglyMeasurable, k2, List.map_cons, List.sum_cons]

/-- **C124**: the expected number of events after unweighting is the sum of the probabilities with which they are kept, 1 for
weights above the threshold and the ratio of the absolute weight and the threshold for others. -/
theorem C124_number {minWt : ℝ} (hm : 0 < minWt) {events : List (Event ℝ V)} (hw : ∀ e ∈ events, e.weights ≠ []) :
    ∫ u, numberLeft minWt events u ∂uniforms events.length minWt = (events.map fun e => min 1 (|centralWeight e| / minWt)).sum := by
  rw [← (expected_kept hm (N := events.length) events 0 hw (by simp)).2]
  congr 1
  funext u
  obtain ⟨kept, k1, k2, -⟩ := retain_raw minWt (numbers u) events 0 hw
  have hr' : ∀ e ∈ kept.map (fun e => e.rescaleWeights (raiseFactor minWt e)), e.weights ≠ [] := by
    intro e he
    obtain ⟨x, hx, rfl⟩ := List.mem_map.1 he
    exact rescale_weights_ne _ (k2 x hx)
  unfold numberLeft
  by_cases hne : events = []
  · subst hne
    simp [unweight, retainEvents]
  have h0 : ¬ (minWt = 0 ∨ events.isEmpty = true) := by
    rintro (h | h)
    · exact hm.ne' h
    · exact hne (List.isEmpty_iff.1 h)
  unfold unweight
  rw [if_neg h0, weightSum_eq hw]
  simp only
  rw [if_neg (not_lt.2 hm.le), k1]
  simp only
  rw [mapM_raise k2]
  simp only
  rw [weightSum_eq hr']
  simp only [Bool.false_eq_true, false_and, if_false, Option.map_some, Option.getD_some]
  split_ifs with g1 g2
  · have : kept = [] := by simpa using g2
    simp [this]
  · simp
  · simp

/-- **C124** as stated: if there are events left after unweighting, the expected prediction is the original one. -/
def C124_claim : Prop := ∀ (minWt : ℝ) (events : List (Event ℝ Unit)) (f : Event ℝ Unit → ℝ), 0 < minWt →
  (∀ e ∈ events, e.weights ≠ [] ∧ 0 < centralWeight e) → IsObservable f →
  ∫ u, predicted minWt f events u ∂uniforms events.length minWt =
    (∫ u, anyLeft minWt events u ∂uniforms events.length minWt) * prediction 0 f events

/-- Two events with weights 1 and 3, the threshold is 4. -/
def exBias : List (Event ℝ Unit) := [⟨0, [1], []⟩, ⟨1, [3], []⟩]

/-- The observable is 1 for the first event and 0 for the second. -/
def exFirst (e : Event ℝ Unit) : ℝ := if e.id = 0 then 1 else 0

theorem exBias_unweight (u : Fin 2 → ℝ) : unweight false 4 (numbers u) exBias =
    .ok (if u 0 < 1 then (if u 1 < 3 then [⟨0, [2], []⟩, ⟨1, [2], []⟩] else [⟨0, [4], []⟩]) else if u 1 < 3 then [⟨1, [4], []⟩] else []) := by
  have n0 : numbers u 0 = u 0 := rfl
  have n1 : numbers u 1 = u 1 := rfl
  have a1 : absWeight (1 : ℝ) = 1 := by rw [absWeight_eq]; norm_num
  have a3 : absWeight (3 : ℝ) = 3 := by rw [absWeight_eq]; norm_num
  by_cases h0 : u 0 < 1 <;> by_cases h1 : u 1 < 3 <;>
    norm_num [unweight, exBias, weightSum, Event.weight, Weights.central, retainEvents, keepEvent, raiseWeight, Event.rescaleWeights, a1, a3,
      n0, n1, h0, h1]

theorem integral_below {a c d : ℝ} (ha : 0 ≤ a) (h4 : a ≤ 4) : ∫ x, (if x < a then c else d) ∂uniform 4 = (a * c + (4 - a) * d) / 4 := by
  rw [integral_uniform (by norm_num)]
  congr 1
  have h1 : (fun x : ℝ => if x < a then c else d) = fun x => (Set.Iio a).indicator (fun _ => c - d) x + d := by
    funext x
    by_cases h : x < a <;> simp [Set.indicator, Set.mem_Iio, h]
  rw [h1, integral_add ((integrable_const _).indicator measurableSet_Iio) (integrable_const _), setIntegral_indicator measurableSet_Iio,
    Set.Ico_inter_Iio, min_eq_right h4, setIntegral_const, setIntegral_const]
  simp only [smul_eq_mul, Real.volume_real_Ico_of_le ha, Real.volume_real_Ico_of_le (show (0 : ℝ) ≤ 4 by norm_num)]
  ring

theorem integral_two (g h : ℝ → ℝ) : ∫ u : Fin 2 → ℝ, g (u 0) * h (u 1) ∂uniforms 2 4 = (∫ x, g x ∂uniform 4) * ∫ x, h x ∂uniform 4 := by
  have := uniform_prob (show (0 : ℝ) < 4 by norm_num)
  have := integral_fintype_prod_eq_prod (𝕜 := ℝ) (ι := Fin 2) (fun i => if i = 0 then g else h) (μ := fun _ => uniform 4)
  simpa [Fin.prod_univ_two, uniforms] using this

/-- The expected prediction is 10/16 although events are left with probability 13/16 and the original prediction is 1: the common
factor is larger if the other event has been discarded. -/
theorem C124_violated : ¬ C124_claim := by
  intro h
  have h := h 4 exBias exFirst (by norm_num) (by simp [exBias, centralWeight]) (fun _ _ => rfl)
  have hp : ∀ u : Fin 2 → ℝ, predicted 4 exFirst exBias u = (if u 0 < 1 then 1 else 0) * (if u 1 < 3 then 2 else 4) := by
    intro u
    unfold predicted
    rw [exBias_unweight u]
    by_cases h0 : u 0 < 1 <;> by_cases h1 : u 1 < 3 <;> simp [h0, h1, prediction, exFirst, weightNo]
  have hl : ∀ u : Fin 2 → ℝ, anyLeft 4 exBias u = 1 - (if u 0 < 1 then 0 else 1) * (if u 1 < 3 then 0 else 1) := by
    intro u
    unfold anyLeft
    rw [exBias_unweight u]
    by_cases h0 : u 0 < 1 <;> by_cases h1 : u 1 < 3 <;> simp [h0, h1]
  have e1 : ∫ u, predicted 4 exFirst exBias u ∂uniforms 2 4 = 10 / 16 := by
    simp only [hp]
    rw [integral_two (fun x => if x < 1 then 1 else 0) (fun x => if x < 3 then 2 else 4), integral_below (by norm_num) (by norm_num),
      integral_below (by norm_num) (by norm_num)]
    norm_num
  have e2 : ∫ u, anyLeft 4 exBias u ∂uniforms 2 4 = 13 / 16 := by
    have hpr := uniform_prob (show (0 : ℝ) < 4 by norm_num)
    have : IsProbabilityMeasure (uniforms 2 4) := by unfold uniforms; infer_instance
    simp only [hl]
    rw [integral_sub (integrable_const _) ?_, integral_two (fun x => if x < 1 then 0 else 1) (fun x => if x < 3 then 0 else 1),
      integral_below (by norm_num) (by norm_num), integral_below (by norm_num) (by norm_num)]
    · simp; norm_num
    · refine Integrable.of_bound (C := 1) ?_ (Filter.Eventually.of_forall fun u => ?_)
      · refine Measurable.aestronglyMeasurable (Measurable.mul ?_ ?_)
        · exact Measurable.ite (measurableSet_lt (measurable_pi_apply _) measurable_const) measurable_const measurable_const
        · exact Measurable.ite (measurableSet_lt (measurable_pi_apply _) measurable_const) measurable_const measurable_const
      · split_ifs <;> simp
  have e3 : prediction 0 exFirst exBias = 1 := by simp [prediction, exBias, exFirst, weightNo]
  have h' : (10 / 16 : ℝ) = 13 / 16 * 1 := by rw [← e1, ← e2, ← e3]; exact h
  norm_num at h'

/-- Non-vacuity of the theorem: the example meets its hypotheses, and for some random numbers both events are left. -/
example : (∀ e ∈ exBias, e.weights ≠ []) ∧ IsObservable exFirst ∧
    unweight false 4 (numbers (n := 2) ![0, 2]) exBias = .ok [⟨0, [2], []⟩, ⟨1, [2], []⟩] := by
  refine ⟨by simp [exBias], fun _ _ => rfl, ?_⟩
  rw [exBias_unweight]
  norm_num

/-- One event is left on average. -/
example : ∫ u, numberLeft 4 exBias u ∂uniforms 2 4 = 1 := by
  have h := C124_number (minWt := 4) (by norm_num) (events := exBias) (by simp [exBias])
  refine h.trans ?_
  norm_num [exBias, centralWeight]

end Cres

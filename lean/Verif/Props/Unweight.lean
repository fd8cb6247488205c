import Verif.Model.Unweight
import Verif.Spec.Unweight
import Mathlib.Algebra.Order.BigOperators.Group.List
import Mathlib.MeasureTheory.Measure.Lebesgue.Basic
import Mathlib.MeasureTheory.Integral.Bochner.Set
import Mathlib.Tactic.FieldSimp
import Mathlib.Tactic.Linarith

/-!
Properties C25 - C28: unweighting.
-/

set_option linter.unusedSectionVars false

namespace Cres

open Spec

section

theorem weight_eq {K V : Type*} [Zero K] {e : Event K V} (h : e.weights ≠ []) : e.weight = some (centralWeight e) := by
  unfold Event.weight Weights.central centralWeight
  cases hw : e.weights with
  | nil => exact absurd hw h
  | cons a l => rfl

/-- **C26**: with threshold zero, or without events, the input is returned. -/
theorem C26_trivial {K V : Type*} [Add K] [Zero K] [Mul K] [Div K] [Neg K] [LinearOrder K] (debug : Bool) (minWt : K) (rng : Nat → K) (events : List (Event K V)) (h : minWt = 0 ∨ events = []) :
    unweight debug minWt rng events = .ok events := by
  unfold unweight
  rw [if_pos]
  rcases h with h | h
  · exact Or.inl h
  · exact Or.inr (by rw [h]; rfl)

/-- **C26**: no unweighting and unweighting with threshold zero are the same. -/
theorem C26_no_unweighter {K V : Type*} [Add K] [Zero K] [Mul K] [Div K] [Neg K] [LinearOrder K] (debug : Bool)
    (rng : Nat → K) (events : List (Event K V)) : noUnweight events = unweight debug 0 rng events :=
  (C26_trivial debug 0 rng events (Or.inl rfl)).symm

variable {K V : Type*} [Field K] [LinearOrder K] [IsStrictOrderedRing K]

theorem weight_isSome {e : Event K V} {w : K} (h : e.weight = some w) : e.weights ≠ [] ∧ w = centralWeight e := by
  have hn : e.weights ≠ [] := by
    intro hc
    unfold Event.weight Weights.central at h
    rw [hc] at h
    simp at h
  refine ⟨hn, ?_⟩
  rw [weight_eq hn] at h
  exact (Option.some.inj h).symm

theorem weightSum_eq {events : List (Event K V)} (h : ∀ e ∈ events, e.weights ≠ []) :
    weightSum events = some (centralSum events) := by
  unfold weightSum centralSum
  have : events.mapM Event.weight = some (events.map centralWeight) := by
    induction events with
    | nil => rfl
    | cons e es ih =>
      rw [List.mapM_cons, weight_eq (h e List.mem_cons_self), ih (fun x hx => h x (List.mem_cons_of_mem _ hx))]
      rfl
  rw [this]
  rfl

theorem absWeight_eq (x : K) : absWeight x = |x| := by rw [absWeight, abs_eq_max_neg]

/-- The events that survive: a sublist, decided by the weight and a random number each. -/
theorem retainEvents_spec {minWt : K} {rng : Nat → K} (hr : ∀ i, 0 ≤ rng i ∧ rng i < minWt) :
    ∀ (n : Nat) (events : List (Event K V)), (∀ e ∈ events, e.weights ≠ []) →
      ∃ kept, retainEvents minWt rng n events = some kept ∧ kept.Sublist events ∧
        (∀ e ∈ kept, centralWeight e ≠ 0) ∧
        kept.filter (fun e => decide (minWt ≤ |centralWeight e|)) =
          events.filter (fun e => decide (minWt ≤ |centralWeight e|))
  | n, [], _ => ⟨[], rfl, List.Sublist.refl _, by simp, rfl⟩
  | n, e :: es, h => by
    unfold retainEvents
    rw [weight_eq (h e List.mem_cons_self)]
    simp only [absWeight_eq]
    obtain ⟨kept, h1, h2, h3, h4⟩ := retainEvents_spec hr (if |centralWeight e| > minWt then n else n + 1) es
      (fun x hx => h x (List.mem_cons_of_mem _ hx))
    rw [h1]
    simp only [Option.map_some, Option.some.injEq, exists_eq_left']
    cases hk : keepEvent minWt |centralWeight e| (rng n) with
    | true =>
      simp only [if_true]
      refine ⟨h2.cons_cons e, ?_, ?_⟩
      · intro x hx
        rcases List.mem_cons.1 hx with rfl | hx
        · intro hc
          unfold keepEvent at hk
          rw [hc, abs_zero] at hk
          have hm : ¬ ((0 : K) > minWt) := not_lt.2 (le_trans (hr 0).1 (hr 0).2.le)
          rw [if_neg hm] at hk
          exact absurd (of_decide_eq_true hk) (not_lt.2 (hr n).1)
        · exact h3 x hx
      · simp only [List.filter_cons, h4]
    | false =>
      simp only [Bool.false_eq_true, if_false]
      refine ⟨h2.trans (List.sublist_cons_self _ _), h3, ?_⟩
      have : ¬ (minWt ≤ |centralWeight e|) := by
        intro hc
        unfold keepEvent at hk
        split at hk
        · simp at hk
        · exact absurd (lt_of_lt_of_le (hr n).2 hc) (of_decide_eq_false hk)
      simp [List.filter_cons, this, h4]

theorem rescale_isScaled (f : K) (e : Event K V) : IsScaled f e (e.rescaleWeights f) := ⟨rfl, rfl, rfl⟩

theorem centralWeight_rescale (f : K) (e : Event K V) : centralWeight (e.rescaleWeights f) = centralWeight e * f := by
  unfold centralWeight Event.rescaleWeights
  cases e.weights with
  | nil => simp
  | cons a l => rfl

/-- The weight after raising, as a factor. -/
def raiseFactor (minWt : K) (e : Event K V) : K := if |centralWeight e| < minWt then minWt / |centralWeight e| else 1

theorem rescale_one (e : Event K V) : e.rescaleWeights 1 = e := by
  unfold Event.rescaleWeights
  simp

theorem raiseWeight_eq {minWt : K} {e : Event K V} (h : e.weights ≠ []) :
    raiseWeight minWt e = some (e.rescaleWeights (raiseFactor minWt e)) := by
  unfold raiseWeight raiseFactor
  rw [weight_eq h]
  simp only [absWeight_eq]
  split
  · rfl
  · rw [rescale_one]

theorem mapM_raise {minWt : K} {kept : List (Event K V)} (h : ∀ e ∈ kept, e.weights ≠ []) :
    kept.mapM (raiseWeight minWt) = some (kept.map (fun e => e.rescaleWeights (raiseFactor minWt e))) := by
  induction kept with
  | nil => rfl
  | cons e es ih =>
    rw [List.mapM_cons, raiseWeight_eq (h e List.mem_cons_self), ih (fun x hx => h x (List.mem_cons_of_mem _ hx))]
    rfl

theorem rescale_weights_ne {e : Event K V} (f : K) (h : e.weights ≠ []) : (e.rescaleWeights f).weights ≠ [] := by
  unfold Event.rescaleWeights
  simpa using h

theorem rescale_rescale (e : Event K V) (f g : K) : (e.rescaleWeights f).rescaleWeights g = e.rescaleWeights (f * g) := by
  unfold Event.rescaleWeights
  simp [Function.comp_def, mul_assoc]

theorem centralSum_rescale (l : List (Event K V)) (f : K) :
    centralSum (l.map (fun e => e.rescaleWeights f)) = centralSum l * f := by
  unfold centralSum
  induction l with
  | nil => simp
  | cons e l ih => simp only [List.map_cons, List.sum_cons, ih, centralWeight_rescale, add_mul]

/-- The general form of the result: the survivors `kept`, and the result in terms of them. -/
theorem unweight_form {minWt : K} (hm : 0 < minWt) {rng : Nat → K} (hr : ∀ i, 0 ≤ rng i ∧ rng i < minWt) (debug : Bool)
    {events : List (Event K V)} (hw : ∀ e ∈ events, e.weights ≠ []) (hne : events ≠ []) :
    ∃ kept : List (Event K V), kept.Sublist events ∧ (∀ e ∈ kept, centralWeight e ≠ 0) ∧
      kept.filter (fun e => decide (minWt ≤ |centralWeight e|)) =
        events.filter (fun e => decide (minWt ≤ |centralWeight e|)) ∧
      ∃ raised : List (Event K V), raised = kept.map (fun e => e.rescaleWeights (raiseFactor minWt e)) ∧
        unweight debug minWt rng events =
          if centralSum raised = 0 then
            if debug ∧ centralSum events = 0 then .panic
            else if raised.isEmpty then .ok [] else .nonFinite raised
          else .ok (raised.map (fun e => e.rescaleWeights (centralSum events / centralSum raised))) := by
  obtain ⟨kept, h1, h2, h3, h4⟩ := retainEvents_spec hr 0 events hw
  have hk : ∀ e ∈ kept, e.weights ≠ [] := fun e he => hw e (h2.subset he)
  refine ⟨kept, h2, h3, h4, _, rfl, ?_⟩
  have hr' : ∀ e ∈ kept.map (fun e => e.rescaleWeights (raiseFactor minWt e)), e.weights ≠ [] := by
    intro e he
    obtain ⟨x, hx, rfl⟩ := List.mem_map.1 he
    exact rescale_weights_ne _ (hk x hx)
  unfold unweight
  have h0 : ¬ (minWt = 0 ∨ events.isEmpty = true) := by
    rintro (h | h)
    · exact hm.ne' h
    · exact hne (List.isEmpty_iff.1 h)
  rw [if_neg h0, weightSum_eq hw]
  simp only
  rw [if_neg (not_lt.2 hm.le), h1]
  simp only
  rw [mapM_raise hk]
  simp only
  rw [weightSum_eq hr']

/-! ## C26: survivors -/

/-- **C26**: if `unweight` returns a list of events `out`, it consists of the survivors, in the original order, with scaled
weights. The scale depends on the event only through its absolute weight. All events with at least threshold weight
survive, and events with weight zero do not. -/
theorem C26_survivors {minWt : K} (hm : 0 < minWt) {rng : Nat → K} (hr : ∀ i, 0 ≤ rng i ∧ rng i < minWt) {debug : Bool}
    {events out : List (Event K V)} (hw : ∀ e ∈ events, e.weights ≠ []) (h : unweight debug minWt rng events = .ok out) :
    ∃ (survivors : List (Event K V)) (common : K), survivors.Sublist events ∧
      List.Forall₂ (fun e e' => IsScaled (survivorFactor minWt common |centralWeight e|) e e') survivors out ∧
      survivors.filter (fun e => decide (minWt ≤ |centralWeight e|)) =
        events.filter (fun e => decide (minWt ≤ |centralWeight e|)) ∧
      (∀ e ∈ survivors, centralWeight e ≠ 0) ∧
      (∀ e' ∈ out, |centralWeight e'| ≥ minWt * |common|) := by
  by_cases hne : events = []
  · subst hne
    rw [C26_trivial _ _ _ _ (Or.inr rfl)] at h
    cases h
    exact ⟨[], 1, List.Sublist.refl _, List.Forall₂.nil, rfl, by simp, by simp⟩
  obtain ⟨kept, h1, h2, h3, raised, hraised, h4⟩ := unweight_form hm hr debug hw hne
  rw [h4] at h
  split at h
  · split at h
    · cases h
    · split at h
      · rename_i hemp
        cases h
        have hk : kept = [] := by
          rw [hraised, List.isEmpty_iff, List.map_eq_nil_iff] at hemp
          exact hemp
        subst hk
        exact ⟨[], 1, h1, List.Forall₂.nil, h3, by simp, by simp⟩
      · cases h
  · injection h with h
    subst h
    have hf : ∀ e : Event K V, raiseFactor minWt e * (centralSum events / centralSum raised) =
        survivorFactor minWt (centralSum events / centralSum raised) |centralWeight e| := by
      intro e
      unfold raiseFactor survivorFactor
      split
      · rfl
      · rw [one_mul]
    refine ⟨kept, centralSum events / centralSum raised, h1, ?_, h3, h2, ?_⟩
    · rw [List.forall₂_map_right_iff, hraised, List.forall₂_map_right_iff, List.forall₂_same]
      intro e _
      rw [rescale_rescale, ← hraised, hf]
      exact rescale_isScaled _ _
    · intro e' he'
      obtain ⟨x, hx, rfl⟩ := List.mem_map.1 he'
      rw [centralWeight_rescale, abs_mul]
      apply mul_le_mul_of_nonneg_right _ (abs_nonneg _)
      rw [hraised] at hx
      obtain ⟨e, he, rfl⟩ := List.mem_map.1 hx
      rw [centralWeight_rescale, abs_mul]
      unfold raiseFactor
      have hpos : 0 < |centralWeight e| := abs_pos.2 (h2 e he)
      split
      · rw [abs_div, abs_abs, abs_of_pos hm, mul_div_cancel₀ _ hpos.ne']
      · rename_i hlt
        rw [abs_one, mul_one]
        exact not_lt.1 hlt

/-- **C26**: the same if the common factor is not finite: the survivors are the same, with weights before the
multiplication with the common factor as above. -/
theorem C26_survivors_nonFinite {minWt : K} (hm : 0 < minWt) {rng : Nat → K} (hr : ∀ i, 0 ≤ rng i ∧ rng i < minWt)
    {debug : Bool} {events out : List (Event K V)} (hw : ∀ e ∈ events, e.weights ≠ [])
    (h : unweight debug minWt rng events = .nonFinite out) :
    ∃ survivors : List (Event K V), survivors.Sublist events ∧
      List.Forall₂ (fun e e' => IsScaled (survivorFactor minWt 1 |centralWeight e|) e e') survivors out ∧
      survivors.filter (fun e => decide (minWt ≤ |centralWeight e|)) =
        events.filter (fun e => decide (minWt ≤ |centralWeight e|)) ∧
      (∀ e ∈ survivors, centralWeight e ≠ 0) := by
  by_cases hne : events = []
  · subst hne
    rw [C26_trivial _ _ _ _ (Or.inr rfl)] at h
    cases h
  obtain ⟨kept, h1, h2, h3, raised, hraised, h4⟩ := unweight_form hm hr debug hw hne
  rw [h4] at h
  split at h
  · split at h
    · cases h
    · split at h
      · cases h
      · injection h with h
        subst h
        refine ⟨kept, h1, ?_, h3, h2⟩
        rw [hraised, List.forall₂_map_right_iff, List.forall₂_same]
        intro e _
        have : raiseFactor minWt e = survivorFactor minWt 1 |centralWeight e| := by
          unfold raiseFactor survivorFactor
          split
          · rw [mul_one]
          · rfl
        rw [this]
        exact rescale_isScaled _ _
  · cases h

/-! ## C25: the sum of weights -/

/-- **C25** as stated: the sum of weights is preserved for all samples, thresholds and random numbers. -/
def C25_claim (K V : Type) [Field K] [LinearOrder K] : Prop :=
  ∀ (debug : Bool) (minWt : K) (rng : Nat → K) (events : List (Event K V)), 0 ≤ minWt → (∀ i, 0 ≤ rng i ∧ rng i < minWt) →
    (∀ e ∈ events, e.weights ≠ []) → ∃ out, unweight debug minWt rng events = .ok out ∧ centralSum out = centralSum events

/-- **C25** is violated: if all events are discarded, nothing is left. -/
theorem C25_violated : ¬ C25_claim ℚ Unit := by
  intro h
  obtain ⟨out, h1, h2⟩ := h false 2 (fun _ => 3 / 2) [⟨0, [1], []⟩] (by norm_num) (by intro i; norm_num) (by simp)
  have : unweight false (2 : ℚ) (fun _ => 3 / 2) [(⟨0, [1], []⟩ : Event ℚ Unit)] = .ok [] := by decide +kernel
  rw [this] at h1
  cases h1
  norm_num [centralSum, centralWeight] at h2

/-- **C25**, what holds: whenever `unweight` returns a non-empty list of events (with finite weights), the sum of weights
is exactly preserved. Missing: all events discarded, or a vanishing sum of weights after discarding events. -/
theorem C25_sum_preserved_partial {minWt : K} (hm : 0 ≤ minWt) {rng : Nat → K}
    (hr : 0 < minWt → ∀ i, 0 ≤ rng i ∧ rng i < minWt) {debug : Bool} {events out : List (Event K V)}
    (hw : ∀ e ∈ events, e.weights ≠ []) (h : unweight debug minWt rng events = .ok out) (hout : out ≠ [] ∨ events = []) :
    centralSum out = centralSum events := by
  rcases hm.eq_or_lt with h0 | hm
  · rw [C26_trivial _ _ _ _ (Or.inl h0.symm)] at h
    cases h
    rfl
  by_cases hne : events = []
  · rw [C26_trivial _ _ _ _ (Or.inr hne)] at h
    cases h
    rfl
  have hout : out ≠ [] := hout.resolve_right hne
  obtain ⟨kept, h1, h2, h3, raised, hraised, h4⟩ := unweight_form hm (hr hm) debug hw hne
  rw [h4] at h
  split at h
  · split at h
    · cases h
    · split at h
      · cases h; exact absurd rfl hout
      · cases h
  · rename_i hf
    injection h with h
    subst h
    rw [centralSum_rescale, mul_div_cancel₀ _ hf]

/-- **C25** for samples without negative weights, e.g. after resampling without a limit on the cell size (C04): the sum is
preserved unless all events are discarded; there are no weights that are not finite. -/
theorem C25_nonneg_partial {minWt : K} (hm : 0 ≤ minWt) {rng : Nat → K}
    (hr : 0 < minWt → ∀ i, 0 ≤ rng i ∧ rng i < minWt) {events : List (Event K V)}
    (hw : ∀ e ∈ events, e.weights ≠ []) (hpos : ∀ e ∈ events, 0 ≤ centralWeight e) :
    ∃ out, unweight false minWt rng events = .ok out ∧ (out = [] ∨ centralSum out = centralSum events) := by
  rcases hm.eq_or_lt with h0 | hm
  · exact ⟨events, C26_trivial _ _ _ _ (Or.inl h0.symm), Or.inr rfl⟩
  by_cases hne : events = []
  · exact ⟨events, C26_trivial _ _ _ _ (Or.inr hne), Or.inr rfl⟩
  obtain ⟨kept, h1, h2, h3, raised, hraised, h4⟩ := unweight_form hm (hr hm) false hw hne
  by_cases hk : kept = []
  · subst hk
    refine ⟨[], ?_, Or.inl rfl⟩
    rw [h4, hraised]
    simp [centralSum]
  · have hsum : 0 < centralSum raised := by
      unfold centralSum
      apply List.sum_pos
      · intro x hx
        obtain ⟨y, hy, rfl⟩ := List.mem_map.1 hx
        rw [hraised] at hy
        obtain ⟨e, he, rfl⟩ := List.mem_map.1 hy
        rw [centralWeight_rescale]
        have hc : 0 < centralWeight e := lt_of_le_of_ne (hpos e (h1.subset he)) (Ne.symm (h2 e he))
        apply mul_pos hc
        unfold raiseFactor
        split
        · exact div_pos hm (abs_pos.2 hc.ne')
        · exact one_pos
      · rw [hraised]; simpa using hk
    refine ⟨raised.map (fun e => e.rescaleWeights (centralSum events / centralSum raised)), ?_, Or.inr ?_⟩
    · rw [h4, if_neg hsum.ne']
    · rw [centralSum_rescale, mul_div_cancel₀ _ hsum.ne']

/-! ## C28: signs -/

/-- **C28** as stated: survivors keep the sign of their weight. -/
def C28_claim (K V : Type) [Field K] [LinearOrder K] : Prop :=
  ∀ (debug : Bool) (minWt : K) (rng : Nat → K) (events out : List (Event K V)), 0 ≤ minWt → (∀ i, 0 ≤ rng i ∧ rng i < minWt) →
    (∀ e ∈ events, e.weights ≠ []) → (events.map Event.id).Nodup → unweight debug minWt rng events = .ok out →
    ∀ e ∈ events, ∀ e' ∈ out, e'.id = e.id → 0 < centralWeight e * centralWeight e'

/-- **C28** is violated: if the sum of the surviving weights has the other sign, all weights change sign. Here the first of
two events with weights 3/2 and -1 is discarded. -/
theorem C28_violated : ¬ C28_claim ℚ Unit := by
  intro h
  have h1 := h false 2 (fun i => if i = 0 then 7 / 4 else 0) [⟨0, [3 / 2], []⟩, ⟨1, [-1], []⟩] [⟨1, [1 / 2], []⟩]
    (by norm_num) (by intro i; split <;> norm_num) (by simp) (by simp)
    (by decide +kernel)
    ⟨1, [-1], []⟩ (by simp) ⟨1, [1 / 2], []⟩ (by simp) rfl
  norm_num [centralWeight] at h1

/-- **C28**, what holds: the weight of each survivor is multiplied by a positive number and one common factor, so that all
survivors keep their sign or all change it. Missing: the common factor can be negative. -/
theorem C28_common_sign_partial {minWt : K} (hm : 0 < minWt) {rng : Nat → K} (hr : ∀ i, 0 ≤ rng i ∧ rng i < minWt)
    {debug : Bool} {events out : List (Event K V)} (hw : ∀ e ∈ events, e.weights ≠ [])
    (h : unweight debug minWt rng events = .ok out) :
    ∃ (survivors : List (Event K V)) (common : K), survivors.Sublist events ∧
      List.Forall₂ (fun e e' => e'.id = e.id ∧ centralWeight e ≠ 0 ∧ ∃ f, 0 < f ∧ centralWeight e' = centralWeight e * (f * common))
        survivors out := by
  obtain ⟨s, common, h1, h2, _, h4, _⟩ := C26_survivors hm hr hw h
  refine ⟨s, common, h1, ?_⟩
  rw [List.forall₂_iff_get] at h2 ⊢
  refine ⟨h2.1, ?_⟩
  intro i hi hi'
  obtain ⟨e1, _, e3⟩ := h2.2 i hi hi'
  refine ⟨e1, h4 _ (List.get_mem _ _), ?_⟩
  have hpos : 0 < |centralWeight (s.get ⟨i, hi⟩)| := abs_pos.2 (h4 _ (List.get_mem _ _))
  have hc : ∀ f, (out.get ⟨i, hi'⟩).weights = (s.get ⟨i, hi⟩).weights.map (· * f) →
      centralWeight (out.get ⟨i, hi'⟩) = centralWeight (s.get ⟨i, hi⟩) * f := by
    intro f hf
    unfold centralWeight
    rw [hf]
    cases (s.get ⟨i, hi⟩).weights <;> simp
  unfold survivorFactor at e3
  split at e3
  · exact ⟨_, div_pos hm hpos, hc _ e3⟩
  · exact ⟨1, one_pos, by rw [one_mul]; exact hc _ e3⟩

/-- **C28** for samples without negative weights: all survivors have positive weight before and, unless nothing is left or
all weights were zero, after unweighting. -/
theorem C28_nonneg_partial {minWt : K} (hm : 0 < minWt) {rng : Nat → K} (hr : ∀ i, 0 ≤ rng i ∧ rng i < minWt)
    {debug : Bool} {events out : List (Event K V)} (hw : ∀ e ∈ events, e.weights ≠ [])
    (hpos : ∀ e ∈ events, 0 ≤ centralWeight e) (h : unweight debug minWt rng events = .ok out) :
    ∃ survivors : List (Event K V), survivors.Sublist events ∧
      List.Forall₂ (fun e e' => e'.id = e.id ∧ 0 < centralWeight e ∧ 0 < centralWeight e') survivors out := by
  obtain ⟨s, common, h1, h2⟩ := C28_common_sign_partial hm hr hw h
  by_cases hout : out = []
  · subst hout
    exact ⟨[], List.nil_sublist _, List.Forall₂.nil⟩
  have hsum := C25_sum_preserved_partial hm.le (fun _ => hr) hw h (Or.inl hout)
  rw [List.forall₂_iff_get] at h2
  have hspos : ∀ (i : Nat) (hi : i < s.length), 0 < centralWeight (s.get ⟨i, hi⟩) := fun i hi =>
    lt_of_le_of_ne (hpos _ (h1.subset (List.get_mem _ _))) (Ne.symm (h2.2 i hi (h2.1 ▸ hi)).2.1)
  have hlen : 0 < s.length := by rw [h2.1]; exact List.length_pos_iff.2 hout
  -- the sum over all events is positive
  have htot : 0 < centralSum events := by
    unfold centralSum
    refine lt_of_lt_of_le (hspos 0 hlen) (List.single_le_sum ?_ _ (List.mem_map_of_mem (h1.subset (List.get_mem _ _))))
    intro x hx
    obtain ⟨y, hy, rfl⟩ := List.mem_map.1 hx
    exact hpos y hy
  -- hence the common factor is positive
  have hcommon : 0 < common := by
    by_contra hc
    have hc := not_lt.1 hc
    have : centralSum out ≤ 0 := by
      have hx : ∀ x ∈ out.map centralWeight, x ≤ 0 := by
        intro x hx
        obtain ⟨y, hy, rfl⟩ := List.mem_map.1 hx
        obtain ⟨i, hi, rfl⟩ := List.getElem_of_mem hy
        have hi' : i < s.length := h2.1 ▸ hi
        obtain ⟨_, _, f, hf, e⟩ := h2.2 i hi' hi
        simp only [List.get_eq_getElem] at e
        rw [e]
        exact mul_nonpos_of_nonneg_of_nonpos (hspos i hi').le (mul_nonpos_of_nonneg_of_nonpos hf.le hc)
      have hneg : 0 ≤ ((out.map centralWeight).map (fun x => -x)).sum := by
        apply List.sum_nonneg
        intro x hx'
        obtain ⟨y, hy, rfl⟩ := List.mem_map.1 hx'
        have := hx y hy
        linarith
      have hs : ∀ l : List K, (l.map (fun x => -x)).sum = -l.sum := by
        intro l
        induction l with
        | nil => simp
        | cons a l ih => simp only [List.map_cons, List.sum_cons, ih]; ring
      rw [hs] at hneg
      unfold centralSum
      linarith
    rw [hsum] at this
    exact absurd htot (not_lt.2 this)
  refine ⟨s, h1, ?_⟩
  rw [List.forall₂_iff_get]
  refine ⟨h2.1, ?_⟩
  intro i hi hi'
  obtain ⟨e1, _, f, hf, e⟩ := h2.2 i hi hi'
  refine ⟨e1, hspos i hi, ?_⟩
  rw [e]
  exact mul_pos (hspos i hi) (mul_pos hf hcommon)

/-- Non-vacuity: three events, the second is discarded, the sum of weights is 6. -/
example : unweight false (4 : ℚ) (fun i => if i = 0 then 3 else 1) [(⟨0, [2], []⟩ : Event ℚ Unit), ⟨1, [2], []⟩, ⟨2, [5, 1], []⟩] =
    .ok [⟨1, [4], []⟩, ⟨2, [5, 1], []⟩] := by decide +kernel

end

/-! ## C27: probabilities -/

open MeasureTheory in
/-- **C27**: let `u` be uniformly distributed in `[0, minWt)`. An event with weight `w`, `|w| ≤ minWt` is kept with
probability `|w| / minWt`: the set of numbers `u` for which it is kept has measure `|w|`, out of `minWt`. -/
theorem C27_keep_probability {minWt w : ℝ} (hm : 0 < minWt) (hw : |w| ≤ minWt) :
    volume {u | u ∈ Set.Ico 0 minWt ∧ keepEvent minWt |w| u = true} / volume (Set.Ico 0 minWt) =
      ENNReal.ofReal (|w| / minWt) := by
  have hset : {u | u ∈ Set.Ico 0 minWt ∧ keepEvent minWt |w| u = true} = Set.Ico 0 |w| := by
    ext u
    unfold keepEvent
    have hle : ¬ (|w| > minWt) := not_lt.2 hw
    simp only [hle, if_false, Set.mem_Ico, Set.mem_setOf_eq, decide_eq_true_eq]
    constructor
    · rintro ⟨⟨h1, _⟩, h3⟩; exact ⟨h1, h3⟩
    · rintro ⟨h1, h2⟩; exact ⟨⟨h1, lt_of_lt_of_le h2 hw⟩, h2⟩
  rw [hset, Real.volume_Ico, Real.volume_Ico, sub_zero, sub_zero, ENNReal.ofReal_div_of_pos hm]

/-- The central weight of an event after discarding and raising, before the global rescaling; zero if it is discarded. -/
noncomputable def unweightedWeight {V : Type*} (minWt : ℝ) (e : Event ℝ V) (u : ℝ) : ℝ :=
  if keepEvent minWt |centralWeight e| u then ((raiseWeight minWt e).map centralWeight).getD 0 else 0

open MeasureTheory in
/-- **C27**: the expected weight of an event before the global rescaling is its original weight. -/
theorem C27_expected_weight {V : Type*} {minWt : ℝ} (hm : 0 < minWt) {e : Event ℝ V} (he : e.weights ≠ []) :
    (∫ u in Set.Ico 0 minWt, unweightedWeight minWt e u) / minWt = centralWeight e := by
  have hc : ∀ c : ℝ, ∀ a ≤ minWt, 0 ≤ a → (∫ u in Set.Ico 0 minWt, if u < a then c else 0) = a * c := by
    intro c a ha ha0
    have h1 : (fun u : ℝ => if u < a then c else 0) = (Set.Iio a).indicator (fun _ => c) := by
      funext u
      simp [Set.indicator, Set.mem_Iio]
    rw [h1, setIntegral_indicator measurableSet_Iio, Set.Ico_inter_Iio, min_eq_right ha, setIntegral_const]
    simp [ha0]
  unfold unweightedWeight
  rw [raiseWeight_eq he]
  simp only [Option.map_some, Option.getD_some, centralWeight_rescale]
  unfold raiseFactor
  generalize centralWeight e = w
  by_cases hw : |w| > minWt
  · have h1 : ∀ u, keepEvent minWt |w| u = true := by intro u; unfold keepEvent; rw [if_pos hw]
    have h2 : ¬ (|w| < minWt) := not_lt.2 (le_of_lt hw)
    simp only [h1, if_true, if_neg h2, mul_one]
    rw [setIntegral_const]
    simp only [smul_eq_mul, Real.volume_real_Ico_of_le hm.le, sub_zero]
    field_simp
  · have h1 : ∀ u, keepEvent minWt |w| u = decide (u < |w|) := by intro u; unfold keepEvent; rw [if_neg hw]
    simp only [h1, decide_eq_true_eq]
    rw [hc _ |w| (not_lt.1 hw) (abs_nonneg w)]
    by_cases h0 : w = 0
    · subst h0; simp
    · have hp : 0 < |w| := abs_pos.2 h0
      split
      · field_simp
      · rename_i h2
        have : |w| = minWt := le_antisymm (not_lt.1 hw) (not_lt.1 h2)
        rw [this]
        field_simp

/-- Non-vacuity: weight -1, threshold 4. -/
example : MeasureTheory.volume {u : ℝ | u ∈ Set.Ico 0 4 ∧ keepEvent 4 |(-1 : ℝ)| u = true} / MeasureTheory.volume (Set.Ico (0 : ℝ) 4) =
    ENNReal.ofReal (1 / 4) := by
  have h := C27_keep_probability (minWt := 4) (w := -1) (by norm_num) (by norm_num)
  simpa using h

end Cres

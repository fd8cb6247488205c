import Verif.Model.ExampleDistance
import Verif.Spec.ExampleDistance
import Mathlib.Tactic.Linarith
import Mathlib.Algebra.Order.BigOperators.Group.List

/-!
# C121: the distance functions in the examples
-/

namespace Cres

open Spec CApi

variable {D K V : Type*} [Field D] [LinearOrder D]

/-- The sum over all momenta in two lists of particle sets. -/
def setsSum (f : V → V → D) (l1 l2 : List (ℤ × List V)) : D := (List.zipWith f (l1.flatMap Prod.snd) (l2.flatMap Prod.snd)).sum

theorem rustLoop_eq (energy px : V → D) (eFact : D) : ∀ (l1 l2 : List (ℤ × List V)) (d : D), l1.length = l2.length →
    rustLoop energy px eFact (l1.zip l2) d =
      if l1.map (fun x => (x.1, x.2.length)) = l2.map (fun x => (x.1, x.2.length)) then some (d + setsSum (exTerm energy px eFact) l1 l2)
      else none
  | [], [], d, _ => by simp [rustLoop, setsSum]
  | [], _ :: _, d, h => by simp at h
  | _ :: _, [], d, h => by simp at h
  | (i1, s1) :: l1, (i2, s2) :: l2, d, h => by
    simp only [List.zip_cons_cons, rustLoop, List.map_cons, List.cons.injEq, Prod.mk.injEq]
    by_cases h1 : i1 ≠ i2 ∨ s1.length ≠ s2.length
    · rw [if_pos h1, if_neg]
      rintro ⟨⟨rfl, h2⟩, -⟩
      rcases h1 with h1 | h1
      · exact h1 rfl
      · exact h1 h2
    · rw [if_neg h1, rustLoop_eq energy px eFact l1 l2 _ (by simpa using h)]
      have hi : i1 = i2 := by by_contra hc; exact h1 (Or.inl hc)
      have hs : s1.length = s2.length := by by_contra hc; exact h1 (Or.inr hc)
      simp only [hi, hs, true_and]
      congr 2
      rw [setsSum, setsSum, List.flatMap_cons, List.flatMap_cons, List.zipWith_append hs, List.sum_append, ← add_assoc, List.zip, List.map_zipWith]

theorem cLoop_eq (energy px : V → D) (eFact : D) : ∀ (l1 l2 : List (ℤ × List V)) (d : D), l1.length = l2.length →
    cLoop energy px eFact ((l1.map fun x => ⟨x.1, x.2⟩).zip (l2.map fun x => ⟨x.1, x.2⟩)) d = rustLoop energy px eFact (l1.zip l2) d
  | [], [], d, _ => by simp [rustLoop, cLoop]
  | [], _ :: _, d, h => by simp at h
  | _ :: _, [], d, h => by simp at h
  | (i1, s1) :: l1, (i2, s2) :: l2, d, h => by
    have hf : ∀ (l : List (V × V)) (d : D), l.foldl (fun dist p => dist + exTerm energy px eFact p.1 p.2) d =
        d + (l.map fun p => exTerm energy px eFact p.1 p.2).sum := by
      intro l
      induction l with
      | nil => simp
      | cons p l ih => intro d; rw [List.foldl_cons, ih, List.map_cons, List.sum_cons, add_assoc]
    simp only [List.map_cons, List.zip_cons_cons, rustLoop, cLoop, hf]
    split_ifs
    · rfl
    · exact cLoop_eq energy px eFact l1 l2 _ (by simpa using h)

theorem sameTypes_refl (ev : Event K V) : SameTypes ev ev := rfl

theorem sameTypes_symm {ev1 ev2 : Event K V} (h : SameTypes ev1 ev2) : SameTypes ev2 ev1 := Eq.symm h

theorem sameTypes_trans {ev1 ev2 ev3 : Event K V} (h1 : SameTypes ev1 ev2) (h2 : SameTypes ev2 ev3) : SameTypes ev1 ev3 := Eq.trans h1 h2

theorem sameTypes_length {ev1 ev2 : Event K V} (h : SameTypes ev1 ev2) : ev1.outgoingByPid.length = ev2.outgoingByPid.length := by
  have := congrArg List.length h
  simpa using this

/-- **C121**: the function in the C example computes the distance that is described, for events as they are passed to it. -/
theorem C121_c (energy px : V → D) (eFact : D) (a b : Nat) (ev1 ev2 : Event K V) :
    cDistance energy px eFact (viewEvent a ev1) (viewEvent b ev2) = describedDistance energy px eFact ev1 ev2 := by
  unfold cDistance describedDistance viewEvent
  simp only [List.length_map]
  by_cases hl : ev1.outgoingByPid.length = ev2.outgoingByPid.length
  · rw [if_neg (not_not.2 hl), cLoop_eq _ _ _ _ _ _ hl, rustLoop_eq _ _ _ _ _ _ hl]
    by_cases hs : SameTypes ev1 ev2
    · rw [if_pos hs, if_pos (show _ = _ from hs), zero_add]
      rfl
    · rw [if_neg hs, if_neg (show ¬ _ = _ from hs)]
  · rw [if_pos hl, if_neg fun h => hl (sameTypes_length h)]

/-- **C121**, full statement for the Rust example: the distance that is described. -/
def C121_claim : Prop :=
  ∀ (energy px : ℚ × ℚ → ℚ) (eFact : ℚ) (ev1 ev2 : Event ℚ (ℚ × ℚ)),
    rustDistance energy px eFact ev1 ev2 = describedDistance energy px eFact ev1 ev2

/-- **C121 is false** for the Rust example: two electrons with different energies. -/
theorem C121_violated : ¬ C121_claim := by
  intro h
  have := h Prod.fst Prod.snd (1/2) ⟨0, [1], [(11, [(3, 1)])]⟩ ⟨0, [1], [(11, [(1, 1)])]⟩
  revert this
  decide +kernel

/-- **C121**, what the Rust example computes: all distances are 0 or infinite. -/
theorem C121_rust (energy px : V → D) (eFact : D) (ev1 ev2 : Event K V) :
    rustDistance energy px eFact ev1 ev2 = if SameTypes ev1 ev2 then .fin 0 else .inf := by
  unfold rustDistance
  by_cases hl : ev1.outgoingByPid.length = ev2.outgoingByPid.length
  · rw [if_neg (not_not.2 hl), rustLoop_eq _ _ _ _ _ _ hl]
    by_cases hs : SameTypes ev1 ev2
    · rw [if_pos hs, if_pos (show _ = _ from hs)]
    · rw [if_neg hs, if_neg (show ¬ _ = _ from hs)]
  · rw [if_pos hl, if_neg fun h => hl (sameTypes_length h)]

section

variable [IsStrictOrderedRing D]

theorem exTerm_nonneg (energy px : V → D) {eFact : D} (he : 0 ≤ eFact) (p q : V) : 0 ≤ exTerm energy px eFact p q :=
  add_nonneg (mul_nonneg he (abs_nonneg _)) (abs_nonneg _)

theorem exTerm_self (energy px : V → D) (eFact : D) (p : V) : exTerm energy px eFact p p = 0 := by simp [exTerm]

theorem exTerm_symm (energy px : V → D) (eFact : D) (p q : V) : exTerm energy px eFact p q = exTerm energy px eFact q p := by
  rw [exTerm, exTerm, abs_sub_comm (energy p), abs_sub_comm (px p)]

theorem exTerm_triangle (energy px : V → D) {eFact : D} (he : 0 ≤ eFact) (p q r : V) :
    exTerm energy px eFact p r ≤ exTerm energy px eFact p q + exTerm energy px eFact q r := by
  have h1 := mul_le_mul_of_nonneg_left (abs_sub_le (energy p) (energy q) (energy r)) he
  have h2 := abs_sub_le (px p) (px q) (px r)
  unfold exTerm
  linarith [mul_add eFact |energy p - energy q| |energy q - energy r|]

theorem zipSum_triangle {f : V → V → D} (hf : ∀ p q r, f p r ≤ f p q + f q r) : ∀ (l1 l2 l3 : List V), l1.length = l2.length →
    l2.length = l3.length → (List.zipWith f l1 l3).sum ≤ (List.zipWith f l1 l2).sum + (List.zipWith f l2 l3).sum
  | [], [], [], _, _ => by simp
  | a :: l1, b :: l2, c :: l3, h1, h2 => by
    simp only [List.zipWith_cons_cons, List.sum_cons]
    have := zipSum_triangle hf l1 l2 l3 (by simpa using h1) (by simpa using h2)
    have := hf a b c
    linarith
  | [], _ :: _, _, h, _ => by simp at h
  | _ :: _, [], _, h, _ => by simp at h
  | _, [], _ :: _, _, h => by simp at h
  | _, _ :: _, [], _, h => by simp at h

theorem sameTypes_allMomenta {ev1 ev2 : Event K V} (h : SameTypes ev1 ev2) : (allMomenta ev1).length = (allMomenta ev2).length := by
  have : ∀ ev : Event K V, (allMomenta ev).length = ((ev.outgoingByPid.map (fun x => (x.1, x.2.length))).map Prod.snd).sum := by
    intro ev
    simp [allMomenta, List.length_flatMap, Function.comp_def]
  rw [this, this, h]

/-- **C121**: both functions are symmetric, not negative, 0 for equal events and obey the triangle inequality, so the requirements of the
neighbour searches for distances that can be infinite (C13) are met. `E_fact` may not be negative. -/
theorem C121_metric (energy px : V → D) {eFact : D} (he : 0 ≤ eFact) :
    IsExtMetricOn (fun _ : Event K V => True) (describedDistance energy px eFact) ∧
    IsExtMetricOn (fun _ : Event K V => True) (rustDistance energy px eFact) ∧
    (∀ ev1 ev2 : Event K V, ∀ d, describedDistance energy px eFact ev1 ev2 = .fin d → 0 ≤ d) ∧
    ∀ ev : Event K V, describedDistance energy px eFact ev ev = .fin 0 := by
  have hself : ∀ ev : Event K V, describedDistance energy px eFact ev ev = .fin 0 := by
    intro ev
    unfold describedDistance
    rw [if_pos (sameTypes_refl ev)]
    congr 1
    induction allMomenta ev with
    | nil => rfl
    | cons p l ih => rw [List.zipWith_cons_cons, List.sum_cons, ih]; simp
  refine ⟨⟨?_, ?_, ?_, ?_⟩, ⟨?_, ?_, ?_, ?_⟩, ?_, hself⟩
  · intro x y _ _
    unfold describedDistance
    by_cases hs : SameTypes x y
    · rw [if_pos hs, if_pos (sameTypes_symm hs)]
      congr 2
      rw [List.zipWith_comm]
      congr 1
      funext p q
      exact exTerm_symm energy px eFact q p
    · rw [if_neg hs, if_neg fun h => hs (sameTypes_symm h)]
  · intro x y _ _
    unfold describedDistance
    split_ifs <;> simp
  · intro x _
    rw [hself]
    simp
  · intro x y z a b _ _ _ hxy hyz
    unfold describedDistance at hxy hyz ⊢
    split_ifs at hxy with h1
    split_ifs at hyz with h2
    cases hxy
    cases hyz
    rw [if_pos (sameTypes_trans h1 h2)]
    exact ⟨_, rfl, zipSum_triangle (exTerm_triangle energy px he) _ _ _ (sameTypes_allMomenta h1) (sameTypes_allMomenta h2)⟩
  · intro x y _ _
    rw [C121_rust, C121_rust]
    by_cases hs : SameTypes x y
    · rw [if_pos hs, if_pos (sameTypes_symm hs)]
    · rw [if_neg hs, if_neg fun h => hs (sameTypes_symm h)]
  · intro x y _ _
    rw [C121_rust]
    split_ifs <;> simp
  · intro x _
    rw [C121_rust, if_pos (sameTypes_refl x)]
    simp
  · intro x y z a b _ _ _ hxy hyz
    rw [C121_rust] at hxy hyz ⊢
    split_ifs at hxy with h1
    split_ifs at hyz with h2
    cases hxy
    cases hyz
    rw [if_pos (sameTypes_trans h1 h2)]
    exact ⟨0, rfl, by simp⟩
  · intro x y d hd
    unfold describedDistance at hd
    split_ifs at hd
    cases hd
    apply List.sum_nonneg
    intro a ha
    obtain ⟨i, hi, rfl⟩ := List.getElem_of_mem ha
    rw [List.getElem_zipWith]
    exact exTerm_nonneg energy px he _ _

end

/-! ### Examples -/

-- an electron and two jets
example : describedDistance Prod.fst Prod.snd (1/2 : ℚ) (⟨0, [1], [(11, [(3, 1)]), (81, [(5, 2), (4, 0)])]⟩ : Event ℚ (ℚ × ℚ))
    ⟨1, [1], [(11, [(1, 1)]), (81, [(5, 3), (2, 2)])]⟩ = .fin 5 ∧
    rustDistance Prod.fst Prod.snd (1/2 : ℚ) (⟨0, [1], [(11, [(3, 1)]), (81, [(5, 2), (4, 0)])]⟩ : Event ℚ (ℚ × ℚ))
    ⟨1, [1], [(11, [(1, 1)]), (81, [(5, 3), (2, 2)])]⟩ = .fin 0 ∧
    describedDistance Prod.fst Prod.snd (1/2 : ℚ) (⟨0, [1], [(11, [(3, 1)])]⟩ : Event ℚ (ℚ × ℚ)) ⟨1, [1], [(13, [(3, 1)])]⟩ = .inf := by
  decide +kernel

end Cres

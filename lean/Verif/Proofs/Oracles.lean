import Verif.Spec.Tree
import Verif.Spec.Neighbours
import Mathlib.Data.List.Sort
import Mathlib.Data.List.MinMax
import Mathlib.Tactic.Linarith

/-!
Concrete sorts and minimum choices, used to show that the assumptions on the external code can be met and to
run the model on examples.
-/

namespace Cres

open Spec

/-- Insertion sort by distance. -/
def stableSort {P K : Type*} [LinearOrder K] : SortOracle P K :=
  fun _ l => l.insertionSort (fun a b => a.1 ≤ b.1)

theorem stableSort_sorts {P K : Type*} [LinearOrder K] : SortsByDistance (stableSort : SortOracle P K) := by
  intro call l
  have : Std.Total (fun a b : K × Node P K => a.1 ≤ b.1) := ⟨fun a b => le_total _ _⟩
  have : IsTrans (K × Node P K) (fun a b => a.1 ≤ b.1) := ⟨fun a b c h1 h2 => le_trans h1 h2⟩
  exact ⟨List.perm_insertionSort _ _, List.pairwise_insertionSort _ _⟩

/-- The same sort with only the comparison of the distance type. -/
def stableSortB {P K : Type*} [DistNum K] : SortOracle P K :=
  fun _ l => l.insertionSort (fun a b => DistNum.le a.1 b.1 = true)

/-- Position of the first minimum. -/
def firstMinPos {K : Type*} [LinearOrder K] : List K → Option Nat
  | [] => none
  | a :: l =>
    match firstMinPos l with
    | none => some 0
    | some i => if h : i < l.length then (if a ≤ l[i] then some 0 else some (i + 1)) else none

theorem firstMinPos_spec {K : Type*} [LinearOrder K] (l : List K) :
    (firstMinPos l = none → l = []) ∧
    ∀ pos, firstMinPos l = some pos → ∃ h : pos < l.length, ∀ k ∈ l, l[pos] ≤ k := by
  induction l with
  | nil => simp [firstMinPos]
  | cons a l ih =>
    obtain ⟨ih1, ih2⟩ := ih
    unfold firstMinPos
    cases h : firstMinPos l with
    | none =>
      have := ih1 h
      subst this
      simp
    | some i =>
      obtain ⟨hi, hle⟩ := ih2 i h
      simp only [hi, dite_true]
      constructor
      · split <;> simp
      · intro pos hpos
        split at hpos
        · rename_i hal
          simp only [Option.some.injEq] at hpos
          subst hpos
          refine ⟨by simp, ?_⟩
          intro k hk
          rcases List.mem_cons.1 hk with rfl | hk
          · simp
          · exact hal.trans (hle k hk)
        · rename_i hal
          simp only [Option.some.injEq] at hpos
          subst hpos
          refine ⟨by simpa using hi, ?_⟩
          intro k hk
          rw [List.getElem_cons_succ]
          rcases List.mem_cons.1 hk with rfl | hk
          · exact le_of_lt (not_le.1 hal)
          · exact hle k hk

/-- The first minimum as choice of rayon's `min_by_key`. -/
def firstMin {K : Type*} [LinearOrder K] : MinOracle K := fun _ keys => firstMinPos keys

theorem firstMin_isMin {K : Type*} [LinearOrder K] : IsMinOracle (firstMin : MinOracle K) :=
  fun _ keys => firstMinPos_spec keys

/-- Distance on the integer line. -/
def lineDist (x y : ℤ) : ℤ := |x - y|

theorem lineDist_metric : IsMetricLike lineDist :=
  ⟨fun x y => abs_sub_comm x y, fun x y z => abs_sub_le x y z⟩

end Cres

import Mathlib.Data.List.Sort
import Mathlib.Algebra.Order.Group.Unbundled.Abs
import Mathlib.Algebra.Order.Group.Abs

/-!
Slice and arithmetic helpers shared by the model.
-/

namespace Cres

/-- `slice::swap(i, j)` (used in `src/vptree.rs:135`, `187`, `251`, `287`).
The Rust function panics on an index out of range; here such a call leaves the list alone.
All calls in the model are in range. -/
def swap {α : Type*} (l : List α) (i j : Nat) : List α :=
  match l[i]?, l[j]? with
  | some a, some b => (l.set i b).set j a
  | _, _ => l

/-- `Vec::swap_remove(i)` (used in `src/neighbour_search.rs:135`, `156`, `src/cluster.rs`): the element
at `i` is replaced by the last one. Rust panics if `i` is out of range; here nothing happens then. -/
def swapRemove {α : Type*} (l : List α) (i : Nat) : List α :=
  match l.getLast? with
  | none => l
  | some a => if i < l.length then (l.set i a).dropLast else l

/-- The operations on distances (`N64`) used by the neighbour search: `<=`, `<` and `(a - b).abs()`.
Three instances are used: exact arithmetic in an ordered group (below), an arithmetic with infinity and
NaN (`Verif/Model/ExtFloat.lean`) and rounded arithmetic (`Verif/Model/Rounding.lean`). -/
class DistNum (K : Type*) where
  /-- `a <= b` -/
  le : K → K → Bool
  /-- `a < b` -/
  lt : K → K → Bool
  /-- `(a - b).abs()` -/
  absDiff : K → K → K

/-- Exact arithmetic without infinities: an ordered group. -/
instance exactDist {K : Type*} [AddCommGroup K] [LinearOrder K] : DistNum K where
  le a b := decide (a ≤ b)
  lt a b := decide (a < b)
  absDiff a b := |a - b|

/-- The comparisons of distances are those of an order, as in arithmetic without NaN. -/
class ExactComparison (K : Type*) [LinearOrder K] [DistNum K] : Prop where
  le_eq (a b : K) : DistNum.le a b = decide (a ≤ b)
  lt_eq (a b : K) : DistNum.lt a b = decide (a < b)

instance {K : Type*} [AddCommGroup K] [LinearOrder K] : ExactComparison K := ⟨fun _ _ => rfl, fun _ _ => rfl⟩

end Cres

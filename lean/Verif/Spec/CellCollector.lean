import Mathlib.Data.List.Sort
import Mathlib.Data.Nat.Basic

/-!
What it means for a collection of cells to be the largest ones, independently of how it is stored.
-/

namespace Cres.Spec

variable {X : Type*}

/-- Of the things numbered `0, …, n - 1`, the things in `kept` are the `limit` largest ones (all of them, if there are not
more): there are no repetitions, and everything that is not kept is at most as large as everything that is. -/
structure KeepsLargest [LE X] (limit n : Nat) (size : Nat → X) (kept : List Nat) : Prop where
  known : ∀ i ∈ kept, i < n
  distinct : kept.Nodup
  number : kept.length = min limit n
  largest : ∀ i ∈ kept, ∀ j < n, j ∉ kept → size j ≤ size i

/-- `m` is the element in the middle of `xs`, in ascending order, the larger one of two. -/
def IsMedian [LE X] (xs : List X) (m : X) : Prop :=
  ∃ ys : List X, ys.Perm xs ∧ ys.Pairwise (· ≤ ·) ∧ ys[xs.length / 2]? = some m

end Cres.Spec

namespace Cres.Spec

/-- All sequences of numbers `i₀, …, iₙ₋₁` with `iₖ ≤ k`, in which `n` independent uniform draws can result. -/
def draws : Nat → List (List Nat)
  | 0 => [[]]
  | n + 1 => (draws n).flatMap fun l => (List.range (n + 1)).map fun i => l ++ [i]

/-- All sequences of numbers with `count` elements of which the first is less than `len`, the second less than `len - 1`, and
so on. -/
def removals : (len count : Nat) → List (List Nat)
  | _, 0 => [[]]
  | len, n + 1 => (List.range len).flatMap fun i => (removals (len - 1) n).map fun l => i :: l

end Cres.Spec

import Mathlib.Algebra.Order.Field.Basic
import Mathlib.Algebra.BigOperators.Group.Finset.Basic
import Mathlib.Algebra.Order.BigOperators.Group.Finset
import Mathlib.Data.Finset.Lattice.Fold

/-!
What resampling does to the weights of events. The weights of event `i` are a list; entry `0` is the central weight.
No reference to the model.
-/

namespace Cres.Spec

/-- Entry `k` of the weights of event `i` (0 if there is no such entry). -/
def wt {K : Type*} [Zero K] (mem : Nat → List K) (k i : Nat) : K := (mem i).getD k 0

variable {K : Type*} [Field K] [LinearOrder K]

/-- Sum of the `k`-th weights of the `n` events. -/
def weightTotal (n : Nat) (mem : Nat → List K) (k : Nat) : K := ∑ i ∈ Finset.range n, wt mem k i

/-- Summed absolute value of the negative `k`-th weights. -/
def negativeTotal (n : Nat) (mem : Nat → List K) (k : Nat) : K := ∑ i ∈ Finset.range n, max (- wt mem k i) 0

/-- Summed absolute value of the `k`-th weights. -/
def absTotal (n : Nat) (mem : Nat → List K) (k : Nat) : K := ∑ i ∈ Finset.range n, |wt mem k i|

/-- Summed square of the `k`-th weights. -/
def squareTotal (n : Nat) (mem : Nat → List K) (k : Nat) : K := ∑ i ∈ Finset.range n, wt mem k i ^ 2

/-- Every weight of every member is replaced by the mean over the members; nothing else changes. -/
structure IsCellAverage (members : List Nat) (mem mem' : Nat → List K) : Prop where
  outside : ∀ i, i ∉ members → mem' i = mem i
  length : ∀ i, (mem' i).length = (mem i).length
  mean : ∀ i ∈ members, ∀ k, wt mem' k i = (members.map (wt mem k)).sum / (members.length : K)

/-- Averaging a list of cells one after the other. -/
inductive AverageSeq : List (List Nat) → (Nat → List K) → (Nat → List K) → Prop
  | nil (mem) : AverageSeq [] mem mem
  | cons {c cs mem mem' mem''} : IsCellAverage c mem mem' → AverageSeq cs mem' mem'' → AverageSeq (c :: cs) mem mem''

/-- A cell around `seed`, given the central weights `w` and the neighbours of the seed with their distances, nearest
first: the seed and the first `m` neighbours. Neighbours are added until the sum of weights is not negative: it is
negative for all shorter prefixes that contain at least one neighbour, and not negative for the cell unless the
neighbours are exhausted. (At least one neighbour is always added, so that for a negative-weight seed this is the shortest
prefix with non-negative sum.) The radius is the distance of the last neighbour. -/
structure IsCell {D : Type*} [Zero D] (w : Nat → K) (seed : Nat) (neighbours : List (Nat × D)) (m : Nat)
    (members : List Nat) (radius : D) (weightSum : K) : Prop where
  le : m ≤ neighbours.length
  members_eq : members = seed :: (neighbours.take m).map Prod.fst
  sum_eq : weightSum = (members.map w).sum
  radius_eq : radius = (((neighbours.take m).getLast?).map Prod.snd).getD 0
  enough : m = neighbours.length ∨ 0 ≤ weightSum
  shortest : ∀ j, 1 ≤ j → j < m → ((seed :: (neighbours.take j).map Prod.fst).map w).sum < 0
  atLeastOne : neighbours ≠ [] → 1 ≤ m

/-- Adding up weights in the given order. (The result may depend on the order if sums are rounded.) -/
def addUp {K : Type*} [Add K] [Zero K] (w : Nat → K) : List Nat → K
  | [] => 0
  | i :: is => is.foldl (fun s j => s + w j) (w i)

/-- The same as `IsCell` for any arithmetic: sums of weights are formed in the order in which events are added. -/
structure IsOrderedCell {D K : Type*} [Zero D] [Add K] [Zero K] [LinearOrder K] (w : Nat → K) (seed : Nat)
    (neighbours : List (Nat × D)) (m : Nat) (members : List Nat) (radius : D) (weightSum : K) : Prop where
  le : m ≤ neighbours.length
  members_eq : members = seed :: (neighbours.take m).map Prod.fst
  sum_eq : weightSum = addUp w members
  radius_eq : radius = (((neighbours.take m).getLast?).map Prod.snd).getD 0
  enough : m = neighbours.length ∨ 0 ≤ weightSum
  shortest : ∀ j, 1 ≤ j → j < m → addUp w (seed :: (neighbours.take j).map Prod.fst) < 0
  atLeastOne : neighbours ≠ [] → 1 ≤ m

/-- What is assumed about seeds and neighbour search: seeds and neighbours are indices of events, and the neighbours of a
seed are different from each other and from the seed. Every correct neighbour search has this property. -/
structure ValidInput {D : Type*} (n : Nat) (nearest : Nat → List (Nat × D)) (seeds : List Nat) : Prop where
  seeds_lt : ∀ s ∈ seeds, s < n
  neighbours_lt : ∀ s ∈ seeds, ∀ x ∈ nearest s, x.1 < n
  neighbours_nodup : ∀ s ∈ seeds, (s :: (nearest s).map Prod.fst).Nodup

/-- A sort function that sorts ascending by a key, with arbitrary order of elements with equal keys. -/
def SortsByKey {K : Type*} [LE K] (sort : (Nat → K) → List Nat → List Nat) : Prop :=
  ∀ key l, (sort key l).Perm l ∧ (sort key l).Pairwise (fun a b => key a ≤ key b)

end Cres.Spec

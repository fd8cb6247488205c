import Mathlib.Data.List.Basic
import Mathlib.Order.Basic

/-!
What a nearest-neighbour search is supposed to deliver. No reference to the model.
-/

namespace Cres.Spec

/-- A distance that is symmetric and obeys the triangle inequality. -/
structure IsMetricLike {P K : Type*} [Add K] [LE K] (dist : P → P → K) : Prop where
  symm : ∀ x y, dist x y = dist y x
  triangle : ∀ x y z, dist x z ≤ dist x y + dist y z

/-- The same for the points in a set. -/
structure IsMetricOn {P K : Type*} [Add K] [LE K] (S : P → Prop) (dist : P → P → K) : Prop where
  symm : ∀ x y, S x → S y → dist x y = dist y x
  triangle : ∀ x y z, S x → S y → S z → dist x z ≤ dist x y + dist y z

/-- The same up to errors: at most `σ` for the symmetry and `τ` for the triangle inequality. -/
structure IsMetricUpTo {P K : Type*} [Add K] [LE K] (S : P → Prop) (σ τ : K) (dist : P → P → K) : Prop where
  symm : ∀ x y, S x → S y → dist x y ≤ dist y x + σ
  triangle : ∀ x y z, S x → S y → S z → dist x z ≤ dist x y + dist y z + τ

/-- `L` enumerates the neighbours of `q` among `pts`: every point of `pts` other than `q` whose distance is
at most `maxDist`, each exactly once, nothing else, each with its distance, nearest first. -/
structure IsNeighbourList {P K : Type*} [LE K] (dist : P → P → K) (pts : List P) (q : P) (maxDist : K)
    (L : List (P × K)) : Prop where
  /-- no point occurs twice -/
  nodup : (L.map Prod.fst).Nodup
  /-- exactly the points in range -/
  mem : ∀ p, p ∈ L.map Prod.fst ↔ p ∈ pts ∧ p ≠ q ∧ dist q p ≤ maxDist
  /-- reported distances are the true distances -/
  dist_eq : ∀ x ∈ L, x.2 = dist q x.1
  /-- nearest first -/
  sorted : L.Pairwise (fun a b => a.2 ≤ b.2)

/-- The same if distances may be off by `ε`: the points with distance at most `maxDist - ε` are there, points with a
distance up to `maxDist` may be, and nearest first holds up to `ε`. -/
structure IsNeighbourListUpTo {P K : Type*} [Add K] [LE K] (ε : K) (dist : P → P → K) (pts : List P) (q : P) (maxDist : K)
    (L : List (P × K)) : Prop where
  /-- no point occurs twice -/
  nodup : (L.map Prod.fst).Nodup
  /-- only points in range -/
  sound : ∀ p ∈ L.map Prod.fst, p ∈ pts ∧ p ≠ q ∧ dist q p ≤ maxDist
  /-- all points in range that are not close to the boundary -/
  complete : ∀ p ∈ pts, p ≠ q → dist q p + ε ≤ maxDist → p ∈ L.map Prod.fst
  /-- reported distances are those of the distance function -/
  dist_eq : ∀ x ∈ L, x.2 = dist q x.1
  /-- nearest first, up to `ε` -/
  sorted : L.Pairwise (fun a b => a.2 ≤ b.2 + ε)

end Cres.Spec

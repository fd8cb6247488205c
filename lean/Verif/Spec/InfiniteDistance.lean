import Verif.Spec.Tree
import Verif.Model.ExtFloat
import Mathlib.Order.WithBot

/-!
Vocabulary for searches with distances that can be infinite.
-/

namespace Cres

namespace ExtFloat

variable {K : Type*}

/-- Numbers, then infinity. (NaN is put at the end; no statement depends on it, as distances are not NaN.) -/
def rank : ExtFloat K → WithTop (WithTop K)
  | fin x => ((x : WithTop K) : WithTop (WithTop K))
  | inf => ((⊤ : WithTop K) : WithTop (WithTop K))
  | nan => ⊤

theorem rank_injective : Function.Injective (rank : ExtFloat K → WithTop (WithTop K)) := by
  intro a b h
  cases a <;> cases b <;> simp_all [rank]

/-- The order used for sorting. -/
noncomputable instance [LinearOrder K] : LinearOrder (ExtFloat K) := LinearOrder.lift' rank rank_injective

end ExtFloat

namespace Spec

variable {P K : Type*}

/-- An extended metric: symmetric, never NaN, and finite distances obey the triangle inequality. So points fall into groups:
distances within a group are finite, and those between groups are infinite. -/
structure IsExtMetricOn [AddCommGroup K] [LinearOrder K] (S : P → Prop) (dist : P → P → ExtFloat K) : Prop where
  symm : ∀ x y, S x → S y → dist x y = dist y x
  notNan : ∀ x y, S x → S y → dist x y ≠ .nan
  self : ∀ x, S x → dist x x ≠ .inf
  triangle : ∀ x y z a b, S x → S y → S z → dist x y = .fin a → dist y z = .fin b → ∃ c, dist x z = .fin c ∧ c ≤ a + b

/-- In the tree, the point is in the outside part of a vantage point with infinite radius. The list of nodes is as for
`IsVPTree`: a vantage point, then the nodes inside of its radius, then those outside. -/
inductive Hidden : List (Node P (ExtFloat K)) → P → Prop
  | here (p : P) (inside outside : List (Node P (ExtFloat K))) (x : Node P (ExtFloat K)) (h : x ∈ outside) :
      Hidden (⟨p, some ⟨.inf, inside.length⟩⟩ :: (inside ++ outside)) x.vantagePt
  | inside (p : P) (r : ExtFloat K) (inside outside : List (Node P (ExtFloat K))) (x : P) (h : Hidden inside x) :
      Hidden (⟨p, some ⟨r, inside.length⟩⟩ :: (inside ++ outside)) x
  | outside (p : P) (r : ExtFloat K) (inside outside : List (Node P (ExtFloat K))) (x : P) (h : Hidden outside x) :
      Hidden (⟨p, some ⟨r, inside.length⟩⟩ :: (inside ++ outside)) x

end Spec

end Cres

import Verif.Spec.Layout

/-!
Specification for C90: weights in other units.
-/

namespace Cres.Spec

variable {K V D : Type*}

/-- A conversion to other units: multiplication with a positive number, if there are no rounding errors. -/
structure IsScaling [Zero K] [Add K] [Neg K] [Mul K] [Div K] [LinearOrder K] (φ : K → K) : Prop where
  zero : φ 0 = 0
  add : ∀ a b, φ (a + b) = φ a + φ b
  neg : ∀ a, φ (-a) = -φ a
  mul : ∀ a c, φ (a * c) = φ a * c
  div : ∀ a c, φ (a / c) = φ a / c
  ratio : ∀ a b, φ a / φ b = a / b
  le : ∀ a b, φ a ≤ φ b ↔ a ≤ b

/-- The event with all weights converted. -/
def scaledBy (φ : K → K) (e : Event K V) : Event K V := { e with weights := e.weights.map φ }

/-- A distance that does not depend on weights. -/
def IgnoresWeights (dist : Event K V → Event K V → D) : Prop :=
  ∀ e e' w w', dist { e with weights := w } { e' with weights := w' } = dist e e'

/-- A sort algorithm whose result depends only on the order of the keys. -/
def SortsByComparison [LE K] (sort : (Nat → K) → List Nat → List Nat) : Prop :=
  ∀ key key' l, (∀ a b, key a ≤ key b ↔ key' a ≤ key' b) → sort key l = sort key' l

/-- The settings with the minimum weight and the random numbers between zero and the minimum weight converted. -/
def CresSettings.scaledBy (φ : K → K) (s : CresSettings K V D) : CresSettings K V D :=
  { s with minWeight := φ s.minWeight, rng := fun n => φ (s.rng n) }

end Cres.Spec

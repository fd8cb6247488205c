import Mathlib.Analysis.SpecialFunctions.Sqrt
import Mathlib.Data.Multiset.Replicate
import Mathlib.Algebra.BigOperators.Group.Finset.Basic
import Mathlib.Order.Bounds.Basic
import Mathlib.Data.Fintype.Perm

/-!
What the distance between two events is, see arXiv:2109.07851. An event is given by the list of its outgoing particles: a
particle type (PDG id) and a momentum each.
-/

namespace Cres.Spec

variable {V K : Type*}

/-- The momenta of the particles with type `t`. -/
def momenta (parts : List (ℤ × V)) (t : ℤ) : List V := (parts.filter (fun x => x.1 = t)).map Prod.snd

/-- The particle types in an event. -/
def types (parts : List (ℤ × V)) : Finset ℤ := (parts.map Prod.fst).toFinset

/-- `ps` pairs the elements of `s` with the elements of `t` one-to-one. -/
def IsPairing (s t : Multiset V) (ps : Multiset (V × V)) : Prop := ps.map Prod.fst = s ∧ ps.map Prod.snd = t

/-- The sum of the distances between the elements of all pairs. -/
def pairingCost [AddCommMonoid K] (d : V → V → K) (ps : Multiset (V × V)) : K := (ps.map (fun x => d x.1 x.2)).sum

/-- `l` with as many vanishing momenta added as needed for `n` elements. -/
def padded (zero : V) (n : Nat) (l : List V) : Multiset V := ↑l + Multiset.replicate (n - l.length) zero

/-- `c` is the smallest cost of all one-to-one pairings of two sets of momenta. Vanishing momenta are added to the
smaller set. -/
def IsSetDistance [AddCommMonoid K] [Preorder K] (d : V → V → K) (zero : V) (l₁ l₂ : List V) (c : K) : Prop :=
  IsLeast {c | ∃ ps, IsPairing (padded zero (max l₁.length l₂.length) l₁) (padded zero (max l₁.length l₂.length) l₂) ps ∧
    pairingCost d ps = c} c

/-- `c` is the sum of the distances between the sets of momenta over all particle types found in one of the events. -/
def IsEventDistance [AddCommMonoid K] [Preorder K] (d : V → V → K) (zero : V) (parts₁ parts₂ : List (ℤ × V)) (c : K) :
    Prop :=
  ∃ cost : ℤ → K, (∀ t, IsSetDistance d zero (momenta parts₁ t) (momenta parts₂ t) (cost t)) ∧
    c = ∑ t ∈ types parts₁ ∪ types parts₂, cost t

/-- The transverse momentum for the spatial components `x`, `y`. -/
noncomputable def transverse (x y : ℝ) : ℝ := Real.sqrt (x ^ 2 + y ^ 2)

/-- The distance between the spatial momenta `(x₁, y₁, z₁)` and `(x₂, y₂, z₂)` with a parameter `τ`:
the square root of `|p⃗₁ - p⃗₂|² + τ² (pt₁ - pt₂)²`. -/
noncomputable def momentumDistance (τ x₁ y₁ z₁ x₂ y₂ z₂ : ℝ) : ℝ :=
  Real.sqrt ((x₁ - x₂) ^ 2 + (y₁ - y₂) ^ 2 + (z₁ - z₂) ^ 2 + τ ^ 2 * (transverse x₁ y₁ - transverse x₂ y₂) ^ 2)

/-- `total` is the largest total weight of an assignment of rows to columns, for an `n × n` matrix with entries `at`. -/
def IsMaxAssignment [AddCommMonoid K] [Preorder K] (n : Nat) (entry : Nat → Nat → K) (total : K) : Prop :=
  IsGreatest {c | ∃ σ : Equiv.Perm (Fin n), ∑ i : Fin n, entry i (σ i) = c} total

end Cres.Spec

import Mathlib.Algebra.Order.Field.Basic
import Mathlib.Algebra.Order.Ring.Abs
import Mathlib.Algebra.Order.Field.Rat
import Verif.Spec.Resample

/-!
What is assumed about rounding, and how far rounded sums may be off. No reference to the model.
-/

namespace Cres.Spec

variable {K : Type*} [Field K] [LinearOrder K]

/-- `fl` rounds with relative error at most `u` and, close to 0, absolute error at most `η`, for numbers up to `Ω`.
Numbers of up to `n` events are not rounded, and their inverses are not close to 0. Signs are kept.
For `f64` the numbers are `u = 2⁻⁵³`, `η = 2⁻¹⁰⁷⁵`, and `Ω` is the largest finite number, with `n < 2⁵³`. -/
structure RoundsWithin (fl : K → K) (n : Nat) (u η Ω : K) : Prop where
  u_nonneg : 0 ≤ u
  eta_nonneg : 0 ≤ η
  err : ∀ x, |x| ≤ Ω → |fl x - x| ≤ u * |x| + η
  nat : ∀ m : Nat, m ≤ n → fl m = m
  inv : ∀ m : Nat, 1 ≤ m → m ≤ n → |fl (1 / m) - 1 / m| ≤ u * (1 / m)

/-- Differences of two distances between points in `S` are rounded with error at most `δ`. -/
def DiffWithin {P : Type*} (S : P → Prop) (fl : K → K) (δ : K) (dist : P → P → K) : Prop :=
  ∀ x y z w, S x → S y → S z → S w → |fl (dist x y - dist z w) - (dist x y - dist z w)| ≤ δ

/-- Bound on the error made in `N` operations on numbers with sum of absolute values `T`. To leading order this is
`N * u * T`. -/
def roundingBound (u η : K) (N : Nat) (T : K) : K := ((1 + u) ^ N - 1) * T + 2 * N * η * (1 + u) ^ N

/-- The finite numbers of type `f64` (IEEE 754 binary64): integer multiples of powers of 2, with 53 bits. -/
def IsF64 (x : ℚ) : Prop := ∃ (m e : ℤ), |m| < 2 ^ 53 ∧ -1074 ≤ e ∧ e ≤ 971 ∧ x = m * 2 ^ e

/-- The largest finite `f64`. -/
def maxF64 : ℚ := (2 ^ 53 - 1) * 2 ^ (971 : ℤ)

end Cres.Spec

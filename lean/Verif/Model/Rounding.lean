import Verif.Model.Basic
import Verif.Model.Resample
import Mathlib.Algebra.Order.Floor.Ring
import Mathlib.Data.Int.Log
import Mathlib.Data.Rat.Floor
import Mathlib.Algebra.Order.Field.Rat

/-!
Rounded arithmetic. In the code, weights are of type `N64` from the crate `noisy_float`, i.e. `f64` without NaN
(`src/event.rs:204`, `src/cell.rs:16`). Each operation on them computes the exact result and rounds it (IEEE 754).

`Rounded fl` are numbers whose operations are rounded with the function `fl`. The definitions in `Verif/Model/Resample.lean`
and `Verif/Model/Concurrent.lean` apply to them as they are, with the operations in the order of the code.

`fl64` is the rounding of `f64`: to nearest, ties to even, 53 significant bits, subnormal numbers included. Overflow is not
part of it: results that exceed the largest `f64` would be infinite in the code. The theorems assume that this
does not happen, by a condition on the sum of absolute weights.
-/

namespace Cres

/-- Numbers with rounded operations. -/
structure Rounded {K : Type*} (fl : K → K) where
  val : K

namespace Rounded

variable {K : Type*} {fl : K → K}

theorem val_injective : Function.Injective (val : Rounded fl → K) := fun a b h => by cases a; cases b; simp_all

/-- Comparisons are exact. -/
instance [LinearOrder K] : LinearOrder (Rounded fl) := LinearOrder.lift' val val_injective

/-- `+` of `N64`, used in `src/cell.rs:45`, `:104` and `src/event.rs:290`. -/
instance [Add K] : Add (Rounded fl) := ⟨fun a b => ⟨fl (a.val + b.val)⟩⟩

/-- `*` of `N64`, used in `src/cell.rs:81`. -/
instance [Mul K] : Mul (Rounded fl) := ⟨fun a b => ⟨fl (a.val * b.val)⟩⟩

/-- `/` of `N64` and of `f64`, used in `src/cell.rs:79` and `:105`. -/
instance [Div K] : Div (Rounded fl) := ⟨fun a b => ⟨fl (a.val / b.val)⟩⟩

/-- Changing the sign is exact. -/
instance [Neg K] : Neg (Rounded fl) := ⟨fun a => ⟨-a.val⟩⟩

/-- `n64(0.)` -/
instance [Zero K] : Zero (Rounded fl) := ⟨⟨0⟩⟩

/-- `1.` (`src/cell.rs:79`) -/
instance [One K] : One (Rounded fl) := ⟨⟨1⟩⟩

/-- `self.nmembers() as f64` (`src/cell.rs:79`, `:105`) rounds. -/
instance [NatCast K] : NatCast (Rounded fl) := ⟨fun n => ⟨fl n⟩⟩

/-- `<=`, `<` and `(a - b).abs()` for distances (`src/vptree.rs:335`, `:373`, `:390`, `:395`, `:421`): the difference is
rounded, the rest is exact. -/
instance [AddCommGroup K] [LinearOrder K] : DistNum (Rounded fl) where
  le a b := decide (a.val ≤ b.val)
  lt a b := decide (a.val < b.val)
  absDiff a b := ⟨|fl (a.val - b.val)|⟩

instance [AddCommGroup K] [LinearOrder K] : ExactComparison (Rounded fl) :=
  ⟨fun a b => decide_eq_decide.2 Iff.rfl, fun a b => decide_eq_decide.2 (lt_iff_lt_of_le_iff_le Iff.rfl)⟩

end Rounded

/-- The nearest integer; the even one of two. -/
def roundEven (x : ℚ) : ℤ :=
  if x - ⌊x⌋ < 1 / 2 then ⌊x⌋
  else if 1 / 2 < x - ⌊x⌋ then ⌊x⌋ + 1
  else if ⌊x⌋ % 2 = 0 then ⌊x⌋ else ⌊x⌋ + 1

/-- Spacing of the numbers of type `f64` in the binade of `x`; the smallest exponent is -1022. -/
def quantum64 (x : ℚ) : ℚ := 2 ^ (max (Int.log 2 |x|) (-1022) - 52)

/-- Rounding to `f64`, without overflow. -/
def fl64 (x : ℚ) : ℚ := roundEven (x / quantum64 x) * quantum64 x

/-- The type `N64` of the code, without infinities. -/
abbrev N64 := Rounded fl64

end Cres

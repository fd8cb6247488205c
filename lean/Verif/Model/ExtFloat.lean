import Verif.Model.Basic

/-!
Distances as the floating-point numbers they are in the code, as far as infinity and NaN are concerned:
finite values of an ordered group, `+inf` and NaN. (Negative infinity never occurs in the search.)
In release builds `noisy_float` does not check for NaN and comparisons with NaN are false; in debug builds
computing a NaN panics.
-/

namespace Cres

/-- A non-negative-infinite `f64`. -/
inductive ExtFloat (K : Type*)
  | fin (x : K)
  | inf
  | nan
deriving DecidableEq, Repr

namespace ExtFloat

variable {K : Type*} [AddCommGroup K] [LinearOrder K]

/-- IEEE `<=`. -/
def le : ExtFloat K → ExtFloat K → Bool
  | nan, _ => false
  | _, nan => false
  | fin a, fin b => decide (a ≤ b)
  | fin _, inf => true
  | inf, inf => true
  | inf, fin _ => false

/-- IEEE `<`. -/
def lt : ExtFloat K → ExtFloat K → Bool
  | nan, _ => false
  | _, nan => false
  | fin a, fin b => decide (a < b)
  | fin _, inf => true
  | inf, inf => false
  | inf, fin _ => false

/-- IEEE `(a - b).abs()`: in particular infinity minus infinity is NaN. -/
def absDiff : ExtFloat K → ExtFloat K → ExtFloat K
  | nan, _ => nan
  | _, nan => nan
  | fin a, fin b => fin |a - b|
  | inf, inf => nan
  | inf, fin _ => inf
  | fin _, inf => inf

instance : DistNum (ExtFloat K) := ⟨le, lt, absDiff⟩
instance : Zero (ExtFloat K) := ⟨fin 0⟩

end ExtFloat

end Cres

import Verif.Spec.FloatRun

/-!
Vocabulary for the statement about unweighting with `f64` weights.
-/

namespace Cres.Spec

/-- Weights that are 0 or not too small, and a number of events, a minimum weight and a sum of weights that are far from overflow
and underflow. All weights are positive or 0. -/
structure UnweightF64 {V : Type*} (minWt : N64) (evs : List (Event N64 V)) : Prop where
  weights : ∀ e ∈ evs, (centralWeight e).val = 0 ∨ 2 ^ (-600 : ℤ) ≤ (centralWeight e).val
  length : evs.length ≤ 2 ^ 40
  min_low : 2 ^ (-200 : ℤ) ≤ minWt.val
  min_high : minWt.val ≤ 2 ^ (200 : ℤ)
  sum_low : 2 ^ (-200 : ℤ) ≤ (evs.map fun e => (centralWeight e).val).sum
  sum_high : (evs.map fun e => (centralWeight e).val).sum ≤ 2 ^ (200 : ℤ)

end Cres.Spec

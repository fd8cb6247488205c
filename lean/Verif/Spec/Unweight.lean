import Verif.Model.Event
import Mathlib.Algebra.Order.Field.Basic

/-!
Vocabulary for the statements about unweighting.
-/

namespace Cres.Spec

variable {K V : Type*}

/-- The central weight: the first one. -/
def centralWeight [Zero K] (e : Event K V) : K := e.weights.headD 0

/-- Sum of central weights. -/
def centralSum [Add K] [Zero K] (events : List (Event K V)) : K := (events.map centralWeight).sum

/-- `e'` is the event `e` with all weights multiplied by `factor`. -/
def IsScaled [Mul K] (factor : K) (e e' : Event K V) : Prop :=
  e'.id = e.id ∧ e'.outgoingByPid = e.outgoingByPid ∧ e'.weights = e.weights.map (· * factor)

/-- The factor by which the weights of a surviving event with absolute weight `a` are multiplied: weights below the
threshold are brought to the threshold, all are multiplied with `common`. -/
def survivorFactor [Mul K] [Div K] [LinearOrder K] (minWt common a : K) : K := if a < minWt then minWt / a * common else common

end Cres.Spec

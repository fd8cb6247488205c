import Verif.Spec.Unweight

/-!
Specification for C93: what unweighting does to the weights of events in a complete run.
-/

namespace Cres.Spec

variable {K : Type*}

/-- The weights `ws` of an event after unweighting, if its weights after resampling are `rs`. Only weights below the threshold are
discarded, they are replaced by `default`. Other weights are multiplied by a common factor; weights below the threshold are first
brought to the threshold, with a common sign for all weights of an event. -/
inductive Unweighted [Field K] [LinearOrder K] (default : List K) (minWt common : K) (rs : List K) : List K → Prop
  | discarded : |rs.headD 0| < minWt → Unweighted default minWt common rs default
  | kept : rs.headD 0 ≠ 0 → Unweighted default minWt common rs (rs.map (· * survivorFactor minWt common |rs.headD 0|))

/-- Sum of the central weights, which are the first ones. -/
def centralTotal [Add K] [Zero K] (ws : List (List K)) : K := (ws.map fun w => w.headD 0).sum

end Cres.Spec

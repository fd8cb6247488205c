import Verif.Model.Report
import Verif.Spec.Negative

/-!
Vocabulary for the statements about reported weights.
-/

namespace Cres.Spec

variable {K V D : Type*}

/-- The events in `outs` for which the event at the same position in `ins` has particles. -/
def whereParticles (p : Program K V D) (ins outs : List (Event K V)) : List (Event K V) :=
  ((ins.zip outs).filter fun x => HasParticles p x.1).map Prod.snd

/-- The report states the sum of the central weights of `events`, the sum of their squares and the fraction of negative ones. -/
structure ReportsOn [Field K] [LinearOrder K] (r : WeightReport K) (events : List (Event K V)) : Prop where
  sum : r.sum = weightSumNo 0 events
  errorSq : r.errorSq = squareSum 0 events
  fraction : r.fraction = negativeSum 0 events / absSum 0 events

end Cres.Spec

import Verif.Model.Program

/-!
Model of the messages on weights and event categories in the log (`src/cres.rs:203-219,295-327`, `src/resampler.rs:39-53`).

Simplifications: The numbers in the messages are not formatted. The uncertainty of the sum of weights is represented by its
square. The final sums are computed in parallel, in any order; here they are computed in the order of the events. Names of
particles are left out.
-/

namespace Cres

variable {K V D : Type*}

/-- The numbers in the messages on weights: the sum of weights, the square of its uncertainty, and the fraction of negative
weights. -/
structure WeightReport (K : Type*) where
  sum : K
  errorSq : K
  fraction : K
deriving DecidableEq

/-- The numbers in the messages (`src/resampler.rs:40-52`, `src/cres.rs:203-219`) for given weights. -/
def reportWeights [Zero K] [One K] [Add K] [Sub K] [Mul K] [Div K] [Neg K] [LinearOrder K] (ws : List K) : WeightReport K :=
  let sumWt := ws.sum
  let sumWtSqr := (ws.map fun w => w * w).sum
  let sumNegWt := (ws.filter (· < 0)).sum
  ⟨sumWt, sumWtSqr, -sumNegWt / (sumWt - sumNegWt * (1 + 1))⟩

/-- The numbers in the messages for given events; `none` is the panic of `weight()` for an event without weights. -/
def reportOf [Zero K] [One K] [Add K] [Sub K] [Mul K] [Div K] [Neg K] [LinearOrder K] (events : List (Event K V)) :
    Option (WeightReport K) :=
  (events.mapM Event.weight).map reportWeights

/-- Possible messages in a run (`src/cres.rs:186-224`) on `events` in which the weights `ws` are passed to `update_all_weights`:
`initial` is reported at the beginning of resampling (`src/resampler.rs:77`), `final` after unweighting and sorting
(`src/cres.rs:203-219`). -/
inductive Program.Reports [Zero D] [Zero K] [One K] [Add K] [Sub K] [Mul K] [Div K] [Neg K] [NatCast K] [LinearOrder K]
    (p : Program K V D) (events : List (Event K V)) (ws : List (Weights K)) : (initial final : WeightReport K) → Prop
  | mk {resampled unweighted : List (Event K V)} {initial final : WeightReport K} :
      reportOf (events.filter fun e => !e.outgoingByPid.isEmpty) = some initial →
      p.Resamples (events.filter fun e => !e.outgoingByPid.isEmpty) (.ok resampled) → p.unweight resampled = .ok unweighted →
      reportOf (sortById unweighted) = some final →
      runWeights p.cfg p.infoLog (fun _ => (.ok resampled : Outcome IOError _)) p.unweight events = .ok ws →
      Reports p events ws initial final

end Cres

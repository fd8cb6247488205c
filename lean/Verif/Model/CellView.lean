import Verif.Model.Concurrent

/-!
What observers can ask for in a cell (`src/cell.rs:111-139`). They are called after the weights of the cell have been replaced
(`src/resampler.rs:102-103`). The radius and the sum of weights are fields of the cell.
-/

namespace Cres

variable {D K : Type*}

/-- `nmembers` (`src/cell.rs:112-114`). -/
def Cell.nmembers (c : Cell D K) : Nat := c.members.length

/-- `nneg_weights` (`src/cell.rs:117-122`), for the weights at the time of the call. -/
def Cell.nnegWeights [Zero K] [LT K] [DecidableLT K] (mem : Mem K) (c : Cell D K) : Nat :=
  (c.members.filter fun i => match (mem i).central with | some w => decide (w < 0) | none => false).length

end Cres

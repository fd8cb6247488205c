import Verif.Model.CellCollector

/-!
Model of what `DefaultResampler::resample` (`src/resampler.rs:238-273`) does with a cell collector: every thread that creates a
cell starts with a copy of the given collector, the collectors of the threads are combined in the end, and the result replaces
the given collector.

Simplifications: The order in which threads create cells does not matter, because each one has its own collector. Random numbers
are arguments.
-/

namespace Cres

variable {D K : Type*}

/-- The part of a thread: its cells in the order in which it creates them, with the random numbers drawn in `collect`, and the
random numbers drawn when its collector is combined with those of the threads before. -/
structure CollectingThread (D K : Type*) where
  cells : List (Cell D K × Nat)
  draws : List Nat

/-- What a thread adds to the combination of the collectors so far (`src/resampler.rs:394-404,412,431-440`). -/
def CellCollector.join [LinearOrder D] [LinearOrder K] (eventId : Nat → Nat) (central acc : CellCollector D K)
    (t : CollectingThread D K) : Option (CellCollector D K) :=
  (CellCollector.collectAll eventId t.cells central).bind fun c => acc.combine t.draws c

/-- The collector after `resample` (`src/resampler.rs:242-251,267-271`) with `finish` (`src/resampler.rs:407-427`). Threads that
have not created any cell do not take part. Without any such thread, nothing changes. -/
def CellCollector.afterResample [LinearOrder D] [LinearOrder K] (eventId : Nat → Nat) (central : CellCollector D K) :
    List (CollectingThread D K) → Option (CellCollector D K)
  | [] => some central
  | t :: ts => (CellCollector.collectAll eventId t.cells central).bind fun c => ts.foldlM (CellCollector.join eventId central) c

/-- One call of `resample` after the other with the same collector. -/
def CellCollector.afterResamplings [LinearOrder D] [LinearOrder K] (central : CellCollector D K) :
    List ((Nat → Nat) × List (CollectingThread D K)) → Option (CellCollector D K)
  | [] => some central
  | r :: rs => (central.afterResample r.1 r.2).bind fun c => c.afterResamplings rs

end Cres

import Verif.Model.CollectorRun

/-!
Model of the messages on collected cells (`src/cell_collector.rs:104-130`). They are written for the combination of the collectors of all
threads at the end of resampling (`src/resampler.rs:420-425`).

Simplification: the messages are not formatted, and the five headings are represented by the kind of message.
-/

namespace Cres

variable {D K : Type*}

/-- The messages on cells: the number of the cell, the number of its events and, for two kinds of messages, its radius or weight. -/
inductive CellInfo (D K : Type*)
  | order (number events : Nat)
  | radius (number events : Nat) (r : D)
  | members (number events : Nat)
  | weight (number events : Nat) (w : K)
  | random (number events : Nat)
deriving DecidableEq

/-- `dump_info` (`src/cell_collector.rs:104-130`). -/
def CellCollector.dumpInfo (s : CellCollector D K) : List (CellInfo D K) :=
  s.first.map (fun e => .order e.1 e.2.length) ++
  s.byRadius.reverse.map (fun e => .radius (ofLex e.1).2 e.2.length (ofLex e.1).1) ++
  s.byMembers.reverse.map (fun e => .members (ofLex e.1).2 e.2.length) ++
  s.byWeight.reverse.map (fun e => .weight (ofLex e.1).2 e.2.length (ofLex e.1).1) ++
  s.random.map (fun e => .random e.1 e.2.length)

end Cres

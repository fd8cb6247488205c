import Mathlib.Algebra.Order.Ring.Abs
import Verif.Model.CApi
import Verif.Model.ExtFloat

/-!
The distance functions in the examples for user-defined distances (`examples/user_distance.rs`, `examples/user_distance.c`).

Simplification: sums are exact and do not overflow. `energy` and `px` are the components 0 and 1 of a momentum.
-/

namespace Cres

variable {D K V : Type*} [Field D] [LinearOrder D]

/-- The contribution of a pair of momenta (`examples/user_distance.rs:34`, `examples/user_distance.c:44`). -/
def exTerm (energy px : V → D) (eFact : D) (p1 p2 : V) : D := eFact * |energy p1 - energy p2| + |px p1 - px p2|

/-- The loop over pairs of sets in Rust (`examples/user_distance.rs:25-37`); `none` is an early return of infinity. -/
def rustLoop (energy px : V → D) (eFact : D) : List ((ℤ × List V) × (ℤ × List V)) → D → Option D
  | [], dist => some dist
  | ((id1, s1), (id2, s2)) :: rest, dist =>
    if id1 ≠ id2 ∨ s1.length ≠ s2.length then none
    else rustLoop energy px eFact rest (dist + ((s1.zip s2).map fun p => exTerm energy px eFact p.1 p.2).sum)

/-- `MyDistance::distance` (`examples/user_distance.rs:20-39`). The last line is `n64(0.)`. -/
def rustDistance (energy px : V → D) (eFact : D) (ev1 ev2 : Event K V) : ExtFloat D :=
  if ev1.outgoingByPid.length ≠ ev2.outgoingByPid.length then .inf
  else
    match rustLoop energy px eFact (ev1.outgoingByPid.zip ev2.outgoingByPid) 0 with
    | none => .inf
    | some _ => .fin 0

/-- The loop over particle types in C (`examples/user_distance.c:34-46`); `none` is an early return of infinity. -/
def cLoop (energy px : V → D) (eFact : D) : List (CApi.TypeSetView V × CApi.TypeSetView V) → D → Option D
  | [], dist => some dist
  | (t1, t2) :: rest, dist =>
    if t1.pid ≠ t2.pid ∨ t1.momenta.length ≠ t2.momenta.length then none
    else cLoop energy px eFact rest ((t1.momenta.zip t2.momenta).foldl (fun dist p => dist + exTerm energy px eFact p.1 p.2) dist)

/-- `my_distance` (`examples/user_distance.c:18-48`). -/
def cDistance (energy px : V → D) (eFact : D) (ev1 ev2 : CApi.EventView V) : ExtFloat D :=
  if ev1.typeSets.length ≠ ev2.typeSets.length then .inf
  else
    match cLoop energy px eFact (ev1.typeSets.zip ev2.typeSets) 0 with
    | none => .inf
    | some dist => .fin dist

end Cres

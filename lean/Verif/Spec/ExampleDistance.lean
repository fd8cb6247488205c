import Mathlib.Algebra.Order.Ring.Abs
import Verif.Model.Event
import Verif.Spec.InfiniteDistance

/-!
What the examples for user-defined distances describe: the sum of `E_fact * |E1 - E2| + |p1_x - p2_x|` over all particles, for events that have
the same particle types and the same number of particles for each type.
-/

namespace Cres.Spec

variable {D K V : Type*} [Field D] [LinearOrder D]

/-- The same particle types with the same number of particles. -/
def SameTypes (ev1 ev2 : Event K V) : Prop :=
  ev1.outgoingByPid.map (fun x => (x.1, x.2.length)) = ev2.outgoingByPid.map (fun x => (x.1, x.2.length))

instance (ev1 ev2 : Event K V) : Decidable (SameTypes ev1 ev2) := inferInstanceAs (Decidable (_ = _))

/-- All momenta of an event. -/
def allMomenta (ev : Event K V) : List V := ev.outgoingByPid.flatMap Prod.snd

/-- The distance that is described. -/
def describedDistance (energy px : V → D) (eFact : D) (ev1 ev2 : Event K V) : ExtFloat D :=
  if SameTypes ev1 ev2 then
    .fin (List.zipWith (fun p1 p2 => eFact * |energy p1 - energy p2| + |px p1 - px p2|) (allMomenta ev1) (allMomenta ev2)).sum
  else .inf

end Cres.Spec

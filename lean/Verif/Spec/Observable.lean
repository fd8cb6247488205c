import Verif.Spec.Program
import Verif.Spec.Negative

/-!
Specification for C111: predictions for observables.
-/

namespace Cres.Spec

variable {K V D : Type*}

/-- The value of the observable does not depend on the weights of an event. -/
def IsObservable (f : Event K V → K) : Prop := ∀ (e : Event K V) (ws : List K), f { e with weights := ws } = f e

/-- The prediction for an observable `f`: the sum of its values times the weights with number `k`. If `f` is 1 for the events
in a bin of a histogram and 0 for other events this is the content of the bin. -/
def prediction [AddMonoid K] [Mul K] (k : Nat) (f : Event K V → K) (events : List (Event K V)) : K :=
  (events.map fun e => f e * weightNo k e).sum

/-- There are particles in the event after clustering. -/
def visible [Zero K] [LinearOrder V] (s : CresSettings K V D) (e : Event K V) : Bool :=
  !(Cluster.cluster s.io.ctx.multi s.particles s.clustering e).outgoingByPid.isEmpty

/-- Events that contribute to predictions after resampling: without support for several weights, events without particles get
weight zero. -/
def counted [Zero K] [LinearOrder V] (s : CresSettings K V D) (e : Event K V) : Bool := s.io.ctx.multi || visible s e

/-- The observable changes by at most `ε` between an event with negative weight and events within the maximum cell size.
Events without particles after clustering do not count. -/
def VariesBy [Field K] [LinearOrder K] [LinearOrder V] [LE D] (s : CresSettings K V D) (f : Event K V → K) (ε : K)
    (events : List (Event K V)) : Prop :=
  let cl := Cluster.cluster s.io.ctx.multi s.particles s.clustering
  ∀ a ∈ events, ∀ b ∈ events, centralWeight a < 0 → visible s a = true → visible s b = true →
    s.distance (cl a) (cl b) ≤ s.maxCellSize ∨ s.distance (cl b) (cl a) ≤ s.maxCellSize → |f b - f a| ≤ ε

end Cres.Spec

import Verif.Spec.Choices

/-!
Specification for C109 and C110: events with negative weight that do not share neighbours.
-/

namespace Cres.Spec

variable {K V D : Type*}

/-- No event is within the distance `limit` of two different events with negative weight, and the latter are not within this
distance of each other. Events without particles do not count. -/
structure NegativeApart [LE D] [LT D] [Zero K] [LT K] (dist : Event K V → Event K V → D) (limit : D)
    (events : List (Event K V)) : Prop where
  negative : ∀ (i j : Nat) (a b : Event K V), events[i]? = some a → events[j]? = some b → i ≠ j → a.outgoingByPid ≠ [] →
    b.outgoingByPid ≠ [] → centralWeight a < 0 → centralWeight b < 0 → limit < dist a b
  shared : ∀ (i j k : Nat) (a b c : Event K V), events[i]? = some a → events[j]? = some b → events[k]? = some c → i ≠ j →
    i ≠ k → j ≠ k → a.outgoingByPid ≠ [] → b.outgoingByPid ≠ [] → c.outgoingByPid ≠ [] → centralWeight a < 0 →
    centralWeight b < 0 → dist a c ≤ limit → limit < dist b c

/-- The same settings, except for the order in which events with negative weight are treated, the algorithm for the neighbour
search and the order of elements with the same distance or weight. -/
structure SameExceptOrder (s s' : CresSettings K V D) : Prop where
  io : s'.io = s.io
  particles : s'.particles = s.particles
  clustering : s'.clustering = s.clustering
  distance : s'.distance = s.distance
  maxCellSize : s'.maxCellSize = s.maxCellSize
  minWeight : s'.minWeight = s.minWeight
  rng : s'.rng = s.rng
  infoLog : s'.infoLog = s.infoLog

end Cres.Spec

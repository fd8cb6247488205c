import Verif.Spec.Negative
import Verif.Spec.Neighbours

/-!
Specification for C97: settings that differ only in the neighbour search, and events for which the search and the order of
seeds are determined.
-/

namespace Cres.Spec

variable {K V D : Type*}

/-- The same settings, except for the algorithm for the neighbour search and the order of elements with the same distance or
weight. -/
structure SameExceptSearch (s s' : CresSettings K V D) : Prop where
  io : s'.io = s.io
  particles : s'.particles = s.particles
  clustering : s'.clustering = s.clustering
  distance : s'.distance = s.distance
  maxCellSize : s'.maxCellSize = s.maxCellSize
  strategy : s'.strategy = s.strategy
  minWeight : s'.minWeight = s.minWeight
  rng : s'.rng = s.rng
  infoLog : s'.infoLog = s.infoLog

/-- No two events have the same distance, at most the maximum, from a third event, which has a negative weight. Events
without particles do not count. -/
def NoEqualDistances [LE D] [Zero K] [LT K] (dist : Event K V → Event K V → D) (maxDist : D) (events : List (Event K V)) : Prop :=
  ∀ (i j k : Nat) (a b c : Event K V), events[i]? = some a → events[j]? = some b → events[k]? = some c → i ≠ j → i ≠ k →
    a.outgoingByPid ≠ [] → b.outgoingByPid ≠ [] → c.outgoingByPid ≠ [] → centralWeight a < 0 →
    dist a b ≤ maxDist → dist a b = dist a c → j = k

/-- No two events have the same negative weight. Events without particles do not count. -/
def NoEqualNegative [Zero K] [LT K] (events : List (Event K V)) : Prop :=
  ∀ (i j : Nat) (a b : Event K V), events[i]? = some a → events[j]? = some b → a.outgoingByPid ≠ [] → b.outgoingByPid ≠ [] →
    centralWeight a < 0 → centralWeight a = centralWeight b → i = j

/-- The neighbour search and the order of seeds do not leave a choice. -/
structure NoChoice [LE D] [Zero K] [LT K] (s : CresSettings K V D) (events : List (Event K V)) : Prop where
  distances : NoEqualDistances s.distance s.maxCellSize events
  seeds : s.strategy = .next ∨ NoEqualNegative events

/-- The events in files after clustering. -/
def clusteredEvents [Zero K] [LinearOrder V] (s : CresSettings K V D) (ds : List (EventFile K V)) : List (Event K V) :=
  (allEvents ds).map (Cluster.cluster s.io.ctx.multi s.particles s.clustering)

end Cres.Spec

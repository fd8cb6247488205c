import Verif.Spec.Program

/-!
Vocabulary for statements about single events in files.
-/

namespace Cres.Spec

variable {K V D : Type*}

/-- The event `e` after reading the event `ev` at position `i` of the files: clustered, and with its number. -/
def AsRead (p : Program K V D) (i : Nat) (ev e : Event K V) : Prop := ∃ e1, p.cluster ev = .ok e1 ∧ e = { e1 with id := i }

/-- The event at position `i` of the files `ds` is read as `e`, and has particles. -/
def ReadAt (p : Program K V D) (ds : List (EventFile K V)) (i : Nat) (e : Event K V) : Prop :=
  ∃ ev, (allEvents ds)[i]? = some ev ∧ HasParticles p ev = true ∧ AsRead p i ev e

/-- The distance between the events `e` and `e'` is larger than the maximal cell size. -/
def FarFrom [LT D] (s : CresSettings K V D) (e e' : Event K V) : Prop :=
  s.maxCellSize < s.distance e e' ∧ s.maxCellSize < s.distance e' e

/-- A linear combination of the weights of an event. -/
def combination [Field K] (coeffs : List K) (ev : Event K V) : K := (List.zipWith (· * ·) coeffs ev.weights).sum

end Cres.Spec

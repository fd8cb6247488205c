import Verif.Spec.Reread
import Verif.Spec.Unweight
import Verif.Spec.Resample
import Verif.Spec.Run
import Verif.Spec.Tree
import Verif.Model.Program

/-!
Vocabulary for the statements about the whole program.
-/

namespace Cres.Spec

variable {K V D P : Type*}

/-- All events in files, one file after the other. -/
def allEvents (ds : List (EventFile K V)) : List (Event K V) := ds.flatMap EventFile.events

/-- The weight with number `k` of an event. The central weight has number 0. -/
def weightNo [Zero K] (k : Nat) (ev : Event K V) : K := ev.weights.getD k 0

/-- The sum of the weights with number `k`. -/
def weightSumNo [AddMonoid K] (k : Nat) (events : List (Event K V)) : K := (events.map (weightNo k)).sum

/-- Two files have the same format, the same header and the same number of records, and the events in them have the same
particles. -/
structure SameExceptWeights (d d' : EventFile K V) : Prop where
  kind : d'.kind = d.kind
  header : d'.header = d.header
  records : d'.records.length = d.records.length
  events : List.Forall₂ (fun e e' => e'.outgoingByPid = e.outgoingByPid) d.events d'.events

/-- After clustering the event has particles. -/
def HasParticles (p : Program K V D) (ev : Event K V) : Bool :=
  match p.cluster ev with
  | .ok ev' => !ev'.outgoingByPid.isEmpty
  | _ => false

/-- Requirements on the components of the program: clustering does not change weights, and for all events the neighbour
search and the selection of seeds return sensible indices. -/
structure GoodComponents (p : Program K V D) : Prop where
  cluster : ∀ ev ev', p.cluster ev = .ok ev' → ev'.weights = ev.weights
  valid : ∀ evs, ValidInput evs.length (p.nearest evs) (p.seeds evs)

/-- Requirements on what is not determined in the command line program: sorting and searching for the smallest element
have the expected result, random numbers are in the required range. -/
structure GoodChoices [LinearOrder D] [Zero K] [LinearOrder K] (s : CresSettings K V D) : Prop where
  search : match s.search with
    | .naive minPos => IsMinOracle minPos
    | .tree psort sort _ _ => SortsByDistance psort ∧ SortsByDistance sort
  seeds : SortsByKey s.sortSeeds
  rng : ∀ i, 0 ≤ s.rng i ∧ (s.minWeight = 0 ∨ s.rng i < s.minWeight)

/-- Sensible pairs of input and output files: no file is written twice, and no input file is overwritten. -/
structure GoodFiles (files : List (P × P)) : Prop where
  disjoint : ∀ p ∈ files.map Prod.fst, p ∉ files.map Prod.snd
  nodup : (files.map Prod.snd).Nodup

end Cres.Spec

import Mathlib.Data.Prod.Lex
import Verif.Model.Resample

/-!
Model of `src/cell_collector.rs` and of the default observer in `src/resampler.rs`. A panic is `none`. Random numbers are
arguments. The identifiers of events are given by a function of the index.
-/

namespace Cres

variable {κ α X D K : Type*}

/-! ### `BTreeMap` -/

/-- `BTreeMap<κ, α>`: the entries in the order of their keys. -/
abbrev BMap (κ α : Type*) := List (κ × α)

/-- `BTreeMap::insert`; an existing value is replaced. -/
def BMap.insert [LinearOrder κ] (k : κ) (v : α) : BMap κ α → BMap κ α
  | [] => [(k, v)]
  | (k', v') :: m => if k < k' then (k, v) :: (k', v') :: m else if k = k' then (k, v) :: m else (k', v') :: BMap.insert k v m

/-- `BTreeMap::remove`. -/
def BMap.remove [DecidableEq κ] (k : κ) (m : BMap κ α) : BMap κ α := m.filter (fun e => e.1 ≠ k)

/-- `BTreeMap::extend`. -/
def BMap.extend [LinearOrder κ] (m : BMap κ α) (es : List (κ × α)) : BMap κ α := es.foldl (fun m e => m.insert e.1 e.2) m

/-! ### `CellCollector` -/

/-- `NCELLS` (`src/cell_collector.rs:12`). -/
def nCells : Nat := 10

/-- A map from a quantity and the number of a cell to the events in the cell. -/
abbrev CellMap (X : Type*) := BMap (X ×ₗ ℕ) (List Nat)

/-- `struct CellCollector` (`src/cell_collector.rs:16-25`). -/
structure CellCollector (D K : Type*) where
  first : List (Nat × List Nat)
  random : List (Nat × List Nat)
  byRadius : CellMap D
  byMembers : CellMap Nat
  byWeight : CellMap K
  count : Nat

/-- `CellCollector::new` (`src/cell_collector.rs:29-38`). -/
def CellCollector.new : CellCollector D K := ⟨[], [], [], [], [], 0⟩

/-- Replacing the smallest entry if the new cell is larger (`src/cell_collector.rs:71-77`, `:78-84`, `:85-93`). -/
def replaceSmallest [LinearOrder X] (x : X) (count : Nat) (events : List Nat) (m : CellMap X) : Option (CellMap X) :=
  match m with
  | [] => none
  | (k, v) :: m =>
    if (ofLex k).1 < x then some (BMap.insert (toLex (x, count)) events (BMap.remove k ((k, v) :: m)))
    else some ((k, v) :: m)

/-- `collect` (`src/cell_collector.rs:51-101`); `idx` is the random number that is drawn for all cells after the first
ten. -/
def CellCollector.collect [LinearOrder D] [LinearOrder K] (eventId : Nat → Nat) (cell : Cell D K) (idx : Nat)
    (s : CellCollector D K) : Option (CellCollector D K) :=
  let events := cell.members.map eventId
  let nmembers := cell.members.length
  if s.count < nCells then
    some {
      first := s.first ++ [(s.count, events)]
      random := s.random ++ [(s.count, events)]
      byRadius := s.byRadius.insert (toLex (cell.radius, s.count)) events
      byMembers := s.byMembers.insert (toLex (nmembers, s.count)) events
      byWeight := s.byWeight.insert (toLex (cell.weightSum, s.count)) events
      count := s.count + 1 }
  else
    match replaceSmallest cell.radius s.count events s.byRadius, replaceSmallest nmembers s.count events s.byMembers,
      replaceSmallest cell.weightSum s.count events s.byWeight with
    | some byRadius, some byMembers, some byWeight =>
      some {
        first := s.first
        random := if idx < s.random.length then s.random.set idx (s.count, events) else s.random
        byRadius := byRadius
        byMembers := byMembers
        byWeight := byWeight
        count := s.count + 1 }
    | _, _, _ => none

/-- A sequence of calls of `collect`, with the random numbers. -/
def CellCollector.collectAll [LinearOrder D] [LinearOrder K] (eventId : Nat → Nat) :
    List (Cell D K × Nat) → CellCollector D K → Option (CellCollector D K)
  | [], s => some s
  | (cell, idx) :: rest, s => (s.collect eventId cell idx).bind (CellCollector.collectAll eventId rest)

/-- `truncate` (`src/cell_collector.rs:209-215`): `retain` visits the keys in ascending order. -/
def truncateMap (n : Nat) (m : BMap κ α) : BMap κ α := m.take n

/-- Combining one of the maps (`src/cell_collector.rs:173-179`, `:180-186`, `:187-193`). -/
def combineMaps [LinearOrder X] (count : Nat) (m other : CellMap X) : CellMap X :=
  truncateMap nCells (m.extend (other.map fun e => (toLex ((ofLex e.1).1, (ofLex e.1).2 + count), e.2)))

/-- `Vec::swap_remove`. -/
def trySwapRemove (i : Nat) (l : List α) : Option (List α) :=
  match l.getLast? with
  | none => none
  | some x => if i < l.length then some ((l.set i x).dropLast) else none

/-- The loop that removes random entries (`src/cell_collector.rs:200-204`); `idxs` are the random numbers. -/
def shrinkRandom : List Nat → List (Nat × List Nat) → Option (List (Nat × List Nat))
  | idxs, l =>
    if l.length ≤ nCells then some l
    else
      match idxs with
      | [] => none
      | i :: idxs => (trySwapRemove i l).bind (shrinkRandom idxs)

/-- `combine` (`src/cell_collector.rs:167-206`). -/
def CellCollector.combine [LinearOrder D] [LinearOrder K] (idxs : List Nat) (s other : CellCollector D K) :
    Option (CellCollector D K) :=
  (shrinkRandom idxs (s.random ++ other.random.map fun e => (e.1 + s.count, e.2))).map fun random =>
    { first := s.first
      random := random
      byRadius := combineMaps s.count s.byRadius other.byRadius
      byMembers := combineMaps s.count s.byMembers other.byMembers
      byWeight := combineMaps s.count s.byWeight other.byWeight
      count := s.count + other.count }

/-- All stored cells (`src/cell_collector.rs:138-158`). -/
def CellCollector.allCells (s : CellCollector D K) : List (Nat × List Nat) :=
  s.first ++ s.random ++ s.byRadius.map (fun e => ((ofLex e.1).2, e.2)) ++ s.byMembers.map (fun e => ((ofLex e.1).2, e.2)) ++
    s.byWeight.map (fun e => ((ofLex e.1).2, e.2))

/-- `HashMap<usize, Vec<usize>>`; only keys with non-empty values are present. -/
abbrev NatMap := Nat → List Nat

/-- `result.entry(key).or_default().push(value)`. -/
def NatMap.push (m : NatMap) (key value : Nat) : NatMap := Function.update m key (m key ++ [value])

/-- `event_cells` (`src/cell_collector.rs:136-164`). -/
def CellCollector.eventCells (s : CellCollector D K) : NatMap :=
  s.allCells.foldl (fun result c => c.2.foldl (fun result eventId => result.push eventId c.1) result) (fun _ => [])

/-! ### The observer -/

/-- `struct ObserverData` (`src/resampler.rs:365-371`) without the random number generator and the collector, which is
treated separately. -/
structure ObserverData (D : Type*) where
  radii : List D
  nneg : Nat
deriving DecidableEq, Repr

/-- `observe_cell` (`src/resampler.rs:385-405`) for the data of a thread. -/
def ObserverData.observe [Zero K] [LT K] [DecidableLT K] (cell : Cell D K) (d : ObserverData D) : ObserverData D :=
  ⟨d.radii ++ [cell.radius], if cell.weightSum < 0 then d.nneg + 1 else d.nneg⟩

/-- `ObserverData::combine` (`src/resampler.rs:431-442`). -/
def ObserverData.combine (d e : ObserverData D) : ObserverData D := ⟨d.radii ++ e.radii, d.nneg + e.nneg⟩

/-- `median_radius` (`src/resampler.rs:353-356`); panics if there are no cells. -/
def medianRadius [LinearOrder D] (radii : List D) : Option D := (radii.insertionSort (· ≤ ·))[radii.length / 2]?

/-- What `finish` (`src/resampler.rs:407-427`) reports, given the cells that each thread observed, in the order in which
the thread-local data are visited: the number of cells, the number of cells with negative weight, the median radius. Nothing
is reported if there was no thread. Each thread starts with a copy of `central` (`src/resampler.rs:394-397`). -/
def finishObserver [LinearOrder D] [Zero K] [LT K] [DecidableLT K] (central : ObserverData D) (threads : List (List (Cell D K))) :
    Option (Option (Nat × Nat × D)) :=
  match threads.map (fun cells => cells.foldl (fun d c => d.observe c) central) with
  | [] => some none
  | d :: ds =>
    let res := ds.foldl ObserverData.combine d
    (medianRadius res.radii).map fun m => some (res.radii.length, res.nneg, m)

end Cres

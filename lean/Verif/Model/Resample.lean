import Mathlib.Algebra.Order.Field.Basic
import Mathlib.Algebra.BigOperators.Group.List.Basic
import Mathlib.Data.List.Sort

/-!
Model of event weights (`src/event.rs:192-293`), cells (`src/cell.rs`), the resampler (`src/resampler.rs:55-115`) and
seed selection (`src/seeds.rs`), with cells treated one after the other. The concurrent version is in
`Verif/Model/Concurrent.lean`.

Weights and distances are elements of linearly ordered sets. Nothing is assumed here about the arithmetic on weights: it may
be exact (a field) or rounded (see `Verif/Model/Rounding.lean`), so sums are formed in the order of the code. An event is
represented by its index; only the weights of events change during resampling. A panic is `none`.
-/

namespace Cres

variable {D K : Type*}

/-- Build options that matter here: the cargo feature `multiweight` and `debug_assertions`. -/
structure Cfg where
  multi : Bool
  debug : Bool
deriving DecidableEq, Repr

/-- `struct Weights` (`src/event.rs:192-221`). Without the feature `multiweight` the list has exactly one entry. -/
abbrev Weights (K : Type*) := List K

/-- The weights of all events, by index. -/
abbrev Mem (K : Type*) := Nat → Weights K

/-- `Weights::central` (`src/event.rs:234-240`); panics if there are no weights. -/
def Weights.central (w : Weights K) : Option K := w.head?

/-- `AddAssign<&Weights> for Weights` (`src/event.rs:286-293`); `zip_eq` panics for different lengths. -/
def Weights.addAssign [Add K] (a b : Weights K) : Option (Weights K) :=
  if a.length = b.length then some (List.zipWith (· + ·) a b) else none

/-- `struct Cell` (`src/cell.rs:12-17`), without the reference to the events. -/
structure Cell (D K : Type*) where
  members : List Nat
  radius : D
  weightSum : K
deriving DecidableEq, Repr

/-- The loop over neighbours in `Cell::new` (`src/cell.rs:40-51`). `weight` reads the central weight of an event with
the given index; `none` is the panic of an index out of range or of an event without weights. -/
def Cell.grow [Add K] [Zero K] [LE K] [DecidableLE K] (weight : Nat → Option K) :
    List (Nat × D) → Cell D K → Option (Cell D K)
  | [], c => some c
  | (nextIdx, dist) :: rest, c =>
    match weight nextIdx with
    | none => none
    | some w =>
      let c' : Cell D K := ⟨c.members ++ [nextIdx], dist, c.weightSum + w⟩
      if 0 ≤ c'.weightSum then some c' else Cell.grow weight rest c'

/-- `events[idx].weight()`: index check and central weight (`src/event.rs:170-172`). -/
def weightAt (n : Nat) (mem : Mem K) (idx : Nat) : Option K :=
  if idx < n then (mem idx).central else none

section

variable [Zero D] [Add K] [Zero K] [One K] [Mul K] [Div K] [NatCast K] [LinearOrder K]

/-- `Cell::new` (`src/cell.rs:23-58`) for `n` events with weights `mem`; `neighbours` is what the neighbour search
delivers for the seed. The assertion at `:33` is only checked in debug builds. -/
def Cell.new (cfg : Cfg) (n : Nat) (mem : Mem K) (seedIdx : Nat) (neighbours : List (Nat × D)) : Option (Cell D K) :=
  match weightAt n mem seedIdx with
  | none => none
  | some weightSum =>
    if cfg.debug ∧ ¬ weightSum < 0 then none
    else Cell.grow (weightAt n mem) neighbours ⟨[seedIdx], 0, weightSum⟩

/-- `self.members.sort_unstable()` (`src/cell.rs:71`, `:100`); the result of sorting integers does not depend on the
algorithm. -/
def Cell.sortMembers (c : Cell D K) : Cell D K := { c with members := c.members.insertionSort (· ≤ ·) }

/-- The average computed in `Cell::resample` with feature `multiweight` (`src/cell.rs:73-82`): the weights of the first
member plus those of the others, times `1 / nmembers`. -/
def averageMulti (ws : List (Weights K)) : Option (Weights K) :=
  match ws with
  | [] => none
  | first :: rest =>
    (rest.foldlM Weights.addAssign first).map (fun s => s.map (· * (1 / (ws.length : K))))

/-- The average computed in `Cell::resample` without feature `multiweight` (`src/cell.rs:103-105`); `Iterator::sum` adds
up from left to right, starting from 0. -/
def averageSingle (ws : List (Weights K)) : Option (Weights K) :=
  (ws.mapM Weights.central).map (fun cs => [cs.foldl (· + ·) 0 / (ws.length : K)])

/-- The average in either build. -/
def average (cfg : Cfg) (ws : List (Weights K)) : Option (Weights K) :=
  if cfg.multi then averageMulti ws else averageSingle ws

/-- `Cell::resample` (`src/cell.rs:68-87` and `:97-109`) when nothing else runs: the weights of all (sorted) members are
replaced by the average. With `multiweight` all lengths are equal once the average has been computed, so
`copy_from_slice` (`:84`) cannot panic. Writing releases each lock in turn, see `Verif/Model/Concurrent.lean`. -/
def Cell.resample (cfg : Cfg) (c : Cell D K) (mem : Mem K) : Option (Mem K) :=
  let c := c.sortMembers
  (average cfg (c.members.map mem)).map (fun avg => fun i => if i ∈ c.members then avg else mem i)

/-- The closure called for each seed in `Resampler::resample` (`src/resampler.rs:94-105`), without observer and progress
bar. Returns the new weights and the cell, if one was made (its members sorted, as passed to the observer). -/
def resampleSeed (cfg : Cfg) (n : Nat) (nearest : Nat → List (Nat × D)) (mem : Mem K) (seed : Nat) :
    Option (Mem K × Option (Cell D K)) :=
  match weightAt n mem seed with
  | none => none
  | some w =>
    if 0 < w then some (mem, none)
    else
      match Cell.new cfg n mem seed (nearest seed) with
      | none => none
      | some cell => (cell.resample cfg mem).map (fun mem' => (mem', some cell.sortMembers))

/-- `seeds.for_each(..)` (`src/resampler.rs:94`) on one thread: one seed after the other. Returns the final weights and
the cells in the order of their creation. -/
def resampleAll (cfg : Cfg) (n : Nat) (nearest : Nat → List (Nat × D)) :
    List Nat → Mem K → Option (Mem K × List (Cell D K))
  | [], mem => some (mem, [])
  | seed :: seeds, mem =>
    match resampleSeed cfg n nearest mem seed with
    | none => none
    | some (mem', cell) =>
      (resampleAll cfg n nearest seeds mem').map (fun r => (r.1, cell.toList ++ r.2))

/-! ### seeds -/

/-- `enum Strategy` (`src/seeds.rs:24-31`). -/
inductive Strategy
  | next
  | mostNegative
  | leastNegative
deriving DecidableEq, Repr

/-- `StrategicSelector::select_seeds` (`src/seeds.rs:55-77`): indices of events with negative weight. The parallel
`filter` and `collect` keep the order. `sort` stands for the unstable parallel sorts: it is given the keys by
which to sort in ascending order. `none` is the panic for an event without weights. -/
def selectSeeds [Neg K] (sort : (Nat → K) → List Nat → List Nat) (strategy : Strategy) (n : Nat) (mem : Mem K) :
    Option (List Nat) :=
  match (List.range n).mapM (fun i => weightAt n mem i) with
  | none => none
  | some _ =>
    let w := fun i => ((mem i).central).getD 0
    let negWeight := (List.range n).filter (fun i => decide (w i < 0))
    some (match strategy with
      | .next => negWeight
      | .mostNegative => sort w negWeight
      | .leastNegative => sort (fun i => - w i) negWeight)

/-- `Resampler::resample` (`src/resampler.rs:72-114`) on one thread: select the seeds, then treat one after the other.
`nearest` is the neighbour search for the sample. Logging (`print_wt_sum`), progress bar and observer do not change the
events and are left out here. -/
def resampler [Neg K] (cfg : Cfg) (sort : (Nat → K) → List Nat → List Nat) (strategy : Strategy) (n : Nat)
    (nearest : Nat → List (Nat × D)) (mem : Mem K) : Option (Mem K × List (Cell D K)) :=
  (selectSeeds sort strategy n mem).bind (fun seeds => resampleAll cfg n nearest seeds mem)

end

end Cres

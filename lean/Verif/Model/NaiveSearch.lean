import Verif.Model.VPTree

/-!
Model of the naive search and of the search constructors in `src/neighbour_search.rs`.
-/

namespace Cres

variable {K : Type*}

/-- `struct NaiveNeighbourIter` (`src/neighbour_search.rs:126-130`). -/
structure NaiveIter (K : Type*) where
  dist : List (Nat × K)
  candidates : List Nat
  maxDist : K

/-- `self.dist[idx].1`; all candidate indices are in range. -/
def NaiveIter.distOf [Zero K] (it : NaiveIter K) (idx : Nat) : K := (it.dist.getD idx (0, 0)).2

/-- `NaiveNeighbourIter::new` (`src/neighbour_search.rs:133-141`). `swap_remove` panics if the seed is not
the index of a point. -/
def NaiveIter.new (dist : List (Nat × K)) (seed : Nat) (maxDist : K) : NaiveIter K :=
  ⟨dist, swapRemove (List.range dist.length) seed, maxDist⟩

/-- rayon's `par_iter().enumerate().min_by_key(..)` (`src/neighbour_search.rs:148-152`): the position of a
candidate with minimal key. Which of several is not fixed; the candidate list itself is passed so that the
choice can be different in each call. -/
abbrev MinOracle (K : Type*) := List Nat → List K → Option Nat

/-- `NaiveNeighbourIter::next` (`src/neighbour_search.rs:147-164`). -/
def NaiveIter.next [Zero K] [DistNum K] (minPos : MinOracle K) (it : NaiveIter K) :
    Option (Nat × K) × NaiveIter K :=
  match minPos it.candidates (it.candidates.map it.distOf) with
  | none => (none, it)
  | some pos =>
    match it.candidates[pos]? with
    | none => (none, it)
    | some idx =>
      let dist := it.distOf idx
      if DistNum.le dist it.maxDist then
        (some (idx, it.distOf idx), { it with candidates := swapRemove it.candidates pos })
      else (none, it)

/-- The first at most `n` items of the iterator. -/
def NaiveIter.take [Zero K] [DistNum K] (minPos : MinOracle K) : Nat → NaiveIter K → List (Nat × K)
  | 0, _ => []
  | n + 1, it =>
    match it.next minPos with
    | (some x, it') => x :: NaiveIter.take minPos n it'
    | (none, _) => []

/-- `NaiveNeighbourSearch::new_with_dist(npoints, dist, max_dist)` followed by `nearest(point)`
(`src/neighbour_search.rs:95-106`, `:111-122`), iterated to the end. -/
def naiveNearest [Zero K] [DistNum K] (minPos : MinOracle K) (npoints : Nat) (dist : Nat → Nat → K)
    (maxDist : K) (point : Nat) : List (Nat × K) :=
  let cachedDist := (List.range npoints).map (fun id => (id, (0 : K)))
  let d := cachedDist.map (fun x => (x.1, dist x.1 point))
  NaiveIter.take minPos (npoints + 1) (NaiveIter.new d point maxDist)

/-- `TreeSearch::new_with_dist(npoints, dist, max_dist)` followed by `nearest(point)`
(`src/neighbour_search.rs:41-64`), iterated to the end. -/
def treeNearest [Zero K] [DistNum K] (psort sort : SortOracle Nat K) (cornerPt : Nat) (f64Max : K)
    (npoints : Nat) (dist : Nat → Nat → K) (maxDist : K) (point : Nat) : List (Nat × K) :=
  ((VPTree.parNew psort sort cornerPt f64Max (List.range npoints) dist).withMaxDist maxDist).nearest point

end Cres

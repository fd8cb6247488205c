import Verif.Model.Basic

/-!
Model of `src/vptree.rs` (construction and nearest-neighbour search).
-/

namespace Cres

/-- `struct Children` (`src/vptree.rs:38-42`). -/
structure Children (K : Type*) where
  radius : K
  outsideOffset : Nat
deriving DecidableEq, Repr

/-- `struct Node<P>` (`src/vptree.rs:32-36`). -/
structure Node (P K : Type*) where
  vantagePt : P
  children : Option (Children K)
deriving DecidableEq, Repr

/-- `struct VPTree<P, DF>` (`src/vptree.rs:14-20`). -/
structure VPTree (P K : Type*) where
  nodes : List (Node P K)
  dist : P → P → K
  maxDist : K

section Build

variable {P K : Type*}

/-- A (possibly unstable, possibly parallel) sort by distance, `src/vptree.rs:192` and `:292`. The first
argument identifies the call, so that different calls may resolve ties differently. -/
abbrev SortOracle (P K : Type*) := Nat → List (K × Node P K) → List (K × Node P K)

/-- `build_tree` (`src/vptree.rs:180-201`). The slice `pts` that Rust reorders in place is returned.
`call` numbers the recursive calls (only used by the sort). -/
def buildTree (sort : SortOracle P K) (dist : P → P → K) :
    Nat → Nat → List (K × Node P K) → List (K × Node P K)
  | 0, _, pts => pts
  | depth + 1, call, pts =>
    if pts.length < 2 then pts else
    match swap pts 0 (pts.length - 1) with
    | [] => pts
    | vp :: rest =>
      let rest := rest.map (fun x => (dist vp.2.vantagePt x.2.vantagePt, x.2))
      let rest := sort call rest
      let medianIdx := rest.length / 2
      let inside := rest.take medianIdx
      let outside := rest.drop medianIdx
      match outside with
      | [] => pts -- `outside.first().unwrap()` would panic; never happens as `rest` is not empty
      | first :: _ =>
        (vp.1, { vp.2 with children := some ⟨first.1, medianIdx⟩ })
          :: (buildTree sort dist depth (2 * call + 1) inside
            ++ buildTree sort dist depth (2 * call + 2) outside)

/-- `PAR_MIN_SIZE` (`src/vptree.rs:276`). -/
def parMinSize : Nat := 1000

/-- `par_build_tree` (`src/vptree.rs:275-299`). The two halves are disjoint slices, so the order in which
rayon processes them does not matter. `psort` is the parallel sort, `sort` the sequential one. -/
def parBuildTree (psort sort : SortOracle P K) (dist : P → P → K) :
    Nat → Nat → List (K × Node P K) → List (K × Node P K)
  | 0, _, pts => pts
  | depth + 1, call, pts =>
    if pts.length < parMinSize then buildTree sort dist (depth + 1) call pts else
    match swap pts 0 (pts.length - 1) with
    | [] => pts
    | vp :: rest =>
      let rest := rest.map (fun x => (dist vp.2.vantagePt x.2.vantagePt, x.2))
      let rest := psort call rest
      let medianIdx := rest.length / 2
      let inside := rest.take medianIdx
      let outside := rest.drop medianIdx
      match outside with
      | [] => pts
      | first :: _ =>
        (vp.1, { vp.2 with children := some ⟨first.1, medianIdx⟩ })
          :: (parBuildTree psort sort dist depth (2 * call + 1) inside
            ++ parBuildTree psort sort dist depth (2 * call + 2) outside)

/-- Position of a largest key in a list, the last one among several (`Iterator::max_by_key`). -/
def maxPos [DistNum K] : List K → Option (Nat × K)
  | [] => none
  | a :: l =>
    match maxPos l with
    | none => some (0, a)
    | some (i, b) => if DistNum.le a b then some (i + 1, b) else some (0, a)

/-- `find_corner_pt` (`src/vptree.rs:144-162`). -/
def findCornerPt [DistNum K] (dist : P → P → K) : List P → Option Nat
  | [] => none
  | first :: rest =>
    match maxPos (rest.map (dist first)) with
    | some (pos, _) => some (pos + 1)
    | none => some 0

/-- The initial node list, `src/vptree.rs:115-124` and `:226-237`; the distance slot is irrelevant. -/
def initNodes [Zero K] (pts : List P) : List (K × Node P K) :=
  pts.map (fun p => (0, ⟨p, none⟩))

/-- `usize::MAX` on a 64 bit platform. -/
def usizeMax : Nat := 18446744073709551615

/-- `from_iter_with_dist_and_depth` (`src/vptree.rs:106-142`); `f64Max` stands for `f64::MAX`. -/
def VPTree.fromIterWithDistAndDepth [Zero K] [DistNum K] (sort : SortOracle P K) (f64Max : K)
    (pts : List P) (dist : P → P → K) (depth : Nat) : VPTree P K :=
  let nodes := initNodes pts
  let nodes := match findCornerPt dist pts with
    | some pos => swap nodes pos (nodes.length - 1)
    | none => nodes
  ⟨(buildTree sort dist depth 0 nodes).map Prod.snd, dist, f64Max⟩

/-- `from_iter_with_dist` (`src/vptree.rs:98-103`), also `seq_new` (`:72-74`). -/
def VPTree.seqNew [Zero K] [DistNum K] (sort : SortOracle P K) (f64Max : K)
    (pts : List P) (dist : P → P → K) : VPTree P K :=
  VPTree.fromIterWithDistAndDepth sort f64Max pts dist usizeMax

/-- `from_par_iter_with_dist_and_depth` (`src/vptree.rs:217-261`). `par_find_corner_pt` (`:263-273`) returns
some index of a point; which of several furthest points it takes depends on rayon, so the position is
an argument. -/
def VPTree.fromParIterWithDistAndDepth [Zero K] (psort sort : SortOracle P K) (cornerPt : Nat) (f64Max : K)
    (pts : List P) (dist : P → P → K) (depth : Nat) : VPTree P K :=
  let nodes := initNodes pts
  let nodes := swap nodes cornerPt (nodes.length - 1)
  ⟨(parBuildTree psort sort dist depth 0 nodes).map Prod.snd, dist, f64Max⟩

/-- `from_par_iter_with_dist` (`src/vptree.rs:209-214`), also `new`, `par_new` (`:83-90`). -/
def VPTree.parNew [Zero K] (psort sort : SortOracle P K) (cornerPt : Nat) (f64Max : K)
    (pts : List P) (dist : P → P → K) : VPTree P K :=
  VPTree.fromParIterWithDistAndDepth psort sort cornerPt f64Max pts dist usizeMax

/-- `with_max_dist` (`src/vptree.rs:46-49`). -/
def VPTree.withMaxDist (t : VPTree P K) (m : K) : VPTree P K := { t with maxDist := m }

/-- `into_nodes_dist` (`src/vptree.rs:52-58`), the points only. -/
def VPTree.intoNodes (t : VPTree P K) : List P := t.nodes.map Node.vantagePt

end Build

section Search

variable {P K : Type*} [DecidableEq P] [DistNum K]

/-- `nearer` (`src/vptree.rs:418-430`). -/
def nearer {T : Type*} : Option (T × K) → Option (T × K) → Option (T × K)
  | some (i, d1), some (j, d2) => if DistNum.le d1 d2 then some (i, d1) else some (j, d2)
  | none, some b => some b
  | a, _ => a

/-- The distance cache `HashMap<P, N64>` with `entry(..).or_insert_with(..)` (`src/vptree.rs:359-361`). -/
def cachedDist (dist : P → P → K) (pt p : P) (cache : List (P × K)) : K × List (P × K) :=
  match cache.lookup p with
  | some d => (d, cache)
  | none => (dist pt p, (p, dist pt p) :: cache)

/-- `nearest_in_subtree` (`src/vptree.rs:345-416`). Returns the position and distance of the nearest point
found and the new cache. The first argument bounds the recursion depth; the callers pass the number of nodes,
which suffices as every recursive call is on a shorter slice. `split_at` (`:371`) panics if the offset is
larger than the slice; theorem `C15` shows that this cannot happen. -/
def nearestInSubtree (dist : P → P → K) (maxDist : K) (pt : P) (exclude : List P) :
    Nat → List (Node P K) → Nat → List (P × K) → Option (Nat × K) × List (P × K)
  | 0, _, _, cache => (none, cache)
  | _ + 1, [], _, cache => (none, cache)
  | fuel + 1, node :: tree, idx, cache =>
    let (d, cache) := cachedDist dist pt node.vantagePt cache
    let nearest : Option (Nat × K) :=
      if pt = node.vantagePt ∨ node.vantagePt ∈ exclude then none else some (idx, d)
    match node.children with
    | none => (nearest, cache)
    | some ch =>
      let inside := tree.take ch.outsideOffset
      let outside := tree.drop ch.outsideOffset
      let swapped := DistNum.lt ch.radius d
      let sub0 := if swapped then outside else inside
      let sub1 := if swapped then inside else outside
      let off0 := if swapped then ch.outsideOffset + 1 else 1
      let off1 := if swapped then 1 else ch.outsideOffset + 1
      let (pref, cache) := nearestInSubtree dist maxDist pt exclude fuel sub0 (idx + off0) cache
      let nearest := nearer nearest pref
      if DistNum.le (DistNum.absDiff d ch.radius) maxDist = false then (nearest, cache)
      else if (match nearest with
          | some (_, dn) => DistNum.lt dn (DistNum.absDiff ch.radius d)
          | none => false) then (nearest, cache)
      else
        let (other, cache) := nearestInSubtree dist maxDist pt exclude fuel sub1 (idx + off1) cache
        (nearer nearest other, cache)

/-- `nearest_in_impl` (`src/vptree.rs:316-343`). The access `self.nodes[idx]` is in range for every index
returned by the search. -/
def VPTree.nearestInImpl (t : VPTree P K) (pt : P) (exclude : List P) (cache : List (P × K)) :
    Option (P × K) × List (P × K) :=
  match nearestInSubtree t.dist t.maxDist pt exclude t.nodes.length t.nodes 0 cache with
  | (some (idx, d), cache) =>
    if DistNum.le d t.maxDist then (t.nodes[idx]?.map (fun n => (n.vantagePt, d)), cache)
    else (none, cache)
  | (none, cache) => (none, cache)

/-- `struct NearestNeighbourIter` (`src/vptree.rs:434-439`), without the reference to the tree. -/
structure NNIter (P K : Type*) where
  pt : P
  exclude : List P
  cache : List (P × K)

/-- `nearest_in` (`src/vptree.rs:304-314`). -/
def nearestIn (pt : P) : NNIter P K := ⟨pt, [], []⟩

/-- `NearestNeighbourIter::next` (`src/vptree.rs:448-459`). -/
def NNIter.next (t : VPTree P K) (it : NNIter P K) : Option (P × K) × NNIter P K :=
  let (res, cache) := t.nearestInImpl it.pt it.exclude it.cache
  match res with
  | some (p, _) => (res, { it with exclude := p :: it.exclude, cache := cache })
  | none => (res, { it with cache := cache })

/-- The first at most `n` items of the iterator. -/
def NNIter.take (t : VPTree P K) : Nat → NNIter P K → List (P × K)
  | 0, _ => []
  | n + 1, it =>
    match it.next t with
    | (some x, it') => x :: NNIter.take t n it'
    | (none, _) => []

/-- All neighbours of `pt` in the order in which iterating `tree.nearest_in(pt)` yields them. The iterator
yields each point at most once, so that `nodes.length` steps reach the end (shown in `C10`). -/
def VPTree.nearest (t : VPTree P K) (pt : P) : List (P × K) :=
  NNIter.take t (t.nodes.length + 1) (nearestIn pt)

end Search

end Cres

import Verif.Model.VPTree

/-!
Model of `src/partition.rs`, of the conversion of a vantage-point tree into a partition (`src/vptree.rs:462-491`)
and of the construction of a partition in `src/bin/partition.rs`.
-/

namespace Cres

variable {P K : Type*}

/-- `struct VPBisection<P>` (`src/partition.rs:90-95`). -/
structure VPBisection (P K : Type*) where
  pt : P
  r : K
deriving DecidableEq, Repr

/-- `struct VPTreePartition<P, DF>` (`src/partition.rs:21-24`). -/
structure VPTreePartition (P K : Type*) where
  vp : List (VPBisection P K)
  dist : P → P → K

/-- `usize::is_power_of_two`. -/
def isPowerOfTwo (n : Nat) : Bool := n != 0 && 2 ^ Nat.log2 n == n

/-- `VPTreePartition::from_vp` (`src/partition.rs:43-46`); `none` is the panic of the assertion. -/
def VPTreePartition.fromVp (vp : List (VPBisection P K)) (dist : P → P → K) : Option (VPTreePartition P K) :=
  if isPowerOfTwo (vp.length + 1) then some ⟨vp, dist⟩ else none

/-- The loop of `region` (`src/partition.rs:52-58`). The index at least doubles in each step, so that
`vp.length + 1` steps suffice; the first argument is the number of steps left. -/
def regionLoop [DistNum K] (vp : List (VPBisection P K)) (dist : P → P → K) (point : P) : Nat → Nat → Nat
  | 0, idx => idx
  | fuel + 1, idx =>
    match vp[idx]? with
    | none => idx
    | some b =>
      if DistNum.le (dist b.pt point) b.r then regionLoop vp dist point fuel (2 * idx + 1)
      else regionLoop vp dist point fuel (2 * idx + 2)

/-- `VPTreePartition::region` (`src/partition.rs:49-60`). -/
def VPTreePartition.region [DistNum K] (p : VPTreePartition P K) (point : P) : Nat :=
  regionLoop p.vp p.dist point (p.vp.length + 1) 0 - p.vp.length

/-- `VPTreePartition::into_tree` (`src/partition.rs:66-68`). -/
def VPTreePartition.intoTree (p : VPTreePartition P K) : List (VPBisection P K) := p.vp

/-- `VPTreePartition::len` (`src/partition.rs:71-73`). -/
def VPTreePartition.len (p : VPTreePartition P K) : Nat := p.vp.length + 1

/-- The loop over the node queue in `From<VPTree>` (`src/vptree.rs:475-487`). `std::mem::take` replaces a visited
node by the default node, which has no children. `none` stands for a panic (index out of range) or for running
out of steps. -/
def bfsLoop [Inhabited P] : Nat → List (Node P K) → List Nat → List (VPBisection P K) →
    Option (List (VPBisection P K))
  | _, _, [], vp => some vp
  | 0, _, _ :: _, _ => none
  | fuel + 1, nodes, nodeIdx :: queue, vp =>
    match nodes[nodeIdx]? with
    | none => none
    | some node =>
      let nodes := nodes.set nodeIdx ⟨default, none⟩
      match node.children with
      | some children =>
        let insideIdx := nodeIdx + 1
        bfsLoop fuel nodes (queue ++ [insideIdx, insideIdx + children.outsideOffset])
          (vp ++ [⟨node.vantagePt, children.radius⟩])
      | none => bfsLoop fuel nodes queue vp

/-- The bisections collected by `From<VPTree<P, DF>> for VPTreePartition<P, DF>` (`src/vptree.rs:466-488`). Each
visit of an inner node adds two entries to the queue, so that `2 * nodes.length + 1` steps suffice. -/
def VPTree.bisections [Inhabited P] (t : VPTree P K) : Option (List (VPBisection P K)) :=
  if t.nodes.isEmpty then some [] else bfsLoop (2 * t.nodes.length + 1) t.nodes [0] []

/-- `From<VPTree<P, DF>> for VPTreePartition<P, DF>` (`src/vptree.rs:462-491`); `none` is a panic. -/
def VPTreePartition.fromTree [Inhabited P] (t : VPTree P K) : Option (VPTreePartition P K) :=
  t.bisections.bind (fun vp => VPTreePartition.fromVp vp t.dist)

/-- `std::mem::take(&mut events[pt])` for each bisection in turn (`src/bin/partition.rs:107-110`). -/
def takeEvents {E : Type*} [Inhabited E] : List E → List (VPBisection Nat K) → Option (List (VPBisection E K))
  | _, [] => some []
  | events, b :: bs =>
    match events[b.pt]? with
    | none => none
    | some e => (takeEvents (events.set b.pt default) bs).map (⟨e, b.r⟩ :: ·)

/-- Possible results of the partition tool after reading the events. -/
inductive PartitionResult (E K : Type*)
  | tooFewEvents
  | panic
  | ok (p : VPTreePartition E K)

/-- `src/bin/partition.rs:81-114`: from the negative-weight events and the requested number of regions
to the partition that is written out. -/
def makePartition {E : Type*} [Inhabited E] [Zero K] (psort sort : SortOracle Nat K) (cornerPt : Nat)
    (f64Max : K) (distance : E → E → K) (regions : Nat) (events : List E) : PartitionResult E K :=
  if regions > events.length then .tooFewEvents else
  let depth := Nat.log2 regions
  let dist := fun i j => distance (events.getD i default) (events.getD j default)
  let tree := VPTree.fromParIterWithDistAndDepth psort sort cornerPt f64Max (List.range events.length) dist depth
  match VPTreePartition.fromTree tree with
  | none => .panic
  | some partition =>
    match takeEvents events partition.intoTree with
    | none => .panic
    | some tree =>
      match VPTreePartition.fromVp tree distance with
      | none => .panic
      | some p => .ok p

end Cres

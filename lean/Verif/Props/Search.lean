import Verif.Proofs.VPTreeDepth
import Verif.Proofs.NaiveSearch
import Verif.Proofs.Oracles
import Verif.Model.ExtFloat
import Mathlib.Tactic.IntervalCases

/-!
Properties C10 - C15: neighbour searches and construction of vantage-point trees.
-/

set_option linter.unusedSectionVars false

namespace Cres

open Spec

section Lemmas

variable {P K : Type*}

theorem initNodes_points [Zero K] (pts : List P) :
    (initNodes (K := K) pts).map (fun x => x.2.vantagePt) = pts := by
  simp [initNodes, Function.comp_def]

theorem initNodes_children [Zero K] (pts : List P) : ∀ x ∈ initNodes (K := K) pts, x.2.children = none := by
  intro x hx
  obtain ⟨p, -, rfl⟩ := List.mem_map.1 hx
  rfl

/-- Combination of the two sorts that parallel construction uses. -/
def mixSort (psort sort : SortOracle P K) : SortOracle P K :=
  fun c l => if l.length + 1 < parMinSize then sort c l else psort c l

theorem mixSort_sorts [LE K] {psort sort : SortOracle P K} (h1 : SortsByDistance psort) (h2 : SortsByDistance sort) :
    SortsByDistance (mixSort psort sort) := by
  intro c l
  unfold mixSort
  split
  · exact h2 c l
  · exact h1 c l

theorem parTree_nodes [LE K] [Zero K] {psort sort : SortOracle P K} (h1 : SortsByDistance psort)
    (h2 : SortsByDistance sort) (cornerPt : Nat) (f64Max : K) (pts : List P) (dist : P → P → K) (depth : Nat) :
    (VPTree.fromParIterWithDistAndDepth psort sort cornerPt f64Max pts dist depth).nodes =
      (buildTree (mixSort psort sort) dist depth 0
        (swap (initNodes pts) cornerPt ((initNodes (K := K) pts).length - 1))).map Prod.snd := by
  unfold VPTree.fromParIterWithDistAndDepth
  simp only
  rw [parBuildTree_eq _ _ _ _ _ _ (fun c l => (h2 c l).1.length_eq) (fun c l => (h1 c l).1.length_eq)]
  rfl

end Lemmas

/-! ## C15: construction -/

section C15

variable {P K : Type*} [LinearOrder K] [Zero K]

/-- **C15** (parallel construction, `from_par_iter_with_dist_and_depth`): for every depth, every resolution of
ties and every choice of the first vantage point the tree contains exactly the given points and has the shape
of a vantage-point tree. -/
theorem C15_par_construction {psort sort : SortOracle P K} (h1 : SortsByDistance psort)
    (h2 : SortsByDistance sort) (cornerPt : Nat) (f64Max : K) (pts : List P) (dist : P → P → K) (depth : Nat) :
    let t := VPTree.fromParIterWithDistAndDepth psort sort cornerPt f64Max pts dist depth
    t.intoNodes.Perm pts ∧ IsVPTree dist depth t.nodes ∧ t.dist = dist := by
  have hn := parTree_nodes h1 h2 cornerPt f64Max pts dist depth
  have hs := mixSort_sorts h1 h2
  refine ⟨?_, ?_, rfl⟩
  · rw [VPTree.intoNodes, hn, List.map_map]
    refine (buildTree_perm (fun c l => (hs c l).1) dist depth 0 _).trans ?_
    refine ((swap_perm _ _ _).map _).trans ?_
    rw [initNodes_points]
  · rw [hn]
    refine buildTree_isVPTree hs dist depth 0 _ ?_
    intro x hx
    rw [swap_mem] at hx
    exact initNodes_children pts x hx

/-- **C15** (sequential construction, `from_iter_with_dist_and_depth`). -/
theorem C15_seq_construction [DistNum K] {sort : SortOracle P K} (hs : SortsByDistance sort) (f64Max : K)
    (pts : List P) (dist : P → P → K) (depth : Nat) :
    let t := VPTree.fromIterWithDistAndDepth sort f64Max pts dist depth
    t.intoNodes.Perm pts ∧ IsVPTree dist depth t.nodes ∧ t.dist = dist := by
  obtain ⟨nodes, hnodes, heq⟩ : ∃ nodes : List (K × Node P K), nodes.Perm (initNodes pts) ∧
      (VPTree.fromIterWithDistAndDepth sort f64Max pts dist depth).nodes =
        (buildTree sort dist depth 0 nodes).map Prod.snd := by
    unfold VPTree.fromIterWithDistAndDepth
    simp only
    split
    · exact ⟨_, swap_perm _ _ _, rfl⟩
    · exact ⟨_, List.Perm.refl _, rfl⟩
  refine ⟨?_, ?_, rfl⟩
  · rw [VPTree.intoNodes, heq, List.map_map]
    refine (buildTree_perm (fun c l => (hs c l).1) dist depth 0 _).trans ?_
    refine (hnodes.map _).trans ?_
    rw [initNodes_points]
  · rw [heq]
    refine buildTree_isVPTree hs dist depth 0 _ ?_
    intro x hx
    rw [hnodes.mem_iff] at hx
    exact initNodes_children pts x hx

/-- **C15**: the stored offsets are in range, so splitting a slice while searching (`split_at`) cannot panic,
and the outside part is never empty. -/
theorem C15_offsets_in_range {dist : P → P → K} {depth : Nat} {nodes : List (Node P K)}
    (h : IsVPTree dist depth nodes) (i : Nat) (n : Node P K) (c : Children K) (hn : nodes[i]? = some n)
    (hc : n.children = some c) : i + 1 + c.outsideOffset < nodes.length := by
  classical
  exact isVPTree_offsets h i n c hn hc

/-- **C15**: parallel construction gives the same tree as sequential construction with the same sort. -/
theorem C15_par_eq_seq {sort : SortOracle P K} (hs : SortsByDistance sort) (dist : P → P → K) (depth call : Nat)
    (pts : List (K × Node P K)) :
    parBuildTree sort sort dist depth call pts = buildTree sort dist depth call pts := by
  rw [parBuildTree_eq _ _ _ _ _ _ (fun c l => (hs c l).1.length_eq) (fun c l => (hs c l).1.length_eq)]
  simp

example : (VPTree.fromIterWithDistAndDepth stableSort 1000 [5, 1, 9, 2, 7] lineDist 3).nodes =
    [⟨9, some ⟨7, 2⟩⟩, ⟨5, some ⟨2, 0⟩⟩, ⟨7, none⟩, ⟨1, some ⟨1, 0⟩⟩, ⟨2, none⟩] := by decide

end C15

/-! ## C10: vantage-point tree search -/

section C10

variable {P K : Type*} [DecidableEq P] [AddCommGroup K] [LinearOrder K] [IsOrderedAddMonoid K]

theorem neighbourList_congr {dist : P → P → K} {pts pts' : List P} {q : P} {m : K} {L : List (P × K)}
    (h : IsNeighbourList dist pts q m L) (hp : pts.Perm pts') : IsNeighbourList dist pts' q m L :=
  ⟨h.nodup, fun p => by rw [h.mem p, hp.mem_iff], h.dist_eq, h.sorted⟩

theorem complete_withMaxDist {t : VPTree P K} (h : Complete t) (m : K) : Complete (t.withMaxDist m) := h

/-- **C10**: the search in a tree made by `VPTree::new` / `par_new` / `from_par_iter_with_dist` (as used by
`TreeSearch`) enumerates exactly the neighbours of `q` within the maximum distance, nearest first. The number of
points is at most `usize::MAX`, as for every `Vec`. The distance has to be a metric for these points. -/
theorem C10_tree_search_exact_on {psort sort : SortOracle P K} (h1 : SortsByDistance psort)
    (h2 : SortsByDistance sort) (cornerPt : Nat) (f64Max : K) (pts : List P) (hlen : pts.length ≤ usizeMax)
    {dist : P → P → K} (maxDist : K) (q : P) (hm : IsMetricOn (fun p => p = q ∨ p ∈ pts) dist) :
    IsNeighbourList dist pts q maxDist
      (((VPTree.parNew psort sort cornerPt f64Max pts dist).withMaxDist maxDist).nearest q) := by
  obtain ⟨hp, ht, hd⟩ := C15_par_construction h1 h2 cornerPt f64Max pts dist usizeMax
  have hc : Complete (VPTree.fromParIterWithDistAndDepth psort sort cornerPt f64Max pts dist usizeMax) := by
    refine ⟨usizeMax, ht, ?_⟩
    have : (VPTree.fromParIterWithDistAndDepth psort sort cornerPt f64Max pts dist usizeMax).nodes.length
        = pts.length := by simpa [VPTree.intoNodes] using hp.length_eq
    rw [this]
    generalize usizeMax = u at hlen
    exact lt_of_le_of_lt (by omega) (Nat.lt_two_pow_self (n := u + 1))
  have hS : ∀ p, p = q ∨ p ∈ ((VPTree.parNew psort sort cornerPt f64Max pts dist).withMaxDist maxDist).intoNodes →
      p = q ∨ p ∈ pts := fun p h => h.imp_right hp.mem_iff.1
  have := nearest_isNeighbourList_on (t := (VPTree.parNew psort sort cornerPt f64Max pts dist).withMaxDist maxDist) (q := q)
    ⟨fun x y hx hy => hm.symm x y (hS x hx) (hS y hy),
      fun x y z hx hy hz => hm.triangle x y z (hS x hx) (hS y hy) (hS z hz)⟩ (complete_withMaxDist hc maxDist)
  exact neighbourList_congr this hp

/-- **C10** for a distance that is a metric for all points. -/
theorem C10_tree_search_exact {psort sort : SortOracle P K} (h1 : SortsByDistance psort)
    (h2 : SortsByDistance sort) (cornerPt : Nat) (f64Max : K) (pts : List P) (hlen : pts.length ≤ usizeMax)
    {dist : P → P → K} (hm : IsMetricLike dist) (maxDist : K) (q : P) :
    IsNeighbourList dist pts q maxDist
      (((VPTree.parNew psort sort cornerPt f64Max pts dist).withMaxDist maxDist).nearest q) :=
  C10_tree_search_exact_on h1 h2 cornerPt f64Max pts hlen maxDist q (IsMetricLike.on hm _)

/-- **C10**: the same for sequentially constructed trees (`seq_new`, `from_iter_with_dist`). -/
theorem C10_tree_search_exact_seq {sort : SortOracle P K} (hs : SortsByDistance sort) (f64Max : K)
    (pts : List P) (hlen : pts.length ≤ usizeMax) {dist : P → P → K} (hm : IsMetricLike dist)
    (maxDist : K) (q : P) :
    IsNeighbourList dist pts q maxDist
      (((VPTree.seqNew sort f64Max pts dist).withMaxDist maxDist).nearest q) := by
  obtain ⟨hp, ht, hd⟩ := C15_seq_construction hs f64Max pts dist usizeMax
  have hc : Complete (VPTree.fromIterWithDistAndDepth sort f64Max pts dist usizeMax) := by
    refine ⟨usizeMax, ht, ?_⟩
    have : (VPTree.fromIterWithDistAndDepth sort f64Max pts dist usizeMax).nodes.length
        = pts.length := by simpa [VPTree.intoNodes] using hp.length_eq
    rw [this]
    generalize usizeMax = u at hlen
    exact lt_of_le_of_lt (by omega) (Nat.lt_two_pow_self (n := u + 1))
  have := nearest_isNeighbourList (t := (VPTree.seqNew sort f64Max pts dist).withMaxDist maxDist)
    hm (complete_withMaxDist hc maxDist) q
  exact neighbourList_congr this hp

/-- **C10**: an iterator that is not run to the end has yielded a prefix of the full enumeration, and running it
for longer than there are points yields nothing more. -/
theorem C10_iterator_prefix (t : VPTree P K) (q : P) (n : Nat) :
    NNIter.take t n (nearestIn q) = (t.nearest q).take n := by
  by_cases h : n ≤ t.nodes.length + 1
  · exact take_prefix t n _ h _
  · have h1 := take_prefix t (t.nodes.length + 1) n (by omega) (nearestIn q)
    have hs := take_sound t (t.nodes.length + 1) (nearestIn q) (cacheOK_nil _ _)
    have hs' := take_sound t n (nearestIn q) (cacheOK_nil _ _)
    have hsub : ((NNIter.take t n (nearestIn q)).map Prod.fst) ⊆ t.intoNodes := by
      intro y hy
      obtain ⟨x, hx, rfl⟩ := List.mem_map.1 hy
      exact (hs'.2 x hx).1.1
    have hl := (hs'.1.subperm hsub).length_le
    simp only [List.length_map, VPTree.intoNodes] at hl
    rw [List.take_of_length_le (by omega)] at h1
    rw [VPTree.nearest, h1, List.take_of_length_le (by omega)]

-- the hypotheses can be met: integers on a line, insertion sort
example : IsNeighbourList lineDist [5, 1, 9, 2, 7] 5 3
    (((VPTree.parNew stableSort stableSort 2 1000 [5, 1, 9, 2, 7] lineDist).withMaxDist 3).nearest 5) :=
  C10_tree_search_exact stableSort_sorts stableSort_sorts 2 1000 _ (by simp [usizeMax]) lineDist_metric 3 5

-- and the search yields what one expects
example : ((VPTree.fromIterWithDistAndDepth stableSort 1000 [5, 1, 9, 2, 7] lineDist 5).withMaxDist 3).nearest 5 =
    [(7, 2), (2, 3)] := by decide

end C10

/-! ## C11: naive search -/

section C11

variable {K : Type*} [Zero K] [LinearOrder K] [DistNum K] [ExactComparison K]

/-- **C11**: the naive search enumerates exactly the neighbours, for every distance function (it uses the
distance from the candidate to the query) and every choice among equally near candidates. -/
theorem C11_naive_search_exact {minPos : MinOracle K} (hmin : IsMinOracle minPos) (n : Nat)
    (dist : Nat → Nat → K) (maxDist : K) (q : Nat) (hq : q < n) :
    IsNeighbourList (fun x y => dist y x) (List.range n) q maxDist (naiveNearest minPos n dist maxDist q) :=
  naiveNearest_spec hmin n dist maxDist q hq

example : naiveNearest firstMin 4 (fun i j => |(i : ℤ) * i - (j : ℤ) * j|) 5 2 = [(1, 3), (0, 4), (3, 5)] := by
  decide

end C11

/-! ## C12: both searches agree -/

section C12

variable {P K : Type*} [LinearOrder K]

theorem neighbourList_perm {dist : P → P → K} {pts : List P} {q : P} {m : K} {L L' : List (P × K)}
    (h : IsNeighbourList dist pts q m L) (h' : IsNeighbourList dist pts q m L') : L.Perm L' := by
  classical
  have hL : L = (L.map Prod.fst).map (fun p => (p, dist q p)) := by
    rw [List.map_map]
    conv_lhs => rw [← List.map_id L]
    refine List.map_congr_left ?_
    intro x hx
    simp [← h.dist_eq x hx]
  have hL' : L' = (L'.map Prod.fst).map (fun p => (p, dist q p)) := by
    rw [List.map_map]
    conv_lhs => rw [← List.map_id L']
    refine List.map_congr_left ?_
    intro x hx
    simp [← h'.dist_eq x hx]
  rw [hL, hL']
  refine List.Perm.map _ ?_
  rw [List.perm_ext_iff_of_nodup h.nodup h'.nodup]
  intro p
  rw [h.mem, h'.mem]

/-- **C12**: any two enumerations of the neighbours of the same query have the same sequence of distances. -/
theorem C12_same_distances {dist : P → P → K} {pts : List P} {q : P} {m : K} {L L' : List (P × K)}
    (h : IsNeighbourList dist pts q m L) (h' : IsNeighbourList dist pts q m L') :
    L.map Prod.snd = L'.map Prod.snd := by
  refine List.Perm.eq_of_pairwise (le := (· ≤ ·)) (fun a b _ _ h1 h2 => le_antisymm h1 h2) ?_ ?_
    ((neighbourList_perm h h').map _)
  · exact h.sorted.map _ (fun _ _ h => h)
  · exact h'.sorted.map _ (fun _ _ h => h)

/-- **C12**: if no two points in range have the same distance from the query, the enumerations are equal. -/
theorem C12_same_neighbours {dist : P → P → K} {pts : List P} {q : P} {m : K} {L L' : List (P × K)}
    (h : IsNeighbourList dist pts q m L) (h' : IsNeighbourList dist pts q m L')
    (hinj : ∀ x ∈ pts, ∀ y ∈ pts, x ≠ q → y ≠ q → dist q x ≤ m → dist q x = dist q y → x = y) : L = L' := by
  refine List.Perm.eq_of_pairwise (le := fun a b => a.2 ≤ b.2) ?_ h.sorted h'.sorted (neighbourList_perm h h')
  intro a b ha hb h1 h2
  have hb := (neighbourList_perm h h').mem_iff.2 hb
  have ea := h.dist_eq a ha
  have eb := h.dist_eq b hb
  have ha' := (h.mem a.1).1 (List.mem_map.2 ⟨a, ha, rfl⟩)
  have hb' := (h.mem b.1).1 (List.mem_map.2 ⟨b, hb, rfl⟩)
  have hd : a.2 = b.2 := le_antisymm h1 h2
  have := hinj a.1 ha'.1 b.1 hb'.1 ha'.2.1 hb'.2.1 ha'.2.2 (by rw [← ea, ← eb, hd])
  exact Prod.ext this hd

variable [AddCommGroup K] [IsOrderedAddMonoid K]

/-- **C12**: `TreeSearch` and `NaiveNeighbourSearch` give the same sequence of distances for every metric, number
of points, query and maximum distance, and the same neighbours if there are no ties. -/
theorem C12_tree_naive_agree {psort sort : SortOracle Nat K} (h1 : SortsByDistance psort)
    (h2 : SortsByDistance sort) {minPos : MinOracle K} (hmin : IsMinOracle minPos) (cornerPt : Nat) (f64Max : K)
    (n : Nat) (hn : n ≤ usizeMax) {dist : Nat → Nat → K} (hm : IsMetricLike dist) (maxDist : K) (q : Nat)
    (hq : q < n) :
    let T := treeNearest psort sort cornerPt f64Max n dist maxDist q
    let N := naiveNearest minPos n dist maxDist q
    T.map Prod.snd = N.map Prod.snd ∧
    ((∀ x y, x < n → y < n → x ≠ q → y ≠ q → dist q x ≤ maxDist → dist q x = dist q y → x = y) → T = N) := by
  have hT : IsNeighbourList dist (List.range n) q maxDist (treeNearest psort sort cornerPt f64Max n dist maxDist q) :=
    C10_tree_search_exact h1 h2 cornerPt f64Max (List.range n) (by simpa using hn) hm maxDist q
  have hN := C11_naive_search_exact hmin n dist maxDist q hq
  have hsymm : (fun x y => dist y x) = dist := by
    funext x y; exact hm.symm y x
  rw [hsymm] at hN
  refine ⟨C12_same_distances hT hN, fun hinj => C12_same_neighbours hT hN ?_⟩
  intro x hx y hy
  exact hinj x y (by simpa using hx) (by simpa using hy)

-- the hypotheses can be met, without ties
example : treeNearest stableSort stableSort 3 1000 4 (fun i j => lineDist ((i : ℤ) * i) ((j : ℤ) * j)) 5 2 =
    [(1, 3), (0, 4), (3, 5)] := by
  have h := (C12_tree_naive_agree (K := ℤ) stableSort_sorts stableSort_sorts firstMin_isMin 3 1000 4
    (by simp [usizeMax]) (dist := fun i j => lineDist ((i : ℤ) * i) ((j : ℤ) * j))
    ⟨fun _ _ => lineDist_metric.symm _ _, fun _ _ _ => lineDist_metric.triangle _ _ _⟩ 5 2 (by norm_num)).2
    (by intro x y hx hy; interval_cases x <;> interval_cases y <;> decide)
  rw [h]
  decide

end C12

/-! ## C13: infinite distances -/

section C13

/-- Two groups of events, `{0, 1}` and `{2}`, with infinite distance between the groups, as the distance functions
in `examples/` define for events with different particle content. -/
def groupDist (i j : Nat) : ExtFloat ℤ :=
  if (i < 2) = (j < 2) then .fin (lineDist i j) else .inf

/-- An extended metric: symmetric, triangle inequality where all distances are finite, and finite distances compose. -/
structure IsExtMetric {P K : Type*} [AddCommGroup K] [LinearOrder K] (dist : P → P → ExtFloat K) : Prop where
  symm : ∀ x y, dist x y = dist y x
  notNan : ∀ x y, dist x y ≠ .nan
  triangle : ∀ x y z a b, dist x y = .fin a → dist y z = .fin b → ∃ c, dist x z = .fin c ∧ c ≤ a + b

theorem groupDist_isExtMetric : IsExtMetric groupDist := by
  refine ⟨?_, ?_, ?_⟩
  · intro x y
    simp only [groupDist, lineDist_metric.symm (x : ℤ) y, eq_comm]
  · intro x y
    unfold groupDist
    split <;> simp
  · intro x y z a b h1 h2
    unfold groupDist at *
    split at h1
    · split at h2
      · rename_i e1 e2
        refine ⟨lineDist x z, by rw [if_pos (e1.trans e2)], ?_⟩
        simp only [ExtFloat.fin.injEq] at h1 h2
        rw [← h1, ← h2]
        exact lineDist_metric.triangle _ _ _
      · simp at h2
    · simp at h1

/-- **C13 is false**: events 0 and 1 have distance 1, but the search for the neighbours of event 1 finds
nothing, because infinity minus infinity is not a number and the region containing event 0 is pruned. -/
theorem C13_violated : IsExtMetric groupDist ∧
    groupDist 1 0 = .fin 1 ∧ DistNum.le (groupDist 1 0) (.fin 100) = true ∧
    ((VPTree.fromIterWithDistAndDepth stableSortB (.fin 1000) [0, 1, 2] groupDist 3).withMaxDist (.fin 100)).nearest 1
      = [] := by
  refine ⟨groupDist_isExtMetric, by decide, by decide, by decide⟩

variable {P K : Type*} [DecidableEq P] [DistNum K]

/-- **C13** (partial): for distances in any arithmetic, including infinities and NaN, and any tree, the points
that are yielded are distinct stored points other than the query, each with its true distance, which is at
most the maximum. Missing: completeness, which is false (`C13_violated`) unless all distances are finite (C10). -/
theorem C13_sound_partial (t : VPTree P K) (q : P) :
    ((t.nearest q).map Prod.fst).Nodup ∧ ∀ x ∈ t.nearest q,
      x.1 ∈ t.intoNodes ∧ x.1 ≠ q ∧ x.2 = t.dist q x.1 ∧ DistNum.le x.2 t.maxDist = true := by
  obtain ⟨h1, h2⟩ := take_sound t (t.nodes.length + 1) (nearestIn q) (cacheOK_nil _ _)
  refine ⟨h1, fun x hx => ?_⟩
  obtain ⟨⟨ha, hb, -, hc⟩, hd⟩ := h2 x hx
  exact ⟨ha, hb, hd, by rw [hd]; exact hc⟩

example : ((VPTree.fromIterWithDistAndDepth stableSortB (.fin 1000) [0, 1, 2] groupDist 3).withMaxDist
    (.fin 100)).nearest 0 = [(1, .fin 1)] := by decide

end C13

/-! ## C14: depth-limited trees -/

section C14

variable {P K : Type*} [DecidableEq P] [AddCommGroup K] [LinearOrder K] [IsOrderedAddMonoid K]

/-- **C14 is false** in general: in a tree of `n >= 2^(depth+1)` distinct points there is a stored point that no
query at all ever yields, whatever the distance, the maximum distance and the sorts. -/
theorem C14_violated {sort : SortOracle P K} (hs : SortsByDistance sort) (f64Max maxDist : K) (pts : List P)
    (hnd : pts.Nodup) (dist : P → P → K) (depth : Nat) (hlen : 2 ^ (depth + 1) ≤ pts.length) :
    ∃ p ∈ pts, ∀ q, p ∉
      (((VPTree.fromIterWithDistAndDepth sort f64Max pts dist depth).withMaxDist maxDist).nearest q).map Prod.fst := by
  obtain ⟨hp, ht, hd⟩ := C15_seq_construction hs f64Max pts dist depth
  have hl : (VPTree.fromIterWithDistAndDepth sort f64Max pts dist depth).nodes.length
      = pts.length := by simpa [VPTree.intoNodes] using hp.length_eq
  obtain ⟨p, hpm, hun⟩ := unreachable_point
    (t := (VPTree.fromIterWithDistAndDepth sort f64Max pts dist depth).withMaxDist maxDist) (depth := depth)
    ht (hp.nodup_iff.2 hnd) (by rw [← hl] at hlen; exact hlen)
  exact ⟨p, hp.mem_iff.1 hpm, fun q => hun _ q⟩

-- the hypotheses of `C14_violated` can be met
example : ∃ p ∈ [5, 1, 9, 2, 7], ∀ q, p ∉
    (((VPTree.fromIterWithDistAndDepth stableSort 1000 [5, 1, 9, 2, 7] lineDist 1).withMaxDist 100).nearest q).map
      Prod.fst :=
  C14_violated stableSort_sorts 1000 100 _ (by decide) lineDist 1 (by decide)

-- a concrete search: in a tree with one level 1 is not found from 5
example : (((VPTree.fromIterWithDistAndDepth stableSort 1000 [5, 1, 9, 2, 7] lineDist 1).withMaxDist 100).nearest 5)
    = [(7, 2), (2, 3), (9, 4)] := by decide

/-- **C14** (partial): with fewer than `2^(depth+1)` points the depth-limited tree is complete and the search
exact. Together with `C14_violated` this determines exactly when the search is complete for distinct points. -/
theorem C14_enough_depth_partial {sort : SortOracle P K} (hs : SortsByDistance sort) (f64Max maxDist : K)
    (pts : List P) {dist : P → P → K} (hm : IsMetricLike dist) (depth : Nat) (hlen : pts.length < 2 ^ (depth + 1))
    (q : P) : IsNeighbourList dist pts q maxDist
      (((VPTree.fromIterWithDistAndDepth sort f64Max pts dist depth).withMaxDist maxDist).nearest q) := by
  obtain ⟨hp, ht, hd⟩ := C15_seq_construction hs f64Max pts dist depth
  have hl : (VPTree.fromIterWithDistAndDepth sort f64Max pts dist depth).nodes.length
      = pts.length := by simpa [VPTree.intoNodes] using hp.length_eq
  have hc : Complete (VPTree.fromIterWithDistAndDepth sort f64Max pts dist depth) :=
    ⟨depth, ht, by rw [hl]; exact hlen⟩
  exact neighbourList_congr (nearest_isNeighbourList (t := (VPTree.fromIterWithDistAndDepth sort f64Max pts dist
    depth).withMaxDist maxDist) hm (complete_withMaxDist hc maxDist) q) hp

end C14

end Cres

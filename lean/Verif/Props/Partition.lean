import Verif.Proofs.Partition
import Verif.Spec.Partition
import Verif.Props.Search

/-!
Properties C21 - C24: partitions.
-/

set_option linter.unusedSectionVars false

namespace Cres

open Spec

/-! ## C21: regions -/

section C21

variable {P K : Type*}

/-- The loop stops only when the index has left the list. -/
theorem regionLoop_spec [DistNum K] (vp : List (VPBisection P K)) (dist : P → P → K) (point : P) (fuel : Nat) :
    ∀ idx, idx ≤ 2 * vp.length → vp.length < fuel + idx →
      vp.length ≤ regionLoop vp dist point fuel idx ∧ regionLoop vp dist point fuel idx ≤ 2 * vp.length := by
  induction fuel with
  | zero => intro idx h1 h2; simp only [regionLoop]; omega
  | succ fuel ih =>
    intro idx h1 h2
    rw [regionLoop]
    cases hv : vp[idx]? with
    | none => rw [List.getElem?_eq_none_iff] at hv; exact ⟨hv, h1⟩
    | some b =>
      have hi := (List.getElem?_eq_some_iff.1 hv).1
      simp only
      split <;> exact ih _ (by omega) (by omega)

/-- **C21**: `region` ends its walk outside of the list of bisections (so that `idx - vp.len()` does not underflow)
and returns a number below `len()`. Holds for any distance function and comparison and even for lists of
bisections which are not of the form `2^n - 1`, e.g. those read from a file. -/
theorem C21_region_exists [DistNum K] (p : VPTreePartition P K) (point : P) :
    p.vp.length ≤ regionLoop p.vp p.dist point (p.vp.length + 1) 0 ∧ p.region point < p.len := by
  have := regionLoop_spec p.vp p.dist point (p.vp.length + 1) 0 (by omega) (by omega)
  refine ⟨this.1, ?_⟩
  unfold VPTreePartition.region VPTreePartition.len
  omega

theorem regionLoop_level [AddCommGroup K] [LinearOrder K] (vp : List (VPBisection P K)) (dist : P → P → K) (point : P)
    (l : Nat) : ∀ (j m fuel : Nat), m < 2 ^ j → vp.length + 1 = 2 ^ (j + l) → l < fuel →
      regionLoop vp dist point fuel (2 ^ j + m - 1) =
        vp.length + m * 2 ^ l + regionBelow vp dist point l (2 ^ j + m - 1) := by
  induction l with
  | zero =>
    intro j m fuel hm hv hf
    obtain ⟨fuel, rfl⟩ : ∃ g, fuel = g + 1 := ⟨fuel - 1, by omega⟩
    have hj : 1 ≤ 2 ^ j := Nat.one_le_two_pow
    have hv : vp.length + 1 = 2 ^ j := hv
    have : vp[2 ^ j + m - 1]? = none := by rw [List.getElem?_eq_none_iff]; omega
    rw [regionLoop, this]
    simp only [regionBelow, pow_zero]
    omega
  | succ l ih =>
    intro j m fuel hm hv hf
    obtain ⟨fuel, rfl⟩ : ∃ g, fuel = g + 1 := ⟨fuel - 1, by omega⟩
    have hj : 1 ≤ 2 ^ j := Nat.one_le_two_pow
    have hlt : 2 ^ j + m - 1 < vp.length := by
      have : 2 * 2 ^ j ≤ 2 ^ (j + (l + 1)) := by
        rw [show 2 * 2 ^ j = 2 ^ (j + 1) by ring]
        exact Nat.pow_le_pow_right (by norm_num) (by omega)
      omega
    have hv' : vp.length + 1 = 2 ^ (j + 1 + l) := by rw [hv]; congr 1; omega
    have i1 := ih (j + 1) (2 * m) fuel (by rw [pow_succ]; omega) hv' (by omega)
    have i2 := ih (j + 1) (2 * m + 1) fuel (by rw [pow_succ]; omega) hv' (by omega)
    rw [show 2 ^ (j + 1) + 2 * m - 1 = 2 * (2 ^ j + m - 1) + 1 by rw [pow_succ]; omega] at i1
    rw [show 2 ^ (j + 1) + (2 * m + 1) - 1 = 2 * (2 ^ j + m - 1) + 2 by rw [pow_succ]; omega] at i2
    rw [regionLoop, regionBelow, List.getElem?_eq_getElem hlt]
    simp only
    have hle : ∀ a b : K, DistNum.le a b = decide (a ≤ b) := fun _ _ => rfl
    rw [hle]
    by_cases hd : dist (vp[2 ^ j + m - 1]).pt point ≤ (vp[2 ^ j + m - 1]).r
    · rw [if_pos (by simpa using hd), if_pos hd, i1, pow_succ]
      ring
    · rw [if_neg (by simpa using hd), if_neg hd, i2, pow_succ]
      ring

/-- **C21** (which region): with `2^k - 1` bisections the region is the leaf reached in the binary tree of
bisections, regions being numbered from the inside to the outside. -/
theorem C21_region_meaning [AddCommGroup K] [LinearOrder K] (p : VPTreePartition P K) (point : P) (k : Nat)
    (hk : p.len = 2 ^ k) : p.region point = regionBelow p.vp p.dist point k 0 := by
  unfold VPTreePartition.len at hk
  have hlt : k < p.vp.length + 1 := by rw [hk]; exact Nat.lt_two_pow_self
  have := regionLoop_level p.vp p.dist point k 0 0 (p.vp.length + 1) (by simp) (by simpa using hk) hlt
  unfold VPTreePartition.region
  simp only [pow_zero, Nat.add_zero, Nat.sub_self, Nat.zero_mul] at this
  omega

example : let p : VPTreePartition ℤ ℤ := ⟨[⟨0, 5⟩, ⟨5, 3⟩, ⟨10, 2⟩], lineDist⟩
    p.len = 2 ^ 2 ∧ [3, -4, 9, 20].map p.region = [0, 1, 2, 3] := by decide

end C21

/-! ## C23: structure of the converted tree -/

section C23

variable {P K : Type*} [LinearOrder K] [Inhabited P]

/-- **C23**, for any vantage-point tree with full upper levels: the conversion does not fail and yields the inner
nodes in heap order. -/
theorem C23_heap_of_tree {t : VPTree P K} {k : Nat} (h : IsVPTree t.dist (k + 1) t.nodes)
    (hn : 3 * 2 ^ k ≤ t.nodes.length + 1) :
    ∃ p, VPTreePartition.fromTree t = some p ∧ p.len = 2 ^ (k + 1) ∧ p.dist = t.dist ∧ IsHeapOf p.intoTree t.nodes := by
  obtain ⟨vp, pos, h1, h2, h3, h4, h5, h6⟩ := bisections_spec h
  have hfull := full_of_le k _ hn
  have hlen : vp.length + 1 = 2 ^ (k + 1) := by
    rw [h4, innerCount_full _ _ hfull]
    have : 1 ≤ 2 ^ (k + 1) := Nat.one_le_two_pow
    omega
  refine ⟨⟨vp, t.dist⟩, ?_, hlen, rfl, pos, h2, h3, ?_⟩
  · rw [VPTreePartition.fromTree, h1, Option.bind_some, VPTreePartition.fromVp,
      if_pos ((isPowerOfTwo_iff _).2 ⟨_, hlen⟩)]
  · intro i q hq
    obtain ⟨b, off, e1, e2⟩ := h5 i q hq
    obtain ⟨n, c, f1, f2, f3, f4, f5⟩ := h6 hfull i q hq
    rw [e2] at f1
    simp only [Option.some.injEq] at f1
    subst f1
    simp only [Option.some.injEq] at f2
    subst f2
    exact ⟨b, off, e1, e2, f3, fun hi => f4 (h3 ▸ hi), fun hi => f5 (h3 ▸ hi)⟩

theorem isHeapOf_nodup {vp : List (VPBisection P K)} {nodes : List (Node P K)} (h : IsHeapOf vp nodes)
    (hnd : (nodes.map (·.vantagePt)).Nodup) : (vp.map (·.pt)).Nodup := by
  obtain ⟨pos, h1, h2, h3⟩ := h
  have : (vp.map (·.pt)).map some = pos.map (fun q => (nodes.map (·.vantagePt))[q]?) := by
    refine List.ext_getElem? ?_
    intro i
    by_cases hi : i < pos.length
    · obtain ⟨b, off, e1, e2, -⟩ := h3 i pos[i] (List.getElem?_eq_getElem hi)
      simp [e1, e2, List.getElem?_eq_getElem hi]
    · rw [List.getElem?_eq_none_iff.2 (by simp; omega), List.getElem?_eq_none_iff.2 (by simp; omega)]
  refine List.Nodup.of_map some ?_
  rw [this]
  refine (List.nodup_map_iff_inj_on h1).2 ?_
  intro a ha b hb hab
  obtain ⟨i, hi⟩ := List.mem_iff_getElem?.1 ha
  obtain ⟨x, off, -, e2, -⟩ := h3 i a hi
  have hal : a < (nodes.map (·.vantagePt)).length := by
    simpa using (List.getElem?_eq_some_iff.1 e2).1
  exact (List.getElem?_inj hal hnd).1 hab

/-- **C23** (no vantage point occurs twice), for the tree constructed in parallel from pairwise different points,
as in `cres-partition`. -/
theorem C23_partition_of_constructed_tree [Zero K] {psort sort : SortOracle P K} (h1 : SortsByDistance psort)
    (h2 : SortsByDistance sort) (cornerPt : Nat) (f64Max : K) (pts : List P) (dist : P → P → K) (k : Nat)
    (hnd : pts.Nodup) (hn : 3 * 2 ^ k ≤ pts.length + 1) :
    let t := VPTree.fromParIterWithDistAndDepth psort sort cornerPt f64Max pts dist (k + 1)
    ∃ p, VPTreePartition.fromTree t = some p ∧ p.len = 2 ^ (k + 1) ∧ IsHeapOf p.intoTree t.nodes ∧
      (p.intoTree.map (·.pt)).Nodup ∧ ∀ b ∈ p.intoTree, b.pt ∈ pts := by
  intro t
  obtain ⟨c1, c2, c3⟩ := C15_par_construction h1 h2 cornerPt f64Max pts dist (k + 1)
  have hlen : t.nodes.length = pts.length := by
    have := c1.length_eq
    simpa [VPTree.intoNodes] using this
  obtain ⟨p, e1, e2, e3, e4⟩ := C23_heap_of_tree (t := t) (k := k) (by rw [c3]; exact c2) (by rw [hlen]; exact hn)
  refine ⟨p, e1, e2, e4, isHeapOf_nodup e4 (c1.nodup_iff.2 hnd), ?_⟩
  intro b hb
  obtain ⟨pos, g1, g2, g3⟩ := e4
  obtain ⟨i, hi⟩ := List.mem_iff_getElem?.1 hb
  have hil : i < pos.length := by rw [g2]; exact (List.getElem?_eq_some_iff.1 hi).1
  obtain ⟨b', off, f1, f2, -⟩ := g3 i _ (List.getElem?_eq_getElem hil)
  rw [hi] at f1
  simp only [Option.some.injEq] at f1
  subst f1
  exact c1.mem_iff.1 (List.mem_map.2 ⟨_, List.mem_of_getElem? f2, rfl⟩)

example : (VPTreePartition.fromTree
    (VPTree.fromParIterWithDistAndDepth stableSortB stableSortB 3 1000 [0, 7, 2, 9, 4, 13] lineDist 2)).map (·.vp) =
      some [⟨9, 5⟩, ⟨13, 6⟩, ⟨0, 4⟩] ∧ [0, 7, 2, 9, 4, 13].Nodup ∧ 3 * 2 ^ 1 ≤ [0, 7, 2, 9, 4, 13].length + 1 := by
  decide

end C23

/-! ## C22: number of regions -/

section C22

variable {E K : Type*} [Inhabited E] [LinearOrder K] [Zero K]

theorem log2_pow (k : Nat) : Nat.log2 (2 ^ k) = k := Nat.log2_two_pow

/-- The tree built by the tool. -/
theorem toolTree_spec {psort sort : SortOracle Nat K} (h1 : SortsByDistance psort) (h2 : SortsByDistance sort)
    (cornerPt : Nat) (f64Max : K) (n : Nat) (dist : Nat → Nat → K) (depth : Nat) :
    let t := VPTree.fromParIterWithDistAndDepth psort sort cornerPt f64Max (List.range n) dist depth
    IsVPTree t.dist depth t.nodes ∧ t.nodes.length = n ∧ (t.nodes.map (·.vantagePt)).Perm (List.range n) := by
  intro t
  obtain ⟨c1, c2, c3⟩ := C15_par_construction h1 h2 cornerPt f64Max (List.range n) dist depth
  refine ⟨by rw [c3]; exact c2, ?_, c1⟩
  have := c1.length_eq
  simpa [VPTree.intoNodes] using this

/-- **C22** fails: for *every* number of regions `2^k` with `k ≥ 2` and every number of events `n` with
`2^k ≤ n < 3 * 2^(k-1) - 1` the tool accepts the input and panics, whatever the events and however ties are
resolved. (Here `k = j + 1`.) -/
theorem C22_violated {psort sort : SortOracle Nat K} (h1 : SortsByDistance psort) (h2 : SortsByDistance sort)
    (cornerPt : Nat) (f64Max : K) (distance : E → E → K) (j : Nat) (events : List E)
    (hn : 2 ^ (j + 1) ≤ events.length) (hn' : events.length + 1 < 3 * 2 ^ j) :
    makePartition psort sort cornerPt f64Max distance (2 ^ (j + 1)) events = .panic := by
  unfold makePartition
  rw [if_neg (by omega)]
  simp only [log2_pow]
  obtain ⟨t1, t2, -⟩ := toolTree_spec h1 h2 cornerPt f64Max events.length
    (fun i j => distance (events.getD i default) (events.getD j default)) (j + 1)
  generalize VPTree.fromParIterWithDistAndDepth psort sort cornerPt f64Max (List.range events.length)
    (fun i j => distance (events.getD i default) (events.getD j default)) (j + 1) = t at t1 t2
  obtain ⟨vp, pos, e1, -, -, e4, -, -⟩ := bisections_spec t1
  rw [t2] at e4
  have hc := innerCount_between j events.length (by omega) (by omega)
  have hnp : VPTreePartition.fromTree t = none := by
    rw [VPTreePartition.fromTree, e1, Option.bind_some, VPTreePartition.fromVp, if_neg]
    rw [isPowerOfTwo_iff]
    refine not_pow_two_of_between _ j ?_ ?_
    · rw [pow_succ] at hn; omega
    · rw [pow_succ]; omega
  rw [hnp]

/-- The band of failing sizes is not empty: 4 regions from 4 events. -/
example : 2 ^ (1 + 1) ≤ [10, 20, 30, 45].length ∧ [10, 20, 30, 45].length + 1 < 3 * 2 ^ 1 ∧
    (∃ l : List ℤ, l = [10, 20, 30, 45] ∧
      makePartition (K := ℤ) stableSort stableSort 0 1000 lineDist 4 l = .panic) :=
  ⟨by decide, by decide, _, rfl,
    C22_violated (j := 1) stableSort_sorts stableSort_sorts 0 1000 lineDist [10, 20, 30, 45] (by decide) (by decide)⟩

/-- **C22** outside of that band: `2^k` regions are delivered, for one region, two regions and whenever
`n ≥ 3 * 2^(k-1) - 1`. The stored events are events from the input at pairwise different positions (**C23**: no
emptied event is stored), and the radii and layout are those of the tree. -/
theorem C22_enough_events_partial {psort sort : SortOracle Nat K} (h1 : SortsByDistance psort)
    (h2 : SortsByDistance sort) (cornerPt : Nat) (f64Max : K) (distance : E → E → K) (k : Nat) (events : List E)
    (hn : 2 ^ k ≤ events.length) (hn' : k ≤ 1 ∨ 3 * 2 ^ (k - 1) ≤ events.length + 1) :
    ∃ p, makePartition psort sort cornerPt f64Max distance (2 ^ k) events = .ok p ∧ p.len = 2 ^ k ∧
      p.dist = distance ∧
      ∃ idxs : List Nat, idxs.Nodup ∧ (∀ i ∈ idxs, i < events.length) ∧
        p.vp.map (fun b => some b.pt) = idxs.map (fun i => events[i]?) := by
  unfold makePartition
  rw [if_neg (by omega)]
  simp only [log2_pow]
  set dist := fun i j => distance (events.getD i default) (events.getD j default) with hdist
  obtain ⟨t1, t2, t3⟩ := toolTree_spec h1 h2 cornerPt f64Max events.length dist k
  generalize VPTree.fromParIterWithDistAndDepth psort sort cornerPt f64Max (List.range events.length) dist k = t
    at t1 t2 t3
  obtain ⟨p, e1, e2, e3⟩ : ∃ p, VPTreePartition.fromTree t = some p ∧ p.len = 2 ^ k ∧
      ((p.intoTree.map (·.pt)).Nodup ∧ ∀ b ∈ p.intoTree, b.pt < events.length) := by
    cases k with
    | zero =>
      obtain ⟨vp, pos, e1, -, -, e4, -, -⟩ := bisections_spec t1
      rw [innerCount, List.length_eq_zero_iff] at e4
      subst e4
      refine ⟨⟨[], t.dist⟩, ?_, rfl, ?_, ?_⟩
      · rw [VPTreePartition.fromTree, e1, Option.bind_some, VPTreePartition.fromVp,
          if_pos ((isPowerOfTwo_iff ([].length + 1)).2 ⟨0, rfl⟩)]
      · simp [VPTreePartition.intoTree]
      · simp [VPTreePartition.intoTree]
    | succ k =>
      have hlen : 3 * 2 ^ k ≤ t.nodes.length + 1 := by
        rw [t2]
        rcases hn' with h | h
        · obtain rfl : k = 0 := by omega
          simp at hn ⊢; omega
        · simpa using h
      obtain ⟨p, e1, e2, -, e4⟩ := C23_heap_of_tree t1 hlen
      have hnd := isHeapOf_nodup e4 (t3.nodup_iff.2 List.nodup_range)
      refine ⟨p, e1, e2, hnd, ?_⟩
      intro b hb
      obtain ⟨pos, g1, g2, g3⟩ := e4
      obtain ⟨i, hi⟩ := List.mem_iff_getElem?.1 hb
      have hil : i < pos.length := by rw [g2]; exact (List.getElem?_eq_some_iff.1 hi).1
      obtain ⟨b', off, f1, f2, -⟩ := g3 i _ (List.getElem?_eq_getElem hil)
      rw [hi] at f1
      simp only [Option.some.injEq] at f1
      subst f1
      have := t3.mem_iff.1 (List.mem_map.2 ⟨_, List.mem_of_getElem? f2, rfl⟩)
      simpa using this
  rw [e1]
  simp only
  rw [takeEvents_eq _ _ e3.1 e3.2]
  simp only
  have hl : ((p.intoTree.map (fun b => (⟨events.getD b.pt default, b.r⟩ : VPBisection E K))).length + 1) = 2 ^ k := by
    rw [List.length_map]; exact e2
  rw [VPTreePartition.fromVp, if_pos ((isPowerOfTwo_iff _).2 ⟨k, hl⟩)]
  refine ⟨_, rfl, hl, rfl, p.intoTree.map (·.pt), e3.1, ?_, ?_⟩
  · intro i hi
    obtain ⟨b, hb, rfl⟩ := List.mem_map.1 hi
    exact e3.2 b hb
  · rw [List.map_map, List.map_map]
    refine List.map_congr_left ?_
    intro b hb
    have := e3.2 b hb
    simp [List.getD_eq_getElem?_getD, this]

/-- 4 regions from 5 events. -/
example : 2 ^ 2 ≤ [10, 20, 30, 45, 50].length ∧ 3 * 2 ^ (2 - 1) ≤ [10, 20, 30, 45, 50].length + 1 := by decide

/-- Fewer events than regions are refused. -/
theorem C22_too_few_refused (psort sort : SortOracle Nat K) (cornerPt : Nat) (f64Max : K) (distance : E → E → K)
    (n : Nat) (events : List E) (hn : events.length < n) :
    makePartition psort sort cornerPt f64Max distance n events = .tooFewEvents := by
  unfold makePartition
  rw [if_pos (by omega)]

end C22

/-! ## C24: separation by the bisections -/

section C24

variable {P K : Type*} [LinearOrder K] [Inhabited P]

/-- A metric in which all different points have the same distance. -/
def discreteDist (i j : Nat) : ℤ := if i = j then 0 else 1

theorem discreteDist_metric : IsMetricLike discreteDist := by
  constructor
  · intro a b; simp [discreteDist, eq_comm]
  · intro a b c
    unfold discreteDist
    by_cases h1 : a = b <;> by_cases h2 : b = c <;> by_cases h3 : a = c <;> simp_all

/-- **C24** fails for ties: neither is the inside child closer than the radius, nor the outside child farther away. -/
theorem C24_violated : IsMetricLike discreteDist ∧
    ∃ p, VPTreePartition.fromTree
      (VPTree.fromParIterWithDistAndDepth stableSortB stableSortB 0 1000 (List.range 5) discreteDist 2) = some p ∧
      p.len = 4 ∧ ∃ b inside outside, p.vp[0]? = some b ∧ p.vp[1]? = some inside ∧ p.vp[2]? = some outside ∧
        ¬ discreteDist b.pt inside.pt < b.r ∧ ¬ b.r < discreteDist b.pt outside.pt := by
  refine ⟨discreteDist_metric, ?_⟩
  have h : (VPTreePartition.fromTree (VPTree.fromParIterWithDistAndDepth stableSortB stableSortB 0 1000
    (List.range 5) discreteDist 2)).map (·.vp) = some [⟨0, 1⟩, ⟨2, 1⟩, ⟨4, 1⟩] := by decide
  obtain ⟨p, hp, hv⟩ := Option.map_eq_some_iff.1 h
  refine ⟨p, hp, ?_⟩
  simp only [VPTreePartition.len, hv]
  exact ⟨rfl, _, _, _, rfl, rfl, rfl, by decide, by decide⟩

/-- **C24** with weak inequalities, for every vantage-point tree with full upper levels. -/
theorem C24_weak_partial {t : VPTree P K} {k : Nat} (h : IsVPTree t.dist (k + 1) t.nodes)
    (hn : 3 * 2 ^ k ≤ t.nodes.length + 1) :
    ∃ p, VPTreePartition.fromTree t = some p ∧ ∀ i b c, p.vp[i]? = some b →
      (p.vp[2 * i + 1]? = some c → p.dist b.pt c.pt ≤ b.r) ∧
      (p.vp[2 * i + 2]? = some c → b.r ≤ p.dist b.pt c.pt) := by
  obtain ⟨p, e1, e2, e3, pos, g1, g2, g3⟩ := C23_heap_of_tree h hn
  refine ⟨p, e1, ?_⟩
  intro i b c hb
  rw [e3]
  have g2 : pos.length = p.vp.length := g2
  have hil : i < pos.length := by rw [g2]; exact (List.getElem?_eq_some_iff.1 hb).1
  obtain ⟨b', off, f1, f2, f3, f4, f5⟩ := g3 i _ (List.getElem?_eq_getElem hil)
  have f1 : p.vp[i]? = some b' := f1
  rw [hb] at f1
  simp only [Option.some.injEq] at f1
  subst f1
  obtain ⟨k1, k2, -⟩ := isVPTree_geometry h _ _ _ _ f2
  refine ⟨?_, ?_⟩
  · intro hc
    have hl := (List.getElem?_eq_some_iff.1 hc).1
    have q1 := f4 hl
    obtain ⟨c', off', f1', f2', -⟩ := g3 _ _ q1
    have f1' : p.vp[2 * i + 1]? = some c' := f1'
    rw [hc] at f1'
    simp only [Option.some.injEq] at f1'
    subst f1'
    by_cases hoff : 0 < off
    · exact k1 _ _ (le_refl _) (by omega) f2'
    · -- an empty inside part: then the outside child would be at the same position
      exfalso
      obtain rfl : off = 0 := by omega
      have hodd : 2 * i + 2 < p.vp.length := by
        have e2 : p.vp.length + 1 = 2 ^ (k + 1) := e2
        rw [pow_succ] at e2
        omega
      have q2 := f5 hodd
      rw [Nat.add_zero] at q2
      have := (List.getElem?_inj (i := 2 * i + 1) (j := 2 * i + 2) (by rw [g2]; exact hl) g1).1 (q1.trans q2.symm)
      omega
  · intro hc
    have hl := (List.getElem?_eq_some_iff.1 hc).1
    have q1 := f5 hl
    obtain ⟨c', off', f1', f2', -⟩ := g3 _ _ q1
    have f1' : p.vp[2 * i + 2]? = some c' := f1'
    rw [hc] at f1'
    simp only [Option.some.injEq] at f1'
    subst f1'
    exact k2 _ f2'

/-- The event that defines the radius of the first bisection is stored in the outside part of the tree, but `region`
assigns it to the inside half. -/
theorem C24_radius_event_is_classified_inside [AddCommGroup K] {t : VPTree P K} {k : Nat}
    (h : IsVPTree t.dist (k + 1) t.nodes) (hn : 3 * 2 ^ k ≤ t.nodes.length + 1) :
    ∃ p offset vpt r, VPTreePartition.fromTree t = some p ∧ t.nodes[0]? = some ⟨vpt, some ⟨r, offset⟩⟩ ∧
      ∃ j x, 1 + offset ≤ j ∧ t.nodes[j]? = some x ∧ p.region x.vantagePt < 2 ^ k := by
  obtain ⟨p, e1, e2, e3, pos, g1, g2, g3⟩ := C23_heap_of_tree h hn
  have g2 : pos.length = p.vp.length := g2
  have e2' : p.vp.length + 1 = 2 ^ (k + 1) := e2
  have hk : 1 ≤ 2 ^ k := Nat.one_le_two_pow
  have hil : 0 < pos.length := by rw [g2]; rw [pow_succ] at e2'; omega
  obtain ⟨b, off, f1, f2, f3, -⟩ := g3 0 _ (List.getElem?_eq_getElem hil)
  have f1 : p.vp[0]? = some b := f1
  rw [f3 rfl] at f2
  obtain ⟨-, -, j, x, hj, hx, hr⟩ := isVPTree_geometry h _ _ _ _ f2
  refine ⟨p, off, b.pt, b.r, e1, f2, j, x, by omega, hx, ?_⟩
  rw [C21_region_meaning p _ (k + 1) e2, regionBelow, f1]
  simp only
  rw [e3, if_pos (le_of_eq hr)]
  have : ∀ k i, regionBelow p.vp t.dist x.vantagePt k i < 2 ^ k := by
    intro k
    induction k with
    | zero => intro i; simp [regionBelow]
    | succ k ih =>
      intro i
      rw [regionBelow, pow_succ]
      have := ih (2 * i + 1)
      have := ih (2 * i + 2)
      split
      · omega
      · split <;> omega
  exact this _ _

/-- A tree satisfying the hypotheses of the last two theorems. -/
example : let t := VPTree.fromParIterWithDistAndDepth stableSort stableSort 3 1000 [0, 7, 2, 9, 4, 13] lineDist 2
    IsVPTree t.dist (1 + 1) t.nodes ∧ 3 * 2 ^ 1 ≤ t.nodes.length + 1 := by
  obtain ⟨c1, c2, c3⟩ := C15_par_construction (P := ℤ) (K := ℤ) stableSort_sorts stableSort_sorts 3 1000
    [0, 7, 2, 9, 4, 13] lineDist 2
  refine ⟨c2, ?_⟩
  have := c1.length_eq
  simp only [VPTree.intoNodes, List.length_map, List.length_cons, List.length_nil] at this
  rw [this]; norm_num

end C24

end Cres

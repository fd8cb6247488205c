import Verif.Proofs.InfiniteDistance
import Verif.Proofs.Oracles

/-!
C13: which neighbours are found if distances can be infinite.
-/

namespace Cres

open Spec

section C13

variable {P K : Type*} [DecidableEq P] [AddCommGroup K] [LinearOrder K] [IsOrderedAddMonoid K]

/-- The tree that is built has no unexamined leaves. -/
theorem ext_tree {psort sort : SortOracle P (ExtFloat K)} (h1 : SortsByDistance psort) (h2 : SortsByDistance sort)
    (cornerPt : Nat) (f64Max maxDist : ExtFloat K) (pts : List P) (hlen : pts.length ≤ usizeMax) (hnd : pts.Nodup)
    (dist : P → P → ExtFloat K) :
    let t := (VPTree.parNew psort sort cornerPt f64Max pts dist).withMaxDist maxDist
    t.intoNodes.Perm pts ∧ t.nodes.length = pts.length ∧ IsVPTree dist usizeMax t.nodes ∧
      t.nodes.length < 2 ^ (usizeMax + 1) ∧ ExtComplete t := by
  obtain ⟨hp, ht, hd⟩ := C15_par_construction h1 h2 cornerPt f64Max pts dist usizeMax
  have hl : (VPTree.fromParIterWithDistAndDepth psort sort cornerPt f64Max pts dist usizeMax).nodes.length = pts.length := by
    simpa [VPTree.intoNodes] using hp.length_eq
  have hlt : pts.length < 2 ^ (usizeMax + 1) := by
    clear ht hp hl hd
    generalize usizeMax = u at hlen
    exact lt_of_le_of_lt (by omega) (Nat.lt_two_pow_self (n := u + 1))
  rw [← hl] at hlt
  exact ⟨hp, hl, ht, hlt, hp.nodup_iff.2 hnd, usizeMax, ht, hlt⟩

/-- **C13** (what holds): for distances that can be infinite, a search in the tree of all events yields distinct points with
their distances, nearest first. A point at finite distance from the query is yielded if and only if it is within the maximum
distance and it is not hidden, that is, it is not in the outside part of a vantage point with infinite radius.
Missing: that no point is hidden, which is false (`C13_always_hidden`). -/
theorem C13_found_partial {psort sort : SortOracle P (ExtFloat K)} (h1 : SortsByDistance psort) (h2 : SortsByDistance sort)
    (cornerPt : Nat) (f64Max maxDist : ExtFloat K) (pts : List P) (hlen : pts.length ≤ usizeMax) (hnd : pts.Nodup)
    (dist : P → P → ExtFloat K) (q : P) (hm : IsExtMetricOn (fun p => p = q ∨ p ∈ pts) dist) (hmax : maxDist ≠ .nan) :
    let t := (VPTree.parNew psort sort cornerPt f64Max pts dist).withMaxDist maxDist
    ((t.nearest q).map Prod.fst).Nodup ∧
    (∀ x ∈ t.nearest q, x.1 ∈ pts ∧ x.1 ≠ q ∧ x.2 = dist q x.1 ∧ x.2 ≤ maxDist) ∧
    (t.nearest q).Pairwise (fun a b => a.2 ≤ b.2) ∧
    ∀ p ∈ pts, p ≠ q → dist q p ≠ .inf →
      (p ∈ (t.nearest q).map Prod.fst ↔ dist q p ≤ maxDist ∧ ¬ Hidden t.nodes p) := by
  intro t
  obtain ⟨hp, hl, ht, hlt, hc⟩ := ext_tree h1 h2 cornerPt f64Max maxDist pts hlen hnd dist
  obtain ⟨s1, s2⟩ := C13_sound_partial t q
  have hS : ∀ p ∈ t.intoNodes, p = q ∨ p ∈ pts := fun p h => Or.inr (hp.mem_iff.1 h)
  have hnn : ∀ p ∈ pts, dist q p ≠ .nan := fun p h => hm.notNan _ _ (Or.inl rfl) (Or.inr h)
  obtain ⟨g1, g2⟩ := nearest_ext (t := t) hm hS hc hmax (q := q) (Or.inl rfl)
  refine ⟨s1, fun x hx => ?_, g1, fun p hpp hpq hf => ?_⟩
  · obtain ⟨a, b, c, d⟩ := s2 x hx
    have ha := hp.mem_iff.1 a
    have hc' : x.2 = dist q x.1 := c
    refine ⟨ha, b, hc', ?_⟩
    rw [hc'] at d ⊢
    exact (ext_le_iff (hnn _ ha) hmax).1 d
  · rw [g2 p hf]
    constructor
    · rintro ⟨-, -, h3, h4⟩
      exact ⟨(ext_le_iff (hnn _ hpp) hmax).1 h3, h4⟩
    · rintro ⟨h3, h4⟩
      exact ⟨hp.mem_iff.2 hpp, hpq, (ext_le_iff (hnn _ hpp) hmax).2 h3, h4⟩

/-- **C13 is false** for all samples with more than one group: as soon as two events have infinite distance, there is an event
that is never found by a search from any event of its own group, however near and whatever the sorts and the first vantage point. -/
theorem C13_always_hidden {psort sort : SortOracle P (ExtFloat K)} (h1 : SortsByDistance psort) (h2 : SortsByDistance sort)
    (cornerPt : Nat) (f64Max maxDist : ExtFloat K) (pts : List P) (hlen : pts.length ≤ usizeMax) (hnd : pts.Nodup)
    (dist : P → P → ExtFloat K) (hm : IsExtMetricOn (fun p => p ∈ pts) dist) (hmax : maxDist ≠ .nan)
    (hinf : ∃ x ∈ pts, ∃ y ∈ pts, dist x y = .inf) :
    ∃ p ∈ pts, ∀ q ∈ pts, dist q p ≠ .inf →
      p ∉ (((VPTree.parNew psort sort cornerPt f64Max pts dist).withMaxDist maxDist).nearest q).map Prod.fst := by
  obtain ⟨hp, hl, ht, hlt, hc⟩ := ext_tree h1 h2 cornerPt f64Max maxDist pts hlen hnd dist
  obtain ⟨x, hx, y, hy, hxy⟩ := hinf
  obtain ⟨nx, hnx, rfl⟩ := List.mem_map.1 (hp.mem_iff.2 hx)
  obtain ⟨ny, hny, rfl⟩ := List.mem_map.1 (hp.mem_iff.2 hy)
  have hS : ∀ n ∈ ((VPTree.parNew psort sort cornerPt f64Max pts dist).withMaxDist maxDist).nodes, n.vantagePt ∈ pts :=
    fun n hn => hp.mem_iff.1 (List.mem_map_of_mem hn)
  obtain ⟨n, hn, hh⟩ := exists_hidden hm ht hS hlt nx hnx ny hny hxy
  refine ⟨n.vantagePt, hS n hn, fun q hq hf hmem => ?_⟩
  have hm' : IsExtMetricOn (fun p => p = q ∨ p ∈ pts) dist := by
    have : (fun p => p = q ∨ p ∈ pts) = fun p => p ∈ pts := by
      funext p
      exact propext ⟨fun h => h.elim (fun h => h ▸ hq) id, Or.inr⟩
    rw [this]; exact hm
  obtain ⟨-, c2, -, c4⟩ := C13_found_partial h1 h2 cornerPt f64Max maxDist pts hlen hnd dist q hm' hmax
  obtain ⟨z, hz, hzn⟩ := List.mem_map.1 hmem
  have hne : n.vantagePt ≠ q := hzn ▸ (c2 z hz).2.1
  exact ((c4 _ (hS n hn) hne hf).1 hmem).2 hh

/-- **C13 is false** to a large extent: if no group contains more than half of the events, then half of all events are never
found by a search from an event of their own group. -/
theorem C13_half_hidden {psort sort : SortOracle P (ExtFloat K)} (h1 : SortsByDistance psort) (h2 : SortsByDistance sort)
    (cornerPt : Nat) (f64Max maxDist : ExtFloat K) (pts : List P) (hlen : pts.length ≤ usizeMax) (hnd : pts.Nodup)
    (dist : P → P → ExtFloat K) (hm : IsExtMetricOn (fun p => p ∈ pts) dist) (hmax : maxDist ≠ .nan)
    (hgroups : ∀ x ∈ pts, (pts.filter fun y => dist x y ≠ .inf).length ≤ (pts.length + 1) / 2) :
    ∃ lost : List P, lost.Nodup ∧ lost.length = pts.length / 2 ∧ ∀ p ∈ lost, p ∈ pts ∧ ∀ q ∈ pts, dist q p ≠ .inf →
      p ∉ (((VPTree.parNew psort sort cornerPt f64Max pts dist).withMaxDist maxDist).nearest q).map Prod.fst := by
  obtain ⟨hp, hl, ht, hlt, hc⟩ := ext_tree h1 h2 cornerPt f64Max maxDist pts hlen hnd dist
  have hS : ∀ n ∈ ((VPTree.parNew psort sort cornerPt f64Max pts dist).withMaxDist maxDist).nodes, n.vantagePt ∈ pts :=
    fun n hn => hp.mem_iff.1 (List.mem_map_of_mem hn)
  obtain ⟨l, hsub, hlen', hhid⟩ := half_hidden hm ht hS hlt (by
    intro x hx
    have h := hgroups x.vantagePt (hS x hx)
    rw [hl]
    refine le_trans (le_of_eq ?_) h
    rw [← (hp.filter _).length_eq, VPTree.intoNodes, List.filter_map, List.length_map]
    rfl)
  refine ⟨l.map Node.vantagePt, ?_, by rw [List.length_map, hlen', hl], ?_⟩
  · exact (hp.nodup_iff.2 hnd).sublist (hsub.map _)
  · intro p hpl
    obtain ⟨n, hn, rfl⟩ := List.mem_map.1 hpl
    have hnp := hS n (hsub.subset hn)
    refine ⟨hnp, fun q hq hf hmem => ?_⟩
    have hm' : IsExtMetricOn (fun p => p = q ∨ p ∈ pts) dist := by
      have : (fun p => p = q ∨ p ∈ pts) = fun p => p ∈ pts := by
        funext p
        exact propext ⟨fun h => h.elim (fun h => h ▸ hq) id, Or.inr⟩
      rw [this]; exact hm
    obtain ⟨-, c2, -, c4⟩ := C13_found_partial h1 h2 cornerPt f64Max maxDist pts hlen hnd dist q hm' hmax
    obtain ⟨z, hz, hzn⟩ := List.mem_map.1 hmem
    have hne : n.vantagePt ≠ q := hzn ▸ (c2 z hz).2.1
    exact ((c4 _ hnp hne hf).1 hmem).2 (hhid n hn)

end C13

/-! ### examples -/

theorem groupDist_isExtMetricOn (S : ℕ → Prop) : IsExtMetricOn S groupDist :=
  ⟨fun x y _ _ => groupDist_isExtMetric.symm x y, fun x y _ _ => groupDist_isExtMetric.notNan x y,
    fun x _ => by simp [groupDist], fun x y z a b _ _ _ => groupDist_isExtMetric.triangle x y z a b⟩

-- two groups with two events each: two events are never found as neighbours
example : ∃ lost : List ℕ, lost.Nodup ∧ lost.length = [0, 1, 2, 3].length / 2 ∧ ∀ p ∈ lost, p ∈ [0, 1, 2, 3] ∧ ∀ q ∈ [0, 1, 2, 3], groupDist q p ≠ .inf →
    p ∉ (((VPTree.parNew stableSort stableSort 0 (.fin 1000) [0, 1, 2, 3] groupDist).withMaxDist (.fin 100)).nearest q).map Prod.fst :=
  C13_half_hidden stableSort_sorts stableSort_sorts 0 (.fin 1000) (.fin 100) [0, 1, 2, 3] (by simp [usizeMax]) (by decide) groupDist
    (groupDist_isExtMetricOn _) (by simp) (by decide)

-- a group with three events and one with two: the hypotheses of the other theorem are met
example : ∃ p ∈ [0, 1, 2, 3, 4], ∀ q ∈ [0, 1, 2, 3, 4], groupDist q p ≠ .inf →
    p ∉ (((VPTree.parNew stableSort stableSort 3 (.fin 1000) [0, 1, 2, 3, 4] groupDist).withMaxDist .inf).nearest q).map Prod.fst :=
  C13_always_hidden stableSort_sorts stableSort_sorts 3 (.fin 1000) .inf _ (by simp [usizeMax]) (by decide) groupDist
    (groupDist_isExtMetricOn _) (by simp) ⟨0, by simp, 2, by simp, by decide⟩

-- if all distances are finite no point is hidden, so all neighbours are found
example : ((VPTree.fromIterWithDistAndDepth stableSortB (.fin 1000) [2, 3, 4] groupDist 3).withMaxDist (.fin 100)).nearest 2
    = [(3, .fin 1), (4, .fin 2)] := by decide

end Cres

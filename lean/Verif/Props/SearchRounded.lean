import Verif.Props.Search
import Verif.Props.Rounding
import Verif.Proofs.SearchRounded
import Verif.Proofs.Float64
import Mathlib.Data.Real.Basic

/-!
Property C81: neighbour searches with rounded distances.
-/

set_option linter.unusedSectionVars false

namespace Cres

open Spec

section Compare

variable {P K : Type*} [Field K] [LinearOrder K] [IsStrictOrderedRing K]

theorem IsNeighbourListUpTo.mono {ε ε' : K} (hε : ε ≤ ε') {dist : P → P → K} {pts : List P} {q : P} {m : K} {L : List (P × K)}
    (h : IsNeighbourListUpTo ε dist pts q m L) : IsNeighbourListUpTo ε' dist pts q m L :=
  ⟨h.nodup, h.sound, fun p h1 h2 h3 => h.complete p h1 h2 (by linarith), h.dist_eq,
    h.sorted.imp fun h => by linarith⟩

/-- A list of neighbours up to `ε` compared to the list of neighbours. -/
theorem upTo_compare {ε : K} (hε : 0 ≤ ε) {dist : P → P → K} {pts : List P} {q : P} {m : K} {L L' : List (P × K)}
    (h : IsNeighbourListUpTo ε dist pts q m L) (h' : IsNeighbourList dist pts q m L') :
    L.length ≤ L'.length ∧
    (∀ k (h1 : k < L.length) (h2 : k < L'.length), |L[k].2 - L'[k].2| ≤ ε) ∧
    (∀ k (h1 : k < L'.length), L.length ≤ k → m < L'[k].2 + ε) := by
  classical
  have hsub : L.map Prod.fst ⊆ L'.map Prod.fst := by
    intro p hp
    exact (h'.mem p).2 (h.sound p hp)
  have hd : ∀ (k : Nat) (hk : k < L.length), L[k].2 = dist q L[k].1 := fun k hk => h.dist_eq _ (List.getElem_mem hk)
  have hd' : ∀ (k : Nat) (hk : k < L'.length), L'[k].2 = dist q L'[k].1 := fun k hk => h'.dist_eq _ (List.getElem_mem hk)
  have hs : ∀ (i j : Nat) (hi : i < L.length) (hj : j < L.length), i ≤ j → L[i].2 ≤ L[j].2 + ε := by
    intro i j hi hj hij
    rcases Nat.eq_or_lt_of_le hij with rfl | hlt
    · linarith
    · exact List.pairwise_iff_getElem.1 h.sorted i j hi hj hlt
  have hs' : ∀ (i j : Nat) (hi : i < L'.length) (hj : j < L'.length), i ≤ j → L'[i].2 ≤ L'[j].2 := by
    intro i j hi hj hij
    rcases Nat.eq_or_lt_of_le hij with rfl | hlt
    · exact le_refl _
    · exact List.pairwise_iff_getElem.1 h'.sorted i j hi hj hlt
  -- too many different points in a list that is too short
  have hpigeon : ∀ (A B : List (P × K)) (k : Nat), (A.map Prod.fst).Nodup → k < A.length →
      (∀ i (hi : i < A.length), i ≤ k → A[i].1 ∈ (B.take k).map Prod.fst) → False := by
    intro A B k hnd hk hall
    have hsub : (A.take (k + 1)).map Prod.fst ⊆ (B.take k).map Prod.fst := by
      intro p hp
      obtain ⟨x, hx, rfl⟩ := List.mem_map.1 hp
      obtain ⟨i, hi, rfl⟩ := List.getElem_of_mem hx
      rw [List.getElem_take]
      rw [List.length_take] at hi
      exact hall i (by omega) (by omega)
    have hnd' : ((A.take (k + 1)).map Prod.fst).Nodup := by
      rw [List.map_take]
      exact hnd.sublist (List.take_sublist _ _)
    have := (hnd'.subperm hsub).length_le
    simp only [List.length_map, List.length_take] at this
    omega
  refine ⟨by simpa using (h.nodup.subperm hsub).length_le, ?_, ?_⟩
  · intro k h1 h2
    rw [abs_le]
    constructor
    · by_contra hlt
      have hlt : L[k].2 + ε < L'[k].2 := by linarith
      refine hpigeon L L' k h.nodup h1 ?_
      intro i hi hik
      have hmem : L[i].1 ∈ L'.map Prod.fst := hsub (List.mem_map.2 ⟨_, List.getElem_mem hi, rfl⟩)
      obtain ⟨y, hy, hyp⟩ := List.mem_map.1 hmem
      obtain ⟨j, hj, rfl⟩ := List.getElem_of_mem hy
      refine List.mem_map.2 ⟨L'[j], ?_, hyp⟩
      by_cases hjk : j < k
      · exact List.mem_take_iff_getElem.2 ⟨j, by omega, rfl⟩
      · exfalso
        have e1 := hs' k j h2 hj (by omega)
        rw [hd' j hj, hyp, ← hd i hi] at e1
        have e2 := hs i k hi h1 hik
        linarith
    · by_contra hlt
      have hlt : L'[k].2 + ε < L[k].2 := by linarith
      refine hpigeon L' L k h'.nodup h2 ?_
      intro i hi hik
      have e1 := hs' i k hi h2 hik
      obtain ⟨hp1, hp2, hp3⟩ := (h'.mem L'[i].1).1 (List.mem_map.2 ⟨_, List.getElem_mem hi, rfl⟩)
      have e3 : L[k].2 ≤ m := by
        rw [hd k h1]
        exact (h.sound _ (List.mem_map.2 ⟨_, List.getElem_mem h1, rfl⟩)).2.2
      have hmem := h.complete _ hp1 hp2 (by rw [← hd' i hi]; linarith)
      obtain ⟨y, hy, hyp⟩ := List.mem_map.1 hmem
      obtain ⟨j, hj, rfl⟩ := List.getElem_of_mem hy
      refine List.mem_map.2 ⟨L[j], ?_, hyp⟩
      by_cases hjk : j < k
      · exact List.mem_take_iff_getElem.2 ⟨j, by omega, rfl⟩
      · exfalso
        have e2 := hs k j h1 hj (by omega)
        rw [hd j hj, hyp, ← hd' i hi] at e2
        linarith
  · intro k h1 hk
    by_contra hlt
    refine hpigeon L' L k h'.nodup h1 ?_
    intro i hi hik
    have e1 := hs' i k hi h1 hik
    obtain ⟨hp1, hp2, hp3⟩ := (h'.mem L'[i].1).1 (List.mem_map.2 ⟨_, List.getElem_mem hi, rfl⟩)
    have hmem := h.complete _ hp1 hp2 (by rw [← hd' i hi]; linarith)
    rwa [List.take_of_length_le hk]

end Compare

section General

variable {P K : Type*} [DecidableEq P] [Field K] [LinearOrder K] [IsStrictOrderedRing K] {fl : K → K}

/-- **C81** (partial), `TreeSearch`: if computed distances obey the rules for a metric up to errors `σ` and `τ`, and
differences of distances are rounded with an error of at most `δ`, the search finds all neighbours whose distance is not
within `σ + τ + δ` of the maximum distance, and the order is correct up to this number. Errors do not add up with the depth of
the tree or the number of neighbours. -/
theorem C81_tree_search_partial {psort sort : SortOracle P (Rounded fl)} (h1 : SortsByDistance psort)
    (h2 : SortsByDistance sort) (cornerPt : Nat) (f64Max : Rounded fl) (pts : List P) (hlen : pts.length ≤ usizeMax)
    {dist : P → P → Rounded fl} (maxDist : Rounded fl) (q : P) {σ τ δ : K}
    (hm : IsMetricUpTo (fun p => p = q ∨ p ∈ pts) σ τ fun x y => (dist x y).val)
    (hδ : DiffWithin (fun p => p = q ∨ p ∈ pts) fl δ fun x y => (dist x y).val) (hε : 0 ≤ σ + τ + δ) :
    IsNeighbourListUpTo (σ + τ + δ) (fun x y => (dist x y).val) pts q maxDist.val
      ((((VPTree.parNew psort sort cornerPt f64Max pts dist).withMaxDist maxDist).nearest q).map
        fun x => (x.1, x.2.val)) := by
  obtain ⟨hp, ht, hd⟩ := C15_par_construction h1 h2 cornerPt f64Max pts dist usizeMax
  have hl : (VPTree.fromParIterWithDistAndDepth psort sort cornerPt f64Max pts dist usizeMax).nodes.length
      = pts.length := by simpa [VPTree.intoNodes] using hp.length_eq
  have hS : ∀ p, p = q ∨ p ∈ ((VPTree.parNew psort sort cornerPt f64Max pts dist).withMaxDist maxDist).intoNodes →
      p = q ∨ p ∈ pts := fun p h => h.imp_right hp.mem_iff.1
  have := nearest_upTo (t := (VPTree.parNew psort sort cornerPt f64Max pts dist).withMaxDist maxDist) (q := q)
    (σ := σ) (τ := τ) (δ := δ)
    ⟨fun x y hx hy => hm.symm x y (hS x hx) (hS y hy),
      fun x y z hx hy hz => hm.triangle x y z (hS x hx) (hS y hy) (hS z hz)⟩
    (fun x y z w hx hy hz hw => hδ x y z w (hS x hx) (hS y hy) (hS z hz) (hS w hw)) hε
    ⟨usizeMax, ht, by
      show (VPTree.fromParIterWithDistAndDepth psort sort cornerPt f64Max pts dist usizeMax).nodes.length < _
      rw [hl]
      generalize usizeMax = u at hlen
      exact lt_of_le_of_lt (by omega) (Nat.lt_two_pow_self (n := u + 1))⟩
  exact ⟨this.nodup, fun p h => ⟨hp.mem_iff.1 (this.sound p h).1, (this.sound p h).2⟩,
    fun p h => this.complete p (hp.mem_iff.2 h), this.dist_eq, this.sorted⟩

/-- **C81** (partial), `NaiveNeighbourSearch`: rounding does not matter, the search is exact for the computed distances. -/
theorem C81_naive_search_partial {minPos : MinOracle (Rounded fl)} (hmin : IsMinOracle minPos) (n : Nat)
    (dist : Nat → Nat → Rounded fl) (maxDist : Rounded fl) (q : Nat) (hq : q < n) :
    IsNeighbourList (fun x y => dist y x) (List.range n) q maxDist (naiveNearest minPos n dist maxDist q) :=
  naiveNearest_spec hmin n dist maxDist q hq

/-- **C81** (partial), comparison of the two searches, for a symmetric distance: the distances of the neighbours number `k`
agree up to `τ + δ`, and the neighbours that only the naive search finds are less than `τ + δ` below the maximum distance. -/
theorem C81_same_distances_partial {psort sort : SortOracle Nat (Rounded fl)} (h1 : SortsByDistance psort)
    (h2 : SortsByDistance sort) {minPos : MinOracle (Rounded fl)} (hmin : IsMinOracle minPos) (cornerPt : Nat)
    (f64Max : Rounded fl) (n : Nat) (hn : n ≤ usizeMax) {dist : Nat → Nat → Rounded fl} (hsymm : ∀ x y, dist x y = dist y x)
    (maxDist : Rounded fl) (q : Nat) (hq : q < n) {τ δ : K} (hm : IsMetricUpTo (· < n) 0 τ fun x y => (dist x y).val)
    (hδ : DiffWithin (· < n) fl δ fun x y => (dist x y).val) (hε : 0 ≤ τ + δ) :
    let T := (treeNearest psort sort cornerPt f64Max n dist maxDist q).map fun x => x.2.val
    let N := (naiveNearest minPos n dist maxDist q).map fun x => x.2.val
    T.length ≤ N.length ∧ (∀ k (h1 : k < T.length) (h2 : k < N.length), |T[k] - N[k]| ≤ τ + δ) ∧
    (∀ k (h1 : k < N.length), T.length ≤ k → maxDist.val < N[k] + (τ + δ)) := by
  have hS : ∀ p, p = q ∨ p ∈ List.range n → p < n := fun p h => h.elim (fun h => h ▸ hq) List.mem_range.1
  have hT := C81_tree_search_partial h1 h2 cornerPt f64Max (List.range n) (by simpa using hn) maxDist q
    (σ := 0) (τ := τ) (δ := δ) (dist := dist)
    ⟨fun x y hx hy => hm.symm x y (hS x hx) (hS y hy),
      fun x y z hx hy hz => hm.triangle x y z (hS x hx) (hS y hy) (hS z hz)⟩
    (fun x y z w hx hy hz hw => hδ x y z w (hS x hx) (hS y hy) (hS z hz) (hS w hw)) (by linarith)
  rw [zero_add] at hT
  have hN := C81_naive_search_partial hmin n dist maxDist q hq
  have hN' : IsNeighbourList (fun x y => (dist x y).val) (List.range n) q maxDist.val
      ((naiveNearest minPos n dist maxDist q).map fun x => (x.1, x.2.val)) := by
    refine ⟨by rw [List.map_map]; exact hN.nodup, ?_, ?_, ?_⟩
    · intro p
      rw [List.map_map]
      rw [hsymm q p]
      exact hN.mem p
    · intro x hx
      obtain ⟨y, hy, rfl⟩ := List.mem_map.1 hx
      simp only
      rw [hsymm q y.1]
      exact congrArg Rounded.val (hN.dist_eq y hy)
    · rw [List.pairwise_map]
      exact hN.sorted
  have := upTo_compare hε hT hN'
  simpa [treeNearest] using this

end General

section All

variable {P D : Type*} [DecidableEq P] [Zero D] [LinearOrder D] [DistNum D]

/-- **C81** (partial), without a limit on distances: if no distance or difference of distances exceeds the maximum distance,
the tree search finds all points, each once, for any arithmetic on distances. No property of the distance is needed. -/
theorem C81_all_found_partial {psort sort : SortOracle P D} (h1 : SortsByDistance psort)
    (h2 : SortsByDistance sort) (cornerPt : Nat) (f64Max : D) (pts : List P) (hlen : pts.length ≤ usizeMax)
    {dist : P → P → D} (maxDist : D) (q : P) (hq : q ∈ pts)
    (hle : ∀ x y, x ∈ pts → y ∈ pts → DistNum.le (dist x y) maxDist = true)
    (hdiff : ∀ x y z w, x ∈ pts → y ∈ pts → z ∈ pts → w ∈ pts →
      DistNum.le (DistNum.absDiff (dist x y) (dist z w)) maxDist = true) :
    let L := (((VPTree.parNew psort sort cornerPt f64Max pts dist).withMaxDist maxDist).nearest q).map Prod.fst
    L.Nodup ∧ ∀ p, p ∈ L ↔ p ∈ pts ∧ p ≠ q := by
  obtain ⟨hp, ht, hd⟩ := C15_par_construction h1 h2 cornerPt f64Max pts dist usizeMax
  have hl : (VPTree.fromParIterWithDistAndDepth psort sort cornerPt f64Max pts dist usizeMax).nodes.length
      = pts.length := by simpa [VPTree.intoNodes] using hp.length_eq
  refine ⟨(C13_sound_partial _ q).1, fun p => ?_⟩
  rw [nearest_all (S := (· ∈ pts)) (t := (VPTree.parNew psort sort cornerPt f64Max pts dist).withMaxDist maxDist) hdiff hle
    (fun p h => hp.mem_iff.1 h) hq ⟨usizeMax, ht, by
      show (VPTree.fromParIterWithDistAndDepth psort sort cornerPt f64Max pts dist usizeMax).nodes.length < _
      rw [hl]
      generalize usizeMax = u at hlen
      exact lt_of_le_of_lt (by omega) (Nat.lt_two_pow_self (n := u + 1))⟩ p]
  exact and_congr_left fun _ => hp.mem_iff

-- the hypotheses can be met by a distance that is not a metric
example : let L := (((VPTree.parNew stableSort stableSort 2 1000 [5, 1, 9, 2, 7]
      (fun x y : ℤ => x ^ 2 + 3 * y)).withMaxDist 1000).nearest 5).map Prod.fst
    L.Nodup ∧ ∀ p, p ∈ L ↔ p ∈ [5, 1, 9, 2, 7] ∧ p ≠ 5 :=
  C81_all_found_partial stableSort_sorts stableSort_sorts 2 1000 _ (by simp [usizeMax]) 1000 5 (by simp)
    (fun x y hx hy => (by decide : ∀ x ∈ [5, 1, 9, 2, 7], ∀ y ∈ [5, 1, 9, 2, 7],
      DistNum.le ((x : ℤ) ^ 2 + 3 * y) 1000 = true) x hx y hy)
    (fun x y z w hx hy hz hw => (by decide +kernel : ∀ x ∈ [5, 1, 9, 2, 7], ∀ y ∈ [5, 1, 9, 2, 7], ∀ z ∈ [5, 1, 9, 2, 7],
      ∀ w ∈ [5, 1, 9, 2, 7], DistNum.le (DistNum.absDiff ((x : ℤ) ^ 2 + 3 * y) (z ^ 2 + 3 * w)) 1000 = true)
      x hx y hy z hz w hw)

end All

section F64

variable {P : Type*} [DecidableEq P]

/-- **C81** (partial) for `f64`: computed distances are those of a metric, at most `M`, each rounded correctly, and the
computed distance is symmetric. Then the search is exact up to `2⁻⁵⁰ * M`, apart from numbers close to 0. -/
theorem C81_f64_partial {psort sort : SortOracle P N64} (h1 : SortsByDistance psort)
    (h2 : SortsByDistance sort) (cornerPt : Nat) (f64Max : N64) (pts : List P) (hlen : pts.length ≤ usizeMax)
    {dist : P → P → N64} (maxDist : N64) (q : P) {metric : P → P → ℝ}
    (hm : IsMetricOn (fun p => p = q ∨ p ∈ pts) metric) (hsymm : ∀ x y, dist x y = dist y x) {M : ℚ}
    (hM : ∀ x y, x = q ∨ x ∈ pts → y = q ∨ y ∈ pts → 0 ≤ metric x y ∧ metric x y ≤ M)
    (hround : ∀ x y, x = q ∨ x ∈ pts → y = q ∨ y ∈ pts →
      |((dist x y).val : ℝ) - metric x y| ≤ 2 ^ (-53 : ℤ) * metric x y + 2 ^ (-1075 : ℤ)) :
    IsNeighbourListUpTo (2 ^ (-50 : ℤ) * M + 2 ^ (-1072 : ℤ)) (fun x y => (dist x y).val) pts q maxDist.val
      ((((VPTree.parNew psort sort cornerPt f64Max pts dist).withMaxDist maxDist).nearest q).map
        fun x => (x.1, x.2.val)) := by
  have hM0 : 0 ≤ M := by
    have := hM q q (Or.inl rfl) (Or.inl rfl)
    exact_mod_cast this.1.trans this.2
  -- all errors, in real numbers
  have e50 : (2 : ℝ) ^ (-50 : ℤ) = 8 * 2 ^ (-53 : ℤ) := by norm_num
  have e1072 : (2 : ℝ) ^ (-1072 : ℤ) = 8 * 2 ^ (-1075 : ℤ) := by
    rw [show (-1072 : ℤ) = 3 + -1075 by norm_num, zpow_add₀ (by norm_num)]; norm_num
  have e50' : (2 : ℚ) ^ (-50 : ℤ) = 8 * 2 ^ (-53 : ℤ) := by norm_num
  have e1072' : (2 : ℚ) ^ (-1072 : ℤ) = 8 * 2 ^ (-1075 : ℤ) := by
    rw [show (-1072 : ℤ) = 3 + -1075 by norm_num, zpow_add₀ (by norm_num)]; norm_num
  have hu : (0 : ℚ) ≤ 2 ^ (-53 : ℤ) := by positivity
  have hη : (0 : ℚ) ≤ 2 ^ (-1075 : ℤ) := by positivity
  have hu1 : (2 : ℚ) ^ (-53 : ℤ) ≤ 1 := by norm_num
  have herr : ∀ x y, x = q ∨ x ∈ pts → y = q ∨ y ∈ pts →
      |((dist x y).val : ℝ) - metric x y| ≤ ((2 ^ (-53 : ℤ) * M + 2 ^ (-1075 : ℤ) : ℚ) : ℝ) := by
    intro x y hx hy
    refine (hround x y hx hy).trans ?_
    push_cast
    have : (0 : ℝ) ≤ 2 ^ (-53 : ℤ) := by positivity
    have := mul_le_mul_of_nonneg_left (hM x y hx hy).2 this
    linarith
  generalize hδ0 : (2 ^ (-53 : ℤ) * M + 2 ^ (-1075 : ℤ) : ℚ) = δ₀ at herr
  have hδ0' : 0 ≤ δ₀ := by rw [← hδ0]; positivity
  have hval : ∀ x y, x = q ∨ x ∈ pts → y = q ∨ y ∈ pts → -δ₀ ≤ (dist x y).val ∧ (dist x y).val ≤ M + δ₀ := by
    intro x y hx hy
    have h1 := abs_le.1 (herr x y hx hy)
    have h2 := hM x y hx hy
    constructor
    · have : (-δ₀ : ℝ) ≤ (dist x y).val := by linarith [h1.1]
      exact_mod_cast this
    · have : ((dist x y).val : ℝ) ≤ M + δ₀ := by linarith [h1.2]
      exact_mod_cast this
  have htri : IsMetricUpTo (fun p => p = q ∨ p ∈ pts) 0 (3 * δ₀) fun x y => (dist x y).val := by
    refine ⟨fun x y _ _ => by simp [hsymm x y], fun x y z hx hy hz => ?_⟩
    have h1 := abs_le.1 (herr x z hx hz)
    have h2 := abs_le.1 (herr x y hx hy)
    have h3 := abs_le.1 (herr y z hy hz)
    have h4 := hm.triangle x y z hx hy hz
    have : ((dist x z).val : ℝ) ≤ (dist x y).val + (dist y z).val + 3 * δ₀ := by linarith [h1.2, h2.1, h3.1]
    exact_mod_cast this
  have hdiff : DiffWithin (fun p => p = q ∨ p ∈ pts) fl64 (2 ^ (-53 : ℤ) * (M + 2 * δ₀) + 2 ^ (-1075 : ℤ))
      fun x y => (dist x y).val := by
    intro x y z w hx hy hz hw
    have h1 := hval x y hx hy
    have h2 := hval z w hz hw
    have habs : |(dist x y).val - (dist z w).val| ≤ M + 2 * δ₀ := by
      rw [abs_le]; constructor <;> linarith
    refine ((fl64_roundsWithin (n := 0) (by norm_num) (M + 2 * δ₀)).err _ habs).trans ?_
    have := mul_le_mul_of_nonneg_left habs hu
    linarith
  have hδn : (0 : ℚ) ≤ 2 ^ (-53 : ℤ) * (M + 2 * δ₀) + 2 ^ (-1075 : ℤ) := by positivity
  have h := C81_tree_search_partial h1 h2 cornerPt f64Max pts hlen maxDist q htri hdiff (by linarith)
  refine IsNeighbourListUpTo.mono ?_ h
  rw [e50', e1072', ← hδ0]
  have hu2 : (2 : ℚ) ^ (-53 : ℤ) * (2 * (2 ^ (-53 : ℤ) * M + 2 ^ (-1075 : ℤ))) ≤ 1 * (2 * (2 ^ (-53 : ℤ) * M + 2 ^ (-1075 : ℤ))) :=
    mul_le_mul_of_nonneg_right hu1 (by positivity)
  have hM' : 0 ≤ (2 : ℚ) ^ (-53 : ℤ) * M := by positivity
  generalize (2 : ℚ) ^ (-1075 : ℤ) = η at *
  generalize (2 : ℚ) ^ (-53 : ℤ) = u at *
  nlinarith

/-- Distance of points on a line, computed in `f64`. -/
def lineDist64 (x y : ℚ) : N64 := ⟨fl64 |x - y|⟩

/-- The property: for points on a line with coordinates and distances of type `f64`, the tree search finds exactly the neighbours
within the maximum distance, nearest first. -/
def C81_claim : Prop :=
  ∀ (psort sort : SortOracle ℚ N64), SortsByDistance psort → SortsByDistance sort → ∀ (cornerPt : Nat) (f64Max maxDist : N64)
    (pts : List ℚ) (q : ℚ), (∀ x ∈ pts, IsF64 x) → pts.length ≤ usizeMax → q ∈ pts →
    IsNeighbourList lineDist64 pts q maxDist
      (((VPTree.parNew psort sort cornerPt f64Max pts lineDist64).withMaxDist maxDist).nearest q)

/-- Points for which rounding matters. -/
def ex81 : List ℚ := [-100, 3, 6, 1, 2 ^ 54]

/-- The distances of 3 and 1 from 2⁵⁴ are rounded to numbers that differ by 4. -/
theorem ex81_nearest : (((VPTree.parNew stableSort stableSort 4 ⟨2 ^ 60⟩ ex81 lineDist64).withMaxDist ⟨3⟩).nearest 3) =
    [(6, ⟨3⟩)] := by decide +kernel

theorem ex81_isF64 : ∀ x ∈ ex81, IsF64 x := by
  intro x hx
  simp only [ex81, List.mem_cons, List.not_mem_nil, or_false] at hx
  rcases hx with rfl | rfl | rfl | rfl | rfl
  · exact ⟨-100, 0, by norm_num, by norm_num, by norm_num, by norm_num⟩
  · exact ⟨3, 0, by norm_num, by norm_num, by norm_num, by norm_num⟩
  · exact ⟨6, 0, by norm_num, by norm_num, by norm_num, by norm_num⟩
  · exact ⟨1, 0, by norm_num, by norm_num, by norm_num, by norm_num⟩
  · exact ⟨1, 54, by norm_num, by norm_num, by norm_num, by norm_num⟩

/-- **C81 is false**: of the points -100, 3, 6, 1 and 2⁵⁴, the one at 1 has distance 2 from 3, but the search for neighbours
of 3 within distance 3 only finds the one at 6. -/
theorem C81_violated : ¬ C81_claim := by
  intro h
  have h := (h stableSort stableSort stableSort_sorts stableSort_sorts 4 ⟨2 ^ 60⟩ ⟨3⟩ ex81 3 ex81_isF64
    (by simp [ex81, usizeMax]) (by simp [ex81])).mem 1
  rw [ex81_nearest] at h
  exact absurd (h.2 ⟨by decide +kernel, by decide, by decide +kernel⟩) (by decide)

-- without a limit, the point at 1 is found too late
example : (((VPTree.parNew stableSort stableSort 4 ⟨2 ^ 60⟩ ex81 lineDist64).withMaxDist ⟨2 ^ 60⟩).nearest 3) =
    [(6, ⟨3⟩), (1, ⟨2⟩), (-100, ⟨103⟩), (2 ^ 54, ⟨2 ^ 54 - 4⟩)] := by decide +kernel

theorem lineDist64_round (x y : ℚ) :
    |((lineDist64 x y).val : ℝ) - abs ((x : ℝ) - y)| ≤ 2 ^ (-53 : ℤ) * |(x : ℝ) - y| + 2 ^ (-1075 : ℤ) := by
  have h := (fl64_roundsWithin (n := 0) (by norm_num) |x - y|).err |x - y| (by simp)
  rw [abs_abs] at h
  have h' := Rat.cast_le (K := ℝ).2 h
  rw [Rat.cast_add, Rat.cast_mul, Rat.cast_zpow, Rat.cast_zpow, Rat.cast_abs, Rat.cast_sub, Rat.cast_abs, Rat.cast_sub] at h'
  exact h'

-- the hypotheses of the partial theorem are met in this case, with an error of about 16
example : IsNeighbourListUpTo (2 ^ (-50 : ℤ) * (2 ^ 55) + 2 ^ (-1072 : ℤ)) (fun x y => (lineDist64 x y).val) ex81 3 3
    ((((VPTree.parNew stableSort stableSort 4 ⟨2 ^ 60⟩ ex81 lineDist64).withMaxDist ⟨3⟩).nearest 3).map
      fun x => (x.1, x.2.val)) := by
  refine C81_f64_partial stableSort_sorts stableSort_sorts 4 ⟨2 ^ 60⟩ ex81 (by simp [ex81, usizeMax]) ⟨3⟩ 3
    (metric := fun x y => |(x : ℝ) - y|) ⟨fun x y _ _ => abs_sub_comm _ _, fun x y z _ _ _ => abs_sub_le _ _ _⟩
    (fun x y => by unfold lineDist64; rw [abs_sub_comm]) ?_ (fun x y _ _ => lineDist64_round x y)
  have hx : ∀ x : ℚ, x = 3 ∨ x ∈ ex81 → (-100 : ℝ) ≤ x ∧ (x : ℝ) ≤ 2 ^ 54 := by
    intro x hx
    simp only [ex81, List.mem_cons, List.not_mem_nil, or_false] at hx
    rcases hx with rfl | rfl | rfl | rfl | rfl | rfl <;> norm_num
  intro x y h1 h2
  refine ⟨abs_nonneg _, ?_⟩
  have h1 := hx x h1
  have h2 := hx y h2
  rw [abs_le]
  push_cast
  constructor <;> linarith [h1.1, h1.2, h2.1, h2.2]

end F64

end Cres

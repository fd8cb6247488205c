import Verif.Proofs.VPTreeIter
import Verif.Proofs.Rounding
import Mathlib.Tactic.Linarith

/-!
Search in a vantage-point tree with rounded distances.
-/

set_option linter.unusedSectionVars false

namespace Cres

open Spec

variable {P K : Type*} [DecidableEq P] [Field K] [LinearOrder K] [IsStrictOrderedRing K] {fl : K → K}

/-- The computed distances, as exact numbers. -/
def distVal (dist : P → P → Rounded fl) (x y : P) : K := (dist x y).val

/-- No admissible node of `sub` is both within `maxDist` and nearer than `res`, up to `ε`. -/
def OptimalUpTo (ε : K) (dist : P → P → Rounded fl) (maxDist : Rounded fl) (pt : P) (exclude : List P)
    (sub : List (Node P (Rounded fl))) (res : Option (Nat × Rounded fl)) : Prop :=
  ∀ n ∈ sub, Admissible pt exclude n → distVal dist pt n.vantagePt + ε ≤ maxDist.val →
    ∃ i d, res = some (i, d) ∧ d.val ≤ distVal dist pt n.vantagePt + ε

theorem nearer_upTo {T : Type*} (a b : Option (T × Rounded fl)) (x : K)
    (h : (∃ i d, a = some (i, d) ∧ d.val ≤ x) ∨ (∃ i d, b = some (i, d) ∧ d.val ≤ x)) :
    ∃ i d, nearer a b = some (i, d) ∧ d.val ≤ x := by
  rcases h with ⟨i, d, rfl, hd⟩ | ⟨i, d, rfl, hd⟩
  · rcases b with _ | ⟨j, e⟩
    · exact ⟨i, d, rfl, hd⟩
    · simp only [nearer, DistNum.le, decide_eq_true_eq]
      split
      · exact ⟨i, d, rfl, hd⟩
      · exact ⟨j, e, rfl, by rename_i h; exact (le_of_lt (not_le.1 h)).trans hd⟩
  · rcases a with _ | ⟨j, e⟩
    · exact ⟨i, d, rfl, hd⟩
    · simp only [nearer, DistNum.le, decide_eq_true_eq]
      split
      · exact ⟨j, e, rfl, by rename_i h; exact h.trans hd⟩
      · exact ⟨i, d, rfl, hd⟩

omit [DecidableEq P] in
/-- The lower bounds used for pruning. -/
theorem prune_upTo {S : P → Prop} {dist : P → P → K} {σ τ : K} (hm : IsMetricUpTo S σ τ dist) {pt vp x : P} (hp : S pt)
    (hv : S vp) (hx : S x) {r : K} :
    (dist vp x ≤ r → dist pt vp - r ≤ dist pt x + (σ + τ)) ∧ (r ≤ dist vp x → r - dist pt vp ≤ dist pt x + (σ + τ)) := by
  have h1 := hm.triangle pt x vp hp hx hv
  have h2 := hm.triangle vp pt x hv hp hx
  have h3 := hm.symm x vp hx hv
  have h4 := hm.symm vp pt hv hp
  constructor <;> intro h <;> linarith

/-- The search in a complete vantage-point tree is optimal up to the errors made in one comparison. -/
theorem nearestInSubtree_upTo {S : P → Prop} {dist : P → P → Rounded fl} {σ τ δ : K} (hm : IsMetricUpTo S σ τ (distVal dist))
    (hδ : DiffWithin S fl δ (distVal dist)) (hε : 0 ≤ σ + τ + δ) (maxDist : Rounded fl) {pt : P} (hpt : S pt)
    (exclude : List P) {depth : Nat} {sub : List (Node P (Rounded fl))} (ht : IsVPTree dist depth sub) :
    (∀ n ∈ sub, S n.vantagePt) → sub.length < 2 ^ (depth + 1) → ∀ fuel idx cache, sub.length ≤ fuel → CacheOK dist pt cache →
      OptimalUpTo (σ + τ + δ) dist maxDist pt exclude sub
        (nearestInSubtree dist maxDist pt exclude fuel sub idx cache).1 := by
  induction ht with
  | leaf depth nodes h hc =>
    intro _ hlen fuel idx cache hfuel hcache
    match nodes, h, hc, hlen, hfuel with
    | [], _, _, _, _ => intro n hn; simp at hn
    | [node], h, hc, hlen, hfuel =>
      obtain ⟨fuel, rfl⟩ : ∃ f, fuel = f + 1 := ⟨fuel - 1, by simp at hfuel; omega⟩
      obtain ⟨hd, hc1⟩ := cachedDist_spec hcache node.vantagePt
      simp only [nearestInSubtree, hc node List.mem_cons_self, hd]
      intro n hn hadm _
      simp only [List.mem_singleton] at hn
      subst hn
      rw [if_neg (by rintro (h | h); exact hadm.1 h.symm; exact hadm.2 h)]
      exact ⟨idx, _, rfl, by unfold distVal; linarith⟩
    | a :: b :: l, h, hc, hlen, hfuel =>
      rcases h with rfl | h
      · simp at hlen
      · simp at h
  | node depth p r inside outside hin hout hr hsize h1 h2 ih1 ih2 =>
    intro hS hlen fuel idx cache hfuel hcache
    have hSp : S p := hS ⟨p, some ⟨r, inside.length⟩⟩ (by simp)
    have hSin : ∀ n ∈ inside, S n.vantagePt := fun n hn => hS n (by simp [hn])
    have hSout : ∀ n ∈ outside, S n.vantagePt := fun n hn => hS n (by simp [hn])
    obtain ⟨x₀, hx₀, hr⟩ := hr
    have hdiff : |fl ((dist pt p).val - r.val) - ((dist pt p).val - r.val)| ≤ δ := by
      rw [← hr]; exact hδ _ _ _ _ hpt hSp hSp (hSout _ hx₀)
    have hdiff' : |fl (r.val - (dist pt p).val) - (r.val - (dist pt p).val)| ≤ δ := by
      rw [← hr]; exact hδ _ _ _ _ hSp (hSout _ hx₀) hpt hSp
    simp only [List.length_cons, List.length_append] at hlen hfuel
    rw [pow_succ] at hlen
    obtain ⟨fuel, rfl⟩ : ∃ f, fuel = f + 1 := ⟨fuel - 1, by omega⟩
    obtain ⟨hd, hc1⟩ := cachedDist_spec hcache p
    simp only [nearestInSubtree]
    generalize hcd : cachedDist dist pt p cache = cd at hd hc1 ⊢
    obtain ⟨d, cache1⟩ := cd
    simp only at hd hc1 ⊢
    subst hd
    rw [List.take_left' rfl, List.drop_left' rfl]
    have h0 : Admissible pt exclude (⟨p, some ⟨r, inside.length⟩⟩ : Node P (Rounded fl)) →
        ∃ i d, (if pt = p ∨ p ∈ exclude then none else some (idx, dist pt p)) = some (i, d) ∧
          d.val ≤ distVal dist pt p + (σ + τ + δ) := by
      intro hadm
      rw [if_neg (by rintro (h | h); exact hadm.1 h.symm; exact hadm.2 h)]
      exact ⟨idx, _, rfl, by unfold distVal; linarith⟩
    generalize (if pt = p ∨ p ∈ exclude then none else some (idx, dist pt p)) = near0 at h0 ⊢
    -- bound for the less promising region
    have hbound : ∀ n ∈ (if DistNum.lt r (dist pt p) = true then inside else outside),
        |(dist pt p).val - r.val| ≤ distVal dist pt n.vantagePt + (σ + τ) := by
      intro n hn
      by_cases hlt : r.val < (dist pt p).val
      · simp only [DistNum.lt, hlt, decide_true, if_true] at hn
        rw [abs_of_pos (sub_pos.2 hlt)]
        exact (prune_upTo hm hpt hSp (hSin n hn)).1 (hin n hn)
      · simp only [DistNum.lt, hlt, decide_false, Bool.false_eq_true, if_false] at hn
        rw [abs_sub_comm, abs_of_nonneg (sub_nonneg.2 (not_lt.1 hlt))]
        exact (prune_upTo hm hpt hSp (hSout n hn)).2 (hout n hn)
    have hbound1 : ∀ n ∈ (if DistNum.lt r (dist pt p) = true then inside else outside),
        |fl ((dist pt p).val - r.val)| ≤ distVal dist pt n.vantagePt + (σ + τ + δ) := by
      intro n hn
      have h1 := hbound n hn
      have h2 := abs_le.1 hdiff
      have h3 := abs_le.1 h1
      rw [abs_le]
      constructor <;> linarith
    have hbound2 : ∀ n ∈ (if DistNum.lt r (dist pt p) = true then inside else outside),
        |fl (r.val - (dist pt p).val)| ≤ distVal dist pt n.vantagePt + (σ + τ + δ) := by
      intro n hn
      have h1 := hbound n hn
      have h2 := abs_le.1 hdiff'
      have h3 := abs_le.1 h1
      rw [abs_le]
      constructor <;> linarith
    have hcov : ∀ n ∈ inside ++ outside,
        n ∈ (if DistNum.lt r (dist pt p) = true then outside else inside) ∨
        n ∈ (if DistNum.lt r (dist pt p) = true then inside else outside) := by
      intro n hn
      rcases List.mem_append.1 hn with h | h <;> split <;> simp [h]
    have ihA : ∀ idx cache, CacheOK dist pt cache → OptimalUpTo (σ + τ + δ) dist maxDist pt exclude
        (if DistNum.lt r (dist pt p) = true then outside else inside)
        (nearestInSubtree dist maxDist pt exclude fuel
          (if DistNum.lt r (dist pt p) = true then outside else inside) idx cache).1 := by
      intro idx cache hc
      split
      · exact ih2 hSout (by omega) fuel idx cache (by omega) hc
      · exact ih1 hSin (by omega) fuel idx cache (by omega) hc
    have ihB : ∀ idx cache, CacheOK dist pt cache → OptimalUpTo (σ + τ + δ) dist maxDist pt exclude
        (if DistNum.lt r (dist pt p) = true then inside else outside)
        (nearestInSubtree dist maxDist pt exclude fuel
          (if DistNum.lt r (dist pt p) = true then inside else outside) idx cache).1 := by
      intro idx cache hc
      split
      · exact ih1 hSin (by omega) fuel idx cache (by omega) hc
      · exact ih2 hSout (by omega) fuel idx cache (by omega) hc
    generalize (if DistNum.lt r (dist pt p) = true then outside else inside) = sub0 at hcov ihA ⊢
    generalize (if DistNum.lt r (dist pt p) = true then inside else outside) = sub1 at hcov ihB hbound1 hbound2 ⊢
    generalize hi0 : (idx + if DistNum.lt r (dist pt p) = true then inside.length + 1 else 1) = idx0
    generalize hi1 : (idx + if DistNum.lt r (dist pt p) = true then 1 else inside.length + 1) = idx1
    have hopt1 := ihA idx0 cache1 hc1
    have hc2 := (nearestInSubtree_sound dist maxDist pt exclude fuel sub0 idx0 cache1 hc1).1
    generalize nearestInSubtree dist maxDist pt exclude fuel sub0 idx0 cache1 = r1 at hopt1 hc2 ⊢
    obtain ⟨pref, cache2⟩ := r1
    simp only at hopt1 hc2 ⊢
    have hopt2 := ihB idx1 cache2 hc2
    generalize nearestInSubtree dist maxDist pt exclude fuel sub1 idx1 cache2 = r2 at hopt2 ⊢
    obtain ⟨other, cache3⟩ := r2
    simp only at hopt2 ⊢
    -- everything not in the less promising region
    have hfirst : ∀ n ∈ (⟨p, some ⟨r, inside.length⟩⟩ : Node P (Rounded fl)) :: (inside ++ outside), Admissible pt exclude n →
        distVal dist pt n.vantagePt + (σ + τ + δ) ≤ maxDist.val →
        (∃ i d, nearer near0 pref = some (i, d) ∧ d.val ≤ distVal dist pt n.vantagePt + (σ + τ + δ)) ∨ n ∈ sub1 := by
      intro n hn hadm hle
      rcases List.mem_cons.1 hn with rfl | hn
      · exact Or.inl (nearer_upTo _ _ _ (Or.inl (h0 hadm)))
      · rcases hcov n hn with h | h
        · exact Or.inl (nearer_upTo _ _ _ (Or.inr (hopt1 n h hadm hle)))
        · exact Or.inr h
    split
    · rename_i hprune
      simp only [DistNum.le, DistNum.absDiff, decide_eq_false_iff_not, not_le] at hprune
      intro n hn hadm hle
      rcases hfirst n hn hadm hle with h | h
      · exact h
      · exact absurd (hprune.trans_le ((hbound1 n h).trans hle)) (lt_irrefl _)
    · generalize nearer near0 pref = near1 at hfirst ⊢
      have hlast : OptimalUpTo (σ + τ + δ) dist maxDist pt exclude
          ((⟨p, some ⟨r, inside.length⟩⟩ : Node P (Rounded fl)) :: (inside ++ outside)) (nearer near1 other) := by
        intro n hn hadm hle
        rcases hfirst n hn hadm hle with h | h
        · exact nearer_upTo _ _ _ (Or.inl h)
        · exact nearer_upTo _ _ _ (Or.inr (hopt2 n h hadm hle))
      rcases near1 with _ | ⟨i, dn⟩
      · simpa using hlast
      · simp only
        split
        · rename_i hprune
          intro n hn hadm hle
          rcases hfirst n hn hadm hle with h | h
          · exact h
          · simp only [DistNum.lt, DistNum.absDiff, decide_eq_true_eq] at hprune
            exact ⟨i, dn, rfl, le_of_lt (hprune.trans_le (hbound2 n h))⟩
        · exact hlast

theorem next_upTo {t : VPTree P (Rounded fl)} {S : P → Prop} {σ τ δ : K} (hm : IsMetricUpTo S σ τ (distVal t.dist))
    (hδ : DiffWithin S fl δ (distVal t.dist)) (hε : 0 ≤ σ + τ + δ) (hS : ∀ p ∈ t.intoNodes, S p)
    (ht : ∃ depth, IsVPTree t.dist depth t.nodes ∧ t.nodes.length < 2 ^ (depth + 1)) {it : NNIter P (Rounded fl)}
    (hpt : S it.pt) (hc : CacheOK t.dist it.pt it.cache) {p : P} (hp : Cand t it.pt it.exclude p)
    (hp' : distVal t.dist it.pt p + (σ + τ + δ) ≤ t.maxDist.val) :
    ∃ q d it', it.next t = (some (q, d), it') ∧ d.val ≤ distVal t.dist it.pt p + (σ + τ + δ) := by
  obtain ⟨depth, ht, hdepth⟩ := ht
  obtain ⟨hp1, hp2, hp3, hp4⟩ := hp
  obtain ⟨n, hn, rfl⟩ := List.mem_map.1 hp1
  obtain ⟨i, d, hres, hd⟩ := nearestInSubtree_upTo hm hδ hε t.maxDist hpt it.exclude ht
    (fun n hn => hS _ (List.mem_map_of_mem hn)) hdepth t.nodes.length 0
    it.cache (le_refl _) hc n hn ⟨hp2, hp3⟩ hp'
  obtain ⟨k, m, hk, hm', -, -⟩ := (nearestInSubtree_sound t.dist t.maxDist it.pt it.exclude t.nodes.length
    t.nodes 0 it.cache hc).2 i d hres
  simp only [Nat.zero_add] at hk
  subst hk
  unfold NNIter.next VPTree.nearestInImpl
  generalize nearestInSubtree t.dist t.maxDist it.pt it.exclude t.nodes.length t.nodes 0 it.cache = r at hres ⊢
  obtain ⟨res, cache⟩ := r
  simp only at hres
  subst hres
  simp only [DistNum.le, decide_eq_true_eq, if_pos (hd.trans hp'), hm', Option.map_some]
  exact ⟨_, _, _, rfl, hd⟩

/-- A candidate that is not yielded in the next step is not nearer than the point that is, up to `ε`. -/
theorem next_le_upTo {t : VPTree P (Rounded fl)} {S : P → Prop} {σ τ δ : K} (hm : IsMetricUpTo S σ τ (distVal t.dist))
    (hδ : DiffWithin S fl δ (distVal t.dist)) (hε : 0 ≤ σ + τ + δ) (hS : ∀ p ∈ t.intoNodes, S p)
    (ht : ∃ depth, IsVPTree t.dist depth t.nodes ∧ t.nodes.length < 2 ^ (depth + 1)) {it it' : NNIter P (Rounded fl)}
    (hpt : S it.pt) (hc : CacheOK t.dist it.pt it.cache) {q p : P} {d : Rounded fl} (hx : it.next t = (some (q, d), it'))
    (hp : Cand t it.pt it.exclude p) : d.val ≤ distVal t.dist it.pt p + (σ + τ + δ) := by
  by_cases hle : distVal t.dist it.pt p + (σ + τ + δ) ≤ t.maxDist.val
  · obtain ⟨q', e, it'', hq, he⟩ := next_upTo hm hδ hε hS ht hpt hc hp hle
    rw [hx] at hq
    simp only [Prod.mk.injEq, Option.some.injEq] at hq
    rw [hq.1.2]; exact he
  · obtain ⟨⟨-, -, -, hd⟩, rfl, -⟩ := next_some hc hx
    have hd : (t.dist it.pt q).val ≤ t.maxDist.val := by simpa [DistNum.le] using hd
    exact hd.trans (not_le.1 hle).le

theorem take_upTo {t : VPTree P (Rounded fl)} {S : P → Prop} {σ τ δ : K} (hm : IsMetricUpTo S σ τ (distVal t.dist))
    (hδ : DiffWithin S fl δ (distVal t.dist)) (hε : 0 ≤ σ + τ + δ) (hS : ∀ p ∈ t.intoNodes, S p)
    (ht : ∃ depth, IsVPTree t.dist depth t.nodes ∧ t.nodes.length < 2 ^ (depth + 1)) (n : Nat) :
    ∀ it : NNIter P (Rounded fl), S it.pt → CacheOK t.dist it.pt it.cache →
    (it.take t n).Pairwise (fun a b => a.2.val ≤ b.2.val + (σ + τ + δ)) ∧
    (∀ p, Cand t it.pt it.exclude p → distVal t.dist it.pt p + (σ + τ + δ) ≤ t.maxDist.val →
      p ∉ (it.take t n).map Prod.fst → (it.take t n).length = n) := by
  induction n with
  | zero => intro it _ _; simp [NNIter.take]
  | succ n ih =>
    intro it hSit hc
    unfold NNIter.take
    split
    · rename_i x it' hx
      obtain ⟨p, d⟩ := x
      obtain ⟨hcand, hd, hit, hc'⟩ := next_some hc hx
      have hpt : it'.pt = it.pt := by rw [hit]
      have hc'' : CacheOK t.dist it'.pt it'.cache := by rw [hpt]; exact hc'
      obtain ⟨ih1, ih2⟩ := ih it' (by rw [hpt]; exact hSit) hc''
      refine ⟨?_, ?_⟩
      · rw [List.pairwise_cons]
        refine ⟨?_, ih1⟩
        intro y hy
        obtain ⟨⟨h1, h2, h3, h4⟩, h5⟩ := (take_sound t n it' hc'').2 y hy
        rw [hpt] at h2 h4 h5
        rw [hit] at h3
        simp at h3
        rw [h5]
        exact next_le_upTo hm hδ hε hS ht hSit hc hx ⟨h1, h2, h3.2, h4⟩
      · intro p' hp' hle hnot
        rw [List.map_cons, List.mem_cons, not_or] at hnot
        have hp'' : Cand t it'.pt it'.exclude p' := by
          rw [hit]
          exact ⟨hp'.1, hp'.2.1, by simp; exact ⟨hnot.1, hp'.2.2.1⟩, hp'.2.2.2⟩
        have := ih2 p' hp'' (by rw [hpt]; exact hle) hnot.2
        simp [this]
    · rename_i it' hx
      refine ⟨by simp, ?_⟩
      intro p hp hle
      obtain ⟨q, e, it'', hq, -⟩ := next_upTo hm hδ hε hS ht hSit hc hp hle
      rw [hx] at hq
      simp at hq

/-- The full enumeration in a complete tree meets the specification up to `ε`. -/
theorem nearest_upTo {t : VPTree P (Rounded fl)} {q : P} {σ τ δ : K}
    (hm : IsMetricUpTo (fun p => p = q ∨ p ∈ t.intoNodes) σ τ (distVal t.dist))
    (hδ : DiffWithin (fun p => p = q ∨ p ∈ t.intoNodes) fl δ (distVal t.dist)) (hε : 0 ≤ σ + τ + δ)
    (ht : ∃ depth, IsVPTree t.dist depth t.nodes ∧ t.nodes.length < 2 ^ (depth + 1)) :
    IsNeighbourListUpTo (σ + τ + δ) (distVal t.dist) t.intoNodes q t.maxDist.val
      ((t.nearest q).map fun x => (x.1, x.2.val)) := by
  have hs := take_sound t (t.nodes.length + 1) (nearestIn q) (cacheOK_nil _ _)
  have hcpl := take_upTo hm hδ hε (fun p hp => Or.inr hp) ht (t.nodes.length + 1) (nearestIn q) (Or.inl rfl)
    (cacheOK_nil _ _)
  have hfst : ((t.nearest q).map fun x => (x.1, x.2.val)).map Prod.fst = (t.nearest q).map Prod.fst := by
    rw [List.map_map]; rfl
  refine ⟨by rw [hfst]; exact hs.1, ?_, ?_, ?_, ?_⟩
  · intro p h
    rw [hfst] at h
    obtain ⟨x, hx, rfl⟩ := List.mem_map.1 h
    obtain ⟨⟨h1, h2, -, h4⟩, -⟩ := hs.2 x hx
    exact ⟨h1, h2, of_decide_eq_true h4⟩
  · intro p h1 h2 h3
    rw [hfst]
    by_contra hnot
    have hl := hcpl.2 p ⟨h1, h2, by simp [nearestIn], decide_eq_true (by
      have : (t.dist q p).val + (σ + τ + δ) ≤ t.maxDist.val := h3
      change (t.dist q p).val ≤ _
      linarith)⟩ h3 hnot
    have hsub : ((NNIter.take t (t.nodes.length + 1) (nearestIn q)).map Prod.fst) ⊆ t.intoNodes := by
      intro y hy
      obtain ⟨x, hx, rfl⟩ := List.mem_map.1 hy
      exact (hs.2 x hx).1.1
    have := (hs.1.subperm hsub).length_le
    simp only [List.length_map, VPTree.intoNodes] at this
    omega
  · intro x hx
    obtain ⟨y, hy, rfl⟩ := List.mem_map.1 hx
    exact congrArg Rounded.val (hs.2 y hy).2
  · rw [List.pairwise_map]
    exact hcpl.1

section All

variable {P D : Type*} [DecidableEq P] [LE D] [DistNum D]

omit [DecidableEq P] [LE D] in
theorem nearer_none {T : Type*} {a b : Option (T × D)} (h : nearer a b = none) : a = none ∧ b = none := by
  rcases a with _ | ⟨i, d⟩ <;> rcases b with _ | ⟨j, e⟩ <;> simp only [nearer] at h
  · exact ⟨rfl, rfl⟩
  · simp at h
  · simp at h
  · split at h <;> simp at h

/-- Without a limit on distances, the search only fails if there is no admissible point at all. -/
theorem nearestInSubtree_none {S : P → Prop} {dist : P → P → D} {maxDist : D}
    (hmax : ∀ x y z w, S x → S y → S z → S w → DistNum.le (DistNum.absDiff (dist x y) (dist z w)) maxDist = true)
    {pt : P} (hpt : S pt) (exclude : List P) {depth : Nat} {sub : List (Node P D)} (ht : IsVPTree dist depth sub) :
    (∀ n ∈ sub, S n.vantagePt) → sub.length < 2 ^ (depth + 1) → ∀ fuel idx cache, sub.length ≤ fuel → CacheOK dist pt cache →
      (nearestInSubtree dist maxDist pt exclude fuel sub idx cache).1 = none → ∀ n ∈ sub, ¬ Admissible pt exclude n := by
  induction ht with
  | leaf depth nodes h hc =>
    intro _ hlen fuel idx cache hfuel hcache hnone
    match nodes, h, hc, hlen, hfuel, hnone with
    | [], _, _, _, _, _ => intro n hn; simp at hn
    | [node], h, hc, hlen, hfuel, hnone =>
      obtain ⟨fuel, rfl⟩ : ∃ f, fuel = f + 1 := ⟨fuel - 1, by simp at hfuel; omega⟩
      simp only [nearestInSubtree, hc node List.mem_cons_self] at hnone
      intro n hn hadm
      simp only [List.mem_singleton] at hn
      subst hn
      rw [if_neg (by rintro (h | h); exact hadm.1 h.symm; exact hadm.2 h)] at hnone
      simp at hnone
    | a :: b :: l, h, hc, hlen, hfuel, hnone =>
      rcases h with rfl | h
      · simp at hlen
      · simp at h
  | node depth p r inside outside hin hout hr hsize h1 h2 ih1 ih2 =>
    intro hS hlen fuel idx cache hfuel hcache hnone
    have hSp : S p := hS ⟨p, some ⟨r, inside.length⟩⟩ (by simp)
    have hSin : ∀ n ∈ inside, S n.vantagePt := fun n hn => hS n (by simp [hn])
    have hSout : ∀ n ∈ outside, S n.vantagePt := fun n hn => hS n (by simp [hn])
    obtain ⟨x₀, hx₀, rfl⟩ := hr
    simp only [List.length_cons, List.length_append] at hlen hfuel
    rw [pow_succ] at hlen
    obtain ⟨fuel, rfl⟩ : ∃ f, fuel = f + 1 := ⟨fuel - 1, by omega⟩
    obtain ⟨hd, hc1⟩ := cachedDist_spec hcache p
    simp only [nearestInSubtree] at hnone
    generalize cachedDist dist pt p cache = cd at hnone hd hc1
    obtain ⟨d, cache1⟩ := cd
    simp only at hnone hd hc1
    subst hd
    rw [List.take_left' rfl, List.drop_left' rfl] at hnone
    rw [if_neg (by rw [hmax _ _ _ _ hpt hSp hSp (hSout _ hx₀)]; simp)] at hnone
    generalize DistNum.lt (dist p x₀.vantagePt) (dist pt p) = b at hnone
    generalize hnear : (if pt = p ∨ p ∈ exclude then none else some (idx, dist pt p)) = near0 at hnone
    generalize hr1 : nearestInSubtree dist maxDist pt exclude fuel (if b = true then outside else inside)
      (idx + if b = true then inside.length + 1 else 1) cache1 = r1 at hnone
    have hc2 := (nearestInSubtree_sound dist maxDist pt exclude fuel (if b = true then outside else inside)
      (idx + if b = true then inside.length + 1 else 1) cache1 hc1).1
    rw [hr1] at hc2
    obtain ⟨pref, cache2⟩ := r1
    simp only at hnone hc2
    generalize hr2 : nearestInSubtree dist maxDist pt exclude fuel (if b = true then inside else outside)
      (idx + if b = true then 1 else inside.length + 1) cache2 = r2 at hnone
    obtain ⟨other, cache3⟩ := r2
    have hall : nearer (nearer near0 pref) other = none := by
      revert hnone
      rcases nearer near0 pref with _ | ⟨i, dn⟩
      · simp
      · simp only
        split
        · simp
        · exact id
    obtain ⟨h3, h4⟩ := nearer_none hall
    obtain ⟨h5, h6⟩ := nearer_none h3
    have hA := congrArg Prod.fst hr1
    have hB := congrArg Prod.fst hr2
    rw [h6] at hA
    rw [h4] at hB
    intro n hn hadm
    rcases List.mem_cons.1 hn with rfl | hn
    · rw [h5, if_neg (by rintro (h | h); exact hadm.1 h.symm; exact hadm.2 h)] at hnear
      simp at hnear
    · cases b
      · rcases List.mem_append.1 hn with h | h
        · exact ih1 hSin (by omega) fuel _ _ (by omega) hc1 hA n h hadm
        · exact ih2 hSout (by omega) fuel _ _ (by omega) hc2 hB n h hadm
      · rcases List.mem_append.1 hn with h | h
        · exact ih1 hSin (by omega) fuel _ _ (by omega) hc2 hB n h hadm
        · exact ih2 hSout (by omega) fuel _ _ (by omega) hc1 hA n h hadm

theorem next_all {t : VPTree P D} {S : P → Prop}
    (hmax : ∀ x y z w, S x → S y → S z → S w → DistNum.le (DistNum.absDiff (t.dist x y) (t.dist z w)) t.maxDist = true)
    (hle : ∀ x y, S x → S y → DistNum.le (t.dist x y) t.maxDist = true) (hS : ∀ p ∈ t.intoNodes, S p)
    (ht : ∃ depth, IsVPTree t.dist depth t.nodes ∧ t.nodes.length < 2 ^ (depth + 1)) {it : NNIter P D}
    (hpt : S it.pt) (hc : CacheOK t.dist it.pt it.cache) {p : P} (hp : Cand t it.pt it.exclude p) :
    ∃ q d it', it.next t = (some (q, d), it') := by
  obtain ⟨depth, ht, hdepth⟩ := ht
  obtain ⟨hp1, hp2, hp3, -⟩ := hp
  obtain ⟨n, hn, rfl⟩ := List.mem_map.1 hp1
  have hsound := (nearestInSubtree_sound t.dist t.maxDist it.pt it.exclude t.nodes.length t.nodes 0 it.cache hc).2
  have hnone := nearestInSubtree_none hmax hpt it.exclude ht (fun n hn => hS _ (List.mem_map_of_mem hn)) hdepth
    t.nodes.length 0 it.cache (le_refl _) hc
  unfold NNIter.next VPTree.nearestInImpl
  generalize nearestInSubtree t.dist t.maxDist it.pt it.exclude t.nodes.length t.nodes 0 it.cache = r at hsound hnone ⊢
  obtain ⟨res, cache⟩ := r
  rcases res with _ | ⟨i, d⟩
  · exact absurd ⟨hp2, hp3⟩ (hnone rfl n hn)
  · obtain ⟨k, m, hk, hm', -, rfl⟩ := hsound i d rfl
    simp only [Nat.zero_add] at hk
    subst hk
    simp only [hle _ _ hpt (hS _ (List.mem_map_of_mem (List.mem_of_getElem? hm'))), if_true, hm', Option.map_some]
    exact ⟨_, _, _, rfl⟩

theorem take_all {t : VPTree P D} {S : P → Prop}
    (hmax : ∀ x y z w, S x → S y → S z → S w → DistNum.le (DistNum.absDiff (t.dist x y) (t.dist z w)) t.maxDist = true)
    (hle : ∀ x y, S x → S y → DistNum.le (t.dist x y) t.maxDist = true) (hS : ∀ p ∈ t.intoNodes, S p)
    (ht : ∃ depth, IsVPTree t.dist depth t.nodes ∧ t.nodes.length < 2 ^ (depth + 1)) (n : Nat) :
    ∀ it : NNIter P D, S it.pt → CacheOK t.dist it.pt it.cache → ∀ p, Cand t it.pt it.exclude p →
      p ∉ (it.take t n).map Prod.fst → (it.take t n).length = n := by
  induction n with
  | zero => intro it _ _; simp [NNIter.take]
  | succ n ih =>
    intro it hSit hc
    unfold NNIter.take
    split
    · rename_i x it' hx
      obtain ⟨p, d⟩ := x
      obtain ⟨-, -, hit, hc'⟩ := next_some hc hx
      have hpt : it'.pt = it.pt := by rw [hit]
      have hc'' : CacheOK t.dist it'.pt it'.cache := by rw [hpt]; exact hc'
      intro p' hp' hnot
      rw [List.map_cons, List.mem_cons, not_or] at hnot
      have hp'' : Cand t it'.pt it'.exclude p' := by
        rw [hit]
        exact ⟨hp'.1, hp'.2.1, by simp; exact ⟨hnot.1, hp'.2.2.1⟩, hp'.2.2.2⟩
      simp [ih it' (by rw [hpt]; exact hSit) hc'' p' hp'' hnot.2]
    · rename_i it' hx
      intro p hp
      obtain ⟨q, e, it'', hq⟩ := next_all hmax hle hS ht hSit hc hp
      rw [hx] at hq
      simp at hq

/-- Without a limit on distances, all points are found, in whatever order. -/
theorem nearest_all {t : VPTree P D} {S : P → Prop} {q : P}
    (hmax : ∀ x y z w, S x → S y → S z → S w → DistNum.le (DistNum.absDiff (t.dist x y) (t.dist z w)) t.maxDist = true)
    (hle : ∀ x y, S x → S y → DistNum.le (t.dist x y) t.maxDist = true) (hS : ∀ p ∈ t.intoNodes, S p) (hq : S q)
    (ht : ∃ depth, IsVPTree t.dist depth t.nodes ∧ t.nodes.length < 2 ^ (depth + 1)) (p : P) :
    p ∈ (t.nearest q).map Prod.fst ↔ p ∈ t.intoNodes ∧ p ≠ q := by
  have hs := take_sound t (t.nodes.length + 1) (nearestIn q) (cacheOK_nil _ _)
  constructor
  · intro h
    obtain ⟨x, hx, rfl⟩ := List.mem_map.1 h
    obtain ⟨⟨h1, h2, -, -⟩, -⟩ := hs.2 x hx
    exact ⟨h1, h2⟩
  · rintro ⟨h1, h2⟩
    by_contra hnot
    have hl := take_all hmax hle hS ht (t.nodes.length + 1) (nearestIn q) hq (cacheOK_nil _ _) p
      ⟨h1, h2, by simp [nearestIn], hle _ _ hq (hS p h1)⟩ hnot
    have hsub : ((NNIter.take t (t.nodes.length + 1) (nearestIn q)).map Prod.fst) ⊆ t.intoNodes := by
      intro y hy
      obtain ⟨x, hx, rfl⟩ := List.mem_map.1 hy
      exact (hs.2 x hx).1.1
    have := (hs.1.subperm hsub).length_le
    simp only [List.length_map, VPTree.intoNodes] at this
    omega

end All

end Cres

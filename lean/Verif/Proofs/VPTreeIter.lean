import Verif.Proofs.VPTreeSearch
import Mathlib.Data.List.Nodup
import Mathlib.Data.List.Perm.Subperm

/-!
The neighbour iterator of a vantage-point tree.
-/

set_option linter.unusedSectionVars false

namespace Cres

open Spec

variable {P K : Type*} [DecidableEq P]

section Sound

variable [DistNum K]

/-- `p` can still be yielded by the iterator. -/
def Cand (t : VPTree P K) (q : P) (exclude : List P) (p : P) : Prop :=
  p ∈ t.intoNodes ∧ p ≠ q ∧ p ∉ exclude ∧ DistNum.le (t.dist q p) t.maxDist = true

theorem next_some {t : VPTree P K} {it it' : NNIter P K} (hc : CacheOK t.dist it.pt it.cache) {p : P} {d : K}
    (h : it.next t = (some (p, d), it')) :
    Cand t it.pt it.exclude p ∧ d = t.dist it.pt p ∧ it' = ⟨it.pt, p :: it.exclude, it'.cache⟩ ∧
      CacheOK t.dist it.pt it'.cache := by
  have hs := nearestInSubtree_sound t.dist t.maxDist it.pt it.exclude t.nodes.length t.nodes 0 it.cache hc
  unfold NNIter.next VPTree.nearestInImpl at h
  generalize nearestInSubtree t.dist t.maxDist it.pt it.exclude t.nodes.length t.nodes 0 it.cache = r at hs h
  obtain ⟨res, cache⟩ := r
  obtain ⟨hc', hs⟩ := hs
  rcases res with _ | ⟨i, d'⟩
  · simp at h
  · obtain ⟨k, n, hk, hn, hadm, hd⟩ := hs i d' rfl
    simp only [Nat.zero_add] at hk
    subst hk
    by_cases hle : DistNum.le d' t.maxDist = true
    · simp only [hn, hle, if_true, Option.map_some, Prod.mk.injEq,
        Option.some.injEq] at h
      obtain ⟨⟨h1, h2⟩, h3⟩ := h
      subst h1; subst h2; subst h3
      exact ⟨⟨List.mem_map.2 ⟨n, List.mem_of_getElem? hn, rfl⟩, hadm.1, hadm.2, hd ▸ hle⟩, hd, rfl, hc'⟩
    · simp [hle] at h

/-- Without any assumption on the tree or the distance, the yielded points are distinct candidates with their
true distances. -/
theorem take_sound (t : VPTree P K) (n : Nat) : ∀ it : NNIter P K, CacheOK t.dist it.pt it.cache →
    ((it.take t n).map Prod.fst).Nodup ∧
    ∀ x ∈ it.take t n, Cand t it.pt it.exclude x.1 ∧ x.2 = t.dist it.pt x.1 := by
  induction n with
  | zero => intro it _; simp [NNIter.take]
  | succ n ih =>
    intro it hc
    unfold NNIter.take
    split
    · rename_i x it' hx
      obtain ⟨p, d⟩ := x
      obtain ⟨hcand, hd, hit, hc'⟩ := next_some hc hx
      have hpt : it'.pt = it.pt := by rw [hit]
      obtain ⟨ih1, ih2⟩ := ih it' (by rw [hpt]; exact hc')
      rw [hpt] at ih2
      refine ⟨?_, ?_⟩
      · rw [List.map_cons, List.nodup_cons]
        refine ⟨?_, ih1⟩
        intro hmem
        obtain ⟨y, hy, hyp⟩ := List.mem_map.1 hmem
        have := (ih2 y hy).1.2.2.1
        rw [hit] at this
        simp at this
        exact this.1 hyp
      · intro y hy
        rcases List.mem_cons.1 hy with rfl | hy
        · exact ⟨hcand, hd⟩
        · obtain ⟨⟨h1, h2, h3, h4⟩, h5⟩ := ih2 y hy
          rw [hit] at h3
          simp at h3
          exact ⟨⟨h1, h2, h3.2, h4⟩, h5⟩
    · simp

theorem cacheOK_nil (dist : P → P → K) (pt : P) : CacheOK dist pt [] := by
  intro p d h; simp at h

end Sound

section Optimal

variable [AddCommGroup K] [LinearOrder K] [IsOrderedAddMonoid K]

/-- `t` is searchable: a complete vantage-point tree for its own distance. -/
def Complete (t : VPTree P K) : Prop :=
  ∃ depth, IsVPTree t.dist depth t.nodes ∧ t.nodes.length < 2 ^ (depth + 1)

theorem next_none_or_le {t : VPTree P K} {S : P → Prop} (hm : IsMetricOn S t.dist) (hS : ∀ p ∈ t.intoNodes, S p)
    (ht : Complete t) {it : NNIter P K} (hpt : S it.pt)
    (hc : CacheOK t.dist it.pt it.cache) {p : P} (hp : Cand t it.pt it.exclude p) :
    ∃ q d it', it.next t = (some (q, d), it') ∧ d ≤ t.dist it.pt p := by
  obtain ⟨depth, ht, hdepth⟩ := ht
  obtain ⟨hp1, hp2, hp3, hp4⟩ := hp
  obtain ⟨n, hn, rfl⟩ := List.mem_map.1 hp1
  obtain ⟨i, d, hres, hd⟩ := nearestInSubtree_optimal hm t.maxDist hpt it.exclude ht
    (fun n hn => hS _ (List.mem_map_of_mem hn)) hdepth t.nodes.length 0
    it.cache (le_refl _) hc n hn ⟨hp2, hp3⟩ (by simpa [DistNum.le] using hp4)
  obtain ⟨k, m, hk, hm', -, -⟩ := (nearestInSubtree_sound t.dist t.maxDist it.pt it.exclude t.nodes.length
    t.nodes 0 it.cache hc).2 i d hres
  simp only [Nat.zero_add] at hk
  subst hk
  unfold NNIter.next VPTree.nearestInImpl
  generalize nearestInSubtree t.dist t.maxDist it.pt it.exclude t.nodes.length t.nodes 0 it.cache = r at hres ⊢
  obtain ⟨res, cache⟩ := r
  simp only at hres
  subst hres
  have hp5 : t.dist it.pt n.vantagePt ≤ t.maxDist := by simpa [DistNum.le] using hp4
  simp only [DistNum.le, decide_eq_true_eq, if_pos (hd.trans hp5), hm', Option.map_some]
  exact ⟨_, _, _, rfl, hd⟩

/-- In a complete tree the first `n` yielded points are the `n` nearest. -/
theorem take_complete {t : VPTree P K} {S : P → Prop} (hm : IsMetricOn S t.dist) (hS : ∀ p ∈ t.intoNodes, S p)
    (ht : Complete t) (n : Nat) : ∀ it : NNIter P K, S it.pt → CacheOK t.dist it.pt it.cache →
    (it.take t n).Pairwise (fun a b => a.2 ≤ b.2) ∧
    (∀ p, Cand t it.pt it.exclude p → p ∉ (it.take t n).map Prod.fst →
      (it.take t n).length = n ∧ ∀ x ∈ it.take t n, x.2 ≤ t.dist it.pt p) := by
  induction n with
  | zero => intro it _ _; simp [NNIter.take]
  | succ n ih =>
    intro it hSit hc
    unfold NNIter.take
    split
    · rename_i x it' hx
      obtain ⟨p, d⟩ := x
      obtain ⟨hcand, hd, hit, hc'⟩ := next_some hc hx
      have hpt : it'.pt = it.pt := by rw [hit]
      have hc'' : CacheOK t.dist it'.pt it'.cache := by rw [hpt]; exact hc'
      obtain ⟨ih1, ih2⟩ := ih it' (by rw [hpt]; exact hSit) hc''
      have hle : ∀ p', Cand t it.pt it.exclude p' → d ≤ t.dist it.pt p' := by
        intro p' hp'
        obtain ⟨q, e, it'', hq, he⟩ := next_none_or_le hm hS ht hSit hc hp'
        rw [hx] at hq
        simp only [Prod.mk.injEq, Option.some.injEq] at hq
        rw [hq.1.2]; exact he
      refine ⟨?_, ?_⟩
      · rw [List.pairwise_cons]
        refine ⟨?_, ih1⟩
        intro y hy
        obtain ⟨⟨h1, h2, h3, h4⟩, h5⟩ := (take_sound t n it' hc'').2 y hy
        rw [hpt] at h2 h4 h5
        rw [hit] at h3
        simp at h3
        rw [h5]
        exact hle y.1 ⟨h1, h2, h3.2, h4⟩
      · intro p' hp' hnot
        rw [List.map_cons, List.mem_cons, not_or] at hnot
        have hp'' : Cand t it'.pt it'.exclude p' := by
          rw [hit]
          exact ⟨hp'.1, hp'.2.1, by simp; exact ⟨hnot.1, hp'.2.2.1⟩, hp'.2.2.2⟩
        obtain ⟨h1, h2⟩ := ih2 p' hp'' hnot.2
        refine ⟨by simp [h1], ?_⟩
        intro y hy
        rcases List.mem_cons.1 hy with rfl | hy
        · exact hle p' hp'
        · rw [← hpt]; exact h2 y hy
    · rename_i it' hx
      refine ⟨by simp, ?_⟩
      intro p hp
      obtain ⟨q, e, it'', hq, -⟩ := next_none_or_le hm hS ht hSit hc hp
      rw [hx] at hq
      simp at hq

/-- The full enumeration in a complete tree meets the specification. -/
theorem nearest_isNeighbourList_on {t : VPTree P K} {q : P} (hm : IsMetricOn (fun p => p = q ∨ p ∈ t.intoNodes) t.dist)
    (ht : Complete t) :
    IsNeighbourList t.dist t.intoNodes q t.maxDist (t.nearest q) := by
  have hs := take_sound t (t.nodes.length + 1) (nearestIn q) (cacheOK_nil _ _)
  have hcpl := take_complete hm (fun p hp => Or.inr hp) ht (t.nodes.length + 1) (nearestIn q) (Or.inl rfl) (cacheOK_nil _ _)
  refine ⟨hs.1, ?_, fun x hx => (hs.2 x hx).2, hcpl.1⟩
  intro p
  constructor
  · intro h
    obtain ⟨x, hx, rfl⟩ := List.mem_map.1 h
    obtain ⟨⟨h1, h2, -, h4⟩, -⟩ := hs.2 x hx
    exact ⟨h1, h2, of_decide_eq_true h4⟩
  · rintro ⟨h1, h2, h3⟩
    by_contra hnot
    obtain ⟨hl, -⟩ := hcpl.2 p ⟨h1, h2, by simp [nearestIn], decide_eq_true h3⟩ hnot
    have hsub : ((NNIter.take t (t.nodes.length + 1) (nearestIn q)).map Prod.fst) ⊆ t.intoNodes := by
      intro y hy
      obtain ⟨x, hx, rfl⟩ := List.mem_map.1 hy
      exact (hs.2 x hx).1.1
    have := (hs.1.subperm hsub).length_le
    simp only [List.length_map, VPTree.intoNodes] at this
    omega

theorem IsMetricLike.on {dist : P → P → K} (h : IsMetricLike dist) (S : P → Prop) : IsMetricOn S dist :=
  ⟨fun x y _ _ => h.symm x y, fun x y z _ _ _ => h.triangle x y z⟩

theorem nearest_isNeighbourList {t : VPTree P K} (hm : IsMetricLike t.dist) (ht : Complete t) (q : P) :
    IsNeighbourList t.dist t.intoNodes q t.maxDist (t.nearest q) := nearest_isNeighbourList_on (IsMetricLike.on hm _) ht

/-- Taking more items only extends the list. -/
theorem take_prefix (t : VPTree P K) (n m : Nat) (hnm : n ≤ m) : ∀ it : NNIter P K,
    it.take t n = (it.take t m).take n := by
  induction n generalizing m with
  | zero => intro it; simp [NNIter.take]
  | succ n ih =>
    intro it
    obtain ⟨m, rfl⟩ : ∃ m', m = m' + 1 := ⟨m - 1, by omega⟩
    unfold NNIter.take
    split
    · rw [List.take_succ_cons, ← ih m (by omega)]
    · simp

end Optimal

end Cres

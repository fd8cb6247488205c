import Verif.Proofs.VPTreeIter

/-!
Depth-limited trees: which points the search can reach; range of the stored offsets.
-/

set_option linter.unusedSectionVars false

namespace Cres

open Spec

variable {P K : Type*} [DecidableEq P]

theorem isVPTree_offsets [LE K] {dist : P → P → K} {depth : Nat} {nodes : List (Node P K)}
    (h : IsVPTree dist depth nodes) : ∀ i n c, nodes[i]? = some n → n.children = some c →
      i + 1 + c.outsideOffset < nodes.length := by
  induction h with
  | leaf depth nodes h hc =>
    intro i n c hn hnc
    rw [hc n (List.mem_of_getElem? hn)] at hnc
    simp at hnc
  | node depth p r inside outside hin hout hr hsize h1 h2 ih1 ih2 =>
    intro i n c hn hnc
    have hpos : 0 < outside.length := by
      obtain ⟨x, hx, -⟩ := hr
      exact List.length_pos_of_mem hx
    simp only [List.length_cons, List.length_append]
    cases i with
    | zero =>
      simp only [List.getElem?_cons_zero, Option.some.injEq] at hn
      subst hn
      simp only [Option.some.injEq] at hnc
      subst hnc
      simp only
      omega
    | succ i =>
      rw [List.getElem?_cons_succ] at hn
      by_cases hi : i < inside.length
      · rw [List.getElem?_append_left hi] at hn
        have := ih1 i n c hn hnc
        omega
      · rw [List.getElem?_append_right (by omega)] at hn
        have := ih2 _ n c hn hnc
        omega

section
variable [DistNum K]

/-- The index returned lies in the searched slice. -/
theorem nearestInSubtree_range (dist : P → P → K) (maxDist : K) (pt : P) (exclude : List P) (fuel : Nat)
    (sub : List (Node P K)) (idx : Nat) (cache : List (P × K)) (hc : CacheOK dist pt cache) (i : Nat) (d : K)
    (h : (nearestInSubtree dist maxDist pt exclude fuel sub idx cache).1 = some (i, d)) :
    idx ≤ i ∧ i < idx + sub.length := by
  obtain ⟨k, n, rfl, hk, -⟩ :=
    (nearestInSubtree_sound dist maxDist pt exclude fuel sub idx cache hc).2 i d h
  have := (List.getElem?_eq_some_iff.1 hk).1
  omega

theorem nearer_some {T : Type*} {a b : Option (T × K)} {x : T × K} (h : nearer a b = some x) :
    a = some x ∨ b = some x := by
  rcases nearer_eq_or a b with h' | h' <;> rw [h'] at h
  · exact Or.inl h
  · exact Or.inr h

/-- In a tree with more than `2^(depth+1) - 1` nodes some position is never returned by the search. -/
theorem unreachable_position [LE K] {dist : P → P → K} {depth : Nat} {sub : List (Node P K)}
    (ht : IsVPTree dist depth sub) : 2 ^ (depth + 1) ≤ sub.length → ∃ k, k < sub.length ∧
      ∀ maxDist pt exclude fuel idx cache d, CacheOK dist pt cache →
        (nearestInSubtree dist maxDist pt exclude fuel sub idx cache).1 ≠ some (idx + k, d) := by
  induction ht with
  | leaf depth nodes h hc =>
    intro hlen
    have h2 : 2 ≤ nodes.length := by
      have : 1 ≤ 2 ^ depth := Nat.one_le_two_pow
      rw [pow_succ] at hlen; omega
    refine ⟨1, by omega, ?_⟩
    intro maxDist pt exclude fuel idx cache d hcache heq
    cases fuel with
    | zero => simp [nearestInSubtree] at heq
    | succ fuel =>
      match nodes, hc, h2 with
      | a :: b :: l, hc, h2 =>
        simp only [nearestInSubtree, hc a List.mem_cons_self] at heq
        split at heq
        · simp at heq
        · simp only [Option.some.injEq, Prod.mk.injEq] at heq; omega
  | node depth p r inside outside hin hout hr hsize h1 h2 ih1 ih2 =>
    intro hlen
    simp only [List.length_cons, List.length_append] at hlen
    rw [pow_succ] at hlen
    have hout2 : 2 ^ (depth + 1) ≤ outside.length := by clear ih1 ih2 hr; omega
    obtain ⟨k, hk, hun⟩ := ih2 hout2
    refine ⟨inside.length + 1 + k, by simp only [List.length_cons, List.length_append]; omega, ?_⟩
    intro maxDist pt exclude fuel idx cache d hcache heq
    cases fuel with
    | zero => simp [nearestInSubtree] at heq
    | succ fuel =>
      obtain ⟨-, hc1⟩ := cachedDist_spec hcache p
      simp only [nearestInSubtree] at heq
      rw [List.take_left' rfl, List.drop_left' rfl] at heq
      generalize cachedDist dist pt p cache = cd at hc1 heq
      obtain ⟨dd, cache1⟩ := cd
      simp only at hc1 heq
      have h0 : ∀ i e, (if pt = p ∨ p ∈ exclude then none else some (idx, dd)) = some (i, e) → i = idx := by
        intro i e h
        split at h
        · simp at h
        · simp only [Option.some.injEq, Prod.mk.injEq] at h; omega
      generalize (if pt = p ∨ p ∈ exclude then none else some (idx, dd)) = near0 at h0 heq
      -- neither recursive call returns the position
      have hsub : ∀ (b : Bool) cache', CacheOK dist pt cache' →
          (nearestInSubtree dist maxDist pt exclude fuel (if b = true then outside else inside)
            (idx + if b = true then inside.length + 1 else 1) cache').1 ≠ some (idx + (inside.length + 1 + k), d) := by
        intro b cache' hc' h
        cases b
        · simp only [Bool.false_eq_true, if_false] at h
          have := nearestInSubtree_range dist maxDist pt exclude fuel inside (idx + 1) cache' hc' _ _ h
          omega
        · simp only [if_true] at h
          refine hun maxDist pt exclude fuel (idx + (inside.length + 1)) cache' d hc' ?_
          rw [h, ← Nat.add_assoc]
      generalize DistNum.lt r dd = b at heq
      have e1 : (if b = true then inside else outside) = (if (!b) = true then outside else inside) := by
        cases b <;> rfl
      have e2 : (if b = true then 1 else inside.length + 1) = (if (!b) = true then inside.length + 1 else 1) := by
        cases b <;> rfl
      rw [e1, e2] at heq
      have hA := hsub b cache1 hc1
      have hc2 := (nearestInSubtree_sound dist maxDist pt exclude fuel (if b = true then outside else inside)
        (idx + if b = true then inside.length + 1 else 1) cache1 hc1).1
      generalize nearestInSubtree dist maxDist pt exclude fuel (if b = true then outside else inside)
        (idx + if b = true then inside.length + 1 else 1) cache1 = r1 at hA hc2 heq
      obtain ⟨pref, cache2⟩ := r1
      simp only at hA hc2 heq
      have hB := hsub (!b) cache2 hc2
      generalize nearestInSubtree dist maxDist pt exclude fuel (if (!b) = true then outside else inside)
        (idx + if (!b) = true then inside.length + 1 else 1) cache2 = r2 at hB heq
      obtain ⟨other, cache3⟩ := r2
      simp only at hB heq
      have hn1 : nearer near0 pref ≠ some (idx + (inside.length + 1 + k), d) := by
        intro h
        rcases nearer_some h with h | h
        · have := h0 _ _ h; omega
        · exact hA h
      generalize nearer near0 pref = near1 at hn1 heq
      have hn2 : nearer near1 other ≠ some (idx + (inside.length + 1 + k), d) := by
        intro h
        rcases nearer_some h with h | h
        · exact hn1 h
        · exact hB h
      split at heq
      · exact hn1 heq
      · rcases near1 with _ | ⟨i, dn⟩
        · simp only [Bool.false_eq_true, if_false] at heq
          exact hn2 heq
        · simp only at heq
          split at heq
          · exact hn1 heq
          · exact hn2 heq

/-- The point at an unreachable position is never yielded. -/
theorem unreachable_point [LE K] {t : VPTree P K} {depth : Nat} (ht : IsVPTree t.dist depth t.nodes)
    (hnd : t.intoNodes.Nodup) (hlen : 2 ^ (depth + 1) ≤ t.nodes.length) :
    ∃ p ∈ t.intoNodes, ∀ n q, p ∉ (NNIter.take t n (nearestIn q)).map Prod.fst := by
  obtain ⟨k, hk, hun⟩ := unreachable_position ht hlen
  refine ⟨t.nodes[k].vantagePt, List.mem_map.2 ⟨_, List.getElem_mem hk, rfl⟩, ?_⟩
  intro n q
  have key : ∀ n (it : NNIter P K), CacheOK t.dist it.pt it.cache →
      t.nodes[k].vantagePt ∉ (it.take t n).map Prod.fst := by
    intro n
    induction n with
    | zero => intro it _; simp [NNIter.take]
    | succ n ih =>
      intro it hc
      unfold NNIter.take
      split
      · rename_i x it' hx
        obtain ⟨p, d⟩ := x
        obtain ⟨hcand, hd, hit, hc'⟩ := next_some hc hx
        have hc'' : CacheOK t.dist it'.pt it'.cache := by
          rw [show it'.pt = it.pt by rw [hit]]; exact hc'
        rw [List.map_cons, List.mem_cons, not_or]
        refine ⟨?_, ih it' hc''⟩
        intro hp
        -- the yielded point sits at position `k`
        have hs := nearestInSubtree_sound t.dist t.maxDist it.pt it.exclude t.nodes.length t.nodes 0 it.cache hc
        have hk' := hun t.maxDist it.pt it.exclude t.nodes.length 0 it.cache
        unfold NNIter.next VPTree.nearestInImpl at hx
        generalize nearestInSubtree t.dist t.maxDist it.pt it.exclude t.nodes.length t.nodes 0 it.cache = r
          at hs hx hk'
        obtain ⟨res, cache⟩ := r
        obtain ⟨-, hs⟩ := hs
        rcases res with _ | ⟨i, d'⟩
        · simp at hx
        · obtain ⟨j, m, hj, hm, -, -⟩ := hs i d' rfl
          simp only [Nat.zero_add] at hj hk'
          subst hj
          have hik : i ≠ k := by
            rintro rfl
            exact hk' d' hc rfl
          by_cases hle : DistNum.le d' t.maxDist = true
          · simp only [hm, hle, if_true, Option.map_some, Prod.mk.injEq, Option.some.injEq] at hx
            obtain ⟨hi, hmi⟩ := List.getElem?_eq_some_iff.1 hm
            have h1 : t.intoNodes[i]? = some p := by
              simp [VPTree.intoNodes, hm, hx.1.1]
            have h2 : t.intoNodes[k]? = some p := by
              simp [VPTree.intoNodes, List.getElem?_eq_getElem hk, hp]
            have hli : i < t.intoNodes.length := by simpa [VPTree.intoNodes] using hi
            exact hik ((List.getElem?_inj hli hnd).1 (h1.trans h2.symm))
          · simp [hle] at hx
      · simp
  exact key n (nearestIn q) (cacheOK_nil _ _)

end

end Cres

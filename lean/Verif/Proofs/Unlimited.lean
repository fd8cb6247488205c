import Verif.Model.Program
import Verif.Proofs.VPTreeBuild

/-!
The maximum size of cells does not matter if it is not less than all distances (for C102).
-/

namespace Cres

open Spec

section Tree

variable {P K : Type*} [DecidableEq P] [DistNum K] {m m' : K}

theorem cachedDist_good {dist : P → P → K} {pt p : P} {cache : List (P × K)} {G : K → Prop} (hd : G (dist pt p))
    (hc : ∀ x ∈ cache, G x.2) : G (cachedDist dist pt p cache).1 ∧ ∀ x ∈ (cachedDist dist pt p cache).2, G x.2 := by
  unfold cachedDist
  cases h : cache.lookup p with
  | none =>
    refine ⟨hd, ?_⟩
    intro x hx
    rcases List.mem_cons.1 hx with rfl | hx
    · exact hd
    · exact hc x hx
  | some d =>
    refine ⟨?_, hc⟩
    obtain ⟨y, hy, hy'⟩ : ∃ y ∈ cache, y.2 = d := by
      clear hc hd
      induction cache with
      | nil => simp at h
      | cons a l ih =>
        obtain ⟨q, v⟩ := a
        rw [List.lookup_cons] at h
        split at h
        · exact ⟨(q, v), by simp, by simpa using h⟩
        · obtain ⟨y, h1, h2⟩ := ih h
          exact ⟨y, by simp [h1], h2⟩
    exact hy' ▸ hc y hy

theorem nearer_good {T : Type*} {G : K → Prop} {a b : Option (T × K)} (ha : ∀ x, a = some x → G x.2) (hb : ∀ x, b = some x → G x.2) :
    ∀ x, nearer a b = some x → G x.2 := by
  intro x hx
  rcases a with _ | ⟨i, d1⟩ <;> rcases b with _ | ⟨j, d2⟩ <;> simp only [nearer] at hx
  · simp at hx
  · exact hb x hx
  · exact ha x hx
  · split at hx
    · exact ha x hx
    · exact hb x hx

/-- A node of a tree in which all distances satisfy `G`. -/
def GoodNode (dist : P → P → K) (pt : P) (G : K → Prop) (n : Node P K) : Prop :=
  G (dist pt n.vantagePt) ∧ ∀ ch, n.children = some ch → G ch.radius

theorem nearestInSubtree_maxDist {dist : P → P → K} {pt : P} {exclude : List P} {G : K → Prop}
    (hle : ∀ a b, G a → G b → DistNum.le (DistNum.absDiff a b) m = true ∧ DistNum.le (DistNum.absDiff a b) m' = true) :
    ∀ (fuel : Nat) (tree : List (Node P K)) (idx : Nat) (cache : List (P × K)), (∀ n ∈ tree, GoodNode dist pt G n) →
      (∀ x ∈ cache, G x.2) →
      nearestInSubtree dist m pt exclude fuel tree idx cache = nearestInSubtree dist m' pt exclude fuel tree idx cache ∧
      (∀ x, (nearestInSubtree dist m pt exclude fuel tree idx cache).1 = some x → G x.2) ∧
      ∀ x ∈ (nearestInSubtree dist m pt exclude fuel tree idx cache).2, G x.2
  | 0, _, _, cache, _, hc => ⟨rfl, by simp [nearestInSubtree], hc⟩
  | _ + 1, [], _, cache, _, hc => ⟨rfl, by simp [nearestInSubtree], hc⟩
  | fuel + 1, node :: tree, idx, cache, ht, hc => by
    obtain ⟨hn1, hn2⟩ := ht node (by simp)
    obtain ⟨hd, hc1⟩ := cachedDist_good hn1 hc
    rw [nearestInSubtree, nearestInSubtree]
    generalize hcd : cachedDist dist pt node.vantagePt cache = cd at hd hc1
    obtain ⟨d, cache1⟩ := cd
    simp only at hd hc1 ⊢
    have hnear : ∀ x, (if pt = node.vantagePt ∨ node.vantagePt ∈ exclude then none else some (idx, d)) = some x → G x.2 := by
      intro x hx
      split_ifs at hx
      cases hx
      exact hd
    generalize (if pt = node.vantagePt ∨ node.vantagePt ∈ exclude then none else some (idx, d)) = near at hnear
    cases hch : node.children with
    | none => exact ⟨rfl, hnear, hc1⟩
    | some ch =>
      have hr := hn2 ch hch
      have hsub : ∀ n ∈ tree, GoodNode dist pt G n := fun n hn => ht n (by simp [hn])
      have htake : ∀ n ∈ tree.take ch.outsideOffset, GoodNode dist pt G n := fun n hn => hsub n (List.mem_of_mem_take hn)
      have hdrop : ∀ n ∈ tree.drop ch.outsideOffset, GoodNode dist pt G n := fun n hn => hsub n (List.mem_of_mem_drop hn)
      simp only
      have key : ∀ (sub0 sub1 : List (Node P K)) (i0 i1 : Nat), (∀ n ∈ sub0, GoodNode dist pt G n) → (∀ n ∈ sub1, GoodNode dist pt G n) →
          let f := fun m : K =>
            let r := nearestInSubtree dist m pt exclude fuel sub0 i0 cache1
            if DistNum.le (DistNum.absDiff d ch.radius) m = false then (nearer near r.1, r.2)
            else if (match nearer near r.1 with
                | some (_, dn) => DistNum.lt dn (DistNum.absDiff ch.radius d)
                | none => false) = true then (nearer near r.1, r.2)
            else
              let o := nearestInSubtree dist m pt exclude fuel sub1 i1 r.2
              (nearer (nearer near r.1) o.1, o.2)
          f m = f m' ∧ (∀ x, (f m).1 = some x → G x.2) ∧ ∀ x ∈ (f m).2, G x.2 := by
        intro sub0 sub1 i0 i1 h0 h1
        obtain ⟨e0, r0, c0⟩ := nearestInSubtree_maxDist hle fuel sub0 i0 cache1 h0 hc1
        simp only
        rw [← e0]
        have hr1 := nearer_good hnear r0
        obtain ⟨e1, r1, c1⟩ := nearestInSubtree_maxDist hle fuel sub1 i1 _ h1 c0
        rw [(hle d ch.radius hd hr).1, (hle d ch.radius hd hr).2, ← e1]
        refine ⟨rfl, ?_, ?_⟩
        · intro x hx
          rw [if_neg (by simp)] at hx
          split at hx
          · split_ifs at hx
            · exact hr1 x hx
            · exact nearer_good hr1 r1 x hx
          · simp only [Bool.false_eq_true, if_false] at hx
            exact nearer_good hr1 r1 x hx
        · intro x hx
          rw [if_neg (by simp)] at hx
          split at hx
          · split_ifs at hx
            · exact c0 x hx
            · exact c1 x hx
          · simp only [Bool.false_eq_true, if_false] at hx
            exact c1 x hx
      by_cases hs : DistNum.lt ch.radius d = true
      · simp only [hs, if_true]
        exact key _ _ _ _ hdrop htake
      · simp only [hs, Bool.false_eq_true, if_false]
        exact key _ _ _ _ htake hdrop

theorem nearestInImpl_maxDist {t : VPTree P K} {pt : P} {exclude : List P} {G : K → Prop}
    (hle : ∀ a b, G a → G b → DistNum.le (DistNum.absDiff a b) m = true ∧ DistNum.le (DistNum.absDiff a b) m' = true)
    (hle' : ∀ a, G a → DistNum.le a m = true ∧ DistNum.le a m' = true)
    (ht : ∀ n ∈ t.nodes, GoodNode t.dist pt G n) {cache : List (P × K)} (hc : ∀ x ∈ cache, G x.2) :
    (t.withMaxDist m).nearestInImpl pt exclude cache = (t.withMaxDist m').nearestInImpl pt exclude cache ∧
    ∀ x ∈ ((t.withMaxDist m).nearestInImpl pt exclude cache).2, G x.2 := by
  obtain ⟨h1, h2, h3⟩ := nearestInSubtree_maxDist (exclude := exclude) hle t.nodes.length t.nodes 0 cache ht hc
  unfold VPTree.nearestInImpl VPTree.withMaxDist
  simp only
  rw [← h1]
  generalize nearestInSubtree t.dist m pt exclude t.nodes.length t.nodes 0 cache = r at h2 h3
  obtain ⟨o, c⟩ := r
  cases o with
  | none => exact ⟨rfl, h3⟩
  | some x =>
    obtain ⟨i, d⟩ := x
    obtain ⟨g1, g2⟩ := hle' d (h2 _ rfl)
    simp only [g1, g2, if_true]
    exact ⟨trivial, h3⟩

theorem NNIter.take_maxDist {t : VPTree P K} {G : K → Prop}
    (hle : ∀ a b, G a → G b → DistNum.le (DistNum.absDiff a b) m = true ∧ DistNum.le (DistNum.absDiff a b) m' = true)
    (hle' : ∀ a, G a → DistNum.le a m = true ∧ DistNum.le a m' = true) :
    ∀ (n : Nat) (it : NNIter P K), (∀ n ∈ t.nodes, GoodNode t.dist it.pt G n) → (∀ x ∈ it.cache, G x.2) →
    NNIter.take (t.withMaxDist m) n it = NNIter.take (t.withMaxDist m') n it
  | 0, _, _, _ => rfl
  | n + 1, it, ht, hc => by
    obtain ⟨h1, h2⟩ := nearestInImpl_maxDist (exclude := it.exclude) hle hle' ht hc
    rw [NNIter.take, NNIter.take, NNIter.next, NNIter.next, ← h1]
    generalize (t.withMaxDist m).nearestInImpl it.pt it.exclude it.cache = r at h2
    obtain ⟨o, c⟩ := r
    cases o with
    | none => rfl
    | some x =>
      obtain ⟨p, d⟩ := x
      simp only
      rw [NNIter.take_maxDist hle hle' n { it with exclude := p :: it.exclude, cache := c } ht h2]

end Tree

section Build

variable {P K : Type*}

theorem buildTree_radii {sort : SortOracle P K} (hs : ∀ c l, (sort c l).Perm l) {dist : P → P → K} {S : P → Prop} {G : K → Prop}
    (hG : ∀ a b, S a → S b → G (dist a b)) (depth : Nat) : ∀ (call : Nat) (pts : List (K × Node P K)),
    (∀ x ∈ pts, S x.2.vantagePt ∧ ∀ ch, x.2.children = some ch → G ch.radius) →
    ∀ x ∈ buildTree sort dist depth call pts, S x.2.vantagePt ∧ ∀ ch, x.2.children = some ch → G ch.radius := by
  induction depth with
  | zero => intro call pts h; exact h
  | succ depth ih =>
    intro call pts h
    by_cases hlen : 2 ≤ pts.length
    · obtain ⟨vp, rest, first, hsw, hl, hfirst, heq⟩ := buildTree_succ sort dist depth call pts hlen hs
      rw [heq]
      have hmem : ∀ x ∈ vp :: rest, x ∈ pts := by
        intro x hx
        rw [← hsw] at hx
        exact (swap_mem _ _ _ _).1 hx
      have hvp := h vp (hmem vp (by simp))
      have hrest : ∀ x ∈ sort call (rest.map (fun x => (dist vp.2.vantagePt x.2.vantagePt, x.2))),
          G x.1 ∧ S x.2.vantagePt ∧ ∀ ch, x.2.children = some ch → G ch.radius := by
        intro x hx
        rw [(hs _ _).mem_iff] at hx
        obtain ⟨y, hy, rfl⟩ := List.mem_map.1 hx
        have := h y (hmem y (by simp [hy]))
        exact ⟨hG _ _ hvp.1 this.1, this⟩
      intro x hx
      rcases List.mem_cons.1 hx with rfl | hx
      · refine ⟨hvp.1, ?_⟩
        rintro ch ⟨⟩
        exact (hrest first (List.mem_of_mem_drop (List.mem_of_mem_head? hfirst))).1
      · rcases List.mem_append.1 hx with hx | hx
        · exact ih _ _ (fun y hy => (hrest y (List.mem_of_mem_take hy)).2) x hx
        · exact ih _ _ (fun y hy => (hrest y (List.mem_of_mem_drop hy)).2) x hx
    · rw [buildTree, if_pos (by omega)]
      exact h

theorem parNew_good [Zero K] {psort sort : SortOracle P K} (hp : ∀ c l, (psort c l).Perm l) (hs : ∀ c l, (sort c l).Perm l)
    {dist : P → P → K} {G : K → Prop} (cornerPt : Nat) (f64Max : K) (pts : List P) (pt : P)
    (hG : ∀ a ∈ pt :: pts, ∀ b ∈ pt :: pts, G (dist a b)) :
    ∀ n ∈ (VPTree.parNew psort sort cornerPt f64Max pts dist).nodes, GoodNode dist pt G n := by
  unfold VPTree.parNew VPTree.fromParIterWithDistAndDepth
  simp only
  rw [parBuildTree_eq _ _ _ _ _ _ (fun c l => (hs c l).length_eq) (fun c l => (hp c l).length_eq)]
  intro n hn
  obtain ⟨x, hx, rfl⟩ := List.mem_map.1 hn
  have := buildTree_radii (sort := fun c l => if l.length + 1 < parMinSize then sort c l else psort c l) (S := (· ∈ pts)) (G := G)
    (by intro c l; split_ifs; exacts [hs c l, hp c l])
    (fun a b ha hb => hG a (by simp [ha]) b (by simp [hb])) _ _ _
    (by
      intro y hy
      rw [swap_mem] at hy
      obtain ⟨p, hp, rfl⟩ := List.mem_map.1 hy
      exact ⟨hp, by simp⟩) x hx
  exact ⟨hG pt (by simp) _ (by simp [this.1]), this.2⟩

end Build

section Naive

variable {K : Type*} [Zero K] [DistNum K] {m m' : K}

theorem NaiveIter.take_maxDist {minPos : MinOracle K} {d : List (Nat × K)}
    (hle : ∀ i, DistNum.le (d.getD i (0, 0)).2 m = true ∧ DistNum.le (d.getD i (0, 0)).2 m' = true) :
    ∀ (n : Nat) (c : List Nat), NaiveIter.take minPos n ⟨d, c, m⟩ = NaiveIter.take minPos n ⟨d, c, m'⟩
  | 0, _ => rfl
  | n + 1, c => by
    have hdist : ∀ i mm, NaiveIter.distOf ⟨d, c, mm⟩ i = (d.getD i (0, 0)).2 := fun _ _ => rfl
    rw [NaiveIter.take, NaiveIter.take, NaiveIter.next, NaiveIter.next]
    have hmap : ∀ mm, c.map (NaiveIter.distOf ⟨d, c, mm⟩) = c.map fun i => (d.getD i (0, 0)).2 := fun _ => rfl
    simp only [hmap]
    cases minPos c (c.map fun i => (d.getD i (0, 0)).2) with
    | none => rfl
    | some pos =>
      simp only
      cases c[pos]? with
      | none => rfl
      | some idx =>
        simp only [hdist]
        rw [if_pos (hle idx).1, if_pos (hle idx).2]
        simp only
        rw [NaiveIter.take_maxDist hle n]

end Naive

variable {K V D : Type*} [Zero D] [LinearOrder D] [DistNum D] [ExactComparison D] {m m' : D}

/-- The result of both searches does not depend on a maximum distance that is not less than all distances. -/
theorem nearest_maxDist {search : SearchAlgo D}
    (hs : match search with | .naive _ => True | .tree psort sort _ _ => (∀ c l, (psort c l).Perm l) ∧ ∀ c l, (sort c l).Perm l)
    (habs : ∀ a b : D, 0 ≤ a → 0 ≤ b → a ≤ min m m' → b ≤ min m m' → DistNum.absDiff a b ≤ max a b) {dist : Event K V → Event K V → D}
    {events : List (Event K V)} (h0 : 0 ≤ m) (h0' : 0 ≤ m')
    (hd : ∀ e ∈ events, ∀ e' ∈ events, 0 ≤ dist e e' ∧ dist e e' ≤ m ∧ dist e e' ≤ m') :
    search.nearest dist m events = search.nearest dist m' events := by
  have hw : ∀ i j, 0 ≤ distWrapper dist events i j ∧ distWrapper dist events i j ≤ m ∧ distWrapper dist events i j ≤ m' := by
    intro i j
    unfold distWrapper
    split
    · rename_i e e' h1 h2
      exact hd e (List.mem_of_getElem? h1) e' (List.mem_of_getElem? h2)
    · exact ⟨le_refl _, h0, h0'⟩
  cases search with
  | naive minPos =>
    funext point
    simp only [SearchAlgo.nearest, naiveNearest, NaiveIter.new]
    apply NaiveIter.take_maxDist
    intro i
    simp only [ExactComparison.le_eq, decide_eq_true_eq]
    rw [List.getD_eq_getElem?_getD, List.getElem?_map, List.getElem?_map]
    cases hi : (List.range events.length)[i]? with
    | none => exact ⟨h0, h0'⟩
    | some j => exact (hw j point).2
  | tree psort sort cornerPt f64Max =>
    funext point
    simp only at hs
    simp only [SearchAlgo.nearest, treeNearest, VPTree.nearest]
    have hgood := parNew_good hs.1 hs.2 (dist := distWrapper dist events) (G := fun a => 0 ≤ a ∧ a ≤ m ∧ a ≤ m') cornerPt f64Max
      (List.range events.length) point (fun a _ b _ => hw a b)
    apply NNIter.take_maxDist (G := fun a => 0 ≤ a ∧ a ≤ m ∧ a ≤ m') _ _ _ _ hgood
    · simp [nearestIn]
    · intro a b ha hb
      simp only [ExactComparison.le_eq, decide_eq_true_eq]
      have := habs a b ha.1 hb.1 (le_min ha.2.1 ha.2.2) (le_min hb.2.1 hb.2.2)
      exact ⟨this.trans (max_le ha.2.1 hb.2.1), this.trans (max_le ha.2.2 hb.2.2)⟩
    · intro a ha
      simp only [ExactComparison.le_eq, decide_eq_true_eq]
      exact ha.2

end Cres

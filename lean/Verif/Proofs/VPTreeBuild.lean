import Verif.Spec.Tree
import Mathlib.Data.List.Perm.Basic
import Mathlib.Data.List.TakeDrop
import Mathlib.Tactic.Linarith

/-!
Lemmas on the construction of vantage-point trees.
-/

namespace Cres

open Spec

/-- `slice::swap` is a permutation. -/
theorem swap_perm {α : Type*} (l : List α) (i j : Nat) : (swap l i j).Perm l := by
  unfold swap
  split
  · rename_i a b ha hb
    obtain ⟨hi, rfl⟩ := List.getElem?_eq_some_iff.1 ha
    obtain ⟨hj, rfl⟩ := List.getElem?_eq_some_iff.1 hb
    exact List.set_set_perm hi hj
  · exact List.Perm.refl _

theorem swap_length {α : Type*} (l : List α) (i j : Nat) : (swap l i j).length = l.length :=
  (swap_perm l i j).length_eq

variable {P K : Type*}

/-- One unfolding of `buildTree` in a form convenient for induction. -/
theorem buildTree_succ (sort : SortOracle P K) (dist : P → P → K) (depth call : Nat)
    (pts : List (K × Node P K)) (hlen : 2 ≤ pts.length) (hs : ∀ c l, (sort c l).Perm l) :
    ∃ vp rest first, swap pts 0 (pts.length - 1) = vp :: rest ∧
      let rest' := sort call (rest.map (fun x => (dist vp.2.vantagePt x.2.vantagePt, x.2)))
      rest'.length = pts.length - 1 ∧
      (rest'.drop (rest'.length / 2)).head? = some first ∧
      buildTree sort dist (depth + 1) call pts =
        (vp.1, { vp.2 with children := some ⟨first.1, rest'.length / 2⟩ })
          :: (buildTree sort dist depth (2 * call + 1) (rest'.take (rest'.length / 2))
            ++ buildTree sort dist depth (2 * call + 2) (rest'.drop (rest'.length / 2))) := by
  have hl := swap_length pts 0 (pts.length - 1)
  match hsw : swap pts 0 (pts.length - 1) with
  | [] => rw [hsw] at hl; simp at hl; omega
  | vp :: rest =>
    rw [hsw] at hl
    have hl' : (sort call (rest.map (fun x => (dist vp.2.vantagePt x.2.vantagePt, x.2)))).length
        = pts.length - 1 := by
      rw [(hs _ _).length_eq]; simp at hl ⊢; omega
    have hd : ((sort call (rest.map (fun x => (dist vp.2.vantagePt x.2.vantagePt, x.2)))).drop
        ((sort call (rest.map (fun x => (dist vp.2.vantagePt x.2.vantagePt, x.2)))).length / 2)) ≠ [] := by
      intro h
      have := congrArg List.length h
      simp only [List.length_drop, List.length_nil] at this
      omega
    obtain ⟨first, tl, htl⟩ := List.exists_cons_of_ne_nil hd
    refine ⟨vp, rest, first, rfl, hl', by rw [htl]; rfl, ?_⟩
    conv => lhs; unfold buildTree
    rw [if_neg (by omega), hsw]
    simp only []
    rw [htl]

/-- Parallel construction is sequential construction with a sort that is the parallel one on long slices. -/
theorem parBuildTree_eq (psort sort : SortOracle P K) (dist : P → P → K) (depth : Nat) :
    ∀ call pts, (∀ c l, (sort c l).length = l.length) → (∀ c l, (psort c l).length = l.length) →
    parBuildTree psort sort dist depth call pts =
      buildTree (fun c l => if l.length + 1 < parMinSize then sort c l else psort c l) dist depth call pts := by
  induction depth with
  | zero => intros; rfl
  | succ depth ih =>
    intro call pts h1 h2
    -- sequential construction below the threshold only sorts short slices
    have hsmall : ∀ depth call (pts : List (K × Node P K)), pts.length < parMinSize →
        buildTree sort dist depth call pts =
        buildTree (fun c l => if l.length + 1 < parMinSize then sort c l else psort c l) dist depth call pts := by
      intro depth
      induction depth with
      | zero => intros; rfl
      | succ depth ih =>
        intro call pts hp
        have hl := swap_length pts 0 (pts.length - 1)
        unfold buildTree
        by_cases h : pts.length < 2
        · simp [h]
        · simp only [h, if_false]
          match hsw : swap pts 0 (pts.length - 1) with
          | [] => rfl
          | vp :: rest =>
            rw [hsw] at hl
            simp only [List.length_cons] at hl
            simp only [List.length_map]
            rw [if_pos (by omega)]
            split
            · rfl
            · congr 1
              rw [ih, ih]
              · simp only [List.length_drop, h1, List.length_map]; omega
              · simp only [List.length_take, h1, List.length_map]; omega
    by_cases hp : pts.length < parMinSize
    · rw [parBuildTree, if_pos hp, hsmall _ _ _ hp]
    · have hl := swap_length pts 0 (pts.length - 1)
      rw [parBuildTree, if_neg hp]
      conv => rhs; unfold buildTree
      have : ¬ pts.length < 2 := by simp [parMinSize] at hp; omega
      simp only [this, if_false]
      match hsw : swap pts 0 (pts.length - 1) with
      | [] => rfl
      | vp :: rest =>
        rw [hsw] at hl
        simp only [List.length_cons] at hl
        simp only [List.length_map]
        rw [if_neg (by omega)]
        split
        · rfl
        · rw [ih _ _ h1 h2, ih _ _ h1 h2]

/-- The vantage points are only reordered. -/
theorem buildTree_perm {sort : SortOracle P K} (hs : ∀ c l, (sort c l).Perm l) (dist : P → P → K) (depth : Nat) :
    ∀ call pts, ((buildTree sort dist depth call pts).map (fun x => x.2.vantagePt)).Perm
      (pts.map (fun x => x.2.vantagePt)) := by
  induction depth with
  | zero => intros; exact List.Perm.refl _
  | succ depth ih =>
    intro call pts
    by_cases hlen : 2 ≤ pts.length
    · obtain ⟨vp, rest, first, hsw, hl, _, heq⟩ := buildTree_succ sort dist depth call pts hlen hs
      rw [heq]
      set rest' := sort call (rest.map (fun x => (dist vp.2.vantagePt x.2.vantagePt, x.2))) with hr
      have h1 : (pts.map (fun x => x.2.vantagePt)).Perm ((vp :: rest).map (fun x => x.2.vantagePt)) := by
        rw [← hsw]; exact ((swap_perm _ _ _).symm.map _)
      have h2 : (rest'.map (fun x => x.2.vantagePt)).Perm (rest.map (fun x => x.2.vantagePt)) := by
        refine ((hs _ _).map _).trans ?_
        rw [List.map_map]; exact List.Perm.refl _
      refine List.Perm.trans ?_ h1.symm
      simp only [List.map_cons, List.map_append]
      refine List.Perm.cons _ ?_
      refine (List.Perm.append (ih _ _) (ih _ _)).trans ?_
      rw [← List.map_append, List.take_append_drop]
      exact h2
    · rw [buildTree, if_pos (by omega)]

theorem buildTree_length {sort : SortOracle P K} (hs : ∀ c l, (sort c l).Perm l) (dist : P → P → K) (depth : Nat)
    (call : Nat) (pts : List (K × Node P K)) : (buildTree sort dist depth call pts).length = pts.length := by
  simpa using (buildTree_perm hs dist depth call pts).length_eq

/-- Properties that hold for the vantage points of a list hold for those of the tree built from it. -/
theorem buildTree_forall {sort : SortOracle P K} (hs : ∀ c l, (sort c l).Perm l) (dist : P → P → K)
    (depth call : Nat) (pts : List (K × Node P K)) (q : P → Prop) (h : ∀ x ∈ pts, q x.2.vantagePt) :
    ∀ x ∈ (buildTree sort dist depth call pts).map Prod.snd, q x.vantagePt := by
  intro x hx
  obtain ⟨y, hy, rfl⟩ := List.mem_map.1 hx
  have : y.2.vantagePt ∈ (buildTree sort dist depth call pts).map (fun x => x.2.vantagePt) :=
    List.mem_map.2 ⟨y, hy, rfl⟩
  rw [(buildTree_perm hs dist depth call pts).mem_iff] at this
  obtain ⟨z, hz, hzy⟩ := List.mem_map.1 this
  exact hzy ▸ h z hz

theorem swap_mem {α : Type*} (l : List α) (i j : Nat) (x : α) : x ∈ swap l i j ↔ x ∈ l :=
  (swap_perm l i j).mem_iff

variable [LinearOrder K]

/-- The constructed list is a vantage-point tree. -/
theorem buildTree_isVPTree {sort : SortOracle P K} (hs : SortsByDistance sort) (dist : P → P → K) (depth : Nat) :
    ∀ call pts, (∀ x ∈ pts, x.2.children = none) →
      IsVPTree dist depth ((buildTree sort dist depth call pts).map Prod.snd) := by
  induction depth with
  | zero =>
    intro call pts h
    refine IsVPTree.leaf _ _ (Or.inl rfl) ?_
    intro n hn
    obtain ⟨y, hy, rfl⟩ := List.mem_map.1 hn
    exact h y hy
  | succ depth ih =>
    intro call pts hc
    by_cases hlen : 2 ≤ pts.length
    · have hp := fun c l => (hs c l).1
      obtain ⟨vp, rest, first, hsw, hl, hfirst, heq⟩ := buildTree_succ sort dist depth call pts hlen hp
      rw [heq]
      set rest' := sort call (rest.map (fun x => (dist vp.2.vantagePt x.2.vantagePt, x.2))) with hr
      have hmem : ∀ x ∈ rest', x.1 = dist vp.2.vantagePt x.2.vantagePt ∧ x.2.children = none := by
        intro x hx
        rw [hr, (hp _ _).mem_iff] at hx
        obtain ⟨y, hy, rfl⟩ := List.mem_map.1 hx
        refine ⟨rfl, ?_⟩
        refine hc y ?_
        rw [← swap_mem pts 0 (pts.length - 1), hsw]
        exact List.mem_cons_of_mem _ hy
      have hsorted := (hs call (rest.map (fun x => (dist vp.2.vantagePt x.2.vantagePt, x.2)))).2
      rw [← hr] at hsorted
      obtain ⟨tl, htl⟩ : ∃ tl, rest'.drop (rest'.length / 2) = first :: tl := by
        cases h : rest'.drop (rest'.length / 2) with
        | nil => rw [h] at hfirst; simp at hfirst
        | cons a tl => rw [h] at hfirst; simp at hfirst; exact ⟨tl, by rw [hfirst]⟩
      have hsplit := List.take_append_drop (rest'.length / 2) rest'
      rw [← hsplit, List.pairwise_append] at hsorted
      obtain ⟨_, hso, hio⟩ := hsorted
      have hfm : first ∈ rest'.drop (rest'.length / 2) := by rw [htl]; exact List.mem_cons_self
      have hlin : ((buildTree sort dist depth (2 * call + 1) (rest'.take (rest'.length / 2))).map Prod.snd).length
          = rest'.length / 2 := by
        rw [List.length_map, buildTree_length hp, List.length_take]; omega
      have hlout : ((buildTree sort dist depth (2 * call + 2) (rest'.drop (rest'.length / 2))).map Prod.snd).length
          = rest'.length - rest'.length / 2 := by
        rw [List.length_map, buildTree_length hp, List.length_drop]
      have key := IsVPTree.node (dist := dist) depth vp.2.vantagePt first.1
        ((buildTree sort dist depth (2 * call + 1) (rest'.take (rest'.length / 2))).map Prod.snd)
        ((buildTree sort dist depth (2 * call + 2) (rest'.drop (rest'.length / 2))).map Prod.snd)
        (buildTree_forall hp _ _ _ _ (fun p => dist vp.2.vantagePt p ≤ first.1) (by
          intro x hx
          rw [← (hmem x (List.mem_of_mem_take hx)).1]
          exact hio x hx first hfm))
        (buildTree_forall hp _ _ _ _ (fun p => first.1 ≤ dist vp.2.vantagePt p) (by
          intro x hx
          rw [← (hmem x (List.mem_of_mem_drop hx)).1]
          rw [htl] at hx hso
          rcases List.mem_cons.1 hx with rfl | hx
          · exact le_refl _
          · exact (List.pairwise_cons.1 hso).1 x hx))
        (by
          have hin : first.2.vantagePt ∈ (rest'.drop (rest'.length / 2)).map (fun x => x.2.vantagePt) :=
            List.mem_map.2 ⟨first, hfm, rfl⟩
          rw [← (buildTree_perm hp dist depth (2 * call + 2) _).mem_iff] at hin
          obtain ⟨y, hy, hyf⟩ := List.mem_map.1 hin
          refine ⟨y.2, List.mem_map.2 ⟨y, hy, rfl⟩, ?_⟩
          rw [hyf, ← (hmem first (List.mem_of_mem_drop hfm)).1])
        (by rw [hlin, hlout]; omega)
        (ih _ _ (fun x hx => (hmem x (List.mem_of_mem_take hx)).2))
        (ih _ _ (fun x hx => (hmem x (List.mem_of_mem_drop hx)).2))
      rw [hlin] at key
      simpa using key
    · rw [buildTree, if_pos (by omega)]
      refine IsVPTree.leaf _ _ (Or.inr (by simp; omega)) ?_
      intro n hn
      obtain ⟨y, hy, rfl⟩ := List.mem_map.1 hn
      exact hc y hy

end Cres

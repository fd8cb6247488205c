import Verif.Model.Partition
import Verif.Proofs.VPTreeDepth
import Mathlib.Data.List.Flatten
import Mathlib.Tactic.Ring

/-!
Lemmas on partitions: the breadth-first conversion of a vantage-point tree.
-/

set_option linter.unusedSectionVars false

namespace Cres

open Spec

/-! ### powers of two -/

theorem isPowerOfTwo_iff (n : Nat) : isPowerOfTwo n = true ↔ ∃ k, n = 2 ^ k := by
  unfold isPowerOfTwo
  simp only [bne_iff_ne, ne_eq, Bool.and_eq_true, beq_iff_eq]
  constructor
  · rintro ⟨_, h⟩; exact ⟨_, h.symm⟩
  · rintro ⟨k, rfl⟩; exact ⟨by positivity, by rw [Nat.log2_two_pow]⟩

theorem not_pow_two_of_between (n k : Nat) (h1 : 2 ^ k < n) (h2 : n < 2 ^ (k + 1)) : ¬ ∃ j, n = 2 ^ j := by
  rintro ⟨j, rfl⟩
  have a := (Nat.pow_lt_pow_iff_right (a := 2) (by norm_num)).1 h1
  have b := (Nat.pow_lt_pow_iff_right (a := 2) (by norm_num)).1 h2
  omega

/-! ### shapes -/

/-- The tree of queue entries visited by the conversion, with their positions. -/
inductive Shape
  | leaf (pos : Nat)
  | inner (pos : Nat) (l r : Shape)

namespace Shape

def root : Shape → Nat
  | leaf p => p
  | inner p _ _ => p

def size : Shape → Nat
  | leaf _ => 1
  | inner _ l r => 1 + l.size + r.size

def inners : Shape → List Nat
  | leaf _ => []
  | inner p l r => p :: (l.inners ++ r.inners)

theorem size_eq (s : Shape) : s.size = 2 * s.inners.length + 1 := by
  induction s with
  | leaf p => rfl
  | inner p l r ihl ihr => simp [size, inners, ihl, ihr]; ring

def kids : Shape → List Shape
  | leaf _ => []
  | inner _ l r => [l, r]

/-- All levels below `k` consist of inner nodes, level `k` of leaves. -/
def Complete : Nat → Shape → Prop
  | 0, leaf _ => True
  | k + 1, inner _ l r => l.Complete k ∧ r.Complete k
  | _, _ => False

/-- `s` describes the nodes reachable from `s.root`; inner nodes still have their original content. -/
def Rep {P K : Type*} (orig nodes : List (Node P K)) : Shape → Prop
  | leaf p => ∃ n, nodes[p]? = some n ∧ n.children = none
  | inner p l r => ∃ pt rad off, orig[p]? = some ⟨pt, some ⟨rad, off⟩⟩ ∧ nodes[p]? = some ⟨pt, some ⟨rad, off⟩⟩ ∧
      l.root = p + 1 ∧ r.root = p + 1 + off ∧ l.Rep orig nodes ∧ r.Rep orig nodes

end Shape

/-- The positions of inner nodes in the order in which the queue reaches them. -/
def bfsShape : Nat → List Shape → List Nat
  | _, [] => []
  | 0, _ :: _ => []
  | f + 1, Shape.leaf _ :: F => bfsShape f F
  | f + 1, Shape.inner p l r :: F => p :: bfsShape f (F ++ [l, r])

def totalSize (F : List Shape) : Nat := (F.map Shape.size).sum

theorem bfsShape_perm (f : Nat) : ∀ F, totalSize F ≤ f → (bfsShape f F).Perm (F.flatMap Shape.inners) := by
  induction f with
  | zero =>
    intro F h
    cases F with
    | nil => simp [bfsShape]
    | cons s F => cases s <;> simp [totalSize, Shape.size] at h <;> omega
  | succ f ih =>
    intro F h
    cases F with
    | nil => simp [bfsShape]
    | cons s F =>
      cases s with
      | leaf p =>
        simp only [totalSize, List.map_cons, Shape.size, List.sum_cons] at h
        simpa [bfsShape, Shape.inners] using ih F (by simp [totalSize]; omega)
      | inner p l r =>
        simp only [totalSize, List.map_cons, Shape.size, List.sum_cons] at h
        have := ih (F ++ [l, r]) (by simp [totalSize]; omega)
        simp only [bfsShape, List.flatMap_cons, Shape.inners, List.cons_append]
        refine List.Perm.cons _ (this.trans ?_)
        simp only [List.flatMap_append, List.flatMap_cons, List.flatMap_nil, List.append_nil]
        exact List.perm_append_comm

/-- The bisection stored at a position. -/
def bisAt {P K : Type*} (nodes : List (Node P K)) (p : Nat) : Option (VPBisection P K) :=
  match nodes[p]? with
  | some ⟨pt, some ⟨rad, _⟩⟩ => some ⟨pt, rad⟩
  | _ => none

theorem Shape.Rep.set {P K : Type*} {orig nodes : List (Node P K)} {p : Nat} {n : Node P K} (hn : n.children = none)
    (s : Shape) (h : s.Rep orig nodes) (hp : p ∉ s.inners) : s.Rep orig (nodes.set p n) := by
  induction s with
  | leaf q =>
    obtain ⟨m, hm, hmc⟩ := h
    by_cases hpq : p = q
    · subst hpq
      refine ⟨n, ?_, hn⟩
      rw [List.getElem?_set_self]
      exact (List.getElem?_eq_some_iff.1 hm).1
    · exact ⟨m, by rw [List.getElem?_set_ne hpq]; exact hm, hmc⟩
  | inner q l r ihl ihr =>
    obtain ⟨pt, rad, off, h1, h2, h3, h4, h5, h6⟩ := h
    simp only [Shape.inners, List.mem_cons, List.mem_append, not_or] at hp
    exact ⟨pt, rad, off, h1, by rw [List.getElem?_set_ne hp.1]; exact h2, h3, h4, ihl h5 hp.2.1, ihr h6 hp.2.2⟩

/-- An inner position has children, so a childless position is not inner. -/
theorem Shape.Rep.not_inner {P K : Type*} {orig nodes : List (Node P K)} {p : Nat} {n : Node P K}
    (hn : nodes[p]? = some n) (hc : n.children = none) (s : Shape) (h : s.Rep orig nodes) : p ∉ s.inners := by
  induction s with
  | leaf q => simp [Shape.inners]
  | inner q l r ihl ihr =>
    obtain ⟨pt, rad, off, h1, h2, h3, h4, h5, h6⟩ := h
    simp only [Shape.inners, List.mem_cons, List.mem_append, not_or]
    refine ⟨?_, ihl h5, ihr h6⟩
    rintro rfl
    rw [hn] at h2
    simp only [Option.some.injEq] at h2
    rw [h2] at hc
    simp at hc

theorem bfsLoop_eq {P K : Type*} [Inhabited P] (orig : List (Node P K)) (f : Nat) :
    ∀ F nodes vp, totalSize F ≤ f → (∀ s ∈ F, s.Rep orig nodes) → (F.flatMap Shape.inners).Nodup →
      bfsLoop f nodes (F.map Shape.root) vp = some (vp ++ (bfsShape f F).filterMap (bisAt orig)) := by
  induction f with
  | zero =>
    intro F nodes vp h
    cases F with
    | nil => intros; simp [bfsLoop, bfsShape]
    | cons s F => cases s <;> simp [totalSize, Shape.size] at h <;> omega
  | succ f ih =>
    intro F nodes vp h hrep hnd
    cases F with
    | nil => simp [bfsLoop, bfsShape]
    | cons s F =>
      cases s with
      | leaf p =>
        simp only [totalSize, List.map_cons, Shape.size, List.sum_cons] at h
        obtain ⟨n, hn, hc⟩ := hrep _ List.mem_cons_self
        simp only [List.map_cons, Shape.root, bfsLoop, hn, hc, bfsShape]
        refine ih F _ vp (by simp [totalSize]; omega) ?_ ?_
        · intro s hs
          have hr := hrep s (List.mem_cons_of_mem _ hs)
          exact Shape.Rep.set rfl s hr (Shape.Rep.not_inner hn hc s hr)
        · simpa [Shape.inners] using hnd
      | inner p l r =>
        simp only [totalSize, List.map_cons, Shape.size, List.sum_cons] at h
        obtain ⟨pt, rad, off, h1, h2, h3, h4, h5, h6⟩ := hrep _ List.mem_cons_self
        simp only [List.map_cons, Shape.root, bfsLoop, h2, bfsShape]
        simp only [List.flatMap_cons, Shape.inners, List.cons_append, List.nodup_cons, List.mem_append, not_or] at hnd
        have := ih (F ++ [l, r]) (nodes.set p ⟨default, none⟩) (vp ++ [⟨pt, rad⟩]) (by simp [totalSize]; omega) ?_ ?_
        · simp only [List.map_append, List.map_cons, List.map_nil, h3, h4] at this
          rw [this]
          simp [List.filterMap_cons, bisAt, h1]
        · intro s hs
          rcases List.mem_append.1 hs with hs | hs
          · refine Shape.Rep.set rfl s (hrep s (List.mem_cons_of_mem _ hs)) ?_
            intro hp
            exact hnd.1.2 (List.mem_flatMap.2 ⟨s, hs, hp⟩)
          · simp only [List.mem_cons, List.not_mem_nil, or_false] at hs
            rcases hs with rfl | rfl
            · exact Shape.Rep.set rfl _ h5 hnd.1.1.1
            · exact Shape.Rep.set rfl _ h6 hnd.1.1.2
        · refine (List.Perm.nodup_iff ?_).1 hnd.2
          simp only [List.flatMap_append, List.flatMap_cons, List.flatMap_nil, List.append_nil]
          exact List.perm_append_comm

/-! ### complete shapes: heap layout -/

theorem totalSize_append (A B : List Shape) : totalSize (A ++ B) = totalSize A + totalSize B := by
  simp [totalSize]

theorem bfsShape_inner_prefix (A : List Shape) : ∀ (B : List Shape) (f : Nat), totalSize (A ++ B) ≤ f →
    (∀ s ∈ A, ∃ p l r, s = Shape.inner p l r) →
    ∃ f', bfsShape f (A ++ B) = A.map Shape.root ++ bfsShape f' (B ++ A.flatMap Shape.kids) ∧
      totalSize (B ++ A.flatMap Shape.kids) ≤ f' := by
  induction A with
  | nil => intro B f h _; exact ⟨f, by simp, by simpa using h⟩
  | cons s A ih =>
    intro B f h hA
    obtain ⟨p, l, r, rfl⟩ := hA s List.mem_cons_self
    simp only [totalSize, List.cons_append, List.map_cons, List.map_append, List.sum_append, List.sum_cons,
      Shape.size] at h
    obtain ⟨f, rfl⟩ : ∃ g, f = g + 1 := ⟨f - 1, by omega⟩
    obtain ⟨f', h1, h2⟩ := ih (B ++ [l, r]) f (by simp [totalSize]; omega)
      (fun s hs => hA s (List.mem_cons_of_mem _ hs))
    refine ⟨f', ?_, ?_⟩
    · simp only [List.cons_append, bfsShape, List.map_cons, Shape.root, List.flatMap_cons, Shape.kids,
        List.append_assoc] at h1 ⊢
      rw [h1]
    · simpa [List.flatMap_cons, Shape.kids] using h2

/-- The children positions of an inner node. -/
def kidsAt {P K : Type*} (nodes : List (Node P K)) (p : Nat) : List Nat :=
  match nodes[p]? with
  | some ⟨_, some ⟨_, off⟩⟩ => [p + 1, p + 1 + off]
  | _ => []

theorem bfsShape_complete {P K : Type*} (orig : List (Node P K)) (k : Nat) :
    ∀ (F : List Shape) (f : Nat), totalSize F ≤ f → (∀ s ∈ F, s.Complete k) → (∀ s ∈ F, s.Rep orig orig) →
      (bfsShape f F).length = F.length * (2 ^ k - 1) ∧
      bfsShape f F <+: F.map Shape.root ++ (bfsShape f F).flatMap (kidsAt orig) := by
  induction k with
  | zero =>
    intro F f hf hc _
    have : bfsShape f F = [] := by
      have hp := bfsShape_perm f F hf
      have : F.flatMap Shape.inners = [] := by
        rw [List.flatMap_eq_nil_iff]
        intro s hs
        have := hc s hs
        cases s with
        | leaf p => rfl
        | inner p l r => simp [Shape.Complete] at this
      rw [this] at hp
      exact hp.eq_nil
    rw [this]
    simp
  | succ k ih =>
    intro F f hf hc hrep
    have hin : ∀ s ∈ F, ∃ p l r, s = Shape.inner p l r := by
      intro s hs
      have := hc s hs
      cases s with
      | leaf p => simp [Shape.Complete] at this
      | inner p l r => exact ⟨p, l, r, rfl⟩
    obtain ⟨f', h1, h2⟩ := bfsShape_inner_prefix F [] f (by simpa using hf) hin
    simp only [List.append_nil, List.nil_append] at h1 h2
    obtain ⟨i1, i2⟩ := ih (F.flatMap Shape.kids) f' h2
      (by
        intro s hs
        obtain ⟨t, ht, hst⟩ := List.mem_flatMap.1 hs
        obtain ⟨p, l, r, rfl⟩ := hin t ht
        have := hc _ ht
        simp only [Shape.Complete] at this
        simp only [Shape.kids, List.mem_cons, List.not_mem_nil, or_false] at hst
        rcases hst with rfl | rfl
        · exact this.1
        · exact this.2)
      (by
        intro s hs
        obtain ⟨t, ht, hst⟩ := List.mem_flatMap.1 hs
        obtain ⟨p, l, r, rfl⟩ := hin t ht
        obtain ⟨pt, rad, off, _, _, _, _, h5, h6⟩ := hrep _ ht
        simp only [Shape.kids, List.mem_cons, List.not_mem_nil, or_false] at hst
        rcases hst with rfl | rfl
        · exact h5
        · exact h6)
    have hlen : ∀ G : List Shape, (∀ s ∈ G, ∃ p l r, s = Shape.inner p l r) →
        (G.flatMap Shape.kids).length = 2 * G.length := by
      intro G
      induction G with
      | nil => simp
      | cons s G ihG =>
        intro hG
        obtain ⟨p, l, r, rfl⟩ := hG s List.mem_cons_self
        have := ihG (fun s hs => hG s (List.mem_cons_of_mem _ hs))
        simp only [List.flatMap_cons, Shape.kids, List.length_append, this, List.length_cons, List.length_nil]
        ring
    have hroots : ∀ G : List Shape, (∀ s ∈ G, ∃ p l r, s = Shape.inner p l r) → (∀ s ∈ G, s.Rep orig orig) →
        (G.flatMap Shape.kids).map Shape.root = (G.map Shape.root).flatMap (kidsAt orig) := by
      intro G
      induction G with
      | nil => simp
      | cons s G ihG =>
        intro hG hR
        obtain ⟨p, l, r, rfl⟩ := hG s List.mem_cons_self
        have := ihG (fun s hs => hG s (List.mem_cons_of_mem _ hs)) (fun s hs => hR s (List.mem_cons_of_mem _ hs))
        obtain ⟨pt, rad, off, e1, e2, e3, e4, -, -⟩ := hR _ List.mem_cons_self
        have hk : kidsAt orig p = [p + 1, p + 1 + off] := by simp [kidsAt, e1]
        simp only [List.flatMap_cons, List.map_append, this, List.map_cons, Shape.kids, e3, e4, List.map_nil]
        simp [Shape.root, hk]
    rw [h1]
    refine ⟨?_, ?_⟩
    · rw [List.length_append, List.length_map, i1, hlen F hin]
      have : 1 ≤ 2 ^ k := Nat.one_le_two_pow
      obtain ⟨m, hm⟩ : ∃ m, 2 ^ k = m + 1 := ⟨2 ^ k - 1, by omega⟩
      rw [pow_succ, hm]
      have : (m + 1) * 2 - 1 = 2 * m + 1 := by omega
      rw [this, Nat.add_sub_cancel]
      ring
    · rw [List.flatMap_append, ← hroots F hin hrep]
      exact (List.prefix_append_right_inj _).2 i2

/-! ### shapes of vantage-point trees -/

/-- Number of inner nodes of a depth-limited tree with `n` points. -/
def innerCount : Nat → Nat → Nat
  | 0, _ => 0
  | k + 1, n => if n < 2 then 0 else 1 + innerCount k ((n - 1) / 2) + innerCount k (n - 1 - (n - 1) / 2)

/-- All inner positions down to level `k` are occupied. -/
def Full : Nat → Nat → Prop
  | 0, _ => True
  | k + 1, n => 2 ≤ n ∧ Full k ((n - 1) / 2) ∧ Full k (n - 1 - (n - 1) / 2)

theorem full_of_le (k : Nat) : ∀ n, 3 * 2 ^ k ≤ n + 1 → Full (k + 1) n := by
  induction k with
  | zero => intro n h; simp at h; exact ⟨by omega, trivial, trivial⟩
  | succ k ih =>
    intro n h
    have hk : 1 ≤ 2 ^ k := Nat.one_le_two_pow
    rw [pow_succ] at h
    exact ⟨by omega, ih _ (by omega), ih _ (by omega)⟩

theorem innerCount_full (k : Nat) : ∀ n, Full k n → innerCount k n = 2 ^ k - 1 := by
  induction k with
  | zero => intro n _; rfl
  | succ k ih =>
    intro n h
    obtain ⟨h1, h2, h3⟩ := h
    rw [innerCount, if_neg (by omega), ih _ h2, ih _ h3, pow_succ]
    have hk : 1 ≤ 2 ^ k := Nat.one_le_two_pow
    omega

/-- Between `2^(k+1) - 1` and `3 * 2^k - 1` points each further point adds one inner node on the last level. -/
theorem innerCount_between (k : Nat) : ∀ n, 2 ^ (k + 1) ≤ n + 1 → n + 1 ≤ 3 * 2 ^ k →
    innerCount (k + 1) n + 2 ^ k = n := by
  induction k with
  | zero =>
    intro n h1 h2
    simp at h1 h2
    rcases (by omega : n = 1 ∨ n = 2) with rfl | rfl <;> simp [innerCount]
  | succ k ih =>
    intro n h1 h2
    have hk : 1 ≤ 2 ^ k := Nat.one_le_two_pow
    rw [innerCount, if_neg (by rw [pow_succ, pow_succ] at h1; omega)]
    have e1 := ih ((n - 1) / 2) (by rw [pow_succ] at h1 ⊢; rw [pow_succ] at h1; omega) (by rw [pow_succ] at h2; omega)
    have e2 := ih (n - 1 - (n - 1) / 2) (by rw [pow_succ] at h1 ⊢; rw [pow_succ] at h1; omega)
      (by rw [pow_succ] at h2; omega)
    have hn : 2 ≤ n := by rw [pow_succ, pow_succ] at h1; omega
    rw [pow_succ]
    omega

theorem isVPTree_singleton {P K : Type*} [LE K] {dist : P → P → K} {depth : Nat} {x : Node P K}
    (h : IsVPTree dist depth [x]) : x.children = none := by
  generalize hs : [x] = sub at h
  induction h with
  | leaf depth nodes h hc => exact hc x (by rw [← hs]; simp)
  | node depth p r inside outside hin hout hr hsize h1 h2 ih1 ih2 =>
    obtain ⟨y, hy, -⟩ := hr
    have := List.length_pos_of_mem hy
    have := congrArg List.length hs
    simp only [List.length_cons, List.length_append, List.length_nil] at this
    omega

theorem exists_shape {P K : Type*} [LE K] {dist : P → P → K} {depth : Nat} {sub : List (Node P K)}
    (h : IsVPTree dist depth sub) : ∀ (nodes : List (Node P K)) (idx : Nat),
      (∀ j, j < sub.length → nodes[idx + j]? = sub[j]?) → sub ≠ [] →
      ∃ s : Shape, s.root = idx ∧ s.Rep nodes nodes ∧ (∀ p ∈ s.inners, idx ≤ p ∧ p < idx + sub.length) ∧
        s.inners.Nodup ∧ s.inners.length = innerCount depth sub.length ∧
        (Full depth sub.length → s.Complete depth) := by
  induction h with
  | leaf depth nodes h hc =>
    intro all idx hsub hne
    obtain ⟨a, l, rfl⟩ := List.exists_cons_of_ne_nil hne
    refine ⟨Shape.leaf idx, rfl, ⟨a, ?_, hc a List.mem_cons_self⟩, by simp [Shape.inners], by simp [Shape.inners], ?_, ?_⟩
    · have := hsub 0 (by simp)
      simpa using this
    · cases depth with
      | zero => simp [Shape.inners, innerCount]
      | succ d =>
        rcases h with h | h
        · omega
        · rw [innerCount, if_pos h]; rfl
    · intro hf
      cases depth with
      | zero => trivial
      | succ d =>
        rcases h with h | h
        · omega
        · exact absurd hf.1 (by omega)
  | node depth p r inside outside hin hout hr hsize h1 h2 ih1 ih2 =>
    intro all idx hsub hne
    have hpos : 0 < outside.length := by
      obtain ⟨x, hx, -⟩ := hr
      exact List.length_pos_of_mem hx
    have hlen : (⟨p, some ⟨r, inside.length⟩⟩ :: (inside ++ outside) : List (Node P K)).length
        = inside.length + outside.length + 1 := by simp
    have hroot : all[idx]? = some ⟨p, some ⟨r, inside.length⟩⟩ := by
      have := hsub 0 (by simp)
      simpa using this
    have hsi : ∀ j, j < inside.length → all[idx + 1 + j]? = inside[j]? := by
      intro j hj
      have := hsub (j + 1) (by rw [hlen]; omega)
      rw [List.getElem?_cons_succ, List.getElem?_append_left hj] at this
      rw [← this]; congr 1; omega
    have hso : ∀ j, j < outside.length → all[idx + 1 + inside.length + j]? = outside[j]? := by
      intro j hj
      have := hsub (inside.length + j + 1) (by rw [hlen]; omega)
      rw [List.getElem?_cons_succ, List.getElem?_append_right (by omega)] at this
      rw [show inside.length + j - inside.length = j by omega] at this
      rw [← this]; congr 1; omega
    obtain ⟨so, ro, repo, rngo, ndo, cnto, cplo⟩ := ih2 all (idx + 1 + inside.length) hso
      (by rintro rfl; simp at hpos)
    have hnl : (inside.length + outside.length + 1 - 1) / 2 = inside.length := by omega
    have hnr : inside.length + outside.length + 1 - 1 - (inside.length + outside.length + 1 - 1) / 2 = outside.length := by
      omega
    -- the inside part, possibly empty
    obtain ⟨si, ri, repi, rngi, ndi, cnti, cpli⟩ : ∃ s : Shape, s.root = idx + 1 ∧ s.Rep all all ∧
        (∀ p ∈ s.inners, idx + 1 ≤ p ∧ p < idx + 1 + inside.length) ∧ s.inners.Nodup ∧
        s.inners.length = innerCount depth inside.length ∧ (Full depth inside.length → s.Complete depth) := by
      by_cases hne : inside = []
      · subst hne
        refine ⟨Shape.leaf (idx + 1), rfl, ?_, by simp [Shape.inners], by simp [Shape.inners], ?_, ?_⟩
        · -- the node after an empty inside part is a single, childless outside node
          have hl : outside.length = 1 := by simp only [List.length_nil] at hsize; omega
          obtain ⟨x, rfl⟩ := List.length_eq_one_iff.1 hl
          have := hso 0 (by simp)
          refine ⟨x, by simpa using this, ?_⟩
          exact isVPTree_singleton h2
        · cases depth <;> simp [Shape.inners, innerCount]
        · intro hf
          cases depth with
          | zero => trivial
          | succ d => exact absurd hf.1 (by simp)
      · exact ih1 all (idx + 1) hsi hne
    refine ⟨Shape.inner idx si so, rfl, ⟨p, r, inside.length, hroot, hroot, ri, ro, repi, repo⟩, ?_, ?_, ?_, ?_⟩
    · intro q hq
      simp only [Shape.inners, List.mem_cons, List.mem_append] at hq
      rw [hlen]
      rcases hq with rfl | hq | hq
      · omega
      · have := rngi q hq; omega
      · have := rngo q hq; omega
    · simp only [Shape.inners, List.nodup_cons, List.mem_append, not_or]
      refine ⟨⟨fun h => ?_, fun h => ?_⟩, ?_⟩
      · have := rngi _ h; omega
      · have := rngo _ h; omega
      · rw [List.nodup_append]
        refine ⟨ndi, ndo, ?_⟩
        intro a ha b hb hab
        have := rngi a ha
        have := rngo b hb
        omega
    · rw [hlen, innerCount, if_neg (by omega), hnl]
      simp only [Shape.inners, List.length_cons, List.length_append, cnti, cnto]
      rw [show inside.length + outside.length + 1 - 1 - inside.length = outside.length by omega]
      omega
    · intro hf
      rw [hlen] at hf
      obtain ⟨-, f1, f2⟩ := hf
      rw [hnl] at f1
      rw [hnr] at f2
      exact ⟨cpli f1, cplo f2⟩

end Cres

namespace Cres

open Spec

/-! ### consequences for the list of bisections -/

theorem getElem?_flatMap_two {α β : Type*} (g : α → List β) (E : List α) (hg : ∀ e ∈ E, (g e).length = 2) :
    ∀ (i : Nat) (h : i < E.length) (j : Nat), j < 2 → (E.flatMap g)[2 * i + j]? = (g E[i])[j]? := by
  induction E with
  | nil => intro i h; simp at h
  | cons e E ih =>
    intro i h j hj
    have hl := hg e List.mem_cons_self
    rw [List.flatMap_cons]
    cases i with
    | zero => rw [List.getElem?_append_left (by omega)]; simp
    | succ i =>
      rw [List.getElem?_append_right (by omega), hl, show 2 * (i + 1) + j - 2 = 2 * i + j by omega]
      have := ih (fun e he => hg e (List.mem_cons_of_mem _ he)) i (by simpa using h) j hj
      simpa using this

theorem Shape.Rep.inner_some {P K : Type*} {orig nodes : List (Node P K)} (s : Shape) (h : s.Rep orig nodes) :
    ∀ p ∈ s.inners, ∃ pt rad off, orig[p]? = some ⟨pt, some ⟨rad, off⟩⟩ := by
  induction s with
  | leaf q => simp [Shape.inners]
  | inner q l r ihl ihr =>
    obtain ⟨pt, rad, off, h1, h2, h3, h4, h5, h6⟩ := h
    intro p hp
    simp only [Shape.inners, List.mem_cons, List.mem_append] at hp
    rcases hp with rfl | hp | hp
    · exact ⟨pt, rad, off, h1⟩
    · exact ihl h5 p hp
    · exact ihr h6 p hp

theorem filterMap_getElem? {α β : Type*} (f : α → Option β) (l : List α) (h : ∀ a ∈ l, (f a).isSome) :
    ∀ i : Nat, (l.filterMap f)[i]? = l[i]?.bind f := by
  induction l with
  | nil => simp
  | cons a l ih =>
    intro i
    obtain ⟨b, hb⟩ := Option.isSome_iff_exists.1 (h a List.mem_cons_self)
    rw [List.filterMap_cons_some hb]
    cases i with
    | zero => simp [hb]
    | succ i => simpa using ih (fun a ha => h a (List.mem_cons_of_mem _ ha)) i

/-- What the conversion produces for a tree: distinct positions, and the heap layout if the tree is full. -/
theorem bisections_spec {P K : Type*} [LE K] [Inhabited P] {t : VPTree P K} {depth : Nat}
    (h : IsVPTree t.dist depth t.nodes) :
    ∃ (vp : List (VPBisection P K)) (pos : List Nat), t.bisections = some vp ∧ pos.Nodup ∧ pos.length = vp.length ∧
      vp.length = innerCount depth t.nodes.length ∧
      (∀ i q : Nat, pos[i]? = some q → ∃ b off, vp[i]? = some b ∧ t.nodes[q]? = some ⟨b.pt, some ⟨b.r, off⟩⟩) ∧
      (Full depth t.nodes.length → ∀ i q : Nat, pos[i]? = some q → ∃ n c, t.nodes[q]? = some n ∧ n.children = some c ∧
        (i = 0 → q = 0) ∧
        (2 * i + 1 < pos.length → pos[2 * i + 1]? = some (q + 1)) ∧
        (2 * i + 2 < pos.length → pos[2 * i + 2]? = some (q + 1 + c.outsideOffset))) := by
  by_cases hne : t.nodes = []
  · refine ⟨[], [], by simp [VPTree.bisections, hne], by simp, rfl, ?_, by simp, by simp⟩
    rw [hne]; cases depth <;> simp [innerCount]
  · obtain ⟨s, hr, hrep, hrng, hnd, hcnt, hcpl⟩ := exists_shape h t.nodes 0 (by simp) hne
    set f := 2 * t.nodes.length + 1 with hf
    have hlen : s.inners.length ≤ t.nodes.length := by
      have hsub : s.inners ⊆ List.range t.nodes.length := by
        intro p hp; have := hrng p hp; simp; omega
      simpa using (hnd.subperm hsub).length_le
    have hts : totalSize [s] ≤ f := by simp [totalSize, Shape.size_eq]; omega
    have hperm : (bfsShape f [s]).Perm s.inners := by simpa using bfsShape_perm f [s] hts
    have hrun := bfsLoop_eq t.nodes f [s] t.nodes [] hts (by simpa using hrep) (by simpa using hnd)
    set E := bfsShape f [s] with hE
    have hsome : ∀ p ∈ E, ∃ pt rad off, t.nodes[p]? = some ⟨pt, some ⟨rad, off⟩⟩ := fun p hp =>
      Shape.Rep.inner_some s hrep p (hperm.mem_iff.1 hp)
    have hbis : ∀ p ∈ E, (bisAt t.nodes p).isSome := by
      intro p hp
      obtain ⟨pt, rad, off, e⟩ := hsome p hp
      simp [bisAt, e]
    have hget := filterMap_getElem? (bisAt t.nodes) E hbis
    have hvl : (E.filterMap (bisAt t.nodes)).length = E.length := by
      have : ∀ l : List Nat, (∀ p ∈ l, (bisAt t.nodes p).isSome) → (l.filterMap (bisAt t.nodes)).length = l.length := by
        intro l
        induction l with
        | nil => simp
        | cons a l ih =>
          intro hl
          obtain ⟨b, hb⟩ := Option.isSome_iff_exists.1 (hl a List.mem_cons_self)
          rw [List.filterMap_cons_some hb, List.length_cons, List.length_cons,
            ih (fun p hp => hl p (List.mem_cons_of_mem _ hp))]
      exact this E hbis
    refine ⟨E.filterMap (bisAt t.nodes), E, ?_, hperm.nodup_iff.2 hnd, hvl.symm, ?_, ?_, ?_⟩
    · rw [VPTree.bisections, if_neg (by simpa using hne)]
      simpa [hr] using hrun
    · rw [hvl, hperm.length_eq, hcnt]
    · intro i q hq
      obtain ⟨pt, rad, off, e⟩ := hsome q (List.mem_of_getElem? hq)
      exact ⟨⟨pt, rad⟩, off, by rw [hget, hq]; simp [bisAt, e], e⟩
    · intro hfull i q hq
      have hc := hcpl hfull
      obtain ⟨-, hpre⟩ := bfsShape_complete t.nodes depth [s] f hts (by simpa using hc) (by simpa using hrep)
      rw [← hE] at hpre
      simp only [List.map_cons, List.map_nil, hr] at hpre
      have hi : i < E.length := (List.getElem?_eq_some_iff.1 hq).1
      have hEi : E[i] = q := (List.getElem?_eq_some_iff.1 hq).2
      obtain ⟨pt, rad, off, e⟩ := hsome q (List.mem_of_getElem? hq)
      have hk : kidsAt t.nodes q = [q + 1, q + 1 + off] := by simp [kidsAt, e]
      have hlk : ∀ p ∈ E, (kidsAt t.nodes p).length = 2 := by
        intro p hp
        obtain ⟨pt, rad, off, e⟩ := hsome p hp
        simp [kidsAt, e]
      have hidx : ∀ j, j < E.length → E[j]? = ([0] ++ E.flatMap (kidsAt t.nodes))[j]? := by
        intro j hj
        obtain ⟨u, hu⟩ := hpre
        rw [← hu, List.getElem?_append_left hj]
      refine ⟨_, _, e, rfl, ?_, ?_, ?_⟩
      · rintro rfl
        have := hidx 0 hi
        rw [hq] at this
        simpa using this
      · intro h1
        rw [hidx _ h1]
        have := getElem?_flatMap_two (kidsAt t.nodes) E hlk i hi 0 (by omega)
        simp only [List.singleton_append, List.getElem?_cons_succ]
        rw [show 2 * i = 2 * i + 0 by omega, this, hEi, hk]; rfl
      · intro h1
        rw [hidx _ h1]
        have := getElem?_flatMap_two (kidsAt t.nodes) E hlk i hi 1 (by omega)
        simp only [List.singleton_append, List.getElem?_cons_succ]
        rw [this, hEi, hk]; rfl

/-- Inside and outside points of an inner node, by position. -/
theorem isVPTree_geometry {P K : Type*} [LE K] {dist : P → P → K} {depth : Nat} {nodes : List (Node P K)}
    (h : IsVPTree dist depth nodes) : ∀ i p r off, nodes[i]? = some ⟨p, some ⟨r, off⟩⟩ →
      (∀ j x, i + 1 ≤ j → j < i + 1 + off → nodes[j]? = some x → dist p x.vantagePt ≤ r) ∧
      (∀ x, nodes[i + 1 + off]? = some x → r ≤ dist p x.vantagePt) ∧
      (∃ j x, i + 1 + off ≤ j ∧ nodes[j]? = some x ∧ dist p x.vantagePt = r) := by
  induction h with
  | leaf depth nodes h hc =>
    intro i p r off hn
    have := hc _ (List.mem_of_getElem? hn)
    simp at this
  | node depth p r inside outside hin hout hr hsize h1 h2 ih1 ih2 =>
    intro i p' r' off hn
    have hpos : 0 < outside.length := by
      obtain ⟨x, hx, -⟩ := hr
      exact List.length_pos_of_mem hx
    cases i with
    | zero =>
      simp only [List.getElem?_cons_zero, Option.some.injEq, Node.mk.injEq, Children.mk.injEq] at hn
      obtain ⟨rfl, rfl, rfl⟩ := hn
      refine ⟨?_, ?_, ?_⟩
      · intro j x hj1 hj2 hx
        obtain ⟨j, rfl⟩ : ∃ j', j = j' + 1 := ⟨j - 1, by omega⟩
        rw [List.getElem?_cons_succ, List.getElem?_append_left (by omega)] at hx
        exact hin x (List.mem_of_getElem? hx)
      · intro x hx
        rw [show 0 + 1 + inside.length = inside.length + 1 by omega, List.getElem?_cons_succ,
          List.getElem?_append_right (by omega)] at hx
        exact hout x (List.mem_of_getElem? hx)
      · obtain ⟨x, hx, hxr⟩ := hr
        obtain ⟨j, hj⟩ := List.mem_iff_getElem?.1 hx
        refine ⟨inside.length + j + 1, x, by omega, ?_, hxr⟩
        rw [List.getElem?_cons_succ, List.getElem?_append_right (by omega)]
        rw [show inside.length + j - inside.length = j by omega]; exact hj
    | succ i =>
      rw [List.getElem?_cons_succ] at hn
      by_cases hi : i < inside.length
      · rw [List.getElem?_append_left hi] at hn
        classical
        have hoff := isVPTree_offsets h1 i _ _ hn rfl
        simp only at hoff
        obtain ⟨g1, g2, g3⟩ := ih1 i p' r' off hn
        refine ⟨?_, ?_, ?_⟩
        · intro j x hj1 hj2 hx
          obtain ⟨j, rfl⟩ : ∃ j', j = j' + 1 := ⟨j - 1, by omega⟩
          rw [List.getElem?_cons_succ, List.getElem?_append_left (by omega)] at hx
          exact g1 j x (by omega) (by omega) hx
        · intro x hx
          rw [show i + 1 + 1 + off = (i + 1 + off) + 1 by omega, List.getElem?_cons_succ,
            List.getElem?_append_left (by omega)] at hx
          exact g2 x hx
        · obtain ⟨j, x, hj, hx, hr⟩ := g3
          refine ⟨j + 1, x, by omega, ?_, hr⟩
          rw [List.getElem?_cons_succ, List.getElem?_append_left (List.getElem?_eq_some_iff.1 hx).1]
          exact hx
      · rw [List.getElem?_append_right (by omega)] at hn
        obtain ⟨g1, g2, g3⟩ := ih2 _ p' r' off hn
        refine ⟨?_, ?_, ?_⟩
        · intro j x hj1 hj2 hx
          obtain ⟨j, rfl⟩ : ∃ j', j = j' + 1 := ⟨j - 1, by omega⟩
          rw [List.getElem?_cons_succ, List.getElem?_append_right (by omega)] at hx
          exact g1 _ x (by omega) (by omega) hx
        · intro x hx
          rw [show i + 1 + 1 + off = (i + 1 + off) + 1 by omega, List.getElem?_cons_succ,
            List.getElem?_append_right (by omega),
            show i + 1 + off - inside.length = i - inside.length + 1 + off by omega] at hx
          exact g2 x hx
        · obtain ⟨j, x, hj, hx, hr⟩ := g3
          refine ⟨inside.length + j + 1, x, by omega, ?_, hr⟩
          rw [List.getElem?_cons_succ, List.getElem?_append_right (by omega)]
          rw [show inside.length + j - inside.length = j by omega]; exact hx

/-! ### taking the events -/

theorem takeEvents_eq {E K : Type*} [Inhabited E] (bs : List (VPBisection Nat K)) : ∀ (events : List E),
    (bs.map (·.pt)).Nodup → (∀ b ∈ bs, b.pt < events.length) →
    takeEvents events bs = some (bs.map (fun b => ⟨events.getD b.pt default, b.r⟩)) := by
  induction bs with
  | nil => intros; rfl
  | cons b bs ih =>
    intro events hnd hlt
    simp only [List.map_cons, List.nodup_cons] at hnd
    have hb := hlt b List.mem_cons_self
    rw [takeEvents, List.getElem?_eq_getElem hb]
    simp only
    rw [ih _ hnd.2 (fun b hb => by simpa using hlt b (List.mem_cons_of_mem _ hb))]
    simp only [Option.map_some, List.map_cons, Option.some.injEq, List.cons.injEq]
    refine ⟨by simp [List.getD_eq_getElem?_getD, hb], List.map_congr_left ?_⟩
    intro c hc
    have : b.pt ≠ c.pt := fun he => hnd.1 (List.mem_map.2 ⟨c, hc, he.symm⟩)
    simp [List.getD_eq_getElem?_getD, List.getElem?_set_ne this]

end Cres

import Verif.Proofs.VPTreeBuild
import Verif.Spec.Neighbours

/-!
Correctness of the nearest-neighbour search in a vantage-point tree.
-/

set_option linter.unusedSectionVars false

namespace Cres

open Spec

section Sound

variable {P K : Type*} [DecidableEq P] [DistNum K]

/-- Cached distances are true distances. -/
def CacheOK (dist : P → P → K) (pt : P) (cache : List (P × K)) : Prop :=
  ∀ p d, cache.lookup p = some d → d = dist pt p

theorem cachedDist_spec {dist : P → P → K} {pt : P} {cache : List (P × K)} (h : CacheOK dist pt cache) (p : P) :
    (cachedDist dist pt p cache).1 = dist pt p ∧ CacheOK dist pt (cachedDist dist pt p cache).2 := by
  unfold cachedDist
  split
  · rename_i d hd
    exact ⟨h p d hd, h⟩
  · refine ⟨rfl, ?_⟩
    intro q d hq
    simp only [List.lookup_cons] at hq
    split at hq
    · rename_i heq
      simp only [beq_iff_eq] at heq
      subst heq
      simpa using hq.symm
    · exact h q d hq

/-- `n` is an admissible neighbour of `pt`. -/
def Admissible (pt : P) (exclude : List P) (n : Node P K) : Prop :=
  n.vantagePt ≠ pt ∧ n.vantagePt ∉ exclude

/-- `res` is an admissible node of `sub` (which starts at index `idx`) with its distance. -/
def SoundRes (dist : P → P → K) (pt : P) (exclude : List P) (sub : List (Node P K)) (idx : Nat)
    (res : Option (Nat × K)) : Prop :=
  ∀ i d, res = some (i, d) → ∃ k n, i = idx + k ∧ sub[k]? = some n ∧ Admissible pt exclude n ∧
    d = dist pt n.vantagePt

theorem nearer_eq_or {T : Type*} (a b : Option (T × K)) : nearer a b = a ∨ nearer a b = b := by
  unfold nearer
  split
  · split <;> simp
  · right; rfl
  · left; rfl

theorem soundRes_nearer {dist : P → P → K} {pt : P} {exclude : List P} {sub : List (Node P K)} {idx : Nat}
    {a b : Option (Nat × K)} (ha : SoundRes dist pt exclude sub idx a) (hb : SoundRes dist pt exclude sub idx b) :
    SoundRes dist pt exclude sub idx (nearer a b) := by
  rcases nearer_eq_or a b with h | h <;> rw [h] <;> assumption

/-- Soundness in a part of a slice carries over to the slice. -/
theorem soundRes_mono {dist : P → P → K} {pt : P} {exclude : List P} {sub sub' : List (Node P K)} {idx off : Nat}
    {a : Option (Nat × K)} (ha : SoundRes dist pt exclude sub' (idx + off) a)
    (h : ∀ k n, sub'[k]? = some n → sub[off + k]? = some n) : SoundRes dist pt exclude sub idx a := by
  intro i d hi
  obtain ⟨k, n, rfl, hk, hn⟩ := ha i d hi
  exact ⟨off + k, n, by omega, h k n hk, hn⟩

/-- Soundness of the search holds for any list of nodes and any distance. -/
theorem nearestInSubtree_sound (dist : P → P → K) (maxDist : K) (pt : P) (exclude : List P) (fuel : Nat) :
    ∀ sub idx cache, CacheOK dist pt cache →
      let res := nearestInSubtree dist maxDist pt exclude fuel sub idx cache
      CacheOK dist pt res.2 ∧ SoundRes dist pt exclude sub idx res.1 := by
  induction fuel with
  | zero =>
    intro sub idx cache hc
    exact ⟨hc, by intro i d h; simp [nearestInSubtree] at h⟩
  | succ fuel ih =>
    intro sub idx cache hc
    cases sub with
    | nil => exact ⟨hc, by intro i d h; simp [nearestInSubtree] at h⟩
    | cons node tree =>
      obtain ⟨hd, hc1⟩ := cachedDist_spec hc node.vantagePt
      simp only [nearestInSubtree]
      generalize hcd : cachedDist dist pt node.vantagePt cache = cd at hd hc1 ⊢
      obtain ⟨d, cache1⟩ := cd
      simp only at hd hc1 ⊢
      subst hd
      have h0 : SoundRes dist pt exclude (node :: tree) idx
          (if pt = node.vantagePt ∨ node.vantagePt ∈ exclude then none else some (idx, dist pt node.vantagePt)) := by
        intro i d hi
        split at hi
        · simp at hi
        · rename_i hne
          push Not at hne
          simp only [Option.some.injEq, Prod.mk.injEq] at hi
          exact ⟨0, node, by omega, by simp, ⟨fun h => hne.1 h.symm, hne.2⟩, hi.2.symm⟩
      generalize (if pt = node.vantagePt ∨ node.vantagePt ∈ exclude then none
        else some (idx, dist pt node.vantagePt)) = near0 at h0 ⊢
      split
      · exact ⟨hc1, h0⟩
      · rename_i ch _
        -- a slice and its offset
        have hsub : ∀ b : Bool, ∀ k n,
            (if b then tree.drop ch.outsideOffset else tree.take ch.outsideOffset)[k]? = some n →
            (node :: tree)[(if b then ch.outsideOffset + 1 else 1) + k]? = some n := by
          intro b k n h
          cases b
          · simp only [Bool.false_eq_true, if_false] at h ⊢
            rw [Nat.add_comm, List.getElem?_cons_succ]
            rw [List.getElem?_take] at h
            split at h
            · exact h
            · simp at h
          · simp only [if_true] at h ⊢
            rw [show ch.outsideOffset + 1 + k = (ch.outsideOffset + k) + 1 by omega, List.getElem?_cons_succ]
            rw [List.getElem?_drop] at h
            exact h
        generalize hb : DistNum.lt ch.radius (dist pt node.vantagePt) = b
        have e1 : (if b = true then List.take ch.outsideOffset tree else List.drop ch.outsideOffset tree)
            = (if (!b) = true then List.drop ch.outsideOffset tree else List.take ch.outsideOffset tree) := by
          cases b <;> rfl
        have e2 : (if b = true then 1 else ch.outsideOffset + 1)
            = (if (!b) = true then ch.outsideOffset + 1 else 1) := by
          cases b <;> rfl
        rw [e1, e2]
        obtain ⟨hc2, h1⟩ := ih (if b = true then List.drop ch.outsideOffset tree else List.take ch.outsideOffset tree)
          (idx + if b = true then ch.outsideOffset + 1 else 1) cache1 hc1
        generalize nearestInSubtree dist maxDist pt exclude fuel
          (if b = true then List.drop ch.outsideOffset tree else List.take ch.outsideOffset tree)
          (idx + if b = true then ch.outsideOffset + 1 else 1) cache1 = r1 at hc2 h1 ⊢
        obtain ⟨pref, cache2⟩ := r1
        simp only at hc2 h1 ⊢
        have h1' := soundRes_mono h1 (hsub b)
        obtain ⟨hc3, h2⟩ := ih (if (!b) = true then List.drop ch.outsideOffset tree else List.take ch.outsideOffset tree)
          (idx + if (!b) = true then ch.outsideOffset + 1 else 1) cache2 hc2
        generalize nearestInSubtree dist maxDist pt exclude fuel
          (if (!b) = true then List.drop ch.outsideOffset tree else List.take ch.outsideOffset tree)
          (idx + if (!b) = true then ch.outsideOffset + 1 else 1) cache2 = r2 at hc3 h2 ⊢
        obtain ⟨other, cache3⟩ := r2
        simp only at hc3 h2 ⊢
        have h2' := soundRes_mono h2 (hsub (!b))
        have h01 := soundRes_nearer h0 h1'
        split
        · exact ⟨hc2, h01⟩
        · generalize nearer near0 pref = near1 at h01 ⊢
          have h3 := soundRes_nearer h01 h2'
          rcases near1 with _ | ⟨i, dn⟩
          · simpa using ⟨hc3, h3⟩
          · simp only
            split
            · exact ⟨hc2, h01⟩
            · exact ⟨hc3, h3⟩

end Sound

section Optimal

variable {P K : Type*} [DecidableEq P] [AddCommGroup K] [LinearOrder K] [IsOrderedAddMonoid K]

/-- No admissible node of `sub` is both within `maxDist` and nearer than `res`. -/
def OptimalRes (dist : P → P → K) (maxDist : K) (pt : P) (exclude : List P) (sub : List (Node P K))
    (res : Option (Nat × K)) : Prop :=
  ∀ n ∈ sub, Admissible pt exclude n → dist pt n.vantagePt ≤ maxDist →
    ∃ i d, res = some (i, d) ∧ d ≤ dist pt n.vantagePt

theorem nearer_le {T : Type*} (a b : Option (T × K)) (x : K)
    (h : (∃ i d, a = some (i, d) ∧ d ≤ x) ∨ (∃ i d, b = some (i, d) ∧ d ≤ x)) :
    ∃ i d, nearer a b = some (i, d) ∧ d ≤ x := by
  rcases h with ⟨i, d, rfl, hd⟩ | ⟨i, d, rfl, hd⟩
  · rcases b with _ | ⟨j, e⟩
    · exact ⟨i, d, rfl, hd⟩
    · simp only [nearer, DistNum.le, decide_eq_true_eq]
      split
      · exact ⟨i, d, rfl, hd⟩
      · exact ⟨j, e, rfl, by rename_i h; exact (le_of_lt (not_le.1 h)).trans hd⟩
  · rcases a with _ | ⟨j, e⟩
    · exact ⟨i, d, rfl, hd⟩
    · simp only [nearer, DistNum.le, decide_eq_true_eq]
      split
      · exact ⟨j, e, rfl, by rename_i h; exact h.trans hd⟩
      · exact ⟨i, d, rfl, hd⟩

omit [DecidableEq P] in
/-- The lower bounds used for pruning. -/
theorem prune_bound {S : P → Prop} {dist : P → P → K} (hm : IsMetricOn S dist) {pt vp x : P} (hp : S pt) (hv : S vp) (hx : S x)
    {r : K} :
    (dist vp x ≤ r → dist pt vp - r ≤ dist pt x) ∧ (r ≤ dist vp x → r - dist pt vp ≤ dist pt x) := by
  have h1 := hm.triangle pt x vp hp hx hv
  have h2 := hm.triangle vp pt x hv hp hx
  rw [hm.symm x vp hx hv] at h1
  rw [hm.symm vp pt hv hp] at h2
  constructor
  · intro h
    rw [sub_le_iff_le_add]
    exact h1.trans (by gcongr)
  · intro h
    rw [sub_le_iff_le_add']
    exact h.trans h2

/-- Optimality of the search in a complete vantage-point tree. -/
theorem nearestInSubtree_optimal {S : P → Prop} {dist : P → P → K} (hm : IsMetricOn S dist) (maxDist : K) {pt : P} (hpt : S pt)
    (exclude : List P) {depth : Nat} {sub : List (Node P K)} (ht : IsVPTree dist depth sub) :
    (∀ n ∈ sub, S n.vantagePt) → sub.length < 2 ^ (depth + 1) → ∀ fuel idx cache, sub.length ≤ fuel → CacheOK dist pt cache →
      OptimalRes dist maxDist pt exclude sub
        (nearestInSubtree dist maxDist pt exclude fuel sub idx cache).1 := by
  induction ht with
  | leaf depth nodes h hc =>
    intro _ hlen fuel idx cache hfuel hcache
    match nodes, h, hc, hlen, hfuel with
    | [], _, _, _, _ => intro n hn; simp at hn
    | [node], h, hc, hlen, hfuel =>
      obtain ⟨fuel, rfl⟩ : ∃ f, fuel = f + 1 := ⟨fuel - 1, by simp at hfuel; omega⟩
      obtain ⟨hd, hc1⟩ := cachedDist_spec hcache node.vantagePt
      simp only [nearestInSubtree, hc node List.mem_cons_self, hd]
      intro n hn hadm _
      simp only [List.mem_singleton] at hn
      subst hn
      rw [if_neg (by rintro (h | h); exact hadm.1 h.symm; exact hadm.2 h)]
      exact ⟨idx, _, rfl, le_refl _⟩
    | a :: b :: l, h, hc, hlen, hfuel =>
      rcases h with rfl | h
      · simp at hlen; omega
      · simp at h; omega
  | node depth p r inside outside hin hout hr hsize h1 h2 ih1 ih2 =>
    intro hS hlen fuel idx cache hfuel hcache
    have hSp : S p := hS ⟨p, some ⟨r, inside.length⟩⟩ (by simp)
    have hSin : ∀ n ∈ inside, S n.vantagePt := fun n hn => hS n (by simp [hn])
    have hSout : ∀ n ∈ outside, S n.vantagePt := fun n hn => hS n (by simp [hn])
    simp only [List.length_cons, List.length_append] at hlen hfuel
    rw [pow_succ] at hlen
    obtain ⟨fuel, rfl⟩ : ∃ f, fuel = f + 1 := ⟨fuel - 1, by omega⟩
    obtain ⟨hd, hc1⟩ := cachedDist_spec hcache p
    simp only [nearestInSubtree]
    generalize hcd : cachedDist dist pt p cache = cd at hd hc1 ⊢
    obtain ⟨d, cache1⟩ := cd
    simp only at hd hc1 ⊢
    subst hd
    rw [List.take_left' rfl, List.drop_left' rfl]
    have h0 : Admissible pt exclude (⟨p, some ⟨r, inside.length⟩⟩ : Node P K) →
        ∃ i d, (if pt = p ∨ p ∈ exclude then none else some (idx, dist pt p)) = some (i, d) ∧ d ≤ dist pt p := by
      intro hadm
      rw [if_neg (by rintro (h | h); exact hadm.1 h.symm; exact hadm.2 h)]
      exact ⟨idx, _, rfl, le_refl _⟩
    generalize (if pt = p ∨ p ∈ exclude then none else some (idx, dist pt p)) = near0 at h0 ⊢
    -- bound for the less promising region
    have hbound : ∀ n ∈ (if DistNum.lt r (dist pt p) = true then inside else outside),
        |dist pt p - r| ≤ dist pt n.vantagePt := by
      intro n hn
      by_cases hlt : r < dist pt p
      · simp only [DistNum.lt, hlt, decide_true, if_true] at hn
        rw [abs_of_pos (sub_pos.2 hlt)]
        exact (prune_bound hm hpt hSp (hSin n hn)).1 (hin n hn)
      · simp only [DistNum.lt, hlt, decide_false, Bool.false_eq_true, if_false] at hn
        rw [abs_sub_comm, abs_of_nonneg (sub_nonneg.2 (not_lt.1 hlt))]
        exact (prune_bound hm hpt hSp (hSout n hn)).2 (hout n hn)
    have hcov : ∀ n ∈ inside ++ outside,
        n ∈ (if DistNum.lt r (dist pt p) = true then outside else inside) ∨
        n ∈ (if DistNum.lt r (dist pt p) = true then inside else outside) := by
      intro n hn
      rcases List.mem_append.1 hn with h | h <;> split <;> simp [h]
    have ihA : ∀ idx cache, CacheOK dist pt cache → OptimalRes dist maxDist pt exclude
        (if DistNum.lt r (dist pt p) = true then outside else inside)
        (nearestInSubtree dist maxDist pt exclude fuel
          (if DistNum.lt r (dist pt p) = true then outside else inside) idx cache).1 := by
      intro idx cache hc
      split
      · exact ih2 hSout (by omega) fuel idx cache (by omega) hc
      · exact ih1 hSin (by omega) fuel idx cache (by omega) hc
    have ihB : ∀ idx cache, CacheOK dist pt cache → OptimalRes dist maxDist pt exclude
        (if DistNum.lt r (dist pt p) = true then inside else outside)
        (nearestInSubtree dist maxDist pt exclude fuel
          (if DistNum.lt r (dist pt p) = true then inside else outside) idx cache).1 := by
      intro idx cache hc
      split
      · exact ih1 hSin (by omega) fuel idx cache (by omega) hc
      · exact ih2 hSout (by omega) fuel idx cache (by omega) hc
    generalize (if DistNum.lt r (dist pt p) = true then outside else inside) = sub0 at hcov ihA ⊢
    generalize (if DistNum.lt r (dist pt p) = true then inside else outside) = sub1 at hcov ihB hbound ⊢
    generalize hi0 : (idx + if DistNum.lt r (dist pt p) = true then inside.length + 1 else 1) = idx0
    generalize hi1 : (idx + if DistNum.lt r (dist pt p) = true then 1 else inside.length + 1) = idx1
    have hopt1 := ihA idx0 cache1 hc1
    have hc2 := (nearestInSubtree_sound dist maxDist pt exclude fuel sub0 idx0 cache1 hc1).1
    generalize nearestInSubtree dist maxDist pt exclude fuel sub0 idx0 cache1 = r1 at hopt1 hc2 ⊢
    obtain ⟨pref, cache2⟩ := r1
    simp only at hopt1 hc2 ⊢
    have hopt2 := ihB idx1 cache2 hc2
    generalize nearestInSubtree dist maxDist pt exclude fuel sub1 idx1 cache2 = r2 at hopt2 ⊢
    obtain ⟨other, cache3⟩ := r2
    simp only at hopt2 ⊢
    -- everything not in the less promising region
    have hfirst : ∀ n ∈ (⟨p, some ⟨r, inside.length⟩⟩ : Node P K) :: (inside ++ outside), Admissible pt exclude n →
        dist pt n.vantagePt ≤ maxDist →
        (∃ i d, nearer near0 pref = some (i, d) ∧ d ≤ dist pt n.vantagePt) ∨ n ∈ sub1 := by
      intro n hn hadm hle
      rcases List.mem_cons.1 hn with rfl | hn
      · exact Or.inl (nearer_le _ _ _ (Or.inl (h0 hadm)))
      · rcases hcov n hn with h | h
        · exact Or.inl (nearer_le _ _ _ (Or.inr (hopt1 n h hadm hle)))
        · exact Or.inr h
    split
    · rename_i hprune
      simp only [DistNum.le, DistNum.absDiff, decide_eq_false_iff_not, not_le] at hprune
      intro n hn hadm hle
      rcases hfirst n hn hadm hle with h | h
      · exact h
      · exact absurd (hprune.trans_le ((hbound n h).trans hle)) (lt_irrefl _)
    · generalize nearer near0 pref = near1 at hfirst ⊢
      have hlast : OptimalRes dist maxDist pt exclude
          ((⟨p, some ⟨r, inside.length⟩⟩ : Node P K) :: (inside ++ outside)) (nearer near1 other) := by
        intro n hn hadm hle
        rcases hfirst n hn hadm hle with h | h
        · exact nearer_le _ _ _ (Or.inl h)
        · exact nearer_le _ _ _ (Or.inr (hopt2 n h hadm hle))
      rcases near1 with _ | ⟨i, dn⟩
      · simpa using hlast
      · simp only
        split
        · rename_i hprune
          intro n hn hadm hle
          rcases hfirst n hn hadm hle with h | h
          · exact h
          · simp only [DistNum.lt, DistNum.absDiff, decide_eq_true_eq] at hprune
            refine ⟨i, dn, rfl, ?_⟩
            rw [abs_sub_comm] at hprune
            exact le_of_lt (hprune.trans_le (hbound n h))
        · exact hlast

end Optimal

end Cres

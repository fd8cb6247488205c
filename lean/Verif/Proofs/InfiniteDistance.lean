import Verif.Spec.InfiniteDistance
import Verif.Proofs.VPTreeIter
import Verif.Props.Search
import Mathlib.Algebra.Order.Group.Abs

/-!
Searches with distances that can be infinite.
-/

set_option linter.unusedSectionVars false

namespace Cres

open Spec

section

variable {P K : Type*} [DecidableEq P] [AddCommGroup K] [LinearOrder K] [IsOrderedAddMonoid K]

/-! ### comparisons -/

theorem ext_le_iff {a b : ExtFloat K} (ha : a ≠ .nan) (hb : b ≠ .nan) : DistNum.le a b = true ↔ a ≤ b := by
  show ExtFloat.le a b = true ↔ ExtFloat.rank a ≤ ExtFloat.rank b
  cases a <;> cases b <;> simp_all [ExtFloat.le, ExtFloat.rank]

theorem ext_fin_le {a b : K} : (ExtFloat.fin a : ExtFloat K) ≤ .fin b ↔ a ≤ b := by
  show ExtFloat.rank (.fin a) ≤ ExtFloat.rank (.fin b) ↔ _
  simp [ExtFloat.rank]

theorem ext_le_inf {a : ExtFloat K} (ha : a ≠ .nan) : a ≤ .inf := by
  show ExtFloat.rank a ≤ ExtFloat.rank .inf
  cases a <;> simp_all [ExtFloat.rank]

theorem ext_inf_le {a : ExtFloat K} (h : .inf ≤ a) (ha : a ≠ .nan) : a = .inf := by
  change ExtFloat.rank .inf ≤ ExtFloat.rank a at h
  cases a <;> simp_all [ExtFloat.rank]

theorem ext_fin_of_le {a : ExtFloat K} {b : K} (h : a ≤ .fin b) : ∃ c, a = .fin c := by
  change ExtFloat.rank a ≤ ExtFloat.rank (.fin b) at h
  cases a <;> simp_all [ExtFloat.rank]

theorem ext_cases {a : ExtFloat K} (ha : a ≠ .nan) : a = .inf ∨ ∃ c, a = .fin c := by
  cases a <;> simp_all

/-- The nearer of two candidates with distances that are not NaN. -/
theorem nearer_ext {T : Type*} (a b : Option (T × ExtFloat K)) (x : ExtFloat K) (ha : ∀ i d, a = some (i, d) → d ≠ .nan)
    (hb : ∀ i d, b = some (i, d) → d ≠ .nan)
    (h : (∃ i d, a = some (i, d) ∧ d ≤ x) ∨ (∃ i d, b = some (i, d) ∧ d ≤ x)) :
    ∃ i d, nearer a b = some (i, d) ∧ d ≤ x := by
  rcases h with ⟨i, d, rfl, hd⟩ | ⟨i, d, rfl, hd⟩
  · rcases b with _ | ⟨j, e⟩
    · exact ⟨i, d, rfl, hd⟩
    · have h1 := ha i d rfl
      have h2 := hb j e rfl
      simp only [nearer, ext_le_iff h1 h2]
      split
      · exact ⟨i, d, rfl, hd⟩
      · exact ⟨j, e, rfl, by rename_i h; exact (le_of_lt (not_le.1 h)).trans hd⟩
  · rcases a with _ | ⟨j, e⟩
    · exact ⟨i, d, rfl, hd⟩
    · have h1 := ha j e rfl
      have h2 := hb i d rfl
      simp only [nearer, ext_le_iff h1 h2]
      split
      · exact ⟨j, e, rfl, by rename_i h; exact h.trans hd⟩
      · exact ⟨i, d, rfl, hd⟩

/-! ### hidden points -/

theorem hidden_mem {nodes : List (Node P (ExtFloat K))} {x : P} (h : Hidden nodes x) : ∃ n ∈ nodes.tail, n.vantagePt = x := by
  induction h with
  | here p inside outside x h => exact ⟨x, by simp [h], rfl⟩
  | inside p r inside outside x h ih =>
    obtain ⟨n, hn, rfl⟩ := ih
    exact ⟨n, by simp [List.mem_of_mem_tail hn], rfl⟩
  | outside p r inside outside x h ih =>
    obtain ⟨n, hn, rfl⟩ := ih
    exact ⟨n, by simp [List.mem_of_mem_tail hn], rfl⟩

theorem hidden_cons_iff {p x : P} {r : ExtFloat K} {inside outside : List (Node P (ExtFloat K))} :
    Hidden (⟨p, some ⟨r, inside.length⟩⟩ :: (inside ++ outside)) x ↔
      (r = .inf ∧ ∃ n ∈ outside, n.vantagePt = x) ∨ Hidden inside x ∨ Hidden outside x := by
  constructor
  · intro h
    generalize hn : (⟨p, some ⟨r, inside.length⟩⟩ :: (inside ++ outside) : List (Node P (ExtFloat K))) = nodes at h
    cases h with
    | here p' inside' outside' n h =>
      simp only [List.cons.injEq, Node.mk.injEq, Option.some.injEq, Children.mk.injEq] at hn
      obtain ⟨⟨rfl, rfl, hl⟩, ha⟩ := hn
      obtain ⟨rfl, rfl⟩ := List.append_inj ha hl
      exact Or.inl ⟨rfl, n, h, rfl⟩
    | inside p' r' inside' outside' _ h =>
      simp only [List.cons.injEq, Node.mk.injEq, Option.some.injEq, Children.mk.injEq] at hn
      obtain ⟨⟨rfl, rfl, hl⟩, ha⟩ := hn
      obtain ⟨rfl, rfl⟩ := List.append_inj ha hl
      exact Or.inr (Or.inl h)
    | outside p' r' inside' outside' _ h =>
      simp only [List.cons.injEq, Node.mk.injEq, Option.some.injEq, Children.mk.injEq] at hn
      obtain ⟨⟨rfl, rfl, hl⟩, ha⟩ := hn
      obtain ⟨rfl, rfl⟩ := List.append_inj ha hl
      exact Or.inr (Or.inr h)
  · rintro (⟨rfl, n, hn, rfl⟩ | h | h)
    · exact .here p inside outside n hn
    · exact .inside p r inside outside x h
    · exact .outside p r inside outside x h

theorem hidden_leaf {nodes : List (Node P (ExtFloat K))} {x : P} (hc : ∀ n ∈ nodes, n.children = none) : ¬ Hidden nodes x := by
  intro h
  cases h <;> simpa using hc _ List.mem_cons_self

/-! ### one search -/

/-- What a search returns: at least as near as all candidates that are not hidden, and never a hidden point at finite distance. -/
def ExtRes (dist : P → P → ExtFloat K) (maxDist : ExtFloat K) (pt : P) (exclude : List P) (sub : List (Node P (ExtFloat K)))
    (idx : Nat) (res : Option (Nat × ExtFloat K)) : Prop :=
  (∀ n ∈ sub, Admissible pt exclude n → dist pt n.vantagePt ≠ .inf → dist pt n.vantagePt ≤ maxDist → ¬ Hidden sub n.vantagePt →
    ∃ i d, res = some (i, d) ∧ d ≤ dist pt n.vantagePt) ∧
  (∀ k d n, res = some (idx + k, d) → sub[k]? = some n → dist pt n.vantagePt ≠ .inf → ¬ Hidden sub n.vantagePt)

theorem ext_prune {S : P → Prop} {dist : P → P → ExtFloat K} (hm : IsExtMetricOn S dist) {pt vp x : P} (hp : S pt) (hv : S vp)
    (hx : S x) {δ ρ c : K} (h1 : dist pt vp = .fin δ) (h2 : dist pt x = .fin c) :
    (dist vp x ≤ .fin ρ → δ - ρ ≤ c) ∧ (.fin ρ ≤ dist vp x → ρ - δ ≤ c) := by
  have h1' : dist vp pt = .fin δ := by rw [hm.symm vp pt hv hp, h1]
  have h2' : dist x pt = .fin c := by rw [hm.symm x pt hx hp, h2]
  obtain ⟨e, he, hle⟩ := hm.triangle vp pt x δ c hv hp hx h1' h2
  have he' : dist x vp = .fin e := by rw [hm.symm x vp hx hv, he]
  obtain ⟨f, hf, hfl⟩ := hm.triangle pt x vp c e hp hx hv h2 he'
  rw [h1] at hf
  cases hf
  rw [he, ext_fin_le, ext_fin_le]
  constructor
  · intro h
    rw [sub_le_iff_le_add]
    exact hfl.trans (by gcongr)
  · intro h
    rw [sub_le_iff_le_add']
    exact h.trans hle

theorem ext_lt_iff {a b : ExtFloat K} (ha : a ≠ .nan) (hb : b ≠ .nan) : DistNum.lt a b = true ↔ a < b := by
  have h1 : DistNum.lt a b = true ↔ ¬ DistNum.le b a = true := by
    show ExtFloat.lt a b = true ↔ ¬ ExtFloat.le b a = true
    cases a <;> cases b <;> simp_all [ExtFloat.le, ExtFloat.lt]
  rw [h1, ext_le_iff hb ha, not_le]

/-- The two parts `A` and `B` of a tree are searched, the second one only if it cannot be excluded that it contains a nearer
point. -/
theorem ext_combine {dist : P → P → ExtFloat K} {maxDist r : ExtFloat K} {pt p : P} {exclude : List P}
    {full A B : List (Node P (ExtFloat K))} {idx offA offB : Nat} {near0 pref other res : Option (Nat × ExtFloat K)}
    (hmax : maxDist ≠ .nan) (hdn : ∀ n ∈ full, dist pt n.vantagePt ≠ .nan) {vp : Node P (ExtFloat K)} (hvp : vp.vantagePt = p)
    (hfull : full[0]? = some vp)
    (hA : ∀ k n, A[k]? = some n → full[offA + k]? = some n) (hB : ∀ k n, B[k]? = some n → full[offB + k]? = some n)
    (h0 : ∀ i d, near0 = some (i, d) → i = idx ∧ d = dist pt p)
    (sA : SoundRes dist pt exclude A (idx + offA) pref) (sB : SoundRes dist pt exclude B (idx + offB) other)
    (eA : ExtRes dist maxDist pt exclude A (idx + offA) pref) (eB : ExtRes dist maxDist pt exclude B (idx + offB) other)
    (c1 : ∀ n ∈ full, Admissible pt exclude n → dist pt n.vantagePt ≠ .inf → dist pt n.vantagePt ≤ maxDist →
      ¬ Hidden full n.vantagePt → (∃ i d, near0 = some (i, d) ∧ d ≤ dist pt n.vantagePt) ∨
        (n ∈ A ∧ ¬ Hidden A n.vantagePt) ∨
        (n ∈ B ∧ ¬ Hidden B n.vantagePt ∧ ∃ b, DistNum.absDiff (dist pt p) r = .fin b ∧ DistNum.absDiff r (dist pt p) = .fin b ∧
          .fin b ≤ dist pt n.vantagePt))
    (c2A : ∀ n ∈ A, dist pt n.vantagePt ≠ .inf → ¬ Hidden A n.vantagePt → ¬ Hidden full n.vantagePt)
    (c2B : ∀ n ∈ B, DistNum.absDiff (dist pt p) r ≠ .nan → dist pt n.vantagePt ≠ .inf → ¬ Hidden B n.vantagePt →
      ¬ Hidden full n.vantagePt)
    (c20 : ¬ Hidden full p)
    (hres : (res = nearer near0 pref ∧ (DistNum.le (DistNum.absDiff (dist pt p) r) maxDist = false ∨
        ∃ i dn, nearer near0 pref = some (i, dn) ∧ DistNum.lt dn (DistNum.absDiff r (dist pt p)) = true)) ∨
      (res = nearer (nearer near0 pref) other ∧ DistNum.le (DistNum.absDiff (dist pt p) r) maxDist ≠ false)) :
    ExtRes dist maxDist pt exclude full idx res := by
  have hn0 : ∀ i d, near0 = some (i, d) → d ≠ .nan := by
    intro i d h
    obtain ⟨-, rfl⟩ := h0 i d h
    rw [← hvp]
    exact hdn _ (List.mem_of_getElem? hfull)
  have hnA : ∀ i d, pref = some (i, d) → d ≠ .nan := by
    intro i d h
    obtain ⟨k, n, -, hk, -, rfl⟩ := sA i d h
    exact hdn n (List.mem_of_getElem? (hA k n hk))
  have hnB : ∀ i d, other = some (i, d) → d ≠ .nan := by
    intro i d h
    obtain ⟨k, n, -, hk, -, rfl⟩ := sB i d h
    exact hdn n (List.mem_of_getElem? (hB k n hk))
  have hn1 : ∀ i d, nearer near0 pref = some (i, d) → d ≠ .nan := by
    intro i d h
    rcases nearer_eq_or near0 pref with e | e <;> rw [e] at h
    · exact hn0 i d h
    · exact hnA i d h
  -- results are not hidden
  have q0 : ∀ k d n, near0 = some (idx + k, d) → full[k]? = some n → dist pt n.vantagePt ≠ .inf → ¬ Hidden full n.vantagePt := by
    intro k d n h hk _
    have hk0 : k = 0 := by have := (h0 _ _ h).1; omega
    subst hk0
    rw [hfull] at hk
    cases hk
    rwa [hvp]
  have qA : ∀ k d n, pref = some (idx + k, d) → full[k]? = some n → dist pt n.vantagePt ≠ .inf → ¬ Hidden full n.vantagePt := by
    intro k d n h hk hf
    obtain ⟨k', n', he, hk', -, -⟩ := sA _ _ h
    obtain rfl : k = offA + k' := by omega
    rw [hA k' n' hk'] at hk
    cases hk
    exact c2A n (List.mem_of_getElem? hk') hf (eA.2 k' d n (by rw [h, Nat.add_assoc]) hk' hf)
  have qB : DistNum.absDiff (dist pt p) r ≠ .nan → ∀ k d n, other = some (idx + k, d) → full[k]? = some n →
      dist pt n.vantagePt ≠ .inf → ¬ Hidden full n.vantagePt := by
    intro hnan k d n h hk hf
    obtain ⟨k', n', he, hk', -, -⟩ := sB _ _ h
    obtain rfl : k = offB + k' := by omega
    rw [hB k' n' hk'] at hk
    cases hk
    exact c2B n (List.mem_of_getElem? hk') hnan hf (eB.2 k' d n (by rw [h, Nat.add_assoc]) hk' hf)
  have q1 : ∀ k d n, nearer near0 pref = some (idx + k, d) → full[k]? = some n → dist pt n.vantagePt ≠ .inf →
      ¬ Hidden full n.vantagePt := by
    intro k d n h
    rcases nearer_eq_or near0 pref with e | e <;> rw [e] at h
    · exact q0 k d n h
    · exact qA k d n h
  rcases hres with ⟨rfl, hpr⟩ | ⟨rfl, hpr⟩
  · refine ⟨?_, q1⟩
    intro n hn hadm hf hle hh
    rcases c1 n hn hadm hf hle hh with h | ⟨h, h'⟩ | ⟨h, h', b, hb, hb', hbl⟩
    · exact nearer_ext _ _ _ hn0 hnA (Or.inl h)
    · exact nearer_ext _ _ _ hn0 hnA (Or.inr (eA.1 n h hadm hf hle h'))
    · rcases hpr with hpr | ⟨i, dn, hdn', hpr⟩
      · rw [hb] at hpr
        have := (ext_le_iff (by simp) hmax).2 (hbl.trans hle)
        rw [hpr] at this
        cases this
      · rw [hb', ext_lt_iff (hn1 i dn hdn') (by simp)] at hpr
        exact ⟨i, dn, hdn', (hpr.trans_le hbl).le⟩
  · have hnan : DistNum.absDiff (dist pt p) r ≠ .nan := by
      intro h
      rw [h] at hpr
      exact hpr rfl
    refine ⟨?_, ?_⟩
    · intro n hn hadm hf hle hh
      rcases c1 n hn hadm hf hle hh with h | ⟨h, h'⟩ | ⟨h, h', -⟩
      · exact nearer_ext _ _ _ hn1 hnB (Or.inl (nearer_ext _ _ _ hn0 hnA (Or.inl h)))
      · exact nearer_ext _ _ _ hn1 hnB (Or.inl (nearer_ext _ _ _ hn0 hnA (Or.inr (eA.1 n h hadm hf hle h'))))
      · exact nearer_ext _ _ _ hn1 hnB (Or.inr (eB.1 n h hadm hf hle h'))
    · intro k d n h
      rcases nearer_eq_or (nearer near0 pref) other with e | e <;> rw [e] at h
      · exact q1 k d n h
      · exact qB hnan k d n h

theorem nearestInSubtree_ext {S : P → Prop} {dist : P → P → ExtFloat K} (hm : IsExtMetricOn S dist) {maxDist : ExtFloat K}
    (hmax : maxDist ≠ .nan) {pt : P} (hpt : S pt) (exclude : List P) {depth : Nat} {sub : List (Node P (ExtFloat K))}
    (ht : IsVPTree dist depth sub) :
    (∀ n ∈ sub, S n.vantagePt) → (sub.map Node.vantagePt).Nodup → sub.length < 2 ^ (depth + 1) → ∀ fuel idx cache,
      sub.length ≤ fuel → CacheOK dist pt cache →
      ExtRes dist maxDist pt exclude sub idx (nearestInSubtree dist maxDist pt exclude fuel sub idx cache).1 := by
  induction ht with
  | leaf depth nodes h hc =>
    intro _ _ hlen fuel idx cache hfuel hcache
    match nodes, h, hc, hlen, hfuel with
    | [], _, _, _, _ =>
      refine ⟨fun n hn => by simp at hn, fun k d n _ hn => by simp at hn⟩
    | [node], h, hc, hlen, hfuel =>
      obtain ⟨fuel, rfl⟩ : ∃ f, fuel = f + 1 := ⟨fuel - 1, by simp at hfuel; omega⟩
      obtain ⟨hd, hc1⟩ := cachedDist_spec hcache node.vantagePt
      refine ⟨?_, fun _ _ _ _ _ _ => hidden_leaf hc⟩
      simp only [nearestInSubtree, hc node List.mem_cons_self, hd]
      intro n hn hadm _ _ _
      simp only [List.mem_singleton] at hn
      subst hn
      rw [if_neg (by rintro (h | h); exact hadm.1 h.symm; exact hadm.2 h)]
      exact ⟨idx, _, rfl, le_refl _⟩
    | a :: b :: l, h, hc, hlen, hfuel =>
      rcases h with rfl | h
      · simp at hlen; omega
      · simp at h; omega
  | node depth p r inside outside hin hout hr hsize h1 h2 ih1 ih2 =>
    intro hS hnd hlen fuel idx cache hfuel hcache
    have hSp : S p := hS ⟨p, some ⟨r, inside.length⟩⟩ (by simp)
    have hSin : ∀ n ∈ inside, S n.vantagePt := fun n hn => hS n (by simp [hn])
    have hSout : ∀ n ∈ outside, S n.vantagePt := fun n hn => hS n (by simp [hn])
    simp only [List.length_cons, List.length_append] at hlen hfuel
    rw [pow_succ] at hlen
    simp only [List.map_cons, List.map_append, List.nodup_cons, List.mem_append, not_or] at hnd
    obtain ⟨⟨hp1, hp2⟩, hnd⟩ := hnd
    obtain ⟨hnd1, hnd2, hdis⟩ := List.nodup_append.1 hnd
    have hdisj : ∀ x ∈ inside, ∀ y ∈ outside, x.vantagePt ≠ y.vantagePt := fun x hx y hy =>
      hdis _ (List.mem_map_of_mem hx) _ (List.mem_map_of_mem hy)
    obtain ⟨fuel, rfl⟩ : ∃ f, fuel = f + 1 := ⟨fuel - 1, by omega⟩
    obtain ⟨hd, hc1⟩ := cachedDist_spec hcache p
    simp only [nearestInSubtree]
    generalize hcd : cachedDist dist pt p cache = cd at hd hc1 ⊢
    obtain ⟨d, cache1⟩ := cd
    simp only at hd hc1 ⊢
    subst hd
    rw [List.take_left' rfl, List.drop_left' rfl]
    have hdn : dist pt p ≠ .nan := hm.notNan _ _ hpt hSp
    have hrn : r ≠ .nan := by
      obtain ⟨x, hx, rfl⟩ := hr
      exact hm.notNan _ _ hSp (hSout x hx)
    have hSfull : ∀ n ∈ (⟨p, some ⟨r, inside.length⟩⟩ :: (inside ++ outside) : List (Node P (ExtFloat K))), S n.vantagePt := hS
    have hdnf := fun n hn => hm.notNan pt n.vantagePt hpt (hSfull n hn)
    have hin' : ∀ n ∈ inside, ¬ Hidden outside n.vantagePt ∧ ¬ ∃ x ∈ outside, x.vantagePt = n.vantagePt := by
      intro n hn
      refine ⟨fun h => ?_, ?_⟩
      · obtain ⟨m, hm', he⟩ := hidden_mem h
        exact hdisj n hn m (List.mem_of_mem_tail hm') he.symm
      · rintro ⟨x, hx, he⟩
        exact hdisj n hn x hx he.symm
    have hout' : ∀ n ∈ outside, ¬ Hidden inside n.vantagePt := by
      intro n hn h
      obtain ⟨m, hm', he⟩ := hidden_mem h
      exact hdisj m (List.mem_of_mem_tail hm') n hn he
    have c20 : ¬ Hidden (⟨p, some ⟨r, inside.length⟩⟩ :: (inside ++ outside)) p := by
      intro h
      obtain ⟨m, hm', he⟩ := hidden_mem h
      simp only [List.tail_cons, List.mem_append] at hm'
      rcases hm' with h | h
      · exact hp1 (he ▸ List.mem_map_of_mem h)
      · exact hp2 (he ▸ List.mem_map_of_mem h)
    have cin : ∀ n ∈ inside, ¬ Hidden inside n.vantagePt →
        ¬ Hidden (⟨p, some ⟨r, inside.length⟩⟩ :: (inside ++ outside)) n.vantagePt := by
      intro n hn h
      rw [hidden_cons_iff]
      rintro (⟨-, h'⟩ | h' | h')
      · exact (hin' n hn).2 h'
      · exact h h'
      · exact (hin' n hn).1 h'
    have cout : ∀ n ∈ outside, (r = .inf → dist pt p ≠ .inf) → dist pt n.vantagePt ≠ .inf → ¬ Hidden outside n.vantagePt →
        ¬ Hidden (⟨p, some ⟨r, inside.length⟩⟩ :: (inside ++ outside)) n.vantagePt := by
      intro n hn hr' hf h
      rw [hidden_cons_iff]
      rintro (⟨h', -⟩ | h' | h')
      · subst h'
        have e1 := ext_inf_le (hout n hn) (hm.notNan _ _ hSp (hSout n hn))
        obtain ⟨a, ha⟩ := (ext_cases hdn).resolve_left (hr' rfl)
        obtain ⟨b, hb⟩ := (ext_cases (hm.notNan pt _ hpt (hSout n hn))).resolve_left hf
        obtain ⟨c, hc, -⟩ := hm.triangle p pt n.vantagePt a b hSp hpt (hSout n hn) (by rw [hm.symm p pt hSp hpt, ha]) hb
        rw [e1] at hc
        cases hc
      · exact hout' n hn h'
      · exact h h'
    have h0 : Admissible pt exclude (⟨p, some ⟨r, inside.length⟩⟩ : Node P (ExtFloat K)) →
        ∃ i d, (if pt = p ∨ p ∈ exclude then none else some (idx, dist pt p)) = some (i, d) ∧ d ≤ dist pt p := by
      intro hadm
      rw [if_neg (by rintro (h | h); exact hadm.1 h.symm; exact hadm.2 h)]
      exact ⟨idx, _, rfl, le_refl _⟩
    have h0' : ∀ i d, (if pt = p ∨ p ∈ exclude then none else some (idx, dist pt p)) = some (i, d) → i = idx ∧ d = dist pt p := by
      intro i d h
      split at h
      · cases h
      · cases h; exact ⟨rfl, rfl⟩
    generalize (if pt = p ∨ p ∈ exclude then none else some (idx, dist pt p)) = near0 at h0 h0' ⊢
    have hidx1 : ∀ (k : Nat) (n : Node P (ExtFloat K)), inside[k]? = some n →
        (⟨p, some ⟨r, inside.length⟩⟩ :: (inside ++ outside) : List (Node P (ExtFloat K)))[1 + k]? = some n := by
      intro k n hk
      have hlt : k < inside.length := (List.getElem?_eq_some_iff.1 hk).1
      rw [Nat.add_comm, List.getElem?_cons_succ, List.getElem?_append_left hlt, hk]
    have hidx2 : ∀ (k : Nat) (n : Node P (ExtFloat K)), outside[k]? = some n →
        (⟨p, some ⟨r, inside.length⟩⟩ :: (inside ++ outside) : List (Node P (ExtFloat K)))[inside.length + 1 + k]? = some n := by
      intro k n hk
      rw [show inside.length + 1 + k = (inside.length + k) + 1 by omega, List.getElem?_cons_succ,
        List.getElem?_append_right (by omega), Nat.add_sub_cancel_left, hk]
    by_cases hsw : DistNum.lt r (dist pt p) = true
    · simp only [hsw, if_true]
      have hltr : r < dist pt p := (ext_lt_iff hrn hdn).1 hsw
      have hrfin : ∃ ρ, r = .fin ρ := by
        rcases ext_cases hrn with h | h
        · rw [h] at hltr
          exact absurd (ext_le_inf hdn) (not_le.2 hltr)
        · exact h
      obtain ⟨ρ, hρ⟩ := hrfin
      have e1 := ih2 hSout hnd2 (by omega) fuel (idx + (inside.length + 1)) cache1 (by omega) hc1
      have s1 := nearestInSubtree_sound dist maxDist pt exclude fuel outside (idx + (inside.length + 1)) cache1 hc1
      generalize nearestInSubtree dist maxDist pt exclude fuel outside (idx + (inside.length + 1)) cache1 = r1 at e1 s1 ⊢
      obtain ⟨pref, cache2⟩ := r1
      simp only at e1 s1 ⊢
      have e2 := ih1 hSin hnd1 (by omega) fuel (idx + 1) cache2 (by omega) s1.1
      have s2 := nearestInSubtree_sound dist maxDist pt exclude fuel inside (idx + 1) cache2 s1.1
      generalize nearestInSubtree dist maxDist pt exclude fuel inside (idx + 1) cache2 = r2 at e2 s2 ⊢
      obtain ⟨other, cache3⟩ := r2
      simp only at e2 s2 ⊢
      refine ext_combine (p := p) (r := r) (near0 := near0) (pref := pref) (other := other) hmax hdnf rfl
        (List.getElem?_cons_zero) hidx2 hidx1 h0' s1.2 s2.2 e1 e2 ?_ ?_ ?_ c20 ?_
      · intro n hn hadm hf hle hh
        rw [hidden_cons_iff, not_or, not_or] at hh
        rcases List.mem_cons.1 hn with rfl | hn
        · exact Or.inl (h0 hadm)
        · rcases List.mem_append.1 hn with hn | hn
          · right; right
            refine ⟨hn, hh.2.1, ?_⟩
            obtain ⟨c, hc⟩ := (ext_cases (hm.notNan pt _ hpt (hSin n hn))).resolve_left hf
            have hle' := hin n hn
            rw [hρ] at hle'
            obtain ⟨e, he⟩ := ext_fin_of_le hle'
            obtain ⟨δ, hδ, -⟩ := hm.triangle pt n.vantagePt p c e hpt (hSin n hn) hSp hc
              (by rw [hm.symm _ _ (hSin n hn) hSp, he])
            have hb := (ext_prune hm hpt hSp (hSin n hn) hδ hc (ρ := ρ)).1 hle'
            rw [hρ, hδ] at hltr
            have hltr' : ρ ≤ δ := ext_fin_le.1 hltr.le
            refine ⟨|δ - ρ|, by rw [hδ, hρ]; rfl, by rw [hδ, hρ, abs_sub_comm]; rfl, ?_⟩
            rw [hc, ext_fin_le, abs_of_nonneg (sub_nonneg.2 hltr')]
            exact hb
          · exact Or.inr (Or.inl ⟨hn, hh.2.2⟩)
      · intro n hn hf h
        exact cout n hn (fun h' => by rw [hρ] at h'; cases h') hf h
      · intro n hn _ _ h
        exact cin n hn h
      · by_cases hpr : DistNum.le (DistNum.absDiff (dist pt p) r) maxDist = false
        · rw [if_pos hpr]
          exact Or.inl ⟨rfl, Or.inl hpr⟩
        · rw [if_neg hpr]
          cases hnear : nearer near0 pref with
          | none => exact Or.inr ⟨rfl, hpr⟩
          | some x =>
            obtain ⟨i, dn⟩ := x
            simp only
            split
            · rename_i hpr2
              exact Or.inl ⟨rfl, Or.inr ⟨i, dn, rfl, hpr2⟩⟩
            · exact Or.inr ⟨rfl, hpr⟩
    · simp only [hsw, Bool.false_eq_true, if_false]
      have hltr : dist pt p ≤ r := not_lt.1 fun h => hsw ((ext_lt_iff hrn hdn).2 h)
      have e1 := ih1 hSin hnd1 (by omega) fuel (idx + 1) cache1 (by omega) hc1
      have s1 := nearestInSubtree_sound dist maxDist pt exclude fuel inside (idx + 1) cache1 hc1
      generalize nearestInSubtree dist maxDist pt exclude fuel inside (idx + 1) cache1 = r1 at e1 s1 ⊢
      obtain ⟨pref, cache2⟩ := r1
      simp only at e1 s1 ⊢
      have e2 := ih2 hSout hnd2 (by omega) fuel (idx + (inside.length + 1)) cache2 (by omega) s1.1
      have s2 := nearestInSubtree_sound dist maxDist pt exclude fuel outside (idx + (inside.length + 1)) cache2 s1.1
      generalize nearestInSubtree dist maxDist pt exclude fuel outside (idx + (inside.length + 1)) cache2 = r2 at e2 s2 ⊢
      obtain ⟨other, cache3⟩ := r2
      simp only at e2 s2 ⊢
      refine ext_combine (p := p) (r := r) (near0 := near0) (pref := pref) (other := other) hmax hdnf rfl
        (List.getElem?_cons_zero) hidx1 hidx2 h0' s1.2 s2.2 e1 e2 ?_ ?_ ?_ c20 ?_
      · intro n hn hadm hf hle hh
        rw [hidden_cons_iff, not_or, not_or] at hh
        rcases List.mem_cons.1 hn with rfl | hn
        · exact Or.inl (h0 hadm)
        · rcases List.mem_append.1 hn with hn | hn
          · exact Or.inr (Or.inl ⟨hn, hh.2.1⟩)
          · right; right
            refine ⟨hn, hh.2.2, ?_⟩
            obtain ⟨c, hc⟩ := (ext_cases (hm.notNan pt _ hpt (hSout n hn))).resolve_left hf
            have hri : r ≠ .inf := fun h => hh.1 ⟨h, n, hn, rfl⟩
            obtain ⟨ρ, hρ⟩ := (ext_cases hrn).resolve_left hri
            have hle' := hout n hn
            rw [hρ] at hle' hltr
            obtain ⟨δ, hδ⟩ := ext_fin_of_le hltr
            have hb := (ext_prune hm hpt hSp (hSout n hn) hδ hc (ρ := ρ)).2 hle'
            rw [hδ] at hltr
            have hltr' : δ ≤ ρ := ext_fin_le.1 hltr
            refine ⟨|δ - ρ|, by rw [hδ, hρ]; rfl, by rw [hδ, hρ, abs_sub_comm]; rfl, ?_⟩
            rw [hc, ext_fin_le, abs_sub_comm, abs_of_nonneg (sub_nonneg.2 hltr')]
            exact hb
      · intro n hn _ h
        exact cin n hn h
      · intro n hn hnan hf h
        refine cout n hn (fun h1 h2 => ?_) hf h
        rw [h1, h2] at hnan
        exact hnan rfl
      · by_cases hpr : DistNum.le (DistNum.absDiff (dist pt p) r) maxDist = false
        · rw [if_pos hpr]
          exact Or.inl ⟨rfl, Or.inl hpr⟩
        · rw [if_neg hpr]
          cases hnear : nearer near0 pref with
          | none => exact Or.inr ⟨rfl, hpr⟩
          | some x =>
            obtain ⟨i, dn⟩ := x
            simp only
            split
            · rename_i hpr2
              exact Or.inl ⟨rfl, Or.inr ⟨i, dn, rfl, hpr2⟩⟩
            · exact Or.inr ⟨rfl, hpr⟩

/-! ### iteration -/

/-- The tree is complete. -/
def ExtComplete (t : VPTree P (ExtFloat K)) : Prop :=
  t.intoNodes.Nodup ∧ ∃ depth, IsVPTree t.dist depth t.nodes ∧ t.nodes.length < 2 ^ (depth + 1)

section
variable {t : VPTree P (ExtFloat K)} {S : P → Prop} (hm : IsExtMetricOn S t.dist) (hS : ∀ p ∈ t.intoNodes, S p)
  (ht : ExtComplete t) (hmax : t.maxDist ≠ .nan)
include hm hS ht hmax

theorem ext_res {it : NNIter P (ExtFloat K)} (hpt : S it.pt) (hc : CacheOK t.dist it.pt it.cache) :
    ExtRes t.dist t.maxDist it.pt it.exclude t.nodes 0
      (nearestInSubtree t.dist t.maxDist it.pt it.exclude t.nodes.length t.nodes 0 it.cache).1 := by
  obtain ⟨hnd, depth, h1, h2⟩ := ht
  exact nearestInSubtree_ext hm hmax hpt it.exclude h1 (fun n hn => hS _ (List.mem_map_of_mem hn)) hnd h2 _ 0 it.cache le_rfl hc

theorem next_ext {it : NNIter P (ExtFloat K)} (hpt : S it.pt) (hc : CacheOK t.dist it.pt it.cache) {p : P}
    (hp : Cand t it.pt it.exclude p) (hf : t.dist it.pt p ≠ .inf) (hh : ¬ Hidden t.nodes p) :
    ∃ q d it', it.next t = (some (q, d), it') ∧ d ≤ t.dist it.pt p := by
  have he := ext_res hm hS ht hmax hpt hc
  have hs := (nearestInSubtree_sound t.dist t.maxDist it.pt it.exclude t.nodes.length t.nodes 0 it.cache hc).2
  obtain ⟨hp1, hp2, hp3, hp4⟩ := hp
  have hpn := hm.notNan it.pt p hpt (hS p hp1)
  obtain ⟨n, hn, rfl⟩ := List.mem_map.1 hp1
  rw [ext_le_iff hpn hmax] at hp4
  obtain ⟨i, d, hres, hd⟩ := he.1 n hn ⟨hp2, hp3⟩ hf hp4 hh
  obtain ⟨k, m, hk, hm', -, hdm⟩ := hs i d hres
  simp only [Nat.zero_add] at hk
  subst hk
  unfold NNIter.next VPTree.nearestInImpl
  generalize nearestInSubtree t.dist t.maxDist it.pt it.exclude t.nodes.length t.nodes 0 it.cache = r at hres ⊢
  obtain ⟨res, cache⟩ := r
  simp only at hres
  subst hres
  have hdn : d ≠ .nan := by
    rw [hdm]
    exact hm.notNan _ _ hpt (hS _ (List.mem_map_of_mem (List.mem_of_getElem? hm')))
  simp only [(ext_le_iff hdn hmax).2 (hd.trans hp4), if_true, hm', Option.map_some]
  exact ⟨_, _, _, rfl, hd⟩

theorem next_ext_visible {it it' : NNIter P (ExtFloat K)} (hpt : S it.pt) (hc : CacheOK t.dist it.pt it.cache) {p : P}
    {d : ExtFloat K} (h : it.next t = (some (p, d), it')) (hf : t.dist it.pt p ≠ .inf) : ¬ Hidden t.nodes p := by
  have he := ext_res hm hS ht hmax hpt hc
  have hs := (nearestInSubtree_sound t.dist t.maxDist it.pt it.exclude t.nodes.length t.nodes 0 it.cache hc).2
  unfold NNIter.next VPTree.nearestInImpl at h
  generalize nearestInSubtree t.dist t.maxDist it.pt it.exclude t.nodes.length t.nodes 0 it.cache = r at hs h he
  obtain ⟨res, cache⟩ := r
  rcases res with _ | ⟨i, d'⟩
  · simp at h
  · obtain ⟨k, n, hk, hn, -, -⟩ := hs i d' rfl
    by_cases hle : DistNum.le d' t.maxDist = true
    · have hi : i = k := by omega
      subst hi
      simp only [hn, hle, if_true, Option.map_some, Prod.mk.injEq, Option.some.injEq] at h
      obtain ⟨⟨rfl, rfl⟩, -⟩ := h
      exact he.2 i d' n (by simp) hn hf
    · simp [hle] at h

theorem take_ext (n : Nat) : ∀ it : NNIter P (ExtFloat K), S it.pt → CacheOK t.dist it.pt it.cache →
    (it.take t n).Pairwise (fun a b => a.2 ≤ b.2) ∧
    (∀ p, Cand t it.pt it.exclude p → t.dist it.pt p ≠ .inf → ¬ Hidden t.nodes p → p ∉ (it.take t n).map Prod.fst →
      (it.take t n).length = n) ∧
    ∀ x ∈ it.take t n, t.dist it.pt x.1 ≠ .inf → ¬ Hidden t.nodes x.1 := by
  induction n with
  | zero => intro it _ _; simp [NNIter.take]
  | succ n ih =>
    intro it hSit hc
    unfold NNIter.take
    split
    · rename_i x it' hx
      obtain ⟨p, d⟩ := x
      obtain ⟨hcand, hd, hit, hc'⟩ := next_some hc hx
      have hpt : it'.pt = it.pt := by rw [hit]
      have hc'' : CacheOK t.dist it'.pt it'.cache := by rw [hpt]; exact hc'
      obtain ⟨ih1, ih2, ih3⟩ := ih it' (by rw [hpt]; exact hSit) hc''
      rw [hpt] at ih3
      have hv : ∀ y ∈ (p, d) :: it'.take t n, t.dist it.pt y.1 ≠ .inf → ¬ Hidden t.nodes y.1 := by
        intro y hy hf
        rcases List.mem_cons.1 hy with rfl | hy
        · exact next_ext_visible hm hS ht hmax hSit hc hx hf
        · exact ih3 y hy hf
      refine ⟨?_, ?_, hv⟩
      · rw [List.pairwise_cons]
        refine ⟨?_, ih1⟩
        intro y hy
        obtain ⟨⟨h1, h2, h3, h4⟩, h5⟩ := (take_sound t n it' hc'').2 y hy
        rw [hpt] at h2 h4 h5
        rw [hit] at h3
        simp at h3
        rw [h5]
        by_cases hf : t.dist it.pt y.1 = .inf
        · rw [hf, hd]
          exact ext_le_inf (hm.notNan _ _ hSit (hS _ hcand.1))
        · obtain ⟨q, e, it'', hq, he⟩ := next_ext hm hS ht hmax hSit hc ⟨h1, h2, h3.2, h4⟩ hf
            (hv y (List.mem_cons_of_mem _ hy) hf)
          rw [hx] at hq
          simp only [Prod.mk.injEq, Option.some.injEq] at hq
          rw [hq.1.2]; exact he
      · intro p' hp' hf hh hnot
        rw [List.map_cons, List.mem_cons, not_or] at hnot
        have hp'' : Cand t it'.pt it'.exclude p' := by
          rw [hit]
          exact ⟨hp'.1, hp'.2.1, by simp; exact ⟨hnot.1, hp'.2.2.1⟩, hp'.2.2.2⟩
        rw [List.length_cons, ih2 p' hp'' (by rw [hpt]; exact hf) hh hnot.2]
    · rename_i it' hx
      refine ⟨by simp, ?_, by simp⟩
      intro p hp hf hh
      obtain ⟨q, e, it'', hq, -⟩ := next_ext hm hS ht hmax hSit hc hp hf hh
      rw [hx] at hq
      simp at hq

/-- All neighbours that are not hidden are found, nearest first. -/
theorem nearest_ext {q : P} (hq : S q) :
    (t.nearest q).Pairwise (fun a b => a.2 ≤ b.2) ∧ ∀ p, t.dist q p ≠ .inf →
      (p ∈ (t.nearest q).map Prod.fst ↔ p ∈ t.intoNodes ∧ p ≠ q ∧ DistNum.le (t.dist q p) t.maxDist = true ∧ ¬ Hidden t.nodes p) := by
  have hs := take_sound t (t.nodes.length + 1) (nearestIn q) (cacheOK_nil _ _)
  obtain ⟨g1, g2, g3⟩ := take_ext hm hS ht hmax (t.nodes.length + 1) (nearestIn q) hq (cacheOK_nil _ _)
  refine ⟨g1, fun p hf => ⟨?_, ?_⟩⟩
  · intro h
    obtain ⟨x, hx, rfl⟩ := List.mem_map.1 h
    obtain ⟨⟨h1, h2, -, h4⟩, -⟩ := hs.2 x hx
    exact ⟨h1, h2, h4, g3 x hx hf⟩
  · rintro ⟨h1, h2, h3, h4⟩
    by_contra hnot
    have hl := g2 p ⟨h1, h2, by simp [nearestIn], h3⟩ hf h4 hnot
    have hsub : ((NNIter.take t (t.nodes.length + 1) (nearestIn q)).map Prod.fst) ⊆ t.intoNodes := by
      intro y hy
      obtain ⟨x, hx, rfl⟩ := List.mem_map.1 hy
      exact (hs.2 x hx).1.1
    have := (hs.1.subperm hsub).length_le
    simp only [List.length_map, VPTree.intoNodes] at this
    omega

end

/-! ### there are hidden points -/

theorem exists_hidden {S : P → Prop} {dist : P → P → ExtFloat K} (hm : IsExtMetricOn S dist) {depth : Nat}
    {sub : List (Node P (ExtFloat K))} (ht : IsVPTree dist depth sub) :
    (∀ n ∈ sub, S n.vantagePt) → sub.length < 2 ^ (depth + 1) → ∀ x ∈ sub, ∀ y ∈ sub, dist x.vantagePt y.vantagePt = .inf →
    ∃ n ∈ sub, Hidden sub n.vantagePt := by
  induction ht with
  | leaf depth nodes h hc =>
    intro hS hlen x hx y hy hxy
    have hl : nodes.length < 2 := by
      rcases h with rfl | h
      · simpa using hlen
      · exact h
    match nodes, hl, hx, hy with
    | [a], _, hx, hy =>
      simp only [List.mem_singleton] at hx hy
      subst hx
      subst hy
      exact absurd hxy (hm.self _ (hS _ (by simp)))
  | node depth p r inside outside hin hout hr hsize h1 h2 ih1 ih2 =>
    intro hS hlen x hx y hy hxy
    have hSp : S p := hS ⟨p, some ⟨r, inside.length⟩⟩ (by simp)
    have hSin : ∀ n ∈ inside, S n.vantagePt := fun n hn => hS n (by simp [hn])
    have hSout : ∀ n ∈ outside, S n.vantagePt := fun n hn => hS n (by simp [hn])
    simp only [List.length_cons, List.length_append] at hlen
    rw [pow_succ] at hlen
    obtain ⟨a, ha, har⟩ := hr
    have hrn : r ≠ .nan := by
      rw [← har]
      exact hm.notNan _ _ hSp (hSout a ha)
    rcases ext_cases hrn with rfl | ⟨ρ, rfl⟩
    · exact ⟨a, by simp [ha], .here p inside outside a ha⟩
    · -- a point in another group
      have hb : ∃ b ∈ (⟨p, some ⟨.fin ρ, inside.length⟩⟩ :: (inside ++ outside) : List (Node P (ExtFloat K))),
          dist p b.vantagePt = .inf := by
        by_contra hc
        simp only [not_exists, not_and] at hc
        obtain ⟨c, hc1⟩ := (ext_cases (hm.notNan p _ hSp (hS x hx))).resolve_left (hc x hx)
        obtain ⟨d, hd1⟩ := (ext_cases (hm.notNan p _ hSp (hS y hy))).resolve_left (hc y hy)
        obtain ⟨e, he, -⟩ := hm.triangle _ _ _ c d (hS x hx) hSp (hS y hy) (by rw [hm.symm _ _ (hS x hx) hSp, hc1]) hd1
        rw [hxy] at he
        cases he
      obtain ⟨b, hb, hpb⟩ := hb
      have hbo : b ∈ outside := by
        rcases List.mem_cons.1 hb with rfl | hb
        · exact absurd hpb (hm.self _ hSp)
        · rcases List.mem_append.1 hb with hb | hb
          · have := hin b hb
            rw [hpb] at this
            obtain ⟨c, hc⟩ := ext_fin_of_le this
            cases hc
          · exact hb
      have hab : dist a.vantagePt b.vantagePt = .inf := by
        rcases ext_cases (hm.notNan _ _ (hSout a ha) (hSout b hbo)) with h | ⟨c, hc⟩
        · exact h
        · obtain ⟨e, he, -⟩ := hm.triangle _ _ _ ρ c hSp (hSout a ha) (hSout b hbo) har hc
          rw [hpb] at he
          cases he
      obtain ⟨n, hn, hh⟩ := ih2 hSout (by omega) a ha b hbo hab
      exact ⟨n, by simp [hn], .outside p (.fin ρ) inside outside _ hh⟩

/-- If no group contains more than half of the points, all points outside of the first vantage point are hidden. -/
theorem half_hidden {S : P → Prop} {dist : P → P → ExtFloat K} (hm : IsExtMetricOn S dist) {depth : Nat}
    {sub : List (Node P (ExtFloat K))} (ht : IsVPTree dist depth sub) (hS : ∀ n ∈ sub, S n.vantagePt)
    (hlen : sub.length < 2 ^ (depth + 1))
    (hhalf : ∀ x ∈ sub, (sub.filter fun n => dist x.vantagePt n.vantagePt ≠ .inf).length ≤ (sub.length + 1) / 2) :
    ∃ l : List (Node P (ExtFloat K)), l.Sublist sub ∧ l.length = sub.length / 2 ∧ ∀ n ∈ l, Hidden sub n.vantagePt := by
  cases ht with
  | leaf depth nodes h hc =>
    refine ⟨[], List.nil_sublist _, ?_, by simp⟩
    have hl : sub.length < 2 := by
      rcases h with rfl | h
      · simpa using hlen
      · exact h
    simp only [List.length_nil]
    omega
  | node depth p r inside outside hin hout hr hsize h1 h2 =>
    have hSp : S p := hS ⟨p, some ⟨r, inside.length⟩⟩ (by simp)
    have hSout : ∀ n ∈ outside, S n.vantagePt := fun n hn => hS n (by simp [hn])
    have hSin : ∀ n ∈ inside, S n.vantagePt := fun n hn => hS n (by simp [hn])
    obtain ⟨a, ha, har⟩ := hr
    have hrn : r ≠ .nan := by
      rw [← har]
      exact hm.notNan _ _ hSp (hSout a ha)
    rcases ext_cases hrn with rfl | ⟨ρ, rfl⟩
    · refine ⟨outside, ?_, ?_, fun n hn => .here p inside outside n hn⟩
      · exact (List.sublist_append_right inside outside).trans (List.sublist_cons_self _ _)
      · simp only [List.length_cons, List.length_append]
        omega
    · exfalso
      have h := hhalf ⟨p, some ⟨.fin ρ, inside.length⟩⟩ (by simp)
      simp only [List.filter_cons, List.filter_append, List.length_cons, List.length_append] at h
      rw [if_pos (by simpa using hm.self p hSp)] at h
      have hi : inside.filter (fun n => decide (dist p n.vantagePt ≠ .inf)) = inside := by
        rw [List.filter_eq_self]
        intro n hn
        obtain ⟨c, hc⟩ := ext_fin_of_le (hin n hn)
        simp [hc]
      have ho : 0 < (outside.filter (fun n => decide (dist p n.vantagePt ≠ .inf))).length := by
        refine List.length_pos_of_mem (a := a) (List.mem_filter.2 ⟨ha, ?_⟩)
        simp [har]
      rw [hi] at h
      simp only [List.length_cons, List.length_append] at h
      omega

end

end Cres

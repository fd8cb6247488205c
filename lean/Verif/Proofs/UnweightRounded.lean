import Verif.Model.ParallelSum
import Verif.Proofs.Rounding
import Verif.Proofs.Survivors

/-!
Unweighting with rounded numbers: relative errors.
-/

set_option linter.unusedSectionVars false

namespace Cres

open Spec

theorem unweight_eq_with {K V : Type*} [Add K] [Zero K] [Mul K] [Div K] [Neg K] [LinearOrder K] (debug : Bool) (minWt : K)
    (rng : Nat → K) (events : List (Event K V)) :
    unweight debug minWt rng events = unweightWith List.sum List.sum debug minWt rng events := rfl

theorem sumsTo_sum {K : Type*} [Zero K] [Add K] (l : List K) : SumsTo l l.length l.sum := by
  induction l with
  | nil => exact .zero
  | cons a l ih =>
    have := SumsTo.add (.single a) ih
    rw [List.sum_cons, List.length_cons, show l.length + 1 = 0 + l.length + 1 by omega]
    exact this

theorem sumsTo_foldl {K : Type*} [Zero K] [Add K] : ∀ (l l0 : List K) (m : Nat) (x : K), SumsTo l0 m x →
    SumsTo (l0 ++ l) (m + l.length) (l.foldl (· + ·) x) := by
  intro l
  induction l with
  | nil => intro l0 m x h; simpa using h
  | cons a l ih =>
    intro l0 m x h
    have := ih _ _ _ (SumsTo.add h (.single a))
    rw [List.append_assoc] at this
    rw [List.length_cons, show m + (l.length + 1) = m + 0 + 1 + l.length by omega]
    exact this

/-- rayon needs at most two additions per item. -/
theorem rayonSum_sumsTo {K : Type*} [Zero K] [Add K] {l : List K} {x : K} (h : RayonSum l x) :
    ∃ m, m ≤ 2 * l.length ∧ (l ≠ [] → m + 1 ≤ 2 * l.length) ∧ SumsTo l m x := by
  induction h with
  | empty => exact ⟨0, by simp, by simp, .zero⟩
  | piece x l =>
    refine ⟨l.length + 1, by rw [List.length_cons]; omega, fun _ => by rw [List.length_cons]; omega, ?_⟩
    have := sumsTo_foldl (x :: l) [] 0 0 .zero
    simpa using this
  | join h1 h2 _ _ ih1 ih2 =>
    obtain ⟨m, -, g2, g3⟩ := ih1
    obtain ⟨m', -, g2', g3'⟩ := ih2
    have a := g2 h1
    have b := g2' h2
    exact ⟨m + m' + 1, by simp; omega, fun _ => by simp; omega, .add g3 g3'⟩

/-! ### relative errors -/

section
variable {K : Type*} [Field K] [LinearOrder K] [IsStrictOrderedRing K] {fl : K → K} {q lo Ω : K}

/-- Positive numbers between `lo` and `Ω` are rounded with relative error at most `1 - q`. -/
structure RoundsRelative (fl : K → K) (q lo Ω : K) : Prop where
  pos : 0 < q
  le_one : q ≤ 1
  lo_nonneg : 0 ≤ lo
  zero : fl 0 = 0
  near : ∀ x, lo ≤ x → x ≤ Ω → x * q ≤ fl x ∧ fl x * q ≤ x

/-- `a` is `b` up to `k` rounding errors. -/
def Near (q : K) (k : Nat) (a b : K) : Prop := b * q ^ k ≤ a ∧ a * q ^ k ≤ b

namespace Near

variable {k l : Nat} {a b c d x y : K}

theorem refl (q a : K) : Near q 0 a a := by simp [Near]

theorem mono (hq : 0 < q) (h1 : q ≤ 1) (ha : 0 ≤ a) (hb : 0 ≤ b) (hkl : k ≤ l) (h : Near q k a b) : Near q l a b := by
  have hp : q ^ l ≤ q ^ k := pow_le_pow_of_le_one hq.le h1 hkl
  exact ⟨(mul_le_mul_of_nonneg_left hp hb).trans h.1, (mul_le_mul_of_nonneg_left hp ha).trans h.2⟩

theorem trans (hq : 0 < q) (h : Near q k a b) (h' : Near q l b c) : Near q (k + l) a c := by
  have hk := pow_pos hq k
  have hl := pow_pos hq l
  constructor
  · calc c * q ^ (k + l) = c * q ^ l * q ^ k := by rw [pow_add]; ring
      _ ≤ b * q ^ k := mul_le_mul_of_nonneg_right h'.1 hk.le
      _ ≤ a := h.1
  · calc a * q ^ (k + l) = a * q ^ k * q ^ l := by rw [pow_add]; ring
      _ ≤ b * q ^ l := mul_le_mul_of_nonneg_right h.2 hl.le
      _ ≤ c := h'.2

theorem symm (h : Near q k a b) : Near q k b a := ⟨h.2, h.1⟩

theorem mul_right (hc : 0 ≤ c) (h : Near q k a b) : Near q k (a * c) (b * c) :=
  ⟨by have := mul_le_mul_of_nonneg_right h.1 hc; linarith, by have := mul_le_mul_of_nonneg_right h.2 hc; linarith⟩

theorem add (h : Near q k a b) (h' : Near q k c d) : Near q k (a + c) (b + d) :=
  ⟨by rw [add_mul]; exact add_le_add h.1 h'.1, by rw [add_mul]; exact add_le_add h.2 h'.2⟩

theorem div_left (ha : 0 < a) (hb : 0 < b) (hc : 0 ≤ c) (h : Near q k a b) : Near q k (c / a) (c / b) := by
  constructor
  · rw [div_mul_eq_mul_div, div_le_div_iff₀ hb ha]
    have := mul_le_mul_of_nonneg_left h.2 hc
    linarith
  · rw [div_mul_eq_mul_div, div_le_div_iff₀ ha hb]
    have := mul_le_mul_of_nonneg_left h.1 hc
    linarith

theorem pos (hq : 0 < q) (h : Near q k a b) (hb : 0 < b) : 0 < a := lt_of_lt_of_le (mul_pos hb (pow_pos hq k)) h.1

theorem nonneg (hq : 0 < q) (h : Near q k a b) (hb : 0 ≤ b) : 0 ≤ a := (mul_nonneg hb (pow_pos hq k).le).trans h.1

/-- Bounds within a factor of two. -/
theorem bounds (hq : (1 / 2 : K) ≤ q ^ k) (ha : 0 ≤ a) (hb : 0 ≤ b) (h : Near q k a b) : b / 2 ≤ a ∧ a ≤ 2 * b := by
  obtain ⟨h1, h2⟩ := h
  constructor
  · nlinarith
  · nlinarith

end Near

theorem RoundsRelative.rounded (h : RoundsRelative fl q lo Ω) {x : K} (h1 : lo ≤ x) (h2 : x ≤ Ω) : Near q 1 (fl x) x := by
  simpa [Near] using h.near x h1 h2

theorem sum_val_nonneg {l : List (Rounded fl)} (h : ∀ x ∈ l, 0 ≤ x.val) : 0 ≤ (l.map Rounded.val).sum := by
  refine List.sum_nonneg ?_
  intro y hy
  obtain ⟨x, hx, rfl⟩ := List.mem_map.1 hy
  exact h x hx

/-- Sums of numbers that are zero or not too small. -/
theorem sumsTo_near (hfl : RoundsRelative fl q lo Ω) {l : List (Rounded fl)} {m : Nat} {x : Rounded fl} (h : SumsTo l m x) :
    (1 / 2 : K) ≤ q ^ m → (∀ y ∈ l, y.val = 0 ∨ 2 * lo ≤ y.val) → 2 * (l.map Rounded.val).sum ≤ Ω →
      Near q m x.val (l.map Rounded.val).sum := by
  have hq := hfl.pos
  induction h with
  | zero => intros; exact Near.refl q 0
  | single x =>
    intros
    simpa using Near.refl q x.val
  | @add l l' m m' x x' h1 h2 ih1 ih2 =>
    intro hpow hlo hΩ
    have hnn : ∀ y ∈ l ++ l', 0 ≤ y.val := fun y hy => by
      rcases hlo y hy with h | h
      · exact h.ge
      · have := hfl.lo_nonneg; linarith
    have s1 := sum_val_nonneg (l := l) fun y hy => hnn y (by simp [hy])
    have s2 := sum_val_nonneg (l := l') fun y hy => hnn y (by simp [hy])
    rw [List.map_append, List.sum_append] at hΩ ⊢
    have p1 : (1 / 2 : K) ≤ q ^ m := hpow.trans (pow_le_pow_of_le_one hq.le hfl.le_one (by omega))
    have p2 : (1 / 2 : K) ≤ q ^ m' := hpow.trans (pow_le_pow_of_le_one hq.le hfl.le_one (by omega))
    have n1 := ih1 p1 (fun y hy => hlo y (by simp [hy])) (by linarith)
    have n2 := ih2 p2 (fun y hy => hlo y (by simp [hy])) (by linarith)
    have x1 := n1.nonneg hq s1
    have x2 := n2.nonneg hq s2
    have n3 : Near q (m + m') (x.val + x'.val) ((l.map Rounded.val).sum + (l'.map Rounded.val).sum) :=
      (n1.mono hq hfl.le_one x1 s1 (by omega)).add (n2.mono hq hfl.le_one x2 s2 (by omega))
    have p3 : (1 / 2 : K) ≤ q ^ (m + m') := hpow.trans (pow_le_pow_of_le_one hq.le hfl.le_one (by omega))
    obtain ⟨b1, b2⟩ := n3.bounds p3 (by linarith) (by linarith)
    show Near q (m + m' + 1) (fl (x.val + x'.val)) _
    by_cases hz : (l.map Rounded.val).sum + (l'.map Rounded.val).sum = 0
    · have : x.val + x'.val = 0 := by
        rw [hz] at b2
        linarith
      rw [hz, this, hfl.zero]
      simp [Near]
    · have hbig : 2 * lo ≤ (l.map Rounded.val).sum + (l'.map Rounded.val).sum := by
        by_contra hlt
        push Not at hlt
        apply hz
        have hall : ∀ y ∈ l ++ l', y.val = 0 := by
          intro y hy
          rcases hlo y hy with h | h
          · exact h
          · exfalso
            have hle : y.val ≤ ((l ++ l').map Rounded.val).sum := by
              refine List.single_le_sum ?_ _ (List.mem_map_of_mem hy)
              intro z hz
              obtain ⟨w, hw, rfl⟩ := List.mem_map.1 hz
              exact hnn w hw
            rw [List.map_append, List.sum_append] at hle
            linarith
        rw [← List.sum_append, ← List.map_append]
        refine List.sum_eq_zero ?_
        intro z hz
        obtain ⟨w, hw, rfl⟩ := List.mem_map.1 hz
        exact hall w hw
      have n4 := hfl.rounded (x := x.val + x'.val) (by linarith) (by linarith)
      have := n4.trans hq n3
      rwa [Nat.add_comm 1] at this

/-! ### unweighting -/

variable {V : Type*}

theorem mapM_weight_some {K : Type*} [Zero K] : ∀ {evs : List (Event K V)} {ws : List K}, evs.mapM Event.weight = some ws →
    ws = evs.map centralWeight ∧ ∀ e ∈ evs, e.weights ≠ [] := by
  intro evs
  induction evs with
  | nil =>
    intro ws h
    cases h
    exact ⟨rfl, by simp⟩
  | cons e es ih =>
    intro ws h
    rw [List.mapM_cons] at h
    cases hw : e.weight with
    | none => rw [hw] at h; cases h
    | some w =>
      cases hs : es.mapM Event.weight with
      | none => rw [hw, hs] at h; cases h
      | some ws' =>
        rw [hw, hs] at h
        cases h
        obtain ⟨rfl, g2⟩ := ih hs
        have hne : e.weights ≠ [] := by
          intro hn
          simp [Event.weight, Weights.central, hn] at hw
        rw [weight_eq hne] at hw
        cases hw
        refine ⟨rfl, ?_⟩
        intro x hx
        rcases List.mem_cons.1 hx with rfl | hx
        · exact hne
        · exact g2 x hx

theorem absWeight_nonneg {x : Rounded fl} (h : 0 ≤ x.val) : absWeight x = x := by
  refine max_eq_left ?_
  show (-x.val : K) ≤ x.val
  linarith

theorem retain_positive {minWt : Rounded fl} (hmin : 0 < minWt.val) {rng : Nat → Rounded fl} (hr : ∀ i, 0 ≤ (rng i).val) :
    ∀ {evs : List (Event (Rounded fl) V)} {n : Nat} {kept : List (Event (Rounded fl) V)},
    (∀ e ∈ evs, 0 ≤ (centralWeight e).val) → retainEvents minWt rng n evs = some kept → ∀ e ∈ kept, 0 < (centralWeight e).val := by
  intro evs
  induction evs with
  | nil =>
    intro n kept _ h
    cases h
    simp
  | cons e es ih =>
    intro n kept hp h x hx
    simp only [retainEvents] at h
    cases hw : e.weight with
    | none => rw [hw] at h; cases h
    | some wt =>
      rw [hw] at h
      simp only at h
      obtain ⟨rest, h1, h2⟩ := Option.map_eq_some_iff.1 h
      have hih := ih (fun y hy => hp y (List.mem_cons_of_mem _ hy)) h1
      split at h2
      · rename_i hk
        subst h2
        rcases List.mem_cons.1 hx with rfl | hx
        · have hwt : wt = centralWeight x := by
            have hne : x.weights ≠ [] := by
              intro hn
              simp [Event.weight, Weights.central, hn] at hw
            rw [weight_eq hne] at hw
            exact (Option.some.inj hw).symm
          have h0 := hp x List.mem_cons_self
          subst hwt
          rw [absWeight_nonneg h0] at hk
          unfold keepEvent at hk
          split at hk
          · rename_i hgt
            exact lt_trans hmin (val_lt.1 hgt)
          · exact lt_of_le_of_lt (hr n) (val_lt.1 (of_decide_eq_true hk))
        · exact hih x hx
      · subst h2
        exact hih x hx

theorem centralWeight_rescaled {e : Event (Rounded fl) V} (hne : e.weights ≠ []) (f : Rounded fl) :
    centralWeight (e.rescaleWeights f) = centralWeight e * f := by
  unfold centralWeight Event.rescaleWeights
  cases hw : e.weights with
  | nil => exact absurd hw hne
  | cons a l => rfl

theorem raised_bounds (hfl : RoundsRelative fl q lo Ω) (hq2 : (1 / 2 : K) ≤ q ^ 2) {minWt : Rounded fl}
    (hlo1 : lo ≤ 1) (hmin : 2 * lo ≤ minWt.val) (hmin0 : 0 < minWt.val) (hΩ : 2 * minWt.val ≤ Ω)
    {e r : Event (Rounded fl) V} (he : 0 < (centralWeight e).val) (hf : minWt.val ≤ Ω * (centralWeight e).val)
    (h : raiseWeight minWt e = some r) :
    r.weights ≠ [] ∧ minWt.val / 2 ≤ (centralWeight r).val ∧ (centralWeight r).val ≤ (centralWeight e).val + 2 * minWt.val := by
  have hq := hfl.pos
  unfold raiseWeight at h
  cases hw : e.weight with
  | none => rw [hw] at h; cases h
  | some wt =>
    have hne : e.weights ≠ [] := by
      intro hn
      simp [Event.weight, Weights.central, hn] at hw
    rw [weight_eq hne] at hw
    cases hw
    rw [weight_eq hne] at h
    simp only [absWeight_nonneg he.le] at h
    split_ifs at h with hlt
    · cases h
      refine ⟨by simpa [Event.rescaleWeights] using hne, ?_⟩
      rw [centralWeight_rescaled hne]
      show minWt.val / 2 ≤ fl ((centralWeight e).val * fl (minWt.val / (centralWeight e).val)) ∧
        fl ((centralWeight e).val * fl (minWt.val / (centralWeight e).val)) ≤ (centralWeight e).val + 2 * minWt.val
      have hlt' : (centralWeight e).val < minWt.val := val_lt.1 hlt
      generalize (centralWeight e).val = w at *
      have g1 : 1 ≤ minWt.val / w := by rw [le_div_iff₀ he]; linarith
      have n1 := hfl.rounded (x := minWt.val / w) (hlo1.trans g1) (by rw [div_le_iff₀ he]; exact hf)
      have n2 := n1.mul_right he.le
      rw [div_mul_cancel₀ _ he.ne', mul_comm] at n2
      have hx0 := n2.nonneg hq hmin0.le
      have hq1 : (1 / 2 : K) ≤ q ^ 1 := hq2.trans (pow_le_pow_of_le_one hq.le hfl.le_one (by omega))
      obtain ⟨b1, b2⟩ := n2.bounds hq1 hx0 hmin0.le
      have n3 := (hfl.rounded (x := w * fl (minWt.val / w)) (by linarith) (by linarith)).trans hq n2
      have hy0 := n3.nonneg hq hmin0.le
      obtain ⟨c1, c2⟩ := n3.bounds hq2 hy0 hmin0.le
      exact ⟨c1, by linarith⟩
    · cases h
      have hge : minWt.val ≤ (centralWeight e).val := by
        by_contra hc
        exact hlt (val_lt.2 (not_le.1 hc))
      exact ⟨hne, by linarith, by linarith⟩

theorem mapM_raise_forall₂ {minWt : Rounded fl} : ∀ {kept raised : List (Event (Rounded fl) V)},
    kept.mapM (raiseWeight minWt) = some raised → List.Forall₂ (fun e r => raiseWeight minWt e = some r) kept raised := by
  intro kept
  induction kept with
  | nil =>
    intro raised h
    cases h
    exact .nil
  | cons e es ih =>
    intro raised h
    rw [List.mapM_cons] at h
    cases hr : raiseWeight minWt e with
    | none => rw [hr] at h; cases h
    | some r =>
      cases hs : es.mapM (raiseWeight minWt) with
      | none => rw [hr, hs] at h; cases h
      | some rs =>
        rw [hr, hs] at h
        cases h
        exact .cons hr (ih hs)

/-- The exact sum of the central weights. -/
def exactCentralSum (evs : List (Event (Rounded fl) V)) : K := (evs.map fun e => (centralWeight e).val).sum

/-- Conditions on numbers: `a` is the minimum weight, `S` the sum of weights, `N` the number of events. -/
structure UnweightRange (lo Ω a S : K) (N : Nat) : Prop where
  lo_one : lo ≤ 1
  min_pos : 0 < a
  min_lo : 4 * lo ≤ a
  sum_pos : 0 < S
  min_high : 2 * (S + 2 * N * a) ≤ Ω
  ratio_lo : 4 * lo * (S + 2 * N * a) ≤ S
  ratio_high : 8 * S ≤ Ω * a
  out_lo : 4 * lo * (S + 2 * N * a) ≤ a * S

theorem unweight_near (hfl : RoundsRelative fl q lo Ω) {sB sA : List (Rounded fl) → Rounded fl} {M M' : Nat}
    {evs out : List (Event (Rounded fl) V)}
    (hB : ∃ m ≤ M, SumsTo (evs.map centralWeight) m (sB (evs.map centralWeight)))
    (hA : ∀ l : List (Rounded fl), l.length ≤ evs.length → ∃ m ≤ M', SumsTo l m (sA l))
    (hpow : (1 / 2 : K) ≤ q ^ (M + M' + 2)) {debug : Bool} {minWt : Rounded fl} {rng : Nat → Rounded fl}
    (hr : ∀ i, 0 ≤ (rng i).val)
    (hev : ∀ e ∈ evs, (centralWeight e).val = 0 ∨ (0 < (centralWeight e).val ∧ 2 * lo ≤ (centralWeight e).val ∧ minWt.val ≤ Ω * (centralWeight e).val))
    (hrange : UnweightRange lo Ω minWt.val (exactCentralSum evs) evs.length)
    (h : unweightWith sB sA debug minWt rng evs = .ok out) (hout : out ≠ []) :
    Near q (M + M' + 2) (exactCentralSum out) (exactCentralSum evs) := by
  obtain ⟨r1, r2, r3, r4, r5, r6, r7, r8⟩ := hrange
  have hq := hfl.pos
  have hlo := hfl.lo_nonneg
  have hmin0 : minWt ≠ 0 := fun h0 => by rw [h0] at r2; exact lt_irrefl _ r2
  have hp : ∀ k, k ≤ M + M' + 2 → (1 / 2 : K) ≤ q ^ k := fun k hk => hpow.trans (pow_le_pow_of_le_one hq.le hfl.le_one hk)
  have hnn : ∀ e ∈ evs, 0 ≤ (centralWeight e).val := fun e he => by
    rcases hev e he with h | h
    · exact h.ge
    · exact h.1.le
  have hevne : evs ≠ [] := by
    rintro rfl
    simp [exactCentralSum] at r4
  unfold unweightWith at h
  rw [if_neg (by simp [hmin0, hevne])] at h
  cases hws : evs.mapM Event.weight with
  | none => rw [hws] at h; cases h
  | some ws =>
    obtain ⟨rfl, hwne⟩ := mapM_weight_some hws
    rw [hws] at h
    simp only [Option.map_some] at h
    have hmn : ¬ minWt < 0 := fun hc => absurd (val_lt.1 hc) (not_lt.2 r2.le)
    rw [if_neg hmn] at h
    cases hk : retainEvents minWt rng 0 evs with
    | none => rw [hk] at h; cases h
    | some kept =>
      rw [hk] at h
      simp only at h
      cases hrs : kept.mapM (raiseWeight minWt) with
      | none => rw [hrs] at h; cases h
      | some raised =>
        rw [hrs] at h
        simp only at h
        cases hrw : raised.mapM Event.weight with
        | none => rw [hrw] at h; cases h
        | some rws =>
          obtain ⟨rfl, hrne⟩ := mapM_weight_some hrw
          rw [hrw] at h
          simp only [Option.map_some] at h
          have hsub := retainEvents_sublist hk
          have hkpos := retain_positive r2 hr hnn hk
          have hf2 := mapM_raise_forall₂ hrs
          have hNa : 0 ≤ 2 * (evs.length : K) * minWt.val := by positivity
          have hN1 : (1 : K) ≤ evs.length := by
            exact_mod_cast List.length_pos_iff.2 hevne
          have h2a : 2 * minWt.val ≤ Ω := by nlinarith
          have hb : List.Forall₂ (fun e r => minWt.val / 2 ≤ (centralWeight r).val ∧
              (centralWeight r).val ≤ (centralWeight e).val + 2 * minWt.val) kept raised := by
            have hall : ∀ e ∈ kept, 0 < (centralWeight e).val ∧ minWt.val ≤ Ω * (centralWeight e).val := by
              intro e he
              refine ⟨hkpos e he, ?_⟩
              rcases hev e (hsub.subset he) with h | h
              · exact absurd h (hkpos e he).ne'
              · exact h.2.2
            clear hk hrs hrw hrne hsub hkpos h
            induction hf2 with
            | nil => exact .nil
            | @cons e r es rs h1 _ ih =>
              obtain ⟨a1, a2⟩ := hall e List.mem_cons_self
              obtain ⟨-, b1, b2⟩ := raised_bounds hfl (hp 2 (by omega)) r1 (by linarith) r2 h2a a1 a2 h1
              exact .cons ⟨b1, b2⟩ (ih fun x hx => hall x (List.mem_cons_of_mem _ hx))
          -- the sum of raised weights
          have hT : exactCentralSum raised ≤ exactCentralSum kept + 2 * kept.length * minWt.val := by
            clear hk hrs hrw hrne hsub hkpos h hf2
            induction hb with
            | nil => simp [exactCentralSum]
            | @cons e r es rs h1 _ ih =>
              simp only [exactCentralSum, List.map_cons, List.sum_cons, List.length_cons, Nat.cast_add, Nat.cast_one] at ih ⊢
              have := h1.2
              linarith
          have hkS : exactCentralSum kept ≤ exactCentralSum evs := by
            have hs : ∀ {l l' : List (Event (Rounded fl) V)}, l.Sublist l' → (∀ e ∈ l', 0 ≤ (centralWeight e).val) →
                exactCentralSum l ≤ exactCentralSum l' := by
              intro l l' hl
              induction hl with
              | slnil => intro _; exact le_rfl
              | cons a _ ih =>
                intro hn
                have := ih fun e he => hn e (List.mem_cons_of_mem _ he)
                have h0 := hn a List.mem_cons_self
                simp only [exactCentralSum, List.map_cons, List.sum_cons] at this ⊢
                linarith
              | cons_cons a _ ih =>
                intro hn
                have := ih fun e he => hn e (List.mem_cons_of_mem _ he)
                simp only [exactCentralSum, List.map_cons, List.sum_cons] at this ⊢
                linarith
            exact hs hsub hnn
          have hkl : (kept.length : K) ≤ evs.length := by exact_mod_cast hsub.length_le
          have hTB : exactCentralSum raised ≤ exactCentralSum evs + 2 * evs.length * minWt.val := by
            have : 2 * (kept.length : K) * minWt.val ≤ 2 * evs.length * minWt.val :=
              mul_le_mul_of_nonneg_right (by linarith) r2.le
            linarith
          have hrlow : ∀ r ∈ raised, minWt.val / 2 ≤ (centralWeight r).val := by
            intro r hr'
            obtain ⟨i, hi, rfl⟩ := List.mem_iff_getElem.1 hr'
            exact ((List.forall₂_iff_get.1 hb).2 i (by rw [hb.length_eq]; exact hi) hi).1
          have hlenr : raised.length ≤ evs.length := by
            rw [← hf2.length_eq]
            exact hsub.length_le
          obtain ⟨m, hm, hsm⟩ := hB
          obtain ⟨m', hm', hsm'⟩ := hA (raised.map centralWeight) (by simpa using hlenr)
          have eB : ((evs.map centralWeight).map Rounded.val).sum = exactCentralSum evs := by
            simp [exactCentralSum, Function.comp_def]
          have eA : ((raised.map centralWeight).map Rounded.val).sum = exactCentralSum raised := by
            simp [exactCentralSum, Function.comp_def]
          have nB := sumsTo_near hfl hsm (hp m (by omega)) (by
            intro y hy
            obtain ⟨e, he, rfl⟩ := List.mem_map.1 hy
            exact (hev e he).imp_right fun h => h.2.1) (by rw [eB]; linarith)
          have nA := sumsTo_near hfl hsm' (hp m' (by omega)) (by
            intro y hy
            obtain ⟨e, he, rfl⟩ := List.mem_map.1 hy
            have := hrlow e he
            exact Or.inr (by linarith)) (by rw [eA]; linarith)
          rw [eB] at nB
          rw [eA] at nA
          -- there are survivors
          have hrne' : raised ≠ [] := by
            rintro rfl
            split_ifs at h <;> first | cases h; exact hout rfl | cases h
          have hTpos : minWt.val / 2 ≤ exactCentralSum raised := by
            obtain ⟨r, hr'⟩ := List.exists_mem_of_ne_nil _ hrne'
            refine (hrlow r hr').trans ?_
            refine List.single_le_sum ?_ _ (List.mem_map_of_mem (f := fun e => (centralWeight e).val) hr')
            intro z hz
            obtain ⟨w, hw, rfl⟩ := List.mem_map.1 hz
            have := hrlow w hw
            linarith
          have hTpos' : 0 < exactCentralSum raised := by linarith
          have sApos := nA.pos hq hTpos'
          have sBpos := nB.pos hq r4
          rw [if_neg (fun hc => by rw [hc] at sApos; exact lt_irrefl _ sApos)] at h
          cases h
          generalize hS : exactCentralSum evs = S at *
          generalize hTT : exactCentralSum raised = T at *
          -- the factor
          have nf0 : Near q (m + m') ((sB (evs.map centralWeight)).val / (sA (raised.map centralWeight)).val) (S / T) := by
            have g1 := nA.div_left sApos hTpos' sBpos.le
            have g2 := nB.mul_right (c := T⁻¹) (by positivity)
            rw [← div_eq_mul_inv, ← div_eq_mul_inv] at g2
            have := g1.trans hq g2
            rwa [Nat.add_comm] at this
          have hST : 0 < S / T := by positivity
          have hloT : 4 * lo * T ≤ 4 * lo * (S + 2 * evs.length * minWt.val) :=
            mul_le_mul_of_nonneg_left hTB (by linarith)
          obtain ⟨f1, f2⟩ := nf0.bounds (hp _ (by omega)) (by positivity) hST.le
          have hSTlo : 2 * lo ≤ S / T := by
            rw [le_div_iff₀ hTpos']
            have : 0 ≤ lo * T := mul_nonneg hlo hTpos'.le
            linarith
          have hSThigh : 2 * (S / T) ≤ Ω := by
            rw [← mul_div_assoc, div_le_iff₀ hTpos']
            have hΩ : 0 ≤ Ω := by linarith
            have := mul_le_mul_of_nonneg_left hTpos hΩ
            linarith
          have nf := (hfl.rounded (by linarith) (by linarith)).trans hq nf0
          have hfpos := nf.pos hq hST
          obtain ⟨f3, f4⟩ := nf.bounds (hp _ (by omega)) hfpos.le hST.le
          -- the final weights
          have hfin : ∀ r ∈ raised, Near q 1 ((centralWeight (r.rescaleWeights
              (sB (evs.map centralWeight) / sA (raised.map centralWeight)))).val)
              ((centralWeight r).val * fl ((sB (evs.map centralWeight)).val / (sA (raised.map centralWeight)).val)) := by
            intro r hr'
            rw [centralWeight_rescaled (hrne r hr')]
            have g1 := hrlow r hr'
            have g2 : (centralWeight r).val ≤ T := by
              rw [← hTT]
              refine List.single_le_sum ?_ _ (List.mem_map_of_mem (f := fun e => (centralWeight e).val) hr')
              intro z hz
              obtain ⟨w, hw, rfl⟩ := List.mem_map.1 hz
              have := hrlow w hw
              linarith
            refine hfl.rounded ?_ ?_
            · have h1 : minWt.val / 2 * (S / T / 2) ≤ (centralWeight r).val *
                  fl ((sB (evs.map centralWeight)).val / (sA (raised.map centralWeight)).val) :=
                mul_le_mul g1 f3 (by positivity) (by linarith)
              refine le_trans ?_ h1
              rw [show minWt.val / 2 * (S / T / 2) = minWt.val * S / (4 * T) by field_simp; ring, le_div_iff₀ (by linarith)]
              linarith
            · have h1 : (centralWeight r).val * fl ((sB (evs.map centralWeight)).val / (sA (raised.map centralWeight)).val) ≤
                  T * (2 * (S / T)) := mul_le_mul g2 f4 hfpos.le hTpos'.le
              refine h1.trans ?_
              rw [show T * (2 * (S / T)) = 2 * S by field_simp]
              linarith
          have hsum : Near q 1 (exactCentralSum (raised.map fun e => e.rescaleWeights
              (sB (evs.map centralWeight) / sA (raised.map centralWeight))))
              (T * fl ((sB (evs.map centralWeight)).val / (sA (raised.map centralWeight)).val)) := by
            rw [← hTT]
            generalize sB (evs.map centralWeight) / sA (raised.map centralWeight) = F at *
            generalize fl ((sB (evs.map centralWeight)).val / (sA (raised.map centralWeight)).val) = F' at *
            clear hrs hrw hrne hf2 hb hT hTB hlenr hsm' nA eA hout hrne' hTpos hTpos' sApos hTT hrlow nf0 f1 f2 nf f3 f4
            induction raised with
            | nil => simp [exactCentralSum, Near]
            | cons r rs ih =>
              simp only [exactCentralSum, List.map_cons, List.sum_cons, add_mul] at ih ⊢
              exact (hfin r List.mem_cons_self).add (ih fun x hx => hfin x (List.mem_cons_of_mem _ hx))
          have hlast := nf.mul_right hTpos'.le
          rw [div_mul_cancel₀ _ hTpos'.ne', mul_comm] at hlast
          have := hsum.trans hq hlast
          exact this.mono hq hfl.le_one (this.nonneg hq r4.le) r4.le (by omega)

end

end Cres

import Verif.Spec.Distance
import Mathlib.Algebra.Order.BigOperators.Group.Multiset
import Mathlib.Algebra.Order.BigOperators.Group.Finset
import Mathlib.Data.List.Permutation
import Mathlib.Tactic.Abel
import Mathlib.Tactic.Linarith

/-!
Minimal pairings of multisets: symmetry, triangle inequality, padding with zeros.
-/

namespace Cres

open Spec

set_option linter.unusedSectionVars false

variable {V K : Type*} [AddCommGroup K] [LinearOrder K] [IsOrderedAddMonoid K]

/-- The properties of a distance between momenta. -/
structure PairDist (d : V → V → K) : Prop where
  self : ∀ p, d p p = 0
  symm : ∀ p q, d p q = d q p
  triangle : ∀ p q r, d p r ≤ d p q + d q r

theorem PairDist.nonneg {d : V → V → K} (h : PairDist d) (p q : V) : 0 ≤ d p q := by
  have h1 := h.triangle p q p
  rw [h.self, h.symm q p] at h1
  by_contra hc
  have hc := not_le.1 hc
  exact absurd h1 (not_le.2 (add_neg hc hc))

variable {d : V → V → K}

theorem pairingCost_cons (x : V × V) (ps : Multiset (V × V)) :
    pairingCost d (x ::ₘ ps) = d x.1 x.2 + pairingCost d ps := by simp [pairingCost]

theorem pairingCost_nonneg (h : PairDist d) (ps : Multiset (V × V)) : 0 ≤ pairingCost d ps := by
  apply Multiset.sum_nonneg
  intro x hx
  obtain ⟨y, _, rfl⟩ := Multiset.mem_map.1 hx
  exact h.nonneg _ _

theorem isPairing_cons {a b : V} {s t : Multiset V} {ps : Multiset (V × V)} (h : IsPairing s t ps) :
    IsPairing (a ::ₘ s) (b ::ₘ t) ((a, b) ::ₘ ps) := by
  obtain ⟨rfl, rfl⟩ := h
  exact ⟨by simp, by simp⟩

theorem isPairing_fst_mem {a : V} {s t : Multiset V} {ps : Multiset (V × V)} (h : IsPairing (a ::ₘ s) t ps) :
    ∃ b t' ps', t = b ::ₘ t' ∧ ps = (a, b) ::ₘ ps' ∧ IsPairing s t' ps' := by
  obtain ⟨h1, h2⟩ := h
  have : a ∈ ps.map Prod.fst := by rw [h1]; exact Multiset.mem_cons_self _ _
  obtain ⟨⟨x, b⟩, hx, rfl⟩ := Multiset.mem_map.1 this
  obtain ⟨ps', rfl⟩ := Multiset.exists_cons_of_mem hx
  refine ⟨b, ps'.map Prod.snd, ps', by rw [← h2]; simp, rfl, ?_, rfl⟩
  simpa using h1

theorem isPairing_swap {s t : Multiset V} {ps : Multiset (V × V)} (h : IsPairing s t ps) :
    IsPairing t s (ps.map Prod.swap) := by
  obtain ⟨rfl, rfl⟩ := h
  constructor <;> simp [Multiset.map_map]

theorem pairingCost_swap (h : PairDist d) (ps : Multiset (V × V)) :
    pairingCost d (ps.map Prod.swap) = pairingCost d ps := by
  unfold pairingCost
  rw [Multiset.map_map]
  congr 1
  apply Multiset.map_congr rfl
  intro x _
  simp [h.symm x.2 x.1]

theorem isPairing_snd_mem {b : V} {s t : Multiset V} {ps : Multiset (V × V)} (h : IsPairing s (b ::ₘ t) ps) :
    ∃ a s' ps', s = a ::ₘ s' ∧ ps = (a, b) ::ₘ ps' ∧ IsPairing s' t ps' := by
  obtain ⟨h1, h2⟩ := h
  have : b ∈ ps.map Prod.snd := by rw [h2]; exact Multiset.mem_cons_self _ _
  obtain ⟨⟨a, x⟩, hx, rfl⟩ := Multiset.mem_map.1 this
  obtain ⟨ps', rfl⟩ := Multiset.exists_cons_of_mem hx
  refine ⟨a, ps'.map Prod.fst, ps', by rw [← h1]; simp, rfl, rfl, ?_⟩
  simpa using h2

/-- Pairings can be composed. -/
theorem isPairing_trans (h : PairDist d) : ∀ (ps : Multiset (V × V)) {s t u : Multiset V} {qs : Multiset (V × V)},
    IsPairing s t ps → IsPairing t u qs →
    ∃ rs, IsPairing s u rs ∧ pairingCost d rs ≤ pairingCost d ps + pairingCost d qs := by
  intro ps
  induction ps using Multiset.induction with
  | empty =>
    rintro s t u qs ⟨rfl, rfl⟩ ⟨h1, rfl⟩
    rw [Multiset.map_zero, Multiset.map_eq_zero] at h1
    subst h1
    exact ⟨0, ⟨by simp, by simp⟩, by simp [pairingCost]⟩
  | cons x ps ih =>
    rintro s t u qs ⟨rfl, rfl⟩ h2
    rw [Multiset.map_cons] at h2
    obtain ⟨b, t', qs', rfl, rfl, h3⟩ := isPairing_fst_mem h2
    obtain ⟨rs, hr, hc⟩ := ih ⟨rfl, rfl⟩ h3
    refine ⟨(x.1, b) ::ₘ rs, ?_, ?_⟩
    · rw [Multiset.map_cons]
      exact isPairing_cons hr
    · simp only [pairingCost_cons]
      have := h.triangle x.1 x.2 b
      calc d x.1 b + pairingCost d rs ≤ (d x.1 x.2 + d x.2 b) + (pairingCost d ps + pairingCost d qs') :=
            add_le_add this hc
        _ = _ := by abel

/-- Equal elements need not be paired. -/
theorem isPairing_cancel (h : PairDist d) {z : V} {s t : Multiset V} {ps : Multiset (V × V)}
    (hp : IsPairing (z ::ₘ s) (z ::ₘ t) ps) : ∃ qs, IsPairing s t qs ∧ pairingCost d qs ≤ pairingCost d ps := by
  classical
  obtain ⟨b, t', ps', h1, rfl, h2⟩ := isPairing_fst_mem hp
  rcases Multiset.cons_eq_cons.1 h1 with ⟨rfl, rfl⟩ | ⟨_, c, rfl, rfl⟩
  · exact ⟨ps', h2, by rw [pairingCost_cons]; exact le_add_of_nonneg_left (h.nonneg _ _)⟩
  · obtain ⟨a, s', ps'', rfl, rfl, h3⟩ := isPairing_snd_mem h2
    refine ⟨(a, b) ::ₘ ps'', isPairing_cons h3, ?_⟩
    simp only [pairingCost_cons]
    have := h.triangle a z b
    calc d a b + pairingCost d ps'' ≤ (d a z + d z b) + pairingCost d ps'' := by
          exact add_le_add this le_rfl
      _ = _ := by abel

theorem isPairing_cancel_replicate (h : PairDist d) {z : V} {s t : Multiset V} : ∀ (n : Nat) {ps : Multiset (V × V)},
    IsPairing (s + Multiset.replicate n z) (t + Multiset.replicate n z) ps →
    ∃ qs, IsPairing s t qs ∧ pairingCost d qs ≤ pairingCost d ps
  | 0, ps, hp => ⟨ps, by simpa using hp, le_rfl⟩
  | n + 1, ps, hp => by
    rw [Multiset.replicate_succ, Multiset.add_cons, Multiset.add_cons] at hp
    obtain ⟨qs, h1, h2⟩ := isPairing_cancel h hp
    obtain ⟨rs, h3, h4⟩ := isPairing_cancel_replicate h n h1
    exact ⟨rs, h3, le_trans h4 h2⟩

theorem isPairing_pad (h : PairDist d) {z : V} {s t : Multiset V} : ∀ (n : Nat) {ps : Multiset (V × V)},
    IsPairing s t ps → ∃ qs, IsPairing (s + Multiset.replicate n z) (t + Multiset.replicate n z) qs ∧
      pairingCost d qs = pairingCost d ps
  | 0, ps, hp => ⟨ps, by simpa using hp, rfl⟩
  | n + 1, ps, hp => by
    obtain ⟨qs, h1, h2⟩ := isPairing_pad h (z := z) n hp
    refine ⟨(z, z) ::ₘ qs, ?_, ?_⟩
    · rw [Multiset.replicate_succ, Multiset.add_cons, Multiset.add_cons]
      exact isPairing_cons h1
    · rw [pairingCost_cons, h.self, zero_add, h2]

theorem padded_add {z : V} {n m : Nat} {l : List V} (h : l.length ≤ n) :
    padded z (n + m) l = padded z n l + Multiset.replicate m z := by
  unfold padded
  rw [add_assoc, ← Multiset.replicate_add]
  congr 2
  omega

/-- The padding may be larger than necessary. -/
theorem isSetDistance_pad (h : PairDist d) {z : V} {l₁ l₂ : List V} {c : K} (hc : IsSetDistance d z l₁ l₂ c) {n : Nat}
    (hn : max l₁.length l₂.length ≤ n) :
    IsLeast {c | ∃ ps, IsPairing (padded z n l₁) (padded z n l₂) ps ∧ pairingCost d ps = c} c := by
  obtain ⟨m, rfl⟩ := Nat.exists_eq_add_of_le hn
  rw [padded_add (le_max_left _ _), padded_add (le_max_right _ _)]
  obtain ⟨⟨ps, h1, h2⟩, h3⟩ := hc
  refine ⟨?_, ?_⟩
  · obtain ⟨qs, h4, h5⟩ := isPairing_pad h (z := z) m h1
    exact ⟨qs, h4, h5.trans h2⟩
  · rintro x ⟨qs, h4, rfl⟩
    obtain ⟨rs, h5, h6⟩ := isPairing_cancel_replicate h m h4
    exact le_trans (h3 ⟨rs, h5, rfl⟩) h6

theorem isSetDistance_nonneg (h : PairDist d) {z : V} {l₁ l₂ : List V} {c : K} (hc : IsSetDistance d z l₁ l₂ c) :
    0 ≤ c := by
  obtain ⟨⟨ps, _, rfl⟩, _⟩ := hc
  exact pairingCost_nonneg h ps

theorem isSetDistance_self (h : PairDist d) {z : V} {l : List V} {c : K} (hc : IsSetDistance d z l l c) :
    c = 0 := by
  refine le_antisymm ?_ (isSetDistance_nonneg h hc)
  apply hc.2
  refine ⟨(padded z (max l.length l.length) l).map (fun x => (x, x)), ⟨by simp [Multiset.map_map], by simp [Multiset.map_map]⟩, ?_⟩
  simp [pairingCost, Multiset.map_map, h.self]

theorem isSetDistance_symm (h : PairDist d) {z : V} {l₁ l₂ : List V} {c : K} (hc : IsSetDistance d z l₁ l₂ c) :
    IsSetDistance d z l₂ l₁ c := by
  unfold IsSetDistance at *
  rw [max_comm]
  obtain ⟨⟨ps, h1, h2⟩, h3⟩ := hc
  refine ⟨⟨_, isPairing_swap h1, (pairingCost_swap h ps).trans h2⟩, ?_⟩
  rintro x ⟨qs, h4, rfl⟩
  rw [← pairingCost_swap h]
  exact h3 ⟨_, isPairing_swap h4, rfl⟩

theorem isSetDistance_triangle (h : PairDist d) {z : V} {l₁ l₂ l₃ : List V} {c₁₂ c₂₃ c₁₃ : K}
    (h12 : IsSetDistance d z l₁ l₂ c₁₂) (h23 : IsSetDistance d z l₂ l₃ c₂₃) (h13 : IsSetDistance d z l₁ l₃ c₁₃) :
    c₁₃ ≤ c₁₂ + c₂₃ := by
  have hN : ∃ n, l₁.length ≤ n ∧ l₂.length ≤ n ∧ l₃.length ≤ n :=
    ⟨l₁.length + l₂.length + l₃.length, by omega, by omega, by omega⟩
  obtain ⟨n, hn1, hn2, hn3⟩ := hN
  obtain ⟨⟨ps, h1, rfl⟩, _⟩ := isSetDistance_pad h h12 (n := n) (max_le hn1 hn2)
  obtain ⟨⟨qs, h2, rfl⟩, _⟩ := isSetDistance_pad h h23 (n := n) (max_le hn2 hn3)
  obtain ⟨rs, h3, h4⟩ := isPairing_trans h ps h1 h2
  exact le_trans ((isSetDistance_pad h h13 (n := n) (max_le hn1 hn3)).2 ⟨rs, h3, rfl⟩) h4

theorem isSetDistance_unique {z : V} {l₁ l₂ : List V} {c c' : K} (h : IsSetDistance d z l₁ l₂ c)
    (h' : IsSetDistance d z l₁ l₂ c') : c = c' := h.unique h'

/-- Without momenta on the one side, all are paired with zero. -/
theorem isSetDistance_nil_left (z : V) (l : List V) : IsSetDistance d z [] l ((l.map (fun p => d z p)).sum) := by
  have key : ∀ ps, IsPairing (padded z (max ([] : List V).length l.length) []) (padded z (max ([] : List V).length l.length) l) ps →
      pairingCost d ps = (l.map (fun p => d z p)).sum := by
    rintro ps ⟨h1, h2⟩
    have h3 : ∀ x ∈ ps, x.1 = z := by
      intro x hx
      have : x.1 ∈ ps.map Prod.fst := Multiset.mem_map_of_mem _ hx
      rw [h1] at this
      simp only [padded, List.length_nil, zero_le, sup_of_le_right, Multiset.coe_nil, zero_add] at this
      exact Multiset.eq_of_mem_replicate this
    have h4 : ps.map Prod.snd = ↑l := by simpa [padded] using h2
    unfold pairingCost
    have h5 : ps.map (fun x => d x.1 x.2) = ps.map (fun x => d z x.2) :=
      Multiset.map_congr rfl (fun x hx => by rw [h3 x hx])
    have h6 : ps.map (fun x => d z x.2) = (ps.map Prod.snd).map (fun p => d z p) := by simp [Multiset.map_map]
    rw [h5, h6, h4, Multiset.map_coe, Multiset.sum_coe]
  have hex : IsPairing (padded z (max ([] : List V).length l.length) []) (padded z (max ([] : List V).length l.length) l)
      ((l : Multiset V).map (fun p => (z, p))) := by
    constructor <;> simp [padded, Function.comp_def, ← Multiset.coe_replicate]
  refine ⟨⟨_, hex, key _ hex⟩, ?_⟩
  rintro x ⟨ps, h1, rfl⟩
  exact (key ps h1).ge

end Cres

import Verif.Model.Rounding
import Verif.Spec.Rounding
import Verif.Proofs.ResampleGoals
import Mathlib.Tactic.Ring
import Mathlib.Tactic.GCongr

/-!
Errors of rounded sums and averages.
-/

set_option linter.unusedSectionVars false

namespace Cres

open Spec

section Bound

variable {K : Type*} [Field K] [LinearOrder K] [IsStrictOrderedRing K] {u η Ω : K}

theorem one_le_pow_u (hu : 0 ≤ u) (N : Nat) : 1 ≤ (1 + u) ^ N := one_le_pow₀ (by linarith)

theorem roundingBound_nonneg (hu : 0 ≤ u) (hη : 0 ≤ η) (N : Nat) {T : K} (hT : 0 ≤ T) : 0 ≤ roundingBound u η N T := by
  unfold roundingBound
  have := one_le_pow_u hu N
  have h1 : 0 ≤ (1 + u) ^ N - 1 := by linarith
  positivity

theorem roundingBound_mono (hu : 0 ≤ u) (hη : 0 ≤ η) {N N' : Nat} (hN : N ≤ N') {T T' : K} (hT : 0 ≤ T) (hTT : T ≤ T') :
    roundingBound u η N T ≤ roundingBound u η N' T' := by
  unfold roundingBound
  have h0 := one_le_pow_u hu N
  have h1 : (1 + u) ^ N ≤ (1 + u) ^ N' := pow_le_pow_right₀ (by linarith) hN
  have h2 : (N : K) ≤ N' := by exact_mod_cast hN
  have h3 : 0 ≤ (1 + u) ^ N - 1 := by linarith
  have h4 : 0 ≤ (1 + u) ^ N' - 1 := by linarith
  have h5 : ((1 + u) ^ N - 1) * T ≤ ((1 + u) ^ N' - 1) * T' := mul_le_mul (by linarith) hTT hT h4
  have h6 : 2 * (N : K) * η * (1 + u) ^ N ≤ 2 * N' * η * (1 + u) ^ N' := by gcongr
  linarith

/-- Errors of one calculation after another. -/
theorem roundingBound_compose (hu : 0 ≤ u) (hη : 0 ≤ η) (N N' : Nat) {T T' : K} (hT : 0 ≤ T)
    (hTT : T' ≤ T + roundingBound u η N T) :
    roundingBound u η N T + roundingBound u η N' T' ≤ roundingBound u η (N + N') T := by
  have h0 := one_le_pow_u hu N
  have h0' := one_le_pow_u hu N'
  unfold roundingBound at *
  rw [pow_add, Nat.cast_add]
  generalize (1 + u) ^ N = a at *
  generalize (1 + u) ^ N' = b at *
  have hN : (0 : K) ≤ N := Nat.cast_nonneg _
  have hN' : (0 : K) ≤ N' := Nat.cast_nonneg _
  have h1 : (b - 1) * T' ≤ (b - 1) * (a * T + 2 * N * η * a) := by
    refine mul_le_mul_of_nonneg_left ?_ (by linarith)
    linarith
  have h2 : 0 ≤ 2 * N' * η * b * (a - 1) := by
    have : 0 ≤ a - 1 := by linarith
    have : 0 ≤ b := by linarith
    positivity
  nlinarith

/-- The size of sums after `N` operations. -/
theorem roundingBound_size (T : K) (N : Nat) :
    T + roundingBound u η N T = (1 + u) ^ N * (T + 2 * N * η) := by
  unfold roundingBound; ring

theorem pow_le_quadratic (hu : 0 ≤ u) : ∀ N : Nat, N * u ≤ 1 → (1 + u) ^ N ≤ 1 + N * u + (N * u) ^ 2 := by
  intro N
  induction N with
  | zero => intro _; simp
  | succ N ih =>
    intro h
    rw [Nat.cast_succ] at h ⊢
    have hN : (0 : K) ≤ N := Nat.cast_nonneg _
    have hx : 0 ≤ N * u := by positivity
    have h1 := ih (by nlinarith)
    rw [pow_succ]
    have h2 : (1 + u) ^ N * (1 + u) ≤ (1 + N * u + (N * u) ^ 2) * (1 + u) := mul_le_mul_of_nonneg_right h1 (by linarith)
    have h3 : N * u ≤ 1 := by nlinarith
    have h4 : (N * u) ^ 2 * u ≤ N * u * u := by
      have : (N * u) ^ 2 ≤ N * u := by nlinarith
      exact mul_le_mul_of_nonneg_right this hu
    nlinarith [sq_nonneg u, mul_nonneg hx hu]

/-- The bound is linear as long as there are not too many operations. -/
theorem roundingBound_linear (hu : 0 ≤ u) (hη : 0 ≤ η) {N : Nat} (hN : N * u ≤ 1) {T : K} (hT : 0 ≤ T) :
    roundingBound u η N T ≤ 2 * N * u * T + 6 * N * η := by
  have h := pow_le_quadratic hu N hN
  have h0 : (0 : K) ≤ N := Nat.cast_nonneg _
  have hx : 0 ≤ N * u := by positivity
  have h1 : (1 + u) ^ N - 1 ≤ 2 * N * u := by nlinarith
  have h2 : (1 + u) ^ N ≤ 3 := by nlinarith
  unfold roundingBound
  have h3 : ((1 + u) ^ N - 1) * T ≤ 2 * N * u * T := mul_le_mul_of_nonneg_right h1 hT
  have h4 : 2 * N * η * (1 + u) ^ N ≤ 2 * N * η * 3 := mul_le_mul_of_nonneg_left h2 (by positivity)
  linarith

end Bound

section Sum

variable {K : Type*} [Field K] [LinearOrder K] [IsStrictOrderedRing K] {fl : K → K} {n : Nat} {u η Ω : K}

theorem val_add (a b : Rounded fl) : (a + b).val = fl (a.val + b.val) := rfl
theorem val_mul (a b : Rounded fl) : (a * b).val = fl (a.val * b.val) := rfl
theorem val_div (a b : Rounded fl) : (a / b).val = fl (a.val / b.val) := rfl
theorem val_zero : (0 : Rounded fl).val = 0 := rfl
theorem val_one : (1 : Rounded fl).val = 1 := rfl
theorem val_natCast (m : Nat) : ((m : Nat) : Rounded fl).val = fl m := rfl
theorem val_le {a b : Rounded fl} : a ≤ b ↔ a.val ≤ b.val := Iff.rfl
theorem val_lt {a b : Rounded fl} : a < b ↔ a.val < b.val := lt_iff_lt_of_le_iff_le val_le

/-- Error of a sum of `k` numbers computed so far. -/
def sumBound (u η : K) (k : Nat) (S : K) : K := ((1 + u) ^ k - 1) * S + k * η * (1 + u) ^ k

theorem sumBound_step (hu : 0 ≤ u) (hη : 0 ≤ η) (k : Nat) {S S' : K} (hSS : S ≤ S') :
    (1 + u) * sumBound u η k S + u * S' + η ≤ sumBound u η (k + 1) S' := by
  have h0 := one_le_pow_u hu k
  unfold sumBound
  rw [pow_succ, Nat.cast_succ]
  generalize (1 + u) ^ k = p at *
  have hk : (0 : K) ≤ k := Nat.cast_nonneg _
  have h1 : (p - 1) * S ≤ (p - 1) * S' := mul_le_mul_of_nonneg_left hSS (by linarith)
  have h2 : (1 + u) * ((p - 1) * S) ≤ (1 + u) * ((p - 1) * S') := mul_le_mul_of_nonneg_left h1 (by linarith)
  have h3 : η ≤ η * (p * (1 + u)) := by
    refine le_mul_of_one_le_right hη ?_
    nlinarith
  nlinarith

theorem sumBound_size (S : K) (k : Nat) : S + sumBound u η k S = (1 + u) ^ k * (S + k * η) := by
  unfold sumBound; ring

/-- Error of adding up numbers one after the other. -/
theorem foldl_add_err (h : RoundsWithin fl n u η Ω) (l : List (Rounded fl)) : ∀ (a : Rounded fl) (s S : K) (k : Nat),
    |a.val - s| ≤ sumBound u η k S → |s| ≤ S →
    (1 + u) ^ (k + l.length) * (S + (l.map (fun x => |x.val|)).sum + ((k + l.length : Nat) : K) * η) ≤ Ω →
    |(l.foldl (· + ·) a).val - (s + (l.map Rounded.val).sum)| ≤
      sumBound u η (k + l.length) (S + (l.map (fun x => |x.val|)).sum) := by
  induction l with
  | nil => intro a s S k h1 h2 h3; simpa using h1
  | cons w l ih =>
    intro a s S k h1 h2 h3
    have hu := h.u_nonneg
    have hη := h.eta_nonneg
    have hsum : 0 ≤ (l.map (fun x => |x.val|)).sum := List.sum_nonneg (by
      intro x hx
      obtain ⟨y, -, rfl⟩ := List.mem_map.1 hx
      exact abs_nonneg _)
    have hk : (0 : K) ≤ k := Nat.cast_nonneg _
    have hp := one_le_pow_u hu k
    have hS : 0 ≤ S := (abs_nonneg _).trans h2
    have hw := abs_nonneg w.val
    have hsw : |s + w.val| ≤ S + |w.val| := (abs_add_le _ _).trans (by linarith)
    have haw : |a.val + w.val| ≤ sumBound u η k S + (S + |w.val|) := by
      have : a.val + w.val = (a.val - s) + (s + w.val) := by ring
      rw [this]
      exact (abs_add_le _ _).trans (add_le_add h1 hsw)
    have hrange : |a.val + w.val| ≤ Ω := by
      refine haw.trans (le_trans ?_ h3)
      rw [List.map_cons, List.sum_cons, List.length_cons]
      have hpow : (1 + u) ^ k ≤ (1 + u) ^ (k + (l.length + 1)) := pow_le_pow_right₀ (by linarith) (by omega)
      have hcast : (k : K) ≤ ((k + (l.length + 1) : Nat) : K) := by exact_mod_cast (by omega)
      have e1 : sumBound u η k S + (S + |w.val|) ≤ (1 + u) ^ k * (S + |w.val| + k * η) := by
        have := sumBound_size (u := u) (η := η) S k
        nlinarith
      refine e1.trans (mul_le_mul hpow ?_ (by positivity) (by linarith))
      have : k * η ≤ ((k + (l.length + 1) : Nat) : K) * η := mul_le_mul_of_nonneg_right hcast hη
      linarith
    have herr : |(a + w).val - (s + w.val)| ≤ sumBound u η (k + 1) (S + |w.val|) := by
      refine le_trans ?_ (sumBound_step hu hη k (S := S) (S' := S + |w.val|) (by linarith))
      have e : |(a + w).val - (a.val + w.val)| ≤ u * |a.val + w.val| + η := h.err _ hrange
      have : (a + w).val - (s + w.val) = ((a + w).val - (a.val + w.val)) + (a.val - s) := by ring
      rw [this]
      refine (abs_add_le _ _).trans ?_
      have e2 : u * |a.val + w.val| ≤ u * (sumBound u η k S + (S + |w.val|)) := mul_le_mul_of_nonneg_left haw hu
      nlinarith
    have := ih (a + w) (s + w.val) (S + |w.val|) (k + 1) herr hsw (by
      rw [List.map_cons, List.sum_cons, List.length_cons] at h3
      rw [show k + 1 + l.length = k + (l.length + 1) by omega]
      rwa [show S + |w.val| + (l.map (fun x => |x.val|)).sum = S + (|w.val| + (l.map (fun x => |x.val|)).sum) by ring])
    rw [List.foldl_cons, List.map_cons, List.sum_cons, List.map_cons, List.sum_cons, List.length_cons]
    rw [show k + 1 + l.length = k + (l.length + 1) by omega, add_assoc, add_assoc] at this
    exact this

theorem sumBound_mono (hu : 0 ≤ u) (hη : 0 ≤ η) (k : Nat) {S S' : K} (hSS : S ≤ S') : sumBound u η k S ≤ sumBound u η k S' := by
  unfold sumBound
  have h0 := one_le_pow_u hu k
  have : ((1 + u) ^ k - 1) * S ≤ ((1 + u) ^ k - 1) * S' := mul_le_mul_of_nonneg_left hSS (by linarith)
  linarith

theorem sumBound_le (hu : 0 ≤ u) (hη : 0 ≤ η) (k m : Nat) (hm : m ≤ k) {S : K} :
    sumBound u η k S + m * η ≤ roundingBound u η k S := by
  unfold sumBound roundingBound
  have h0 := one_le_pow_u hu k
  have hk : (0 : K) ≤ k := Nat.cast_nonneg _
  have hmk : (m : K) ≤ k := by exact_mod_cast hm
  have h1 : m * η ≤ k * η := mul_le_mul_of_nonneg_right hmk hη
  have h2 : k * η ≤ k * η * (1 + u) ^ k := le_mul_of_one_le_right (by positivity) h0
  linarith

theorem sum_abs_nonneg (l : List (Rounded fl)) : 0 ≤ (l.map (fun x => |x.val|)).sum := List.sum_nonneg (by
  intro x hx
  obtain ⟨y, -, rfl⟩ := List.mem_map.1 hx
  exact abs_nonneg _)

theorem abs_sum_val_le (l : List (Rounded fl)) : |(l.map Rounded.val).sum| ≤ (l.map (fun x => |x.val|)).sum := by
  induction l with
  | nil => simp
  | cons a l ih =>
    rw [List.map_cons, List.sum_cons, List.map_cons, List.sum_cons]
    exact (abs_add_le _ _).trans (by linarith)

/-- Error of the mean without feature `multiweight`. -/
theorem mean_div_err (h : RoundsWithin fl n u η Ω) (vs : List (Rounded fl)) (hne : vs ≠ []) (hn : vs.length ≤ n)
    (hΩ : (1 + u) ^ (vs.length + 1) * ((vs.map (fun x => |x.val|)).sum + 2 * ((vs.length + 1 : Nat) : K) * η) ≤ Ω) :
    |(vs.length : K) * (vs.foldl (· + ·) 0 / ((vs.length : Nat) : Rounded fl)).val - (vs.map Rounded.val).sum| ≤
      roundingBound u η (vs.length + 1) (vs.map (fun x => |x.val|)).sum := by
  have hu := h.u_nonneg
  have hη := h.eta_nonneg
  have hlen : 1 ≤ vs.length := List.length_pos_iff.2 hne
  have hS := sum_abs_nonneg vs
  have hs := abs_sum_val_le vs
  have hsum := foldl_add_err h vs 0 0 0 0 (by simp [val_zero, sumBound]) (by simp) (by
    refine le_trans ?_ hΩ
    have hpow : (1 + u) ^ (0 + vs.length) ≤ (1 + u) ^ (vs.length + 1) := pow_le_pow_right₀ (by linarith) (by omega)
    refine mul_le_mul hpow ?_ (by positivity) (by positivity)
    have : ((0 + vs.length : Nat) : K) * η ≤ 2 * ((vs.length + 1 : Nat) : K) * η := by
      refine mul_le_mul_of_nonneg_right ?_ hη
      push_cast
      have : (0 : K) ≤ vs.length := Nat.cast_nonneg _
      linarith
    linarith)
  rw [zero_add, zero_add, zero_add] at hsum
  generalize (vs.map (fun x => |x.val|)).sum = S at *
  generalize (vs.map Rounded.val).sum = s at *
  generalize vs.foldl (· + ·) (0 : Rounded fl) = t at *
  generalize vs.length = m at *
  have hm : (1 : K) ≤ m := by exact_mod_cast hlen
  have hm0 : (0 : K) < m := by linarith
  have hval : (t / ((m : Nat) : Rounded fl)).val = fl (t.val / m) := by
    rw [val_div, val_natCast, h.nat m hn]
  have ht : |t.val| ≤ sumBound u η m S + S := by
    have : t.val = (t.val - s) + s := by ring
    rw [this]
    exact (abs_add_le _ _).trans (add_le_add hsum hs)
  have hdiv : |t.val / m| ≤ |t.val| := by
    rw [abs_div, abs_of_pos hm0]
    exact div_le_self (abs_nonneg _) hm
  have hrange : |t.val / m| ≤ Ω := by
    refine hdiv.trans (ht.trans (le_trans ?_ hΩ))
    rw [add_comm, sumBound_size]
    have hpow : (1 + u) ^ m ≤ (1 + u) ^ (m + 1) := pow_le_pow_right₀ (by linarith) (by omega)
    refine mul_le_mul hpow ?_ (by positivity) (by positivity)
    have : (m : K) * η ≤ 2 * ((m + 1 : Nat) : K) * η := by
      refine mul_le_mul_of_nonneg_right ?_ hη
      push_cast
      linarith
    linarith
  have herr := h.err _ hrange
  rw [hval]
  have e1 : (m : K) * fl (t.val / m) - s = m * (fl (t.val / m) - t.val / m) + (t.val - s) := by
    field_simp; ring
  rw [e1]
  refine (abs_add_le _ _).trans ?_
  rw [abs_mul, abs_of_pos hm0]
  have e2 : (m : K) * |fl (t.val / m) - t.val / m| ≤ m * (u * |t.val / m| + η) := mul_le_mul_of_nonneg_left herr hm0.le
  have e3 : (m : K) * |t.val / m| = |t.val| := by
    rw [abs_div, abs_of_pos hm0]; field_simp
  have e4 : u * |t.val| ≤ u * (sumBound u η m S + S) := mul_le_mul_of_nonneg_left ht hu
  have e5 := sumBound_step hu hη m (le_refl S)
  have e6 := sumBound_le hu hη (m + 1) m (by omega) (S := S)
  nlinarith

/-- Error of the mean with feature `multiweight`. -/
theorem mean_mul_err (h : RoundsWithin fl n u η Ω) (v : Rounded fl) (vs : List (Rounded fl)) (hn : vs.length + 1 ≤ n)
    (hΩ : (1 + u) ^ (vs.length + 2) *
      (((v :: vs).map (fun x => |x.val|)).sum + 2 * ((vs.length + 2 : Nat) : K) * η) ≤ Ω) :
    |((vs.length + 1 : Nat) : K) * (vs.foldl (· + ·) v * (1 / ((vs.length + 1 : Nat) : Rounded fl))).val -
      ((v :: vs).map Rounded.val).sum| ≤ roundingBound u η (vs.length + 2) ((v :: vs).map (fun x => |x.val|)).sum := by
  have hu := h.u_nonneg
  have hη := h.eta_nonneg
  have hs := abs_sum_val_le (v :: vs)
  have hS := sum_abs_nonneg (v :: vs)
  have hsum := foldl_add_err h vs v v.val |v.val| 0 (by simp [sumBound]) (le_refl _) (by
    refine le_trans ?_ hΩ
    have hpow : (1 + u) ^ (0 + vs.length) ≤ (1 + u) ^ (vs.length + 2) := pow_le_pow_right₀ (by linarith) (by omega)
    rw [List.map_cons, List.sum_cons] at hS ⊢
    refine mul_le_mul hpow ?_ (by positivity) (by positivity)
    have : ((0 + vs.length : Nat) : K) * η ≤ 2 * ((vs.length + 2 : Nat) : K) * η := by
      refine mul_le_mul_of_nonneg_right ?_ hη
      push_cast
      have : (0 : K) ≤ vs.length := Nat.cast_nonneg _
      linarith
    linarith)
  rw [zero_add, ← List.sum_cons, ← List.map_cons (f := Rounded.val), ← List.sum_cons,
    ← List.map_cons (f := fun x : Rounded fl => |x.val|)] at hsum
  generalize ((v :: vs).map (fun x => |x.val|)).sum = S at *
  generalize ((v :: vs).map Rounded.val).sum = s at *
  generalize vs.foldl (· + ·) v = t at *
  generalize vs.length = m at *
  have hmi := h.inv (m + 1) (by omega) hn
  have hmn : fl ((m + 1 : Nat) : K) = ((m + 1 : Nat) : K) := h.nat _ hn
  have hm : (1 : K) ≤ ((m + 1 : Nat) : K) := by exact_mod_cast (by omega)
  have hmm : (m : K) ≤ ((m + 1 : Nat) : K) := by exact_mod_cast (by omega)
  have hinv : ((1 : Rounded fl) / ((m + 1 : Nat) : Rounded fl)).val = fl (1 / ((m + 1 : Nat) : K)) := by
    rw [val_div, val_natCast, hmn, val_one]
  rw [val_mul, hinv]
  have e5 : (1 + u) * ((1 + u) * sumBound u η m S + u * S + η) + u * S + η ≤ sumBound u η (m + 2) S := by
    have a1 := sumBound_step hu hη m (le_refl S)
    have a2 := sumBound_step hu hη (m + 1) (le_refl S)
    have a3 : (1 + u) * ((1 + u) * sumBound u η m S + u * S + η) ≤ (1 + u) * sumBound u η (m + 1) S :=
      mul_le_mul_of_nonneg_left a1 (by linarith)
    linarith
  have e6 := sumBound_le hu hη (m + 2) (m + 1) (by omega) (S := S)
  have ht : |t.val| ≤ sumBound u η m S + S := by
    have : t.val = (t.val - s) + s := by ring
    rw [this]
    exact (abs_add_le _ _).trans (add_le_add hsum hs)
  have hsz : (1 + u) * (sumBound u η m S + S) ≤ Ω := by
    refine le_trans ?_ hΩ
    rw [add_comm (sumBound u η m S), sumBound_size]
    have hpow : (1 + u) * (1 + u) ^ m ≤ (1 + u) ^ (m + 2) := by
      rw [← pow_succ']
      exact pow_le_pow_right₀ (by linarith) (by omega)
    rw [← mul_assoc]
    refine mul_le_mul hpow ?_ (by positivity) (by positivity)
    have : (m : K) * η ≤ 2 * ((m + 2 : Nat) : K) * η := by
      refine mul_le_mul_of_nonneg_right ?_ hη
      push_cast
      have : (0 : K) ≤ m := Nat.cast_nonneg _
      linarith
    linarith
  generalize ((m + 1 : Nat) : K) = M at *
  have hM0 : (0 : K) < M := by linarith
  generalize fl (1 / M) = inv at *
  have hMinv : |M * inv - 1| ≤ u := by
    have : M * inv - 1 = M * (inv - 1 / M) := by field_simp
    rw [this, abs_mul, abs_of_pos hM0]
    calc M * |inv - 1 / M| ≤ M * (u * (1 / M)) := mul_le_mul_of_nonneg_left hmi hM0.le
      _ = u := by field_simp
  have hMinv' : |M * inv| ≤ 1 + u := by
    have : M * inv = (M * inv - 1) + 1 := by ring
    rw [this]
    refine (abs_add_le _ _).trans ?_
    rw [abs_one]; linarith
  have hinv1 : |inv| ≤ 1 + u := by
    have : |inv| ≤ M * |inv| := le_mul_of_one_le_left (abs_nonneg _) hm
    rw [abs_mul, abs_of_pos hM0] at hMinv'
    linarith
  have hrange : |t.val * inv| ≤ Ω := by
    rw [abs_mul, mul_comm]
    refine le_trans (mul_le_mul hinv1 ht (abs_nonneg _) (by linarith)) hsz
  have herr := h.err _ hrange
  have e1 : M * fl (t.val * inv) - s = M * (fl (t.val * inv) - t.val * inv) + t.val * (M * inv - 1) + (t.val - s) := by ring
  rw [e1]
  refine (abs_add_le _ _).trans ?_
  have f1 : |M * (fl (t.val * inv) - t.val * inv) + t.val * (M * inv - 1)| ≤
      u * ((1 + u) * |t.val|) + M * η + |t.val| * u := by
    refine (abs_add_le _ _).trans (add_le_add ?_ ?_)
    · rw [abs_mul, abs_of_pos hM0]
      refine (mul_le_mul_of_nonneg_left herr hM0.le).trans ?_
      have : M * |t.val * inv| ≤ (1 + u) * |t.val| := by
        have : M * |t.val * inv| = |M * inv| * |t.val| := by rw [abs_mul, abs_mul, abs_of_pos hM0]; ring
        rw [this]
        exact mul_le_mul_of_nonneg_right hMinv' (abs_nonneg _)
      have : u * (M * |t.val * inv|) ≤ u * ((1 + u) * |t.val|) := mul_le_mul_of_nonneg_left this hu
      linarith
    · rw [abs_mul]
      exact mul_le_mul_of_nonneg_left hMinv (abs_nonneg _)
  have f2 : u * ((1 + u) * |t.val|) + |t.val| * u ≤ (u * (1 + u) + u) * (sumBound u η m S + S) := by
    have : (u * (1 + u) + u) * |t.val| ≤ (u * (1 + u) + u) * (sumBound u η m S + S) :=
      mul_le_mul_of_nonneg_left ht (by positivity)
    linarith
  have f3 : 0 ≤ u * η := mul_nonneg hu hη
  nlinarith

end Sum

end Cres

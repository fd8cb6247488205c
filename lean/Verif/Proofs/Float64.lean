import Verif.Model.Rounding
import Verif.Spec.Rounding
import Mathlib.Algebra.Order.Field.Power
import Mathlib.Tactic.Linarith
import Mathlib.Tactic.Ring
import Mathlib.Tactic.FieldSimp
import Mathlib.Tactic.Positivity
import Mathlib.Tactic.NormNum

/-!
`fl64` rounds to the nearest `f64`.
-/

namespace Cres

open Spec

theorem roundEven_err (x : ℚ) : |(roundEven x : ℚ) - x| ≤ 1 / 2 := by
  have h1 := Int.floor_le x
  have h2 := Int.lt_floor_add_one x
  unfold roundEven
  rw [abs_le]
  split_ifs <;> push_cast <;> constructor <;> linarith

theorem roundEven_int (z : ℤ) : roundEven z = z := by
  unfold roundEven
  rw [Int.floor_intCast]
  simp

theorem roundEven_nearest (x : ℚ) (z : ℤ) : |(roundEven x : ℚ) - x| ≤ |(z : ℚ) - x| := by
  have h1 := Int.floor_le x
  have h2 := Int.lt_floor_add_one x
  have hz : (z : ℚ) ≤ ⌊x⌋ ∨ (⌊x⌋ : ℚ) + 1 ≤ z := by
    rcases le_or_gt z ⌊x⌋ with h | h
    · left; exact_mod_cast h
    · right; exact_mod_cast h
  have hlow : x - ⌊x⌋ ≤ |(z : ℚ) - x| ∨ ⌊x⌋ + 1 - x ≤ |(z : ℚ) - x| := by
    rcases hz with h | h
    · left
      rw [abs_sub_comm]
      exact le_trans (by linarith) (le_abs_self _)
    · right; exact le_trans (by linarith) (le_abs_self _)
  have ha : |(⌊x⌋ : ℚ) - x| = x - ⌊x⌋ := by rw [abs_sub_comm, abs_of_nonneg]; linarith
  have hb : |(⌊x⌋ : ℚ) + 1 - x| = ⌊x⌋ + 1 - x := by rw [abs_of_nonneg]; linarith
  unfold roundEven
  split_ifs
  · rw [ha]
    rcases hlow with h | h <;> linarith
  · push_cast
    rw [hb]
    rcases hlow with h | h <;> linarith
  · rw [ha]
    rcases hlow with h | h <;> linarith
  · push_cast
    rw [hb]
    rcases hlow with h | h <;> linarith

theorem roundEven_le {x : ℚ} {z : ℤ} (h : x ≤ z) : roundEven x ≤ z := by
  have h1 := roundEven_nearest x z
  rw [abs_of_nonneg (show (0 : ℚ) ≤ z - x by linarith)] at h1
  have := (abs_le.1 h1).2
  have : (roundEven x : ℚ) ≤ z := by linarith
  exact_mod_cast this

theorem le_roundEven {x : ℚ} {z : ℤ} (h : z ≤ x) : z ≤ roundEven x := by
  have h1 := roundEven_nearest x z
  rw [abs_of_nonpos (show (z : ℚ) - x ≤ 0 by linarith)] at h1
  have := (abs_le.1 h1).1
  have : (z : ℚ) ≤ roundEven x := by linarith
  exact_mod_cast this

/-- If there are two nearest integers, the even one is taken. -/
theorem roundEven_tie (x : ℚ) (z : ℤ) (hz : z ≠ roundEven x) (h : |(z : ℚ) - x| = |(roundEven x : ℚ) - x|) :
    roundEven x % 2 = 0 := by
  have h1 := Int.floor_le x
  have h2 := Int.lt_floor_add_one x
  have ha : |(⌊x⌋ : ℚ) - x| = x - ⌊x⌋ := by rw [abs_sub_comm, abs_of_nonneg]; linarith
  have hb : |(⌊x⌋ : ℚ) + 1 - x| = ⌊x⌋ + 1 - x := by rw [abs_of_nonneg]; linarith
  have hz' : (z : ℚ) < ⌊x⌋ ∨ z = ⌊x⌋ ∨ z = ⌊x⌋ + 1 ∨ (⌊x⌋ : ℚ) + 1 < z := by
    rcases lt_trichotomy z ⌊x⌋ with h | h | h
    · left; exact_mod_cast h
    · right; left; exact h
    · right; right
      rcases eq_or_lt_of_le (show ⌊x⌋ + 1 ≤ z by omega) with h | h
      · left; exact h.symm
      · right; exact_mod_cast h
  have hle := (le_abs_self ((z : ℚ) - x))
  have hle' := (neg_le_abs ((z : ℚ) - x))
  unfold roundEven at *
  split_ifs at * with c1 c2 c3
  · exfalso
    rw [ha] at h
    rcases hz' with h' | h' | h' | h'
    · linarith
    · exact hz h'
    · subst h'; push_cast at hle h; linarith
    · linarith
  · exfalso
    push_cast at h
    rw [hb] at h
    rcases hz' with h' | h' | h' | h'
    · linarith
    · subst h'; linarith
    · exact hz h'
    · linarith
  · exact c3
  · omega

theorem quantum64_pos (x : ℚ) : 0 < quantum64 x := by unfold quantum64; positivity

theorem fl64_err_quantum (x : ℚ) : |fl64 x - x| ≤ quantum64 x / 2 := by
  have hq := quantum64_pos x
  have : fl64 x - x = ((roundEven (x / quantum64 x) : ℚ) - x / quantum64 x) * quantum64 x := by
    unfold fl64; field_simp
  rw [this, abs_mul, abs_of_pos hq]
  have := mul_le_mul_of_nonneg_right (roundEven_err (x / quantum64 x)) hq.le
  linarith

theorem fl64_of_int (x : ℚ) (z : ℤ) (h : x = z * quantum64 x) : fl64 x = x := by
  have hq := quantum64_pos x
  unfold fl64
  have : x / quantum64 x = z := by rw [div_eq_iff hq.ne']; exact h
  rw [this, roundEven_int]
  exact h.symm

theorem quantum64_half (x : ℚ) : quantum64 x / 2 = 2 ^ (max (Int.log 2 |x|) (-1022) - 53) := by
  unfold quantum64
  rw [show max (Int.log 2 |x|) (-1022) - 52 = (max (Int.log 2 |x|) (-1022) - 53) + 1 by ring, zpow_add₀ (by norm_num)]
  simp

theorem zpow_two_mono {a b : ℤ} (h : a ≤ b) : (2 : ℚ) ^ a ≤ 2 ^ b := zpow_le_zpow_right₀ (by norm_num) h

theorem fl64_zero : fl64 0 = 0 := fl64_of_int 0 0 (by simp)

/-- Relative error for normal numbers. -/
theorem fl64_err_normal (x : ℚ) (hx : (2 : ℚ) ^ (-1022 : ℤ) ≤ |x|) : |fl64 x - x| ≤ 2 ^ (-53 : ℤ) * |x| := by
  refine (fl64_err_quantum x).trans ?_
  rw [quantum64_half]
  have hx0 : 0 < |x| := lt_of_lt_of_le (by positivity) hx
  have h1 : (-1022 : ℤ) ≤ Int.log 2 |x| := (Int.zpow_le_iff_le_log (b := 2) (by norm_num) hx0).1 (by exact_mod_cast hx)
  rw [max_eq_left h1, sub_eq_add_neg, zpow_add₀ (by norm_num), mul_comm]
  refine mul_le_mul_of_nonneg_left ?_ (by positivity)
  have := Int.zpow_log_le_self (b := 2) (by norm_num) hx0
  exact_mod_cast this

theorem fl64_err (x : ℚ) : |fl64 x - x| ≤ 2 ^ (-53 : ℤ) * |x| + 2 ^ (-1075 : ℤ) := by
  rcases le_or_gt ((2 : ℚ) ^ (-1022 : ℤ)) |x| with h | h
  · have := fl64_err_normal x h
    have h2 : (0 : ℚ) < 2 ^ (-1075 : ℤ) := by positivity
    linarith
  · rcases eq_or_ne x 0 with rfl | hx
    · rw [fl64_zero]; simp
    · refine (fl64_err_quantum x).trans ?_
      rw [quantum64_half]
      have hx0 : 0 < |x| := abs_pos.2 hx
      have h1 : Int.log 2 |x| < (-1022 : ℤ) := (Int.lt_zpow_iff_log_lt (b := 2) (by norm_num) hx0).1 (by exact_mod_cast h)
      rw [max_eq_right h1.le]
      have : (0 : ℚ) ≤ 2 ^ (-53 : ℤ) * |x| := by positivity
      norm_num at *

/-- `fl64` does not round numbers of type `f64`. -/
theorem fl64_fixed {x : ℚ} (h : IsF64 x) : fl64 x = x := by
  obtain ⟨m, e, hm, he, -, hx⟩ := h
  rcases eq_or_ne x 0 with h0 | h0
  · rw [h0]; exact fl64_zero
  have hx0 : 0 < |x| := abs_pos.2 h0
  have hlog : Int.log 2 |x| < e + 53 := by
    refine (Int.lt_zpow_iff_log_lt (b := 2) (by norm_num) hx0).1 ?_
    rw [hx, abs_mul, abs_of_pos (show (0 : ℚ) < 2 ^ e by positivity)]
    have h1 : |(m : ℚ)| < 2 ^ 53 := by exact_mod_cast hm
    have h2 : ((2 : ℕ) : ℚ) ^ (e + 53) = 2 ^ 53 * 2 ^ e := by
      push_cast
      rw [zpow_add₀ (by norm_num), mul_comm]
      norm_num
    rw [h2]
    exact mul_lt_mul_of_pos_right h1 (by positivity)
  have hle : max (Int.log 2 |x|) (-1022) - 52 ≤ e := by
    have : max (Int.log 2 |x|) (-1022) ≤ e + 52 := max_le (by omega) (by omega)
    omega
  obtain ⟨j, hj⟩ := Int.le.dest hle
  refine fl64_of_int x (m * 2 ^ j) ?_
  rw [hx]
  conv_lhs => rw [← hj]
  unfold quantum64
  rw [← hx, zpow_add₀ (by norm_num), zpow_natCast]
  push_cast
  ring

/-- The result is a `f64`, unless it is too large. -/
theorem fl64_isF64 {x : ℚ} (h : |x| ≤ maxF64) : IsF64 (fl64 x) := by
  have hq := quantum64_pos x
  rcases eq_or_ne x 0 with h0 | h0
  · rw [h0, fl64_zero]; exact ⟨0, 0, by norm_num, by norm_num, by norm_num, by simp⟩
  have hx0 : 0 < |x| := abs_pos.2 h0
  have hlt := Int.lt_zpow_succ_log_self (b := 2) (by norm_num) |x|
  push_cast at hlt
  have hmax : maxF64 < 2 ^ (1024 : ℤ) := by
    unfold maxF64
    rw [show (1024 : ℤ) = 53 + 971 by norm_num, zpow_add₀ (by norm_num)]
    refine mul_lt_mul_of_pos_right ?_ (zpow_pos (by norm_num) _)
    norm_num
  have hlog : Int.log 2 |x| < 1024 :=
    (Int.lt_zpow_iff_log_lt (b := 2) (by norm_num) hx0).1 (lt_of_le_of_lt h hmax)
  have hE : max (Int.log 2 |x|) (-1022) ≤ 1023 := max_le (by omega) (by norm_num)
  have hE' := le_max_right (Int.log 2 |x|) (-1022)
  have hle := le_max_left (Int.log 2 |x|) (-1022)
  have hxq : |x / quantum64 x| < 2 ^ 53 := by
    rw [abs_div, abs_of_pos hq, div_lt_iff₀ hq]
    refine lt_of_lt_of_le hlt ?_
    unfold quantum64
    have : (2 : ℚ) ^ 53 * 2 ^ (max (Int.log 2 |x|) (-1022) - 52) = 2 ^ (max (Int.log 2 |x|) (-1022) + 1) := by
      rw [show max (Int.log 2 |x|) (-1022) + 1 = (53 : ℤ) + (max (Int.log 2 |x|) (-1022) - 52) by ring,
        zpow_add₀ (by norm_num)]
      norm_num
    rw [this]
    exact zpow_two_mono (by omega)
  have hr : |roundEven (x / quantum64 x)| ≤ 2 ^ 53 := by
    rw [abs_lt] at hxq
    rw [abs_le]
    exact ⟨le_roundEven (by push_cast; linarith [hxq.1]), roundEven_le (by push_cast; linarith [hxq.2])⟩
  rcases lt_or_eq_of_le hr with hr | hr
  · exact ⟨roundEven (x / quantum64 x), max (Int.log 2 |x|) (-1022) - 52, hr, by omega, by omega, rfl⟩
  · -- rounded up to the next power of 2
    have hE2 : max (Int.log 2 |x|) (-1022) ≤ 1022 := by
      by_contra hcon
      have hE3 : max (Int.log 2 |x|) (-1022) = 1023 := by omega
      have hqv : quantum64 x = 2 ^ (971 : ℤ) := by unfold quantum64; rw [hE3]; norm_num
      rw [hqv] at hr
      have hxm : |x / 2 ^ (971 : ℤ)| ≤ 2 ^ 53 - 1 := by
        have hp : (0 : ℚ) < 2 ^ (971 : ℤ) := zpow_pos (by norm_num) _
        rw [abs_div, abs_of_pos hp, div_le_iff₀ hp]
        exact h
      generalize x / 2 ^ (971 : ℤ) = y at *
      rw [abs_le] at hxm
      have h5' : roundEven y ≤ 2 ^ 53 - 1 := roundEven_le (by push_cast; linarith [hxm.2])
      have h6' : -(2 ^ 53 - 1) ≤ roundEven y := le_roundEven (by push_cast; linarith [hxm.1])
      rcases abs_cases (roundEven y) with ⟨hc, -⟩ | ⟨hc, -⟩ <;> omega
    have h52 : (2 : ℚ) ^ (52 : ℤ) * 2 ^ (max (Int.log 2 |x|) (-1022) - 51) =
        2 ^ 53 * 2 ^ (max (Int.log 2 |x|) (-1022) - 52) := by
      rw [show max (Int.log 2 |x|) (-1022) - 51 = 1 + (max (Int.log 2 |x|) (-1022) - 52) by ring, zpow_add₀ (by norm_num)]
      norm_num
      ring
    rcases abs_eq (by norm_num : (0 : ℤ) ≤ 2 ^ 53) |>.1 hr with h1 | h1
    · refine ⟨2 ^ 52, max (Int.log 2 |x|) (-1022) - 51, by norm_num, by omega, by omega, ?_⟩
      unfold fl64
      rw [h1]
      unfold quantum64
      push_cast
      exact_mod_cast h52.symm
    · refine ⟨-2 ^ 52, max (Int.log 2 |x|) (-1022) - 51, by norm_num, by omega, by omega, ?_⟩
      unfold fl64
      rw [h1]
      unfold quantum64
      push_cast
      rw [neg_mul, neg_mul, neg_inj]
      exact_mod_cast h52.symm

/-- No `f64` is nearer than the result of `fl64`. -/
theorem fl64_nearest (x y : ℚ) (hy : IsF64 y) : |fl64 x - x| ≤ |y - x| := by
  have hq := quantum64_pos x
  have hmul : ∀ z : ℤ, |fl64 x - x| ≤ |z * quantum64 x - x| := by
    intro z
    have e1 : fl64 x - x = ((roundEven (x / quantum64 x) : ℚ) - x / quantum64 x) * quantum64 x := by
      unfold fl64; field_simp
    have e2 : z * quantum64 x - x = ((z : ℚ) - x / quantum64 x) * quantum64 x := by field_simp
    rw [e1, e2, abs_mul, abs_mul]
    exact mul_le_mul_of_nonneg_right (roundEven_nearest _ _) (abs_nonneg _)
  rcases eq_or_ne x 0 with h0 | h0
  · rw [h0, fl64_zero]; simp
  have hx0 : 0 < |x| := abs_pos.2 h0
  obtain ⟨m, e, hm, he, -, hyx⟩ := hy
  by_cases hle : max (Int.log 2 |x|) (-1022) - 52 ≤ e
  · obtain ⟨j, hj⟩ := Int.le.dest hle
    have : y = ((m * 2 ^ j : ℤ) : ℚ) * quantum64 x := by
      rw [hyx, ← hj]
      unfold quantum64
      rw [zpow_add₀ (by norm_num), zpow_natCast]
      push_cast
      ring
    rw [this]
    exact hmul _
  · -- `y` is in a lower binade
    have hElog : max (Int.log 2 |x|) (-1022) = Int.log 2 |x| := by
      rcases max_choice (Int.log 2 |x|) (-1022) with h | h
      · exact h
      · omega
    rw [hElog] at hle
    have hpow := Int.zpow_log_le_self (b := 2) (by norm_num) hx0
    push_cast at hpow
    have hy1 : |y| ≤ 2 ^ (Int.log 2 |x|) := by
      rw [hyx, abs_mul, abs_of_pos (show (0 : ℚ) < 2 ^ e by positivity)]
      have h1 : |(m : ℚ)| ≤ 2 ^ 53 := by exact_mod_cast hm.le
      refine (mul_le_mul_of_nonneg_right h1 (by positivity)).trans ?_
      have : (2 : ℚ) ^ 53 * 2 ^ e = 2 ^ (e + 53) := by
        rw [add_comm, zpow_add₀ (by norm_num)]; norm_num
      rw [this]
      exact zpow_two_mono (by omega)
    have hq52 : (2 : ℚ) ^ (Int.log 2 |x|) = ((2 ^ 52 : ℤ) : ℚ) * quantum64 x := by
      unfold quantum64
      rw [hElog]
      conv_lhs => rw [show Int.log 2 |x| = 52 + (Int.log 2 |x| - 52) by ring, zpow_add₀ (by norm_num)]
      push_cast
      norm_num
    rcases lt_or_gt_of_ne h0 with hneg | hpos
    · have := hmul (-(2 ^ 52))
      push_cast at this hq52
      rw [neg_mul, ← hq52] at this
      refine this.trans ?_
      rw [abs_of_neg hneg] at hy1 hpow ⊢
      generalize (2 : ℚ) ^ (Int.log 2 (-x)) = p at *
      rw [abs_of_nonneg (show 0 ≤ -p - x by linarith)]
      have h1 := (abs_le.1 hy1).1
      exact le_trans (by linarith) (le_abs_self _)
    · have := hmul (2 ^ 52)
      rw [← hq52] at this
      refine this.trans ?_
      rw [abs_of_pos hpos] at hy1 hpow ⊢
      generalize (2 : ℚ) ^ (Int.log 2 x) = p at *
      rw [abs_of_nonpos (show p - x ≤ 0 by linarith)]
      have h1 := (abs_le.1 hy1).2
      rw [abs_sub_comm]
      exact le_trans (by linarith) (le_abs_self _)

/-- Rounding of `f64`, for samples with less than 2⁵³ events. -/
theorem fl64_roundsWithin {n : Nat} (hn : n < 2 ^ 53) (Ω : ℚ) :
    RoundsWithin fl64 n (2 ^ (-53 : ℤ)) (2 ^ (-1075 : ℤ)) Ω := by
  refine ⟨by positivity, by positivity, fun x _ => fl64_err x, ?_, ?_⟩
  · intro m hm
    refine fl64_fixed ⟨m, 0, ?_, by norm_num, by norm_num, by simp⟩
    rw [abs_of_nonneg (by positivity)]
    exact_mod_cast lt_of_le_of_lt hm hn
  · intro m h1 hm
    have hm0 : (1 : ℚ) ≤ m := by exact_mod_cast h1
    have hpos : (0 : ℚ) < 1 / m := by positivity
    have := fl64_err_normal (1 / m) (by
      rw [abs_of_pos hpos, le_div_iff₀ (by linarith)]
      have : (m : ℚ) ≤ 2 ^ 53 := by exact_mod_cast (by omega)
      calc (2 : ℚ) ^ (-1022 : ℤ) * m ≤ 2 ^ (-1022 : ℤ) * 2 ^ 53 := mul_le_mul_of_nonneg_left this (by positivity)
        _ = 2 ^ (-969 : ℤ) := by rw [← zpow_natCast, ← zpow_add₀ (by norm_num)]; rfl
        _ ≤ 2 ^ (0 : ℤ) := zpow_two_mono (by norm_num)
        _ = 1 := by simp)
    rwa [abs_of_pos hpos] at this

end Cres

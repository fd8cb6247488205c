import Verif.Proofs.UnweightRounded
import Verif.Spec.UnweightRounded
import Verif.Proofs.FloatRun

/-!
# C91: unweighting with `f64` weights
-/

set_option linter.unusedSectionVars false

namespace Cres

open Spec

theorem fl64_relative (Ω : ℚ) : RoundsRelative fl64 (1 - 2 ^ (-53 : ℤ)) (2 ^ (-1000 : ℤ)) Ω := by
  have hu : (2 : ℚ) ^ (-53 : ℤ) ≤ 1 / 2 := by norm_num
  have hu0 : (0 : ℚ) < 2 ^ (-53 : ℤ) := by positivity
  refine ⟨by norm_num, by norm_num, by positivity, fl64_zero, fun x hx _ => ?_⟩
  have hx0 : 0 < x := lt_of_lt_of_le (by positivity) hx
  have h1 := fl64_err_normal x (by
    rw [abs_of_pos hx0]
    exact (zpow_le_zpow_right₀ (by norm_num) (by norm_num)).trans hx)
  rw [abs_of_pos hx0] at h1
  generalize (2 : ℚ) ^ (-53 : ℤ) = u at *
  obtain ⟨h2, h3⟩ := abs_le.1 h1
  constructor
  · linarith
  · nlinarith

theorem unweightF64_range {t a S : ℚ} {N : Nat} (ht : 2 ^ 45 ≤ t) (ha : 1 / t ≤ a) (ha' : a ≤ t) (hS : 1 / t ≤ S)
    (hS' : S ≤ t) (hN : N ≤ 2 ^ 40) : UnweightRange (1 / t ^ 5) (t ^ 5) a S N := by
  have ht0 : 0 < t := lt_of_lt_of_le (by norm_num) ht
  have ht1 : 1 ≤ t := le_trans (by norm_num) ht
  have hi : 0 < 1 / t := by positivity
  have hN' : (N : ℚ) ≤ 2 ^ 40 := by exact_mod_cast hN
  have hp : ∀ k : Nat, 1 ≤ t ^ k := fun k => one_le_pow₀ ht1
  have hB : 8 * (S + 2 * N * a) ≤ t ^ 2 := by
    have h1 : (N : ℚ) * a ≤ 2 ^ 40 * t := mul_le_mul hN' ha' (hi.le.trans ha) (by norm_num)
    have h2 : 2 ^ 45 * t ≤ t ^ 2 := by rw [pow_two]; exact mul_le_mul_of_nonneg_right ht ht0.le
    norm_num at h1 h2 ⊢
    linarith
  have hB5 : 4 * (1 / t ^ 5) * (S + 2 * N * a) ≤ 1 / t ^ 3 := by
    rw [show 4 * (1 / t ^ 5) * (S + 2 * N * a) = (4 * (S + 2 * N * a)) / t ^ 5 by ring, div_le_div_iff₀ (by positivity) (by positivity)]
    have := mul_le_mul_of_nonneg_right (a := t ^ 3) (show 4 * (S + 2 * N * a) ≤ t ^ 2 by nlinarith [hp 2]) (by positivity)
    calc _ ≤ t ^ 2 * t ^ 3 := this
      _ = _ := by ring
  refine ⟨?_, hi.trans_le ha, ?_, hi.trans_le hS, ?_, ?_, ?_, ?_⟩
  · rw [div_le_one (by positivity)]; exact hp 5
  · refine le_trans ?_ ha
    rw [mul_one_div, div_le_div_iff₀ (by positivity) ht0]
    have h4 : 4 ≤ t ^ 4 := le_trans (by norm_num) (pow_le_pow_left₀ (by norm_num) ht 4)
    calc 4 * t ≤ t ^ 4 * t := mul_le_mul_of_nonneg_right h4 ht0.le
      _ = 1 * t ^ 5 := by ring
  · have h1 : t ^ 2 ≤ t ^ 5 := pow_le_pow_right₀ ht1 (by norm_num)
    have := hp 2
    linarith
  · refine hB5.trans (le_trans ?_ hS)
    rw [div_le_div_iff₀ (by positivity) ht0]
    have : t ^ 1 ≤ t ^ 3 := pow_le_pow_right₀ ht1 (by norm_num)
    linarith
  · have h1 : t ^ 5 * (1 / t) ≤ t ^ 5 * a := mul_le_mul_of_nonneg_left ha (by positivity)
    refine le_trans ?_ h1
    rw [show t ^ 5 * (1 / t) = t ^ 3 * t by field_simp]
    have h3 : 8 ≤ t ^ 3 := le_trans (by norm_num) (pow_le_pow_left₀ (by norm_num) ht 3)
    have := mul_le_mul_of_nonneg_right h3 ht0.le
    linarith
  · refine hB5.trans ?_
    have h1 : 1 / t * (1 / t) ≤ a * S := mul_le_mul ha hS hi.le (hi.le.trans ha)
    refine le_trans ?_ h1
    rw [div_mul_div_comm, div_le_div_iff₀ (by positivity) (by positivity)]
    have : t ^ 2 ≤ t ^ 3 := pow_le_pow_right₀ ht1 (by norm_num)
    nlinarith

variable {V : Type*}

/-- **C91**: unweighting changes the sum of weights by at most `2⁻⁴⁹` of its value for each event, for all ways in which parallel
sums are computed and for all random numbers, if there are no events with negative weight and at least one event survives. -/
theorem C91_sum {minWt : N64} {evs out : List (Event N64 V)} (hrange : UnweightF64 minWt evs)
    {sumBefore sumAfter : List N64 → N64} (hB : ∀ l, RayonSum l (sumBefore l)) (hA : ∀ l, RayonSum l (sumAfter l))
    {debug : Bool} {rng : Nat → N64} (hr : ∀ i, 0 ≤ rng i)
    (h : unweightWith sumBefore sumAfter debug minWt rng evs = .ok out) (hout : out ≠ []) :
    |(out.map fun e => (centralWeight e).val).sum - (evs.map fun e => (centralWeight e).val).sum| ≤
      evs.length * 2 ^ (-49 : ℤ) * (evs.map fun e => (centralWeight e).val).sum := by
  obtain ⟨h1, h2, h3, h4, h5, h6⟩ := hrange
  have et : (2 : ℚ) ^ (200 : ℤ) = 2 ^ 200 := by norm_cast
  have et' : (2 : ℚ) ^ (-200 : ℤ) = 1 / 2 ^ (200 : ℤ) := by rw [zpow_neg, one_div]
  have el : (2 : ℚ) ^ (-1000 : ℤ) = 1 / (2 ^ (200 : ℤ)) ^ 5 := by
    rw [one_div, ← zpow_natCast, ← zpow_mul, ← zpow_neg]; norm_num
  have e6 : (2 : ℚ) ^ (-600 : ℤ) = 1 / (2 ^ (200 : ℤ)) ^ 3 := by
    rw [one_div, ← zpow_natCast, ← zpow_mul, ← zpow_neg]; norm_num
  have ht : (2 : ℚ) ^ 45 ≤ 2 ^ (200 : ℤ) := by rw [et]; exact pow_le_pow_right₀ (by norm_num) (by norm_num)
  rw [et'] at h3 h5
  rw [e6] at h1
  have hfl := fl64_relative ((2 ^ (200 : ℤ)) ^ 5)
  rw [el] at hfl
  have hu40 : 2 ^ 43 * (2 : ℚ) ^ (-53 : ℤ) ≤ 1 / 2 := by norm_num
  have hu0 : 0 < (2 : ℚ) ^ (-53 : ℤ) := by positivity
  have hu49 : (2 : ℚ) ^ (-49 : ℤ) = 16 * 2 ^ (-53 : ℤ) := by norm_num
  rw [hu49]
  generalize (2 : ℚ) ^ (-53 : ℤ) = u at *
  generalize (2 : ℚ) ^ (200 : ℤ) = t at *
  clear et et' el e6 hu49
  have ht0 : 0 < t := lt_of_lt_of_le (by norm_num) ht
  have ht1 : 1 ≤ t := le_trans (by norm_num) ht
  have hR := unweightF64_range ht h3 h4 h5 h6 h2
  have hN1 : 1 ≤ evs.length := by
    refine List.length_pos_iff.2 ?_
    rintro rfl
    simp at h5
    linarith
  have hNq : (1 : ℚ) ≤ evs.length := by exact_mod_cast hN1
  have hN' : (evs.length : ℚ) ≤ 2 ^ 40 := by exact_mod_cast h2
  set M : Nat := 2 * evs.length + 2 * evs.length + 2 with hM
  have hMle : (M : ℚ) ≤ 6 * evs.length := by rw [hM]; push_cast; linarith
  have hMu : (M : ℚ) * u ≤ 1 / 2 := by
    refine le_trans (mul_le_mul_of_nonneg_right (hMle.trans ?_) hu0.le) hu40
    calc 6 * (evs.length : ℚ) ≤ 6 * 2 ^ 40 := mul_le_mul_of_nonneg_left hN' (by norm_num)
      _ ≤ 2 ^ 43 := by norm_num
  have hbern : 1 - (M : ℚ) * u ≤ (1 - u) ^ M := by
    have := one_add_mul_le_pow (a := -u) (by norm_num at hu40; linarith) M
    rw [← sub_eq_add_neg] at this
    linarith
  have hn := unweight_near hfl (M := 2 * evs.length) (M' := 2 * evs.length) (sB := sumBefore) (sA := sumAfter) (by
      obtain ⟨m, g1, -, g2⟩ := rayonSum_sumsTo (hB (evs.map centralWeight))
      exact ⟨m, by simpa using g1, g2⟩) (by
      intro l hl
      obtain ⟨m, g1, -, g2⟩ := rayonSum_sumsTo (hA l)
      exact ⟨m, by omega, g2⟩) (by linarith) (fun i => hr i) (by
      intro e he
      refine (h1 e he).imp_right fun g => ?_
      have h0 : 0 < 1 / t ^ 3 := by positivity
      refine ⟨h0.trans_le g, le_trans ?_ g, ?_⟩
      · rw [mul_one_div, div_le_div_iff₀ (by positivity) (by positivity)]
        have : 2 ≤ t ^ 2 := le_trans (by norm_num) (pow_le_pow_left₀ (by norm_num) ht 2)
        calc 2 * t ^ 3 ≤ t ^ 2 * t ^ 3 := mul_le_mul_of_nonneg_right this (by positivity)
          _ = 1 * t ^ 5 := by ring
      · have g1 : t ^ 5 * (1 / t ^ 3) ≤ t ^ 5 * (centralWeight e).val := mul_le_mul_of_nonneg_left g (by positivity)
        refine le_trans ?_ g1
        rw [show t ^ 5 * (1 / t ^ 3) = t ^ 2 by field_simp]
        nlinarith) hR h hout
  unfold exactCentralSum at hn
  generalize (out.map fun e => (centralWeight e).val).sum = x at *
  generalize (evs.map fun e => (centralWeight e).val).sum = S at *
  have hS0 : 0 < S := lt_of_lt_of_le (by positivity) h5
  obtain ⟨n1, n2⟩ := hn
  have hx0 : 0 ≤ x := le_trans (by have := hfl.pos; positivity) n1
  have b1 : S * (1 - (M : ℚ) * u) ≤ x := (mul_le_mul_of_nonneg_left hbern hS0.le).trans n1
  have b2 : x * (1 - (M : ℚ) * u) ≤ S := (mul_le_mul_of_nonneg_left hbern hx0).trans n2
  have hb : 2 * ((M : ℚ) * u) ≤ evs.length * (16 * u) := by
    have := mul_le_mul_of_nonneg_right hMle hu0.le
    have h0 : 0 ≤ (evs.length : ℚ) * u := by positivity
    linarith
  have hm0 : (0 : ℚ) ≤ (M : ℚ) * u := by positivity
  generalize (M : ℚ) * u = z at *
  generalize (evs.length : ℚ) * (16 * u) = y at *
  have hyS : 2 * z * S ≤ y * S := mul_le_mul_of_nonneg_right hb hS0.le
  have hzS : 0 ≤ z * S := mul_nonneg hm0 hS0.le
  have hxS : x ≤ 2 * S := by nlinarith
  have hzx : x * z ≤ 2 * S * z := mul_le_mul_of_nonneg_right hxS hm0
  rw [abs_le]
  constructor <;> nlinarith

/-- **C91**: the same for sums from left to right. -/
theorem C91_sequential {minWt : N64} {evs out : List (Event N64 V)} (hrange : UnweightF64 minWt evs)
    {debug : Bool} {rng : Nat → N64} (hr : ∀ i, 0 ≤ rng i) (h : unweightWith (List.foldl (· + ·) 0) (List.foldl (· + ·) 0) debug minWt rng evs = .ok out)
    (hout : out ≠ []) :
    |(out.map fun e => (centralWeight e).val).sum - (evs.map fun e => (centralWeight e).val).sum| ≤
      evs.length * 2 ^ (-49 : ℤ) * (evs.map fun e => (centralWeight e).val).sum := by
  have hs : ∀ l : List N64, RayonSum l (l.foldl (· + ·) 0) := by
    intro l
    cases l with
    | nil => exact .empty
    | cons a l => exact .piece a l
  exact C91_sum hrange hs hs hr h hout

/-! ### examples -/

def exUnwF64 : List (Event N64 ℚ) := [⟨0, [⟨1⟩], []⟩]

/-- The comment in the code says that the sum of weights is preserved exactly. With `f64` it is not: the sum here is `1 - 2⁻⁵³`. -/
theorem exUnwF64_run : unweightWith (List.foldl (· + ·) 0) (List.foldl (· + ·) 0) false (⟨49⟩ : N64) (fun _ => 0) exUnwF64 =
    .ok [⟨0, [⟨1 - 2 ^ (-53 : ℤ)⟩], []⟩] := by
  decide +kernel

theorem exUnwF64_range : UnweightF64 ⟨49⟩ exUnwF64 := by
  refine ⟨?_, by decide, by norm_num, by norm_num, ?_, ?_⟩
  · intro e he
    rw [exUnwF64, List.mem_singleton] at he
    subst he
    exact Or.inr (zpow_le_one_of_nonpos₀ (by norm_num) (by norm_num))
  · show (2 : ℚ) ^ (-200 : ℤ) ≤ 1 + 0
    norm_num
  · show (1 + 0 : ℚ) ≤ 2 ^ (200 : ℤ)
    norm_num

example := C91_sequential exUnwF64_range (fun _ => le_rfl) exUnwF64_run (by simp)

end Cres

import Verif.Model.ExampleFormat
import Verif.Model.Rounding
import Mathlib.Data.Nat.Prime.Basic
import Mathlib.Data.List.Induction
import Mathlib.Algebra.IsPrimePow
import Mathlib.Tactic.Ring
import Mathlib.Tactic.Linarith

/-!
Reading and writing `f64`. A decimal number is rounded to the nearest `f64` when reading it (`str::parse::<f64>`). All finite
`f64` are multiples of `2⁻¹⁰⁷⁴` and have a finite decimal expansion, which is written. The code writes fewer
digits (`to_string`), such that the result of rounding is still the same number. This shows that the assumptions in `FloatFormat`
can be met for all finite `f64`.
-/

namespace Cres

/-- The last `k` digits of a number. -/
def lastDigits : Nat → Nat → Bytes
  | 0, _ => []
  | k + 1, n => lastDigits k (n / 10) ++ [48 + (n % 10).toUInt8]

theorem lastDigits_spec (k n : Nat) : (lastDigits k n).length = k ∧ (∀ b ∈ lastDigits k n, isDigit b) ∧
    digitsValue (lastDigits k n) = n % 10 ^ k := by
  induction k generalizing n with
  | zero => simp [lastDigits, digitsValue, Nat.mod_one]
  | succ k ih =>
    obtain ⟨h1, h2, h3⟩ := ih (n / 10)
    have hd := digit_ok (n % 10) (Nat.mod_lt _ (by omega))
    refine ⟨by simp [lastDigits, h1], fun b hb => ?_, ?_⟩
    · rcases List.mem_append.1 hb with hb | hb
      · exact h2 b hb
      · rw [List.mem_singleton] at hb
        rw [hb]
        exact hd.1
    · rw [lastDigits, digitsValue_snoc, h3, hd.2, Nat.pow_succ', Nat.mod_mul, Nat.add_comm]

theorem digitsValue_concat (a b : Bytes) : digitsValue (a ++ b) = digitsValue a * 10 ^ b.length + digitsValue b := by
  induction b using List.reverseRecOn with
  | nil => simp [digitsValue]
  | append_singleton b x ih =>
    rw [← List.append_assoc, digitsValue_snoc, digitsValue_snoc, ih, List.length_append, List.length_singleton, Nat.pow_succ]
    ring

theorem decValue_decimal (neg : Bool) (d f : Bytes) (hne : d ≠ []) (hd : ∀ b ∈ d, isDigit b) (hf : ∀ b ∈ f, isDigit b) :
    decValue ((if neg then [45] else []) ++ d ++ (if f = [] then [] else 46 :: f)) =
      (if neg then -1 else 1) * ((digitsValue (d ++ f) : ℚ) / 10 ^ f.length) := by
  by_cases h0 : f = []
  · subst h0
    simp only [if_true, List.append_nil, List.length_nil, pow_zero, div_one]
    rw [decValue_digits neg d hne hd]
    cases neg <;> simp
  · rw [if_neg h0]
    have hspan : (d ++ 46 :: f).span isDigit = (d, 46 :: f) := by
      rw [List.span_eq_takeWhile_dropWhile, List.takeWhile_append_of_pos (by simpa using hd),
        List.dropWhile_append_of_pos (by simpa using hd)]
      simp [isDigit]
    obtain ⟨x, d', rfl⟩ := List.exists_cons_of_ne_nil hne
    have hx : (x = 43 || x = 45) = false := by
      have := hd x (by simp)
      by_contra hc
      rw [Bool.not_eq_false] at hc
      rcases Bool.or_eq_true _ _ ▸ hc with hc | hc <;> · simp at hc; subst hc; simp [isDigit] at this
    cases neg with
    | false =>
      simp only [List.cons_append] at hspan
      simp only [Bool.false_eq_true, if_false, List.nil_append, List.cons_append, decValue, optSign, hx, hspan,
        span_isDigit_all _ hf]
      simp
    | true =>
      simp only [List.cons_append] at hspan
      simp only [if_true, List.cons_append, List.nil_append, decValue, optSign, decide_true, Bool.or_true, hspan,
        span_isDigit_all _ hf]
      simp

/-- The decimal expansion of a number whose denominator is a power of 2. -/
def dyadicDisplay (q : ℚ) : Bytes :=
  let k := q.den.log2
  let n := q.num.natAbs * 5 ^ k
  (if q.num < 0 then [45] else []) ++ decDigits (n / 10 ^ k + 1) (n / 10 ^ k) ++
    (if lastDigits k n = [] then [] else 46 :: lastDigits k n)

theorem dyadicDisplay_value (q : ℚ) (h : q.den ∣ 2 ^ 1074) : decValue (dyadicDisplay q) = q := by
  obtain ⟨k, -, hk⟩ := (Nat.dvd_prime_pow Nat.prime_two).1 h
  have hlog : q.den.log2 = k := by rw [hk]; exact Nat.log2_two_pow
  unfold dyadicDisplay
  simp only [hlog]
  obtain ⟨h1, h2, h3⟩ := decDigits_spec (q.num.natAbs * 5 ^ k / 10 ^ k + 1) (q.num.natAbs * 5 ^ k / 10 ^ k) (by omega)
  obtain ⟨h4, h5, h6⟩ := lastDigits_spec k (q.num.natAbs * 5 ^ k)
  have := decValue_decimal (decide (q.num < 0)) _ _ h1 h2 h5
  simp only [decide_eq_true_eq] at this
  rw [this, digitsValue_concat, h3, h4, h6, Nat.div_add_mod']
  have hq : (q.num : ℚ) / q.den = q := Rat.num_div_den q
  have h10 : (10 : ℚ) ^ k = 5 ^ k * 2 ^ k := by rw [← mul_pow]; norm_num
  have h5 : (5 : ℚ) ^ k ≠ 0 := by positivity
  have hden : (q.den : ℚ) = 2 ^ k := by rw [hk]; push_cast; rfl
  have habs : ((if q.num < 0 then -1 else 1 : ℚ)) * (q.num.natAbs : ℚ) = q.num := by
    split_ifs with hn
    · have : ((q.num.natAbs : ℤ) : ℚ) = ((-q.num : ℤ) : ℚ) := by congr 1; omega
      simp only [Int.cast_natCast, Int.cast_neg] at this
      rw [this]; ring
    · have : ((q.num.natAbs : ℤ) : ℚ) = (q.num : ℚ) := by congr 1; omega
      simp only [Int.cast_natCast] at this
      rw [this]; ring
  push_cast
  rw [h10, mul_comm ((5 : ℚ) ^ k), mul_div_mul_right _ _ h5, ← mul_div_assoc, habs, ← hden, hq]

/-- Reading and writing finite `f64`. Infinities and NaN are not part of it. -/
def f64Format : FloatFormat N64 where
  value t := ⟨fl64 (decValue t)⟩
  isNaN _ := false
  finite w := decide (w.val.den ∣ 2 ^ 1074) && decide (fl64 w.val = w.val) && decide (|w.val| ≤ (2 ^ 53 - 1) * 2 ^ 971)
  display w := dyadicDisplay w.val
  display_form w _ := by
    obtain ⟨h1, h2, _⟩ := decDigits_spec (w.val.num.natAbs * 5 ^ w.val.den.log2 / 10 ^ w.val.den.log2 + 1)
      (w.val.num.natAbs * 5 ^ w.val.den.log2 / 10 ^ w.val.den.log2) (by omega)
    exact ⟨decide (w.val.num < 0), _, _, h1, h2, (lastDigits_spec w.val.den.log2 (w.val.num.natAbs * 5 ^ w.val.den.log2)).2.1,
      by simp only [dyadicDisplay, decide_eq_true_eq]⟩
  value_display w h := by
    simp only [Bool.and_eq_true, decide_eq_true_eq] at h
    rw [dyadicDisplay_value _ h.1.1, h.1.2]
  finite_not_nan _ _ := rfl

end Cres

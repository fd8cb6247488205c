import Mathlib.Algebra.Order.Ring.Rat
import Mathlib.Tactic.FieldSimp
import Mathlib.Tactic.IntervalCases
import Mathlib.Data.List.TakeWhile
import Mathlib.Data.List.Basic
import Verif.Model.HepMC

/-!
Number formats for examples: rational numbers, of which only integers are written. They show that the assumptions in
`FloatFormat` can be met, and with them concrete records can be evaluated.
-/

namespace Cres

/-- Decimal digits. -/
def decDigits : Nat → Nat → Bytes
  | 0, _ => []
  | fuel + 1, n => if n < 10 then [48 + n.toUInt8] else decDigits fuel (n / 10) ++ [48 + (n % 10).toUInt8]

theorem digit_ok (k : Nat) (h : k < 10) : isDigit (48 + k.toUInt8) = true ∧ (48 + k.toUInt8).toNat - 48 = k := by
  interval_cases k <;> decide

theorem digitsValue_snoc (ds : Bytes) (d : UInt8) : digitsValue (ds ++ [d]) = 10 * digitsValue ds + (d.toNat - 48) := by
  simp [digitsValue, List.foldl_append]

theorem decDigits_spec (fuel n : Nat) (h : n < fuel) :
    decDigits fuel n ≠ [] ∧ (∀ b ∈ decDigits fuel n, isDigit b) ∧ digitsValue (decDigits fuel n) = n := by
  induction fuel generalizing n with
  | zero => omega
  | succ fuel ih =>
    unfold decDigits
    split
    · rename_i h10
      have := digit_ok n h10
      refine ⟨by simp, by simp only [List.mem_singleton]; rintro b rfl; exact this.1, ?_⟩
      have h2 := digitsValue_snoc [] (48 + n.toUInt8)
      rw [this.2] at h2
      simpa [digitsValue] using h2
    · have hd := digit_ok (n % 10) (Nat.mod_lt _ (by omega))
      obtain ⟨_, h2, h3⟩ := ih (n / 10) (by omega)
      refine ⟨by simp, ?_, ?_⟩
      · intro b hb
        rcases List.mem_append.1 hb with hb | hb
        · exact h2 b hb
        · rw [List.mem_singleton] at hb
          rw [hb]
          exact hd.1
      · rw [digitsValue_snoc, h3, hd.2]
        omega

/-- A decimal number with sign, fraction and exponent. -/
def decValue (t : Bytes) : ℚ :=
  let (s, r) := optSign t
  let (d, r) := r.span isDigit
  let (f, r) : Bytes × Bytes := match r with
    | 46 :: r => r.span isDigit
    | r => ([], r)
  let m : ℚ := (digitsValue (d ++ f) : ℚ) / 10 ^ f.length
  let m := if s = [45] then -m else m
  match r with
  | [] => m
  | _ :: r =>
    let (s, r) := optSign r
    if s = [45] then m / 10 ^ digitsValue r else m * 10 ^ digitsValue r

/-- An integer in decimal notation. -/
def decDisplay (q : ℚ) : Bytes := (if q.num < 0 then [45] else []) ++ decDigits (q.num.natAbs + 1) q.num.natAbs

theorem span_isDigit_all (d : Bytes) (h : ∀ b ∈ d, isDigit b) : d.span isDigit = (d, []) := by
  rw [List.span_eq_takeWhile_dropWhile]
  have h1 : d.takeWhile isDigit = d := List.takeWhile_eq_self_iff.2 (by simpa using h)
  have h2 : d.dropWhile isDigit = [] := List.dropWhile_eq_nil_iff.2 (by simpa using h)
  rw [h1, h2]

theorem decValue_digits (neg : Bool) (d : Bytes) (hne : d ≠ []) (h : ∀ b ∈ d, isDigit b) :
    decValue ((if neg then [45] else []) ++ d) = if neg then -(digitsValue d : ℚ) else digitsValue d := by
  obtain ⟨x, d', rfl⟩ := List.exists_cons_of_ne_nil hne
  have hx : (x = 43 || x = 45) = false := by
    have := h x (by simp)
    by_contra hc
    rw [Bool.not_eq_false] at hc
    rcases Bool.or_eq_true _ _ ▸ hc with hc | hc <;> · simp at hc; subst hc; simp [isDigit] at this
  cases neg with
  | false =>
    simp only [Bool.false_eq_true, if_false, List.nil_append, decValue, optSign, hx, span_isDigit_all _ h]
    simp
  | true =>
    simp only [if_true, List.cons_append, List.nil_append, decValue, optSign, decide_true, Bool.or_true,
      span_isDigit_all _ h]
    simp

theorem decDisplay_value (q : ℚ) (h : q.den = 1) : decValue (decDisplay q) = q := by
  obtain ⟨h1, h2, h3⟩ := decDigits_spec (q.num.natAbs + 1) q.num.natAbs (by omega)
  have := decValue_digits (decide (q.num < 0)) _ h1 h2
  rw [h3] at this
  have hq : (q.num : ℚ) = q := Rat.coe_int_num_of_den_eq_one h
  unfold decDisplay
  by_cases hn : q.num < 0
  · simp only [hn, decide_true, if_true] at this ⊢
    rw [this, ← hq]
    have : ((q.num.natAbs : ℤ) : ℚ) = ((-q.num : ℤ) : ℚ) := by congr 1; omega
    simp only [Int.cast_natCast, Int.cast_neg] at this
    simp [this]
  · simp only [hn, decide_false, if_false, Bool.false_eq_true] at this ⊢
    rw [this]
    have : ((q.num.natAbs : ℤ) : ℚ) = (q.num : ℚ) := by congr 1; omega
    simp only [Int.cast_natCast] at this
    rw [this, hq]

/-- Rational numbers, of which the integers are written. -/
def ratFormat : FloatFormat ℚ where
  value := decValue
  isNaN _ := false
  finite q := q.den = 1
  display := decDisplay
  display_form q _ := by
    obtain ⟨h1, h2, _⟩ := decDigits_spec (q.num.natAbs + 1) q.num.natAbs (by omega)
    exact ⟨decide (q.num < 0), _, [], h1, h2, by simp, by simp [decDisplay]⟩
  value_display q h := decDisplay_value q (by simpa using h)
  finite_not_nan _ _ := rfl

/-- Parsing with rational numbers. Momenta are represented by their energy. -/
def ratCtx (multi debug : Bool) (names : List Bytes) : ParseCtx ℚ ℚ where
  float := ratFormat
  multi := multi
  debug := debug
  names := names
  momentum e _ _ _ := e
  milli q := q / 1000

/-- As `ratFormat`, with `⊥` as NaN. -/
def nanFormat : FloatFormat (WithBot ℚ) where
  value t := if (tagNoCase (ascii "nan") t).isSome then ⊥ else (decValue t : WithBot ℚ)
  isNaN q := q = ⊥
  finite q := match q with
    | none => false
    | some q => q.den = 1
  display q := match q with
    | none => ascii "NaN"
    | some q => decDisplay q
  display_form q hq := by
    cases q with
    | bot => cases hq
    | coe q => exact ratFormat.display_form q hq
  value_display q hq := by
    cases q with
    | bot => cases hq
    | coe q =>
      obtain ⟨neg, d, f, h1, h2, _, h4⟩ := ratFormat.display_form q hq
      have h5 := ratFormat.value_display q hq
      have h6 : ¬ (tagNoCase (ascii "nan") (decDisplay q)).isSome = true := by
        change decDisplay q = _ at h4
        rw [h4]
        have hn : ascii "nan" = [110, 97, 110] := by decide
        obtain ⟨x, d', rfl⟩ := List.exists_cons_of_ne_nil h1
        have hx := h2 x (by simp)
        cases neg with
        | true => simp [hn, tagNoCase, eqNoCase]
        | false =>
          have : eqNoCase 110 x = false := by
            rw [← Bool.not_eq_true]
            simp only [eqNoCase, Bool.or_eq_true, decide_eq_true_eq]
            rintro (rfl | rfl) <;> simp [isDigit] at hx
          simp [hn, tagNoCase, this]
      change (if (tagNoCase (ascii "nan") (decDisplay q)).isSome then ⊥ else (decValue (decDisplay q) : WithBot ℚ)) = _
      rw [if_neg h6]
      exact congrArg _ h5
  finite_not_nan q hq := by
    cases q with
    | bot => cases hq
    | coe q => simp

/-- Parsing with rational numbers and NaN. -/
def nanCtx (multi debug : Bool) (names : List Bytes) : ParseCtx (WithBot ℚ) ℚ where
  float := nanFormat
  multi := multi
  debug := debug
  names := names
  momentum e _ _ _ := WithBot.unbotD 0 e
  milli q := q / 1000

end Cres

import Verif.Proofs.Event
import Verif.Proofs.HepMC
import Verif.Proofs.Stripper
import Verif.Spec.RecordText

/-!
The elementary parsers read the entries of the specification of event records.
-/

namespace Cres

open Spec

variable {K V α : Type*}

theorem isDigit_iff {b : UInt8} : isDigit b = true ↔ 48 ≤ b ∧ b ≤ 57 := by simp [isDigit]

theorem isBlank_iff {b : UInt8} : isBlank b = true ↔ b = 32 ∨ b = 9 := by simp [isBlank]

theorem digitsValue_append (a : Bytes) (d : UInt8) : digitsValue (a ++ [d]) = 10 * digitsValue a + (d.toNat - 48) := by
  simp [digitsValue, List.foldl_append]

theorem decimalValue_append (a : Bytes) (d : UInt8) : decimalValue (a ++ [d]) = 10 * decimalValue a + (d.toNat - 48) := by
  simp [decimalValue, Nat.ofDigits_cons]
  omega

/-- The value of digits. -/
theorem digitsValue_eq (ds : Bytes) : digitsValue ds = decimalValue ds := by
  induction ds using List.reverseRecOn with
  | nil => rfl
  | append_singleton a d ih => rw [digitsValue_append, decimalValue_append, ih]

/-- The text does not begin with a digit. -/
def NoDigit (s : Bytes) : Prop := ∀ b, s.head? = some b → isDigit b = false

theorem TailOk.noDigit {s : Bytes} (h : TailOk s) : NoDigit s := by
  intro b hb
  have := stopByte_of_ws (h b hb)
  exact this.digit

theorem parseU32_text {t r : Bytes} {n : Nat} (h : NatText t n) (hr : NoDigit r) : parseU32 (t ++ r) = some (r, n) := by
  obtain ⟨h1, h2, h3, h4⟩ := h
  rw [parseU32_eq_some]
  exact ⟨t, h2, fun b hb => isDigit_iff.2 (h1 b hb), hr, by rw [digitsValue_eq]; exact h3, h4, rfl⟩

theorem optSign_sign {sign s : Bytes} (h : Sign sign) (hs : ∀ b, s.head? = some b → (b = 43 || b = 45) = false) :
    optSign (sign ++ s) = (sign, s) := by
  rcases h with rfl | rfl | rfl
  · cases s with
    | nil => rfl
    | cons b s =>
      have := hs b rfl
      simp [optSign] at this ⊢
      simp [this]
  · simp [optSign]
  · simp [optSign]

theorem digits_head {ds r : Bytes} (h : Digits ds) (hne : ds ≠ []) :
    ∃ b, (ds ++ r).head? = some b ∧ isDigit b = true := by
  cases ds with
  | nil => exact absurd rfl hne
  | cons b ds => exact ⟨b, rfl, isDigit_iff.2 (h b (by simp))⟩

theorem digits_noSign {ds r : Bytes} (h : Digits ds) (hne : ds ≠ []) :
    ∀ b, (ds ++ r).head? = some b → (b = 43 || b = 45) = false := by
  intro b hb
  obtain ⟨b', hb', hd⟩ := digits_head (r := r) h hne
  rw [hb] at hb'
  simp at hb'
  subst hb'
  exact (isDigit_cases hd).1

theorem span_digits {ds r : Bytes} (h : Digits ds) (hr : NoDigit r) : (ds ++ r).span isDigit = (ds, r) :=
  span_append isDigit (fun b hb => isDigit_iff.2 (h b hb)) hr

theorem parseI32_text {t r : Bytes} {i : ℤ} (h : IntText t i) (hr : NoDigit r) : parseI32 (t ++ r) = some (r, i) := by
  obtain ⟨sign, ds, rfl, h1, h2, h3, h4, h5, h6⟩ := h
  unfold parseI32
  rw [List.append_assoc, optSign_sign h1 (digits_noSign h2 h3)]
  simp only
  rw [span_digits h2 hr]
  cases ds with
  | nil => exact absurd rfl h3
  | cons d ds =>
    simp only
    rw [digitsValue_eq, ← h4, if_pos ⟨h5, h6⟩]

theorem digit_noWs {ds : Bytes} (h : Digits ds) : ∀ b ∈ ds, isAsciiWs b = false :=
  fun b hb => isDigit_not_ws (isDigit_iff.2 (h b hb))

theorem sign_noWs {s : Bytes} (h : Sign s) : ∀ b ∈ s, isAsciiWs b = false := by
  rcases h with rfl | rfl | rfl
  · simp
  · intro b hb; simp at hb; subst hb; decide
  · intro b hb; simp at hb; subst hb; decide

/-- The mantissa of a number. -/
theorem mantissa_decimal {d f r : Bytes} (hd : Digits d) (hf : Digits f) (hne : d ++ f ≠ []) (hr : NoDigit r) :
    mantissa (d ++ 46 :: (f ++ r)) = some (r, d ++ 46 :: f) := by
  unfold mantissa
  rw [span_digits hd (fun b hb => by simp at hb; subst hb; decide)]
  cases d with
  | nil =>
    simp only [List.nil_append] at hne ⊢
    rw [span_digits hf hr]
    cases f with
    | nil => exact absurd rfl hne
    | cons x f => rfl
  | cons x d =>
    simp only
    rw [span_digits hf hr]

theorem mantissa_integer {d r : Bytes} (hd : Digits d) (hne : d ≠ []) (hr : NoDigit r) (hp : ∀ b, r.head? = some b → b ≠ 46) :
    mantissa (d ++ r) = some (r, d) := by
  unfold mantissa
  rw [span_digits hd hr]
  cases d with
  | nil => exact absurd rfl hne
  | cons x d =>
    cases r with
    | nil => rfl
    | cons b r =>
      have := hp b rfl
      split
      · rename_i h
        simp at h
      · rename_i h
        simp only [Prod.mk.injEq, List.cons.injEq] at h
        exact absurd h.2.1 this
      · rename_i h
        obtain ⟨rfl, rfl⟩ := Prod.mk.inj h
        rfl

/-- The exponent of a number. -/
theorem exponent_text {c : UInt8} {es ds : Bytes} (hc : c = 101 ∨ c = 69) (hes : Sign es) (hds : Digits ds) (hne : ds ≠ []) :
    exponent (c :: es ++ ds) = some ([], c :: es ++ ds) := by
  have hc' : (c = 101 || c = 69) = true := by simpa using hc
  have h1 : optSign (es ++ ds) = (es, ds) := by
    apply optSign_sign hes
    have := digits_noSign (r := []) hds hne
    simpa using this
  have h2 : ds.span isDigit = (ds, []) := by
    have := span_digits (r := []) hds (fun b hb => by simp at hb)
    simpa using this
  rw [List.cons_append, exponent, if_pos hc', h1]
  simp only
  rw [h2]
  cases ds with
  | nil => exact absurd rfl hne
  | cons d ds => simp

/-- All of a decimal number is recognised. -/
theorem recognizeFloat_decimal {t : Bytes} (h : Decimal t) : recognizeFloat t = some ([], t) := by
  obtain ⟨sign, d, f, exp, h1, h2, h3, h4, h5, h6⟩ := h
  have hexp : exponent exp = some ([], exp) := by
    rcases h5 with rfl | ⟨c, es, ds, rfl, hc, hes, hds, hne⟩
    · rfl
    · exact exponent_text hc hes hds hne
  have hexp' : ∀ b, exp.head? = some b → b = 101 ∨ b = 69 := by
    rcases h5 with rfl | ⟨c, es, ds, rfl, hc, hes, hds, hne⟩
    · simp
    · intro b hb
      simp at hb
      subst hb
      exact hc
  have hnd : NoDigit exp := by
    intro b hb
    rcases hexp' b hb with rfl | rfl <;> decide
  have hnp : ∀ b, exp.head? = some b → b ≠ 46 := by
    intro b hb
    rcases hexp' b hb with rfl | rfl <;> decide
  rcases h6 with rfl | ⟨rfl, rfl⟩
  · have hs : optSign (sign ++ d ++ [46] ++ f ++ exp) = (sign, d ++ 46 :: (f ++ exp)) := by
      have e : sign ++ d ++ [46] ++ f ++ exp = sign ++ (d ++ 46 :: (f ++ exp)) := by simp
      rw [e]
      apply optSign_sign h1
      cases d with
      | nil => intro b hb; simp at hb; subst hb; decide
      | cons x d => exact digits_noSign h2 (by simp)
    unfold recognizeFloat
    rw [hs]
    simp only
    rw [mantissa_decimal h2 h3 h4 hnd]
    simp only
    rw [hexp]
    simp
  · have hd : d ≠ [] := by simpa using h4
    have hs : optSign (sign ++ d ++ exp) = (sign, d ++ exp) := by
      rw [List.append_assoc]
      exact optSign_sign h1 (digits_noSign h2 hd)
    unfold recognizeFloat
    rw [hs]
    simp only
    rw [mantissa_integer h2 hd hnd hnp]
    simp only
    rw [hexp]

theorem Spec.Decimal.word {t : Bytes} (h : Decimal t) : Word t :=
  ⟨(recognizeFloat_append (recognizeFloat_decimal h)).2, recognizeFloat_noWs (recognizeFloat_decimal h)⟩

theorem Spec.IntText.word {t : Bytes} {i : ℤ} (h : IntText t i) : Word t := by
  obtain ⟨sign, ds, rfl, h1, h2, h3, -⟩ := h
  refine ⟨by simp [h3], fun b hb => ?_⟩
  rcases List.mem_append.1 hb with hb | hb
  · exact sign_noWs h1 b hb
  · exact digit_noWs h2 b hb

theorem double_decimal (F : FloatFormat K) {t r : Bytes} (h : Decimal t) (hr : ∀ b, r.head? = some b → StopByte b) :
    F.double (t ++ r) = some (r, F.value t) := by
  have h1 : F.double t = some ([], F.value t) := by simp [FloatFormat.double, recognizeFloat_decimal h]
  cases r with
  | nil => simpa using h1
  | cons b r =>
    rw [double_stop F (hr b rfl), h1]
    simp

/-! ### Entries after blanks -/

theorem space1_blanks {bl r : Bytes} (h : Blanks bl) (hr : ∀ b, r.head? = some b → isBlank b = false) :
    space1 (bl ++ r) = some r :=
  space1_eq_some.2 ⟨bl, h.1, fun b hb => isBlank_iff.2 (h.2 b hb), hr, rfl⟩

theorem word_noBlank {w r : Bytes} (h : Word w) : ∀ b, (w ++ r).head? = some b → isBlank b = false := by
  intro b hb
  cases w with
  | nil => exact absurd rfl h.1
  | cons x w =>
    simp at hb
    subst hb
    by_contra hc
    have := isAsciiWs_of_isBlank (b := x) (by simpa using hc)
    rw [h.2 x (by simp)] at this
    simp at this

theorem anyEntry_word {bl w r : Bytes} (hb : Blanks bl) (hw : Word w) (hr : TailOk r) : anyEntry (bl ++ w ++ r) = some (r, w) :=
  anyEntry_eq_some.2 ⟨bl, hb.1, fun b h => isBlank_iff.2 (hb.2 b h), hw.1, hw.2, hr, rfl⟩

theorem u32Entry_text {bl t r : Bytes} {n : Nat} (hb : Blanks bl) (ht : NatText t n) (hr : NoDigit r) :
    u32Entry (bl ++ t ++ r) = some (r, n) :=
  u32Entry_eq_some.2 ⟨bl, t, hb.1, fun b h => isBlank_iff.2 (hb.2 b h), ht.2.1, fun b h => isDigit_iff.2 (ht.1 b h), hr,
    by rw [digitsValue_eq]; exact ht.2.2.1, ht.2.2.2, rfl⟩

theorem i32Entry_text {bl t r : Bytes} {i : ℤ} (hb : Blanks bl) (ht : IntText t i) (hr : NoDigit r) :
    i32Entry (bl ++ t ++ r) = some (r, i) := by
  unfold i32Entry
  rw [List.append_assoc, space1_blanks hb (word_noBlank ht.word)]
  exact parseI32_text ht hr

theorem doubleEntry_text (F : FloatFormat K) {bl t r : Bytes} (hb : Blanks bl) (ht : Decimal t) (hr : TailOk r) :
    F.doubleEntry (bl ++ t ++ r) = some (r, F.value t) := by
  unfold FloatFormat.doubleEntry
  rw [List.append_assoc, space1_blanks hb (word_noBlank ht.word)]
  exact double_decimal F ht (fun b h => stopByte_of_ws (hr b h))

/-! ### Several entries -/

theorem Spec.Fields.cons_inv {w : Bytes} {ws : List Bytes} {text : Bytes} (h : Fields (w :: ws) text) :
    ∃ bl text', text = bl ++ w ++ text' ∧ Blanks bl ∧ Word w ∧ Fields ws text' := by
  cases h with
  | cons h1 h2 h3 => exact ⟨_, _, rfl, h1, h2, h3⟩

theorem Spec.Fields.tailOk {ws : List Bytes} {text r : Bytes} (h : Fields ws text) (hr : TailOk r) : TailOk (text ++ r) := by
  cases h with
  | nil => simpa using hr
  | cons h1 h2 h3 =>
    rename_i bl w text ws
    apply StartsBlank.tailOk
    cases bl with
    | nil => exact absurd rfl h1.1
    | cons b bl => exact ⟨b, bl ++ w ++ text ++ r, by simp, isBlank_iff.2 (h1.2 b (by simp))⟩

theorem Spec.Fields.append_inv {ws ws' : List Bytes} : ∀ {text : Bytes}, Fields (ws ++ ws') text →
    ∃ a b, text = a ++ b ∧ Fields ws a ∧ Fields ws' b := by
  induction ws with
  | nil => intro text h; exact ⟨[], text, rfl, .nil, h⟩
  | cons w ws ih =>
    intro text h
    obtain ⟨bl, t, rfl, h1, h2, h3⟩ := Spec.Fields.cons_inv h
    obtain ⟨a, b, rfl, h4, h5⟩ := ih h3
    exact ⟨bl ++ w ++ a, b, by simp, .cons h1 h2 h4, h5⟩

theorem Spec.Fields.noNewline {ws : List Bytes} {text : Bytes} (h : Fields ws text) : (10 : UInt8) ∉ text := by
  induction h with
  | nil => simp
  | cons h1 h2 h3 ih =>
    simp only [List.mem_append, not_or]
    refine ⟨⟨fun hb => ?_, fun hb => ?_⟩, ih⟩
    · rcases h1.2 _ hb with h | h <;> simp at h
    · have := h2.2 _ hb
      simp [isAsciiWs] at this

theorem count_fields {ws : List Bytes} {text r : Bytes} (h : Fields ws text) (hr : TailOk r) :
    count anyEntry ws.length (text ++ r) = some (r, ws) := by
  induction h with
  | nil => rfl
  | cons h1 h2 h3 ih =>
    rename_i bl w text ws
    rw [List.length_cons, count, List.append_assoc (bl ++ w), anyEntry_word h1 h2 (h3.tailOk hr)]
    simp only
    rw [ih]

theorem count_decimals (F : FloatFormat K) {ws : List Bytes} {text r : Bytes} (h : Fields ws text) (hw : ∀ w ∈ ws, Decimal w)
    (hr : TailOk r) : count F.doubleEntry ws.length (text ++ r) = some (r, ws.map F.value) := by
  induction h with
  | nil => rfl
  | cons h1 h2 h3 ih =>
    rename_i bl w text ws
    rw [List.length_cons, count, List.append_assoc (bl ++ w), doubleEntry_text F h1 (hw w (by simp)) (h3.tailOk hr)]
    simp only
    rw [ih (fun w h => hw w (by simp [h]))]
    rfl

/-! ### Events -/

/-- What `build` returns for the given weights and particles. -/
theorem describes_build [LinearOrder V] (b : EventBuilder K V) : Describes b.weights b.outgoingByPid b.build := by
  refine ⟨rfl, compress_keys _, fun t => ?_, fun t v h => ?_⟩
  · have h := compress_types b.outgoingByPid t
    simp only [types, List.mem_toFinset, List.mem_map, Prod.exists, exists_and_right, exists_eq_right] at h
    exact h
  · have h1 := groupLookup_mem (compress_keys b.outgoingByPid) h
    rw [← h1]
    exact compress_lookup b.outgoingByPid t

end Cres

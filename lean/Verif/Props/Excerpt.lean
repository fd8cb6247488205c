import Verif.Model.Excerpt
import Verif.Spec.Excerpt
import Verif.Proofs.FileReader

/-!
Property C123: quoted beginnings of records in error messages.
-/

namespace Cres

open Spec

theorem charCount_append (a b : Bytes) : charCount (a ++ b) = charCount a + charCount b := by
  unfold charCount; exact List.countP_append

/-- `n` further bytes complete a character. -/
def Completes (n : Nat) (q : Utf8State) : Prop := ∀ s : Bytes, s.foldl Utf8State.step q = .start →
  ∃ c rest, s = c ++ rest ∧ c.length = n ∧ c.foldl Utf8State.step q = .start ∧ validUtf8 rest = true ∧ charCount c = 0

theorem completes_start : Completes 0 .start := fun s h => ⟨[], s, rfl, rfl, rfl, validUtf8_iff.2 h, rfl⟩

theorem completes_step {q q' : Utf8State} {n : Nat} (hq : q ≠ .start) (h' : Completes n q')
    (h : ∀ b, q.step b = q' ∧ 0x80 ≤ b ∧ b < 0xC0 ∨ q.step b = .bad) : Completes (n + 1) q := by
  intro s hs
  cases s with
  | nil => exact absurd hs hq
  | cons b s =>
    rw [List.foldl_cons] at hs
    rcases h b with ⟨h1, h2, h3⟩ | h1
    · rw [h1] at hs
      obtain ⟨c, rest, rfl, hl, hc, hr, h0⟩ := h' s hs
      refine ⟨b :: c, rest, rfl, by rw [List.length_cons, hl], by rw [List.foldl_cons, h1, hc], hr, ?_⟩
      unfold charCount at h0 ⊢
      rw [List.countP_cons_of_neg, h0]
      simp only [decide_eq_true_eq, not_or]
      exact ⟨UInt8.not_lt.2 h2, UInt8.not_le.2 h3⟩
    · rw [h1, utf8_bad] at hs
      cases hs

theorem completes_tail1 : Completes 1 .tail1 := by
  refine completes_step (by decide) completes_start fun b => ?_
  simp only [Utf8State.step]
  split_ifs with h
  · exact .inl ⟨rfl, h.1, h.2⟩
  · exact .inr rfl

theorem completes_tail2 : Completes 2 .tail2 := by
  refine completes_step (by decide) completes_tail1 fun b => ?_
  simp only [Utf8State.step]
  split_ifs with h
  · exact .inl ⟨rfl, h.1, h.2⟩
  · exact .inr rfl

theorem completes_tail3 : Completes 3 .tail3 := by
  refine completes_step (by decide) completes_tail2 fun b => ?_
  simp only [Utf8State.step]
  split_ifs with h
  · exact .inl ⟨rfl, h.1, h.2⟩
  · exact .inr rfl

theorem completes_afterE0 : Completes 2 .afterE0 := by
  refine completes_step (by decide) completes_tail1 fun b => ?_
  simp only [Utf8State.step]
  split_ifs with h
  · exact .inl ⟨rfl, UInt8.le_trans (by decide) h.1, h.2⟩
  · exact .inr rfl

theorem completes_afterED : Completes 2 .afterED := by
  refine completes_step (by decide) completes_tail1 fun b => ?_
  simp only [Utf8State.step]
  split_ifs with h
  · exact .inl ⟨rfl, h.1, UInt8.lt_trans h.2 (by decide)⟩
  · exact .inr rfl

theorem completes_afterF0 : Completes 3 .afterF0 := by
  refine completes_step (by decide) completes_tail2 fun b => ?_
  simp only [Utf8State.step]
  split_ifs with h
  · exact .inl ⟨rfl, UInt8.le_trans (by decide) h.1, h.2⟩
  · exact .inr rfl

theorem completes_afterF4 : Completes 3 .afterF4 := by
  refine completes_step (by decide) completes_tail2 fun b => ?_
  simp only [Utf8State.step]
  split_ifs with h
  · exact .inl ⟨rfl, h.1, UInt8.lt_trans h.2 (by decide)⟩
  · exact .inr rfl

/-- The states after the first byte of a character. -/
theorem first_byte : ∀ b : UInt8, Utf8State.start.step b = .bad ∨ (b < 0x80 ∨ 0xC0 ≤ b) ∧
    ((Utf8State.start.step b = .start ∧ charWidth b = 1) ∨ (Utf8State.start.step b = .tail1 ∧ charWidth b = 2) ∨
      (Utf8State.start.step b = .afterE0 ∧ charWidth b = 3) ∨ (Utf8State.start.step b = .afterED ∧ charWidth b = 3) ∨
      (Utf8State.start.step b = .tail2 ∧ charWidth b = 3) ∨ (Utf8State.start.step b = .afterF0 ∧ charWidth b = 4) ∨
      (Utf8State.start.step b = .tail3 ∧ charWidth b = 4) ∨ (Utf8State.start.step b = .afterF4 ∧ charWidth b = 4)) := by
  intro b
  have h : ∀ n : Fin 256, (fun b => Utf8State.start.step b = .bad ∨ (b < 0x80 ∨ 0xC0 ≤ b) ∧
    ((Utf8State.start.step b = .start ∧ charWidth b = 1) ∨ (Utf8State.start.step b = .tail1 ∧ charWidth b = 2) ∨
      (Utf8State.start.step b = .afterE0 ∧ charWidth b = 3) ∨ (Utf8State.start.step b = .afterED ∧ charWidth b = 3) ∨
      (Utf8State.start.step b = .tail2 ∧ charWidth b = 3) ∨ (Utf8State.start.step b = .afterF0 ∧ charWidth b = 4) ∨
      (Utf8State.start.step b = .tail3 ∧ charWidth b = 4) ∨ (Utf8State.start.step b = .afterF4 ∧ charWidth b = 4)))
      (UInt8.ofNat n.val) := by
    decide +kernel
  have := h ⟨b.toNat, b.toNat_lt⟩
  rwa [UInt8.ofNat_toNat] at this

/-- The first character of a valid text. -/
theorem first_char {b : UInt8} {s : Bytes} (h : validUtf8 (b :: s) = true) :
    ∃ c rest, b :: s = b :: c ++ rest ∧ (b :: c).length = charWidth b ∧ validUtf8 (b :: c) = true ∧ validUtf8 rest = true ∧
      charCount (b :: c) = 1 := by
  rw [validUtf8_iff, List.foldl_cons] at h
  have key : ∀ n q, Utf8State.start.step b = q → charWidth b = n + 1 → (b < 0x80 ∨ 0xC0 ≤ b) → Completes n q →
      ∃ c rest, b :: s = b :: c ++ rest ∧ (b :: c).length = charWidth b ∧ validUtf8 (b :: c) = true ∧ validUtf8 rest = true ∧
      charCount (b :: c) = 1 := by
    intro n q hq hn hb hc
    rw [hq] at h
    obtain ⟨c, rest, rfl, hl, h1, h2, h3⟩ := hc s h
    refine ⟨c, rest, rfl, by rw [List.length_cons, hl, hn], ?_, h2, ?_⟩
    · rw [validUtf8_iff, List.foldl_cons, hq, h1]
    · unfold charCount at h3 ⊢
      rw [List.countP_cons_of_pos, h3]
      simpa using hb
  rcases first_byte b with h0 | ⟨hb, h1 | h1 | h1 | h1 | h1 | h1 | h1 | h1⟩
  · rw [h0, utf8_bad] at h; cases h
  · exact key _ _ h1.1 h1.2 hb completes_start
  · exact key _ _ h1.1 h1.2 hb completes_tail1
  · exact key _ _ h1.1 h1.2 hb completes_afterE0
  · exact key _ _ h1.1 h1.2 hb completes_afterED
  · exact key _ _ h1.1 h1.2 hb completes_tail2
  · exact key _ _ h1.1 h1.2 hb completes_afterF0
  · exact key _ _ h1.1 h1.2 hb completes_tail3
  · exact key _ _ h1.1 h1.2 hb completes_afterF4

theorem charWidth_le (b : UInt8) : charWidth b ≤ 4 := by unfold charWidth; split_ifs <;> omega

theorem validUtf8_append {a b : Bytes} (ha : validUtf8 a = true) : validUtf8 (a ++ b) = validUtf8 b := by
  unfold validUtf8 at ha ⊢
  simp only [decide_eq_true_eq] at ha
  rw [List.foldl_append, ha]

theorem takeChars_spec : ∀ (n : Nat) (s : Bytes), validUtf8 s = true → IsExcerpt n s (takeChars n s) ∧ (takeChars n s).length ≤ 4 * n := by
  intro n
  induction n with
  | zero => intro s _; exact ⟨⟨List.nil_prefix, rfl, by simp [takeChars, charCount]⟩, by simp [takeChars]⟩
  | succ n ih =>
    intro s hs
    cases s with
    | nil => exact ⟨⟨List.nil_prefix, rfl, by simp [takeChars, charCount]⟩, by simp [takeChars]⟩
    | cons b s =>
      obtain ⟨c, rest, he, hl, hc, hr, h1⟩ := first_char hs
      obtain ⟨⟨i1, i2, i3⟩, i4⟩ := ih rest hr
      have ht : takeChars (n + 1) (b :: s) = b :: c ++ takeChars n rest := by
        rw [takeChars, he, ← hl, List.take_left, List.drop_left]
      rw [ht]
      refine ⟨⟨?_, ?_, ?_⟩, ?_⟩
      · rw [he]; exact (List.prefix_append_right_inj _).2 i1
      · rw [validUtf8_append hc, i2]
      · rw [he, charCount_append, charCount_append, i3, h1]; omega
      · rw [List.length_append, hl]
        have := charWidth_le b
        omega

/-- There is only one such beginning. -/
theorem excerpt_unique {n : Nat} {s e e' : Bytes} (h : IsExcerpt n s e) (h' : IsExcerpt n s e') : e = e' := by
  have key : ∀ {a b : Bytes}, a <+: b → validUtf8 a = true → validUtf8 b = true → charCount a = charCount b → a = b := by
    rintro a b ⟨t, rfl⟩ ha hb hc
    rw [validUtf8_append ha] at hb
    cases t with
    | nil => simp
    | cons x t =>
      obtain ⟨c, rest, he, -, -, -, h1⟩ := first_char hb
      rw [he, charCount_append, charCount_append, h1] at hc
      omega
  have hc : charCount e = charCount e' := h.count.trans h'.count.symm
  rcases List.prefix_or_prefix_of_prefix h.start h'.start with hp | hp
  · exact key hp h.valid h'.valid hc
  · exact (key hp h'.valid h.valid hc.symm).symm

/-- **C123**: errors about an invalid record quote its beginning. For each record, however long and in whichever language, the quoted
text is made of complete characters, the first 100, or all of them if there are fewer. It has at most 400 bytes. -/
theorem C123_excerpt (record : Bytes) (h : validUtf8 record = true) :
    IsExcerpt 100 record (excerpt record) ∧ (excerpt record).length ≤ 400 := takeChars_spec 100 record h

/-- **C123**: records of at most 100 characters are quoted completely. -/
theorem C123_short (record : Bytes) (h : validUtf8 record = true) (hc : charCount record ≤ 100) : excerpt record = record :=
  excerpt_unique (takeChars_spec 100 record h).1 ⟨List.prefix_rfl, h, (min_eq_right hc).symm⟩

/-- **C123**: text in ASCII is cut after 100 bytes. -/
theorem C123_ascii (record : Bytes) (h : ∀ b ∈ record, b < 0x80) : excerpt record = record.take 100 := by
  unfold excerpt
  generalize 100 = n
  induction n generalizing record with
  | zero => simp [takeChars]
  | succ n ih =>
    cases record with
    | nil => simp [takeChars]
    | cons b s =>
      have hb : charWidth b = 1 := if_pos (h b (by simp))
      unfold takeChars
      rw [hb, List.take_succ_cons, List.take_succ_cons]
      simp [ih s fun b hb => h b (by simp [hb])]

/-- Non-vacuity: `é` has two bytes, `€` three. Two characters of `aé€b`; cutting after two bytes would cut `é`. -/
example : validUtf8 [97, 0xC3, 0xA9, 0xE2, 0x82, 0xAC, 98] = true ∧ takeChars 2 [97, 0xC3, 0xA9, 0xE2, 0x82, 0xAC, 98] = [97, 0xC3, 0xA9] ∧
    charCount [97, 0xC3, 0xA9, 0xE2, 0x82, 0xAC, 98] = 4 ∧ validUtf8 ([97, 0xC3, 0xA9, 0xE2, 0x82, 0xAC, 98].take 2) = false := by
  decide

/-- A record with 150 times `é`: 100 characters with 200 bytes are quoted. -/
example : (excerpt (List.replicate 150 [0xC3, 0xA9]).flatten).length = 200 := by decide +kernel

end Cres

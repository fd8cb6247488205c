import Mathlib.Data.List.TakeWhile
import Mathlib.Data.List.TakeDrop
import Verif.Model.Parsing

/-!
Facts about the elementary parsers: what they accept, and that what they return does not depend on the text that follows
the entry.
-/

namespace Cres

variable {K α : Type*}

/-- The text is empty or starts with white space. -/
def TailOk (s : Bytes) : Prop := ∀ b, s.head? = some b → isAsciiWs b = true

/-- The text starts with space or tab. -/
def StartsBlank (s : Bytes) : Prop := ∃ b r, s = b :: r ∧ isBlank b = true

theorem StartsBlank.tailOk {s : Bytes} (h : StartsBlank s) : TailOk s := by
  obtain ⟨b, r, rfl, hb⟩ := h
  intro c hc
  simp at hc
  subst hc
  simp [isBlank] at hb
  rcases hb with rfl | rfl <;> decide

theorem isAsciiWs_of_isBlank {b : UInt8} (h : isBlank b = true) : isAsciiWs b = true := by
  simp [isBlank] at h
  rcases h with rfl | rfl <;> decide

theorem isDigit_not_ws {b : UInt8} (h : isDigit b = true) : isAsciiWs b = false := by
  by_contra hc
  have hc : isAsciiWs b = true := by simpa using hc
  simp only [isAsciiWs, Bool.or_eq_true, decide_eq_true_eq] at hc
  rcases hc with (((rfl | rfl) | rfl) | rfl) | rfl <;> simp [isDigit] at h

/-! ### Taking the longest prefix -/

theorem span_spec (p : UInt8 → Bool) (s : Bytes) :
    s = (s.span p).1 ++ (s.span p).2 ∧ (∀ b ∈ (s.span p).1, p b = true) ∧ (∀ b, (s.span p).2.head? = some b → p b = false) := by
  rw [List.span_eq_takeWhile_dropWhile]
  refine ⟨(List.takeWhile_append_dropWhile).symm, fun b hb => List.mem_takeWhile_imp hb, fun b hb => ?_⟩
  have h := List.head?_dropWhile_not p s
  simp only at hb
  rw [hb] at h
  simpa using h

theorem span_append (p : UInt8 → Bool) {t r : Bytes} (ht : ∀ b ∈ t, p b = true) (hr : ∀ b, r.head? = some b → p b = false) :
    (t ++ r).span p = (t, r) := by
  rw [List.span_eq_takeWhile_dropWhile]
  rw [List.takeWhile_append_of_pos ht, List.dropWhile_append_of_pos ht]
  cases r with
  | nil => simp
  | cons b r =>
    have := hr b rfl
    simp [this]

/-- A span stops at a byte that does not satisfy the condition, whatever follows. -/
theorem span_stop (p : UInt8 → Bool) {c : UInt8} (hc : p c = false) (s tail : Bytes) :
    (s ++ c :: tail).span p = ((s.span p).1, (s.span p).2 ++ c :: tail) := by
  obtain ⟨h1, h2, h3⟩ := span_spec p s
  conv_lhs => rw [h1, List.append_assoc]
  apply span_append p h2
  intro b hb
  cases h : (s.span p).2 with
  | nil => rw [h] at hb; simp at hb; exact hb ▸ hc
  | cons d r => rw [h] at hb; simp at hb; exact hb ▸ h3 d (by rw [h]; rfl)

theorem dropWhile_stop (p : UInt8 → Bool) {c : UInt8} (hc : p c = false) (s tail : Bytes) :
    (s ++ c :: tail).dropWhile p = s.dropWhile p ++ c :: tail := by
  have := span_stop p hc s tail
  rw [List.span_eq_takeWhile_dropWhile, List.span_eq_takeWhile_dropWhile] at this
  exact (Prod.mk.inj this).2

/-! ### Entries -/

theorem space1_eq_some {s r : Bytes} :
    space1 s = some r ↔ ∃ sp, sp ≠ [] ∧ (∀ b ∈ sp, isBlank b = true) ∧ (∀ b, r.head? = some b → isBlank b = false) ∧
      s = sp ++ r := by
  cases s with
  | nil =>
    simp only [space1, reduceCtorEq, false_iff]
    rintro ⟨sp, h1, -, -, h⟩
    simp at h
    exact h1 h.1
  | cons b s =>
    by_cases hb : isBlank b = true
    · simp only [space1, hb, if_true, Option.some.injEq]
      constructor
      · rintro rfl
        refine ⟨b :: s.takeWhile isBlank, by simp, ?_, ?_, by simp⟩
        · intro x hx
          rcases List.mem_cons.1 hx with rfl | hx
          · exact hb
          · exact List.mem_takeWhile_imp hx
        · intro x hx
          have h := List.head?_dropWhile_not isBlank s
          rw [hx] at h
          simpa using h
      · rintro ⟨sp, h1, h2, h3, h⟩
        cases sp with
        | nil => exact absurd rfl h1
        | cons b' sp =>
          simp only [List.cons_append, List.cons.injEq] at h
          obtain ⟨rfl, rfl⟩ := h
          have hsp := span_append isBlank (t := sp) (r := r) (fun x hx => h2 x (by simp [hx])) h3
          rw [List.span_eq_takeWhile_dropWhile] at hsp
          exact (Prod.mk.inj hsp).2
    · simp only [space1, hb, if_false, reduceCtorEq, false_iff]
      rintro ⟨sp, h1, h2, -, h⟩
      cases sp with
      | nil => exact absurd rfl h1
      | cons b' sp =>
        simp only [List.cons_append, List.cons.injEq] at h
        exact hb (h.1 ▸ h2 b' (by simp))

theorem startsBlank_of_space1 {s r : Bytes} (h : space1 s = some r) : StartsBlank s := by
  obtain ⟨sp, h1, h2, -, rfl⟩ := space1_eq_some.1 h
  cases sp with
  | nil => exact absurd rfl h1
  | cons b sp => exact ⟨b, sp ++ r, rfl, h2 b (by simp)⟩

theorem nonSpace_eq_some {s r t : Bytes} :
    nonSpace s = some (r, t) ↔ t ≠ [] ∧ (∀ b ∈ t, isAsciiWs b = false) ∧ TailOk r ∧ s = t ++ r := by
  unfold nonSpace
  constructor
  · intro h
    obtain ⟨h1, h2, h3⟩ := span_spec (fun b => !isAsciiWs b) s
    generalize s.span (fun b => !isAsciiWs b) = x at *
    obtain ⟨a, b⟩ := x
    cases a with
    | nil => simp at h
    | cons c a =>
      simp only [Option.some.injEq, Prod.mk.injEq] at h
      obtain ⟨rfl, rfl⟩ := h
      refine ⟨by simp, fun x hx => by simpa using h2 x hx, fun x hx => by simpa using h3 x hx, h1⟩
  · rintro ⟨h1, h2, h3, rfl⟩
    rw [span_append (fun b => !isAsciiWs b) (fun b hb => by simp [h2 b hb]) (fun b hb => by simp [h3 b hb])]
    cases t with
    | nil => exact absurd rfl h1
    | cons c t => rfl

/-- What `any_entry` accepts: blanks and a word. -/
theorem anyEntry_eq_some {s r t : Bytes} :
    anyEntry s = some (r, t) ↔ ∃ sp, sp ≠ [] ∧ (∀ b ∈ sp, isBlank b = true) ∧ t ≠ [] ∧ (∀ b ∈ t, isAsciiWs b = false) ∧
      TailOk r ∧ s = sp ++ t ++ r := by
  constructor
  · intro h
    unfold anyEntry at h
    cases hs : space1 s with
    | none => simp [hs] at h
    | some x =>
      simp only [hs] at h
      obtain ⟨sp, h1, h2, h3, rfl⟩ := space1_eq_some.1 hs
      obtain ⟨h4, h5, h6, rfl⟩ := nonSpace_eq_some.1 h
      exact ⟨sp, h1, h2, h4, h5, h6, by simp⟩
  · rintro ⟨sp, h1, h2, h3, h4, h5, rfl⟩
    have : space1 (sp ++ t ++ r) = some (t ++ r) := by
      refine space1_eq_some.2 ⟨sp, h1, h2, ?_, by simp⟩
      intro b hb
      cases t with
      | nil => exact absurd rfl h3
      | cons c t =>
        simp at hb
        subst hb
        have := h4 c (by simp)
        by_contra hc
        rw [isAsciiWs_of_isBlank (by simpa using hc)] at this
        simp at this
    simp only [anyEntry, this]
    exact nonSpace_eq_some.2 ⟨h3, h4, h5, rfl⟩

theorem parseU32_eq_some {s r : Bytes} {n : Nat} :
    parseU32 s = some (r, n) ↔ ∃ ds, ds ≠ [] ∧ (∀ b ∈ ds, isDigit b = true) ∧ (∀ b, r.head? = some b → isDigit b = false) ∧
      digitsValue ds = n ∧ n < 2 ^ 32 ∧ s = ds ++ r := by
  unfold parseU32
  constructor
  · intro h
    obtain ⟨h1, h2, h3⟩ := span_spec isDigit s
    generalize s.span isDigit = x at *
    obtain ⟨a, b⟩ := x
    cases a with
    | nil => simp at h
    | cons c a =>
      simp only at h
      split at h
      · next hlt =>
        simp only [Option.some.injEq, Prod.mk.injEq] at h
        obtain ⟨rfl, rfl⟩ := h
        exact ⟨_, by simp, h2, h3, rfl, hlt, h1⟩
      · simp at h
  · rintro ⟨ds, h1, h2, h3, rfl, h4, rfl⟩
    rw [span_append isDigit h2 h3]
    cases ds with
    | nil => exact absurd rfl h1
    | cons c t => simp only [h4, if_true]

theorem u32Entry_eq_some {s r : Bytes} {n : Nat} :
    u32Entry s = some (r, n) ↔ ∃ sp ds, sp ≠ [] ∧ (∀ b ∈ sp, isBlank b = true) ∧ ds ≠ [] ∧ (∀ b ∈ ds, isDigit b = true) ∧
      (∀ b, r.head? = some b → isDigit b = false) ∧ digitsValue ds = n ∧ n < 2 ^ 32 ∧ s = sp ++ ds ++ r := by
  constructor
  · intro h
    unfold u32Entry at h
    cases hs : space1 s with
    | none => simp [hs] at h
    | some x =>
      simp only [hs] at h
      obtain ⟨sp, h1, h2, h3, rfl⟩ := space1_eq_some.1 hs
      obtain ⟨ds, h4, h5, h6, h7, h8, rfl⟩ := parseU32_eq_some.1 h
      exact ⟨sp, ds, h1, h2, h4, h5, h6, h7, h8, by simp⟩
  · rintro ⟨sp, ds, h1, h2, h3, h4, h5, h6, h7, rfl⟩
    have : space1 (sp ++ ds ++ r) = some (ds ++ r) := by
      refine space1_eq_some.2 ⟨sp, h1, h2, ?_, by simp⟩
      intro b hb
      cases ds with
      | nil => exact absurd rfl h3
      | cons c t =>
        simp at hb
        subst hb
        have := isDigit_not_ws (h4 c (by simp))
        by_contra hc
        rw [isAsciiWs_of_isBlank (by simpa using hc)] at this
        simp at this
    simp only [u32Entry, this]
    exact parseU32_eq_some.2 ⟨ds, h3, h4, h5, h6, h7, rfl⟩

/-! ### Numbers -/

/-- A byte at which every part of reading a number stops. -/
structure StopByte (c : UInt8) : Prop where
  digit : isDigit c = false
  sign : (c = 43 || c = 45) = false
  point : c ≠ 46
  exp : (c = 101 || c = 69) = false
  letter : ∀ l ∈ ascii "nanifity", eqNoCase l c = false

instance (c : UInt8) : Decidable (StopByte c) :=
  decidable_of_iff (isDigit c = false ∧ (c = 43 || c = 45) = false ∧ c ≠ 46 ∧ (c = 101 || c = 69) = false ∧
    ∀ l ∈ ascii "nanifity", eqNoCase l c = false)
    ⟨fun ⟨a, b, d, e, f⟩ => ⟨a, b, d, e, f⟩, fun ⟨a, b, d, e, f⟩ => ⟨a, b, d, e, f⟩⟩

theorem stopByte_of_ws {c : UInt8} (h : isAsciiWs c = true) : StopByte c := by
  simp [isAsciiWs] at h
  rcases h with (((rfl | rfl) | rfl) | rfl) | rfl <;> decide

/-- What a parser does does not depend on what follows a byte at which it stops. -/
def StopsAt (c : UInt8) (p : Bytes → PResult α) : Prop :=
  ∀ s tail, p (s ++ c :: tail) = (p s).map (fun x => (x.1 ++ c :: tail, x.2))

theorem optSign_stop {c : UInt8} (h : StopByte c) (s tail : Bytes) :
    optSign (s ++ c :: tail) = ((optSign s).1, (optSign s).2 ++ c :: tail) := by
  cases s with
  | nil =>
    have := h.sign
    simp [optSign] at this ⊢
    simp [this]
  | cons b s =>
    by_cases hb : (b = 43 || b = 45) = true
    · simp only [List.cons_append, optSign, hb, if_true]
    · simp only [List.cons_append, optSign, hb]
      simp

theorem mantissa_stop {c : UInt8} (h : StopByte c) : StopsAt c mantissa := by
  intro s tail
  unfold mantissa
  rw [span_stop isDigit h.digit]
  obtain ⟨h1, h2, h3⟩ := span_spec isDigit s
  generalize hx : s.span isDigit = x at *
  obtain ⟨d, r⟩ := x
  simp only at h1 h2 h3 ⊢
  cases d with
  | nil =>
    cases s with
    | nil =>
      simp only [List.nil_append, Option.map_none]
      have hp := h.point
      split
      · next heq => simp at heq; exact absurd heq.1 hp
      · rfl
    | cons b s =>
      by_cases hb : b = 46
      · subst hb
        simp only [List.cons_append]
        rw [span_stop isDigit h.digit]
        generalize s.span isDigit = y
        obtain ⟨f, r'⟩ := y
        cases f <;> simp
      · simp only [List.cons_append]
        split
        · next heq => simp at heq; exact absurd heq.1 hb
        · next heq => 
          split
          · next heq' => simp at heq'; exact absurd heq'.1 hb
          · rfl
  | cons a d =>
    cases r with
    | nil =>
      have hp := h.point
      simp only [List.nil_append]
      split
      · next heq => simp at heq
      · next heq => simp at heq; exact absurd heq.2.1 hp
      · next heq => simp at heq; obtain ⟨rfl, rfl⟩ := heq; simp
    | cons b r =>
      by_cases hb : b = 46
      · subst hb
        simp only [List.cons_append]
        rw [span_stop isDigit h.digit]
        simp
      · simp only [List.cons_append]
        split
        · next heq => simp at heq
        · next heq => simp at heq; exact absurd heq.2.1 hb
        · next heq =>
          simp at heq
          obtain ⟨rfl, rfl⟩ := heq
          split
          · next heq => simp at heq
          · next heq => simp at heq; exact absurd heq.2.1 hb
          · next heq => simp at heq; obtain ⟨rfl, rfl⟩ := heq; simp

theorem exponent_stop {c : UInt8} (h : StopByte c) : StopsAt c exponent := by
  intro s tail
  cases s with
  | nil =>
    have := h.exp
    simp only [List.nil_append, exponent, this]
    simp
  | cons b s =>
    by_cases hb : (b = 101 || b = 69) = true
    · simp only [List.cons_append, exponent, hb, if_true]
      rw [optSign_stop h]
      simp only
      rw [span_stop isDigit h.digit]
      generalize (optSign s).2.span isDigit = y
      obtain ⟨ds, r⟩ := y
      cases ds <;> simp
    · simp only [List.cons_append, exponent, hb]
      simp

theorem tagNoCase_stop {c : UInt8} {t : Bytes} (h : ∀ l ∈ t, eqNoCase l c = false) : StopsAt c (tagNoCase t) := by
  induction t with
  | nil => intro s tail; simp [tagNoCase]
  | cons l t ih =>
    intro s tail
    cases s with
    | nil =>
      have := h l (by simp)
      simp [tagNoCase, this]
    | cons b s =>
      simp only [List.cons_append, tagNoCase]
      rw [ih (fun x hx => h x (by simp [hx]))]
      by_cases hb : eqNoCase l b = true
      · simp only [hb, if_true]
        cases tagNoCase t s <;> simp
      · simp [hb]

theorem recognizeFloat_stop {c : UInt8} (h : StopByte c) : StopsAt c recognizeFloat := by
  intro s tail
  unfold recognizeFloat
  rw [optSign_stop h]
  simp only
  rw [mantissa_stop h]
  cases mantissa (optSign s).2 with
  | some x =>
    obtain ⟨r, m⟩ := x
    simp only [Option.map_some]
    rw [exponent_stop h]
    cases exponent r with
    | none => simp
    | some y => obtain ⟨r', e⟩ := y; simp
  | none =>
    simp only [Option.map_none]
    rw [tagNoCase_stop (t := ascii "nan") (fun l hl => h.letter l (by revert hl; simp [ascii]; tauto)),
      tagNoCase_stop (t := ascii "infinity") (fun l hl => h.letter l (by revert hl; simp [ascii]; tauto)),
      tagNoCase_stop (t := ascii "inf") (fun l hl => h.letter l (by revert hl; simp [ascii]; tauto))]
    cases tagNoCase (ascii "nan") s with
    | some x => simp
    | none =>
      cases tagNoCase (ascii "infinity") s with
      | some x => simp
      | none => simp

theorem double_stop (F : FloatFormat K) {c : UInt8} (h : StopByte c) : StopsAt c F.double := by
  intro s tail
  unfold FloatFormat.double
  rw [recognizeFloat_stop h]
  cases recognizeFloat s with
  | none => rfl
  | some x => obtain ⟨r, t⟩ := x; rfl

/-! ### What is read as a number -/

theorem optSign_append (s : Bytes) : (optSign s).1 ++ (optSign s).2 = s := by
  cases s with
  | nil => rfl
  | cons b s => by_cases hb : (b = 43 || b = 45) = true <;> simp [optSign, hb]

theorem mantissa_append {s r m : Bytes} (h : mantissa s = some (r, m)) : s = m ++ r ∧ m ≠ [] := by
  unfold mantissa at h
  obtain ⟨h1, -, -⟩ := span_spec isDigit s
  generalize s.span isDigit = x at *
  obtain ⟨d, t⟩ := x
  simp only at h1
  split at h
  · split at h
    · next r' =>
      obtain ⟨h2, -, -⟩ := span_spec isDigit r'
      generalize r'.span isDigit = y at *
      obtain ⟨f, u⟩ := y
      cases f with
      | nil => simp at h
      | cons a f =>
        simp only [Option.some.injEq, Prod.mk.injEq] at h
        obtain ⟨rfl, rfl⟩ := h
        simp only at h2
        exact ⟨by rw [h2]; simp, by simp⟩
    · simp at h
  · next d' r' _ heq =>
    simp only [Prod.mk.injEq] at heq
    obtain ⟨rfl, rfl⟩ := heq
    simp only [Option.some.injEq, Prod.mk.injEq] at h
    obtain ⟨rfl, rfl⟩ := h
    obtain ⟨h2, -, -⟩ := span_spec isDigit r'
    refine ⟨?_, by simp⟩
    rw [h1]
    conv_lhs => rw [h2]
    simp
  · next d' r' hd _ heq =>
    simp only [Prod.mk.injEq] at heq
    obtain ⟨rfl, rfl⟩ := heq
    simp only [Option.some.injEq, Prod.mk.injEq] at h
    obtain ⟨rfl, rfl⟩ := h
    exact ⟨h1, hd⟩

theorem exponent_append {s r e : Bytes} (h : exponent s = some (r, e)) : s = e ++ r := by
  cases s with
  | nil =>
    simp [exponent] at h
    simp [h.1, h.2]
  | cons b s =>
    by_cases hb : (b = 101 || b = 69) = true
    · simp only [exponent, hb, if_true] at h
      have h0 := optSign_append s
      obtain ⟨h1, -, -⟩ := span_spec isDigit (optSign s).2
      generalize (optSign s).2.span isDigit = y at *
      obtain ⟨ds, u⟩ := y
      cases ds with
      | nil => simp at h
      | cons a ds =>
        simp only [Option.some.injEq, Prod.mk.injEq] at h
        obtain ⟨rfl, rfl⟩ := h
        simp only at h1
        conv_lhs => rw [← h0, h1]
        simp
    · simp only [exponent, hb] at h
      simp at h
      simp [← h.1, ← h.2]

theorem tagNoCase_append {t : Bytes} : ∀ {s r m : Bytes}, tagNoCase t s = some (r, m) → s = m ++ r ∧ m.length = t.length := by
  induction t with
  | nil => intro s r m h; simp [tagNoCase] at h; simp [← h.1, ← h.2]
  | cons l t ih =>
    intro s r m h
    cases s with
    | nil => simp [tagNoCase] at h
    | cons b s =>
      simp only [tagNoCase] at h
      split at h
      · cases ht : tagNoCase t s with
        | none => simp [ht] at h
        | some x =>
          obtain ⟨r', m'⟩ := x
          simp only [ht, Option.some.injEq, Prod.mk.injEq] at h
          obtain ⟨rfl, rfl⟩ := h
          obtain ⟨h1, h2⟩ := ih ht
          exact ⟨by rw [h1]; rfl, by simp [h2]⟩
      · simp at h

theorem recognizeFloat_append {s r t : Bytes} (h : recognizeFloat s = some (r, t)) : s = t ++ r ∧ t ≠ [] := by
  unfold recognizeFloat at h
  cases hm : mantissa (optSign s).2 with
  | some x =>
    obtain ⟨r1, m⟩ := x
    simp only [hm] at h
    cases he : exponent r1 with
    | none => simp [he] at h
    | some y =>
      obtain ⟨r2, e⟩ := y
      simp only [he, Option.some.injEq, Prod.mk.injEq] at h
      obtain ⟨rfl, rfl⟩ := h
      obtain ⟨h1, h2⟩ := mantissa_append hm
      have h3 := exponent_append he
      have h4 := optSign_append s
      refine ⟨?_, by simp [h2]⟩
      conv_lhs => rw [← h4, h1, h3]
      simp
  | none =>
    simp only [hm] at h
    have key : ∀ {t' : Bytes}, t' ≠ [] → tagNoCase t' s = some (r, t) → s = t ++ r ∧ t ≠ [] := by
      intro t' ht' hx
      obtain ⟨h1, h2⟩ := tagNoCase_append hx
      refine ⟨h1, fun h0 => ht' ?_⟩
      rw [h0] at h2
      exact List.length_eq_zero_iff.1 h2.symm
    cases h1 : tagNoCase (ascii "nan") s with
    | some x => simp only [h1] at h; exact key (by decide) (h1.trans h)
    | none =>
      simp only [h1] at h
      cases h2 : tagNoCase (ascii "infinity") s with
      | some x => simp only [h2] at h; exact key (by decide) (h2.trans h)
      | none => simp only [h2] at h; exact key (by decide) h

/-- There is no white space in a number. -/
theorem recognizeFloat_noWs {s r t : Bytes} (h : recognizeFloat s = some (r, t)) : ∀ b ∈ t, isAsciiWs b = false := by
  intro c hc
  by_contra hw
  have hw : isAsciiWs c = true := by simpa using hw
  obtain ⟨a, b, rfl⟩ := List.append_of_mem hc
  obtain ⟨h1, -⟩ := recognizeFloat_append h
  have h2 : s = a ++ c :: (b ++ r) := by rw [h1]; simp
  rw [h2, recognizeFloat_stop (stopByte_of_ws hw)] at h
  cases hx : recognizeFloat a with
  | none => simp [hx] at h
  | some x =>
    simp only [hx, Option.map_some, Option.some.injEq, Prod.mk.injEq] at h
    have := congrArg List.length h.1
    simp at this
    omega

theorem recognizeFloat_tail {s tail : Bytes} (h : TailOk tail) :
    recognizeFloat (s ++ tail) = (recognizeFloat s).map (fun x => (x.1 ++ tail, x.2)) := by
  cases tail with
  | nil =>
    rw [List.append_nil]
    cases recognizeFloat s <;> simp
  | cons c tail => exact recognizeFloat_stop (stopByte_of_ws (h c rfl)) s tail

theorem double_tail (F : FloatFormat K) {s tail : Bytes} (h : TailOk tail) :
    F.double (s ++ tail) = (F.double s).map (fun x => (x.1 ++ tail, x.2)) := by
  unfold FloatFormat.double
  rw [recognizeFloat_tail h]
  cases recognizeFloat s with
  | none => rfl
  | some x => rfl

theorem double_append {F : FloatFormat K} {s r : Bytes} {w : K} (h : F.double s = some (r, w)) :
    ∃ t, s = t ++ r ∧ t ≠ [] ∧ (∀ b ∈ t, isAsciiWs b = false) ∧ w = F.value t := by
  unfold FloatFormat.double at h
  cases hx : recognizeFloat s with
  | none => simp [hx] at h
  | some x =>
    obtain ⟨r', t⟩ := x
    simp only [hx, Option.some.injEq, Prod.mk.injEq] at h
    obtain ⟨rfl, rfl⟩ := h
    obtain ⟨h1, h2⟩ := recognizeFloat_append hx
    exact ⟨t, h1, h2, recognizeFloat_noWs hx, rfl⟩

/-- The word at which a number is read: it contains the number, and reading the number from the word alone gives the
same. -/
theorem doubleEntry_eq_some {F : FloatFormat K} {s r : Bytes} {w : K} (h : F.doubleEntry s = some (r, w)) :
    ∃ sp tok junk after, sp ≠ [] ∧ (∀ b ∈ sp, isBlank b = true) ∧ tok ≠ [] ∧ (∀ b ∈ tok, isAsciiWs b = false) ∧
      TailOk after ∧ s = sp ++ tok ++ after ∧ r = junk ++ after ∧ F.double tok = some (junk, w) ∧
      (∀ b ∈ junk, isAsciiWs b = false) ∧ anyEntry s = some (after, tok) := by
  unfold FloatFormat.doubleEntry at h
  cases hs : space1 s with
  | none => simp [hs] at h
  | some x =>
    simp only [hs] at h
    obtain ⟨sp, h1, h2, h3, rfl⟩ := space1_eq_some.1 hs
    obtain ⟨t, h4, h5, h6, h7⟩ := double_append h
    -- the word
    obtain ⟨g1, g2, g3⟩ := span_spec (fun b => !isAsciiWs b) r
    generalize r.span (fun b => !isAsciiWs b) = y at *
    obtain ⟨junk, after⟩ := y
    simp only at g1 g2 g3
    have gt : TailOk after := fun b hb => by simpa using g3 b hb
    have gw : ∀ b ∈ t ++ junk, isAsciiWs b = false := by
      intro b hb
      rcases List.mem_append.1 hb with hb | hb
      · exact h6 b hb
      · simpa using g2 b hb
    refine ⟨sp, t ++ junk, junk, after, h1, h2, by simp [h5], gw, gt, by rw [h4, g1]; simp, g1, ?_, ?_, ?_⟩
    · have hx : x = (t ++ junk) ++ after := by rw [h4, g1]; simp
      rw [hx, double_tail F gt] at h
      cases hd : F.double (t ++ junk) with
      | none => simp [hd] at h
      | some z =>
        obtain ⟨z1, z2⟩ := z
        simp only [hd, Option.map_some, Option.some.injEq, Prod.mk.injEq] at h
        rw [g1] at h
        rw [List.append_cancel_right h.1, h.2]
    · intro b hb
      simpa using g2 b hb
    · exact anyEntry_eq_some.2 ⟨sp, h1, h2, by simp [h5], gw, gt, by rw [h4, g1]; simp⟩

/-- Reading a number from a word after blanks. -/
theorem doubleEntry_word {F : FloatFormat K} {sp tok junk after : Bytes} {w : K} (h1 : sp ≠ [])
    (h2 : ∀ b ∈ sp, isBlank b = true) (h3 : ∀ b ∈ tok, isAsciiWs b = false) (h4 : TailOk after)
    (h5 : F.double tok = some (junk, w)) : F.doubleEntry (sp ++ tok ++ after) = some (junk ++ after, w) := by
  have hne : tok ≠ [] := by
    rintro rfl
    obtain ⟨t, ht, ht', -⟩ := double_append h5
    simp at ht
    exact ht' ht.1
  have : space1 (sp ++ tok ++ after) = some (tok ++ after) := by
    refine space1_eq_some.2 ⟨sp, h1, h2, ?_, by simp⟩
    intro b hb
    cases tok with
    | nil => exact absurd rfl hne
    | cons c t =>
      simp at hb
      subst hb
      have := h3 c (by simp)
      by_contra hc
      rw [isAsciiWs_of_isBlank (by simpa using hc)] at this
      simp at this
  simp only [FloatFormat.doubleEntry, this]
  rw [double_tail F h4, h5]
  rfl

/-! ### Numbers that were written -/

theorem isDigit_cases {b : UInt8} (h : isDigit b = true) : (b = 43 || b = 45) = false ∧ b ≠ 46 ∧ (b = 101 || b = 69) = false := by
  refine ⟨?_, ?_, ?_⟩
  · by_contra hc
    rw [Bool.not_eq_false] at hc
    simp only [Bool.or_eq_true, decide_eq_true_eq] at hc
    rcases hc with rfl | rfl <;> simp [isDigit] at h
  · rintro rfl
    simp [isDigit] at h
  · by_contra hc
    rw [Bool.not_eq_false] at hc
    simp only [Bool.or_eq_true, decide_eq_true_eq] at hc
    rcases hc with rfl | rfl <;> simp [isDigit] at h

theorem display_noWs (F : FloatFormat K) {w : K} (hw : F.finite w = true) : ∀ b ∈ F.display w, isAsciiWs b = false := by
  obtain ⟨neg, d, f, h1, h2, h3, h4⟩ := F.display_form w hw
  intro b hb
  rw [h4] at hb
  rcases List.mem_append.1 hb with hb | hb
  · rcases List.mem_append.1 hb with hb | hb
    · cases neg <;> simp at hb
      subst hb
      decide
    · exact isDigit_not_ws (h2 b hb)
  · split at hb
    · simp at hb
    · rcases List.mem_cons.1 hb with rfl | hb
      · decide
      · exact isDigit_not_ws (h3 b hb)

theorem recognizeFloat_display (F : FloatFormat K) {w : K} (hw : F.finite w = true) :
    recognizeFloat (F.display w) = some ([], F.display w) := by
  obtain ⟨neg, d, f, h1, h2, h3, h4⟩ := F.display_form w hw
  rw [h4]
  obtain ⟨d0, d', rfl⟩ := List.exists_cons_of_ne_nil h1
  have hd0 := isDigit_cases (h2 d0 (by simp))
  have hs : optSign ((if neg then [45] else []) ++ (d0 :: d') ++ (if f = [] then [] else 46 :: f)) =
      (if neg then [45] else [], (d0 :: d') ++ (if f = [] then [] else 46 :: f)) := by
    cases neg with
    | true => simp [optSign]
    | false =>
      have := hd0.1
      simp only [Bool.or_eq_false_iff, decide_eq_false_iff_not] at this
      simp [optSign, this]
  have hm : mantissa ((d0 :: d') ++ (if f = [] then [] else 46 :: f)) =
      some ([], (d0 :: d') ++ (if f = [] then [] else 46 :: f)) := by
    unfold mantissa
    rw [span_append isDigit h2 (by
      intro b hb
      split at hb
      · simp at hb
      · simp at hb; subst hb; decide)]
    by_cases hf : f = []
    · simp [hf]
    · simp only [hf, if_false]
      have := span_append isDigit (t := f) (r := []) h3 (by simp)
      rw [List.append_nil] at this
      rw [this]
  unfold recognizeFloat
  rw [hs]
  simp only [hm, exponent]
  simp

theorem double_display (F : FloatFormat K) {w : K} (hw : F.finite w = true) : F.double (F.display w) = some ([], w) := by
  simp only [FloatFormat.double, recognizeFloat_display F hw, F.value_display w hw]

theorem display_ne_nil (F : FloatFormat K) {w : K} (hw : F.finite w = true) : F.display w ≠ [] := by
  obtain ⟨neg, d, f, h1, h2, h3, h4⟩ := F.display_form w hw
  rw [h4]
  simp [h1]

theorem n64_finite {E : Type*} (F : FloatFormat K) (debug : Bool) {w : K} (hw : F.finite w = true) :
    F.n64 debug w = (.ok w : Outcome E K) := by
  simp [FloatFormat.n64, F.finite_not_nan w hw]

end Cres

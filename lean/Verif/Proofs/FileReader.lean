import Mathlib.Data.List.Infix
import Verif.Model.FileReader

/-!
Facts about the loops that read up to a marker.
-/

namespace Cres

theorem readUntil_append (d : UInt8) (s : Bytes) : (readUntil d s).1 ++ (readUntil d s).2 = s := by
  induction s with
  | nil => simp [readUntil]
  | cons b r ih => by_cases h : b = d <;> simp [readUntil, h, ih]

theorem readUntil_ne_nil {d : UInt8} {s : Bytes} (h : s ≠ []) : (readUntil d s).1 ≠ [] := by
  cases s with
  | nil => exact absurd rfl h
  | cons b r => by_cases hb : b = d <;> simp [readUntil, hb]

theorem readUntil_length_lt {d : UInt8} {s : Bytes} (h : s ≠ []) : (readUntil d s).2.length < s.length := by
  have h1 := congrArg List.length (readUntil_append d s)
  have h2 := List.length_pos_iff.2 (readUntil_ne_nil (d := d) h)
  rw [List.length_append] at h1
  omega

/-- The delimiter can only be the last byte that is read. -/
theorem readUntil_not_mem_dropLast (d : UInt8) (s : Bytes) : d ∉ (readUntil d s).1.dropLast := by
  induction s with
  | nil => simp [readUntil]
  | cons b r ih =>
    by_cases hb : b = d
    · simp [readUntil, hb]
    · simp only [readUntil, hb, if_false]
      cases h : (readUntil d r).1 with
      | nil => simp
      | cons c t =>
        rw [h] at ih
        simp only [List.dropLast_cons_cons, List.mem_cons, not_or]
        exact ⟨fun e => hb e.symm, ih⟩

/-- A loop that starts with `buf` and reads from `src` ended correctly: nothing is lost, and the buffer ends at the first
place at or after the start at which it ends with the marker; if there is no such place, everything was read. -/
structure ReadToSpec (marker buf src : Bytes) (l : ReadLoop) : Prop where
  append : l.buf ++ l.rest = buf ++ src
  pre : buf <+: l.buf
  found : l.eof = false → marker <:+ l.buf
  ended : l.eof = true → l.rest = [] ∧ ¬ marker <:+ l.buf
  first : ∀ p, buf <+: p → p <+: l.buf → p ≠ l.buf → ¬ marker <:+ p

theorem not_suffix_of_getLast {marker p : Bytes} {d : UInt8} (hm : marker.getLast? = some d) (hp : p.getLast? ≠ some d) :
    ¬ marker <:+ p := by
  rintro ⟨t, rfl⟩
  apply hp
  cases marker with
  | nil => simp at hm
  | cons a m => rw [List.getLast?_append_of_ne_nil _ (by simp)]; exact hm

/-- Inside what one `read_until` reads there is no end of a marker. -/
theorem no_marker_inside {d : UInt8} {marker : Bytes} (hm : marker.getLast? = some d) {buf src q : Bytes}
    (hq : q <+: (readUntil d src).1) (hqne : q ≠ (readUntil d src).1) (hq0 : q ≠ []) : ¬ marker <:+ buf ++ q := by
  have hqd : q <+: (readUntil d src).1.dropLast := by
    obtain ⟨u, hu⟩ := hq
    have hu0 : u ≠ [] := by
      rintro rfl
      exact hqne (by simpa using hu)
    refine ⟨u.dropLast, ?_⟩
    rw [← hu, List.dropLast_append_of_ne_nil hu0]
  refine not_suffix_of_getLast hm ?_
  rw [List.getLast?_append_of_ne_nil _ hq0]
  intro hlast
  exact readUntil_not_mem_dropLast d src (hqd.subset (List.mem_of_getLast? hlast))

theorem readLoop_spec {d : UInt8} {marker : Bytes} (hm : marker.getLast? = some d) {buf0 : Bytes} :
    ∀ (fuel : Nat) (buf src : Bytes), src.length < fuel → buf0 <+: buf →
      (∀ p, buf0 <+: p → p <+: buf → p ≠ buf → ¬ marker <:+ p) →
      ∀ l, readLoop d marker fuel buf src = l →
        l.buf ++ l.rest = buf ++ src ∧ buf <+: l.buf ∧ (l.eof = false → marker <:+ l.buf) ∧
        (l.eof = true → l.rest = [] ∧ ¬ marker <:+ l.buf) ∧
        (∀ p, buf0 <+: p → p <+: l.buf → p ≠ l.buf → ¬ marker <:+ p) := by
  intro fuel
  induction fuel with
  | zero => intro buf src h; omega
  | succ fuel ih =>
    intro buf src hlen hpre hfirst l hl
    rw [readLoop] at hl
    split at hl
    · next hs =>
      subst hl
      exact ⟨rfl, List.prefix_refl _, fun _ => hs, fun h => by simp at h, hfirst⟩
    · next hs =>
      split at hl
      · next hnil =>
        subst hl
        subst hnil
        exact ⟨rfl, List.prefix_refl _, fun h => by simp at h, fun _ => ⟨rfl, hs⟩, hfirst⟩
      · next hne =>
        have hlt := readUntil_length_lt (d := d) hne
        obtain ⟨h1, h2, h3, h4, h5⟩ := ih (buf ++ (readUntil d src).1) (readUntil d src).2 (by omega)
          (hpre.trans (List.prefix_append _ _)) (by
            intro p hp0 hp hpne hmp
            by_cases hb : p <+: buf
            · by_cases he : p = buf
              · exact hs (he ▸ hmp)
              · exact hfirst p hp0 hb he hmp
            · -- `p` ends inside the new part
              have hbp : buf <+: p := by
                rcases List.prefix_or_prefix_of_prefix hp (List.prefix_append buf (readUntil d src).1) with h | h
                · exact absurd h hb
                · exact h
              obtain ⟨q, rfl⟩ := hbp
              have hq : q <+: (readUntil d src).1 := (List.prefix_append_right_inj _).1 hp
              have hqne : q ≠ (readUntil d src).1 := fun e => hpne (by rw [e])
              have hq0 : q ≠ [] := by
                rintro rfl
                exact hb (by simp)
              exact no_marker_inside hm hq hqne hq0 hmp) l hl
        refine ⟨?_, (List.prefix_append _ _).trans h2, h3, h4, h5⟩
        rw [h1, List.append_assoc, readUntil_append]

theorem readTo_spec {d : UInt8} {marker : Bytes} (hm : marker.getLast? = some d) (buf src : Bytes) :
    ReadToSpec marker buf src (readTo d marker buf src) := by
  obtain ⟨h1, h2, h3, h4, h5⟩ := readLoop_spec hm (buf0 := buf) (src.length + 1) buf src (by omega)
    (List.prefix_refl _) (fun p h h' hne => absurd (h'.eq_of_length_le h.length_le) hne) _ rfl
  exact ⟨h1, h2, h3, h4, h5⟩

/-! ### Without self-overlap: where a marker occurs -/

/-- If a marker occurs in a string, some prefix of the string ends with it. -/
theorem exists_prefix_of_infix {m s : Bytes} (h : m <:+: s) : ∃ p, p <+: s ∧ m <:+ p := by
  obtain ⟨a, b, rfl⟩ := h
  exact ⟨a ++ m, List.prefix_append _ _, List.suffix_append _ _⟩

theorem infix_of_prefix_suffix {m p s : Bytes} (hp : p <+: s) (hm : m <:+ p) : m <:+: s :=
  hm.isInfix.trans hp.isInfix

/-- The loop without fixed start of the buffer: nothing before the end contains the marker. -/
theorem ReadToSpec.no_infix {marker src : Bytes} {l : ReadLoop} (h : ReadToSpec marker [] src l) (hne : l.buf ≠ []) :
    ¬ marker <:+: l.buf.dropLast := by
  intro hi
  obtain ⟨p, hp, hm⟩ := exists_prefix_of_infix hi
  refine h.first p (List.nil_prefix) (hp.trans (List.dropLast_prefix _)) ?_ hm
  rintro rfl
  have := hp.length_le
  rw [List.length_dropLast] at this
  have := List.length_pos_iff.2 hne
  omega

theorem ReadToSpec.eof_iff {marker src : Bytes} {l : ReadLoop} (h : ReadToSpec marker [] src l) :
    l.eof = true ↔ ¬ marker <:+: src := by
  constructor
  · intro he hi
    obtain ⟨hr, hn⟩ := h.ended he
    have ha := h.append
    rw [hr, List.append_nil, List.nil_append] at ha
    obtain ⟨p, hp, hmp⟩ := exists_prefix_of_infix hi
    by_cases hpe : p = l.buf
    · exact hn (hpe ▸ hmp)
    · exact h.first p List.nil_prefix (ha ▸ hp) hpe hmp
  · intro hi
    by_contra he
    have he : l.eof = false := by simpa using he
    have ha := h.append
    rw [List.nil_append] at ha
    exact hi (infix_of_prefix_suffix ⟨_, ha⟩ (h.found he))

/-! ### UTF-8 -/

theorem utf8_bad (s : Bytes) : s.foldl Utf8State.step .bad = .bad := by
  induction s with
  | nil => rfl
  | cons b s ih => simpa [Utf8State.step] using ih

/-- An ASCII byte inside a character makes a text invalid. -/
theorem utf8_ascii_step {b : UInt8} (hb : b < 0x80) (q : Utf8State) :
    q.step b = if q = .start then .start else .bad := by
  have h1 : ¬ (0x80 : UInt8) ≤ b := by simpa using hb
  have h2 : ¬ (0xA0 : UInt8) ≤ b := fun h => h1 (UInt8.le_trans (show (0x80 : UInt8) ≤ 0xA0 by decide) h)
  have h3 : ¬ (0x90 : UInt8) ≤ b := fun h => h1 (UInt8.le_trans (show (0x80 : UInt8) ≤ 0x90 by decide) h)
  cases q <;> simp [Utf8State.step, hb, h1, h2, h3]

theorem validUtf8_iff {s : Bytes} : validUtf8 s = true ↔ s.foldl Utf8State.step .start = .start := by
  simp [validUtf8]

/-- Valid text can be split before an ASCII byte. -/
theorem validUtf8_split {a s : Bytes} {b : UInt8} (hb : b < 0x80) :
    validUtf8 (a ++ b :: s) = true ↔ validUtf8 a = true ∧ validUtf8 (b :: s) = true := by
  rw [validUtf8_iff, validUtf8_iff, validUtf8_iff]
  simp only [List.foldl_append, List.foldl_cons]
  rw [utf8_ascii_step hb, utf8_ascii_step hb]
  by_cases h : a.foldl Utf8State.step .start = .start
  · simp [h]
  · simp [h, utf8_bad]

/-- Valid text can be split after an ASCII byte. -/
theorem validUtf8_split_after {a s : Bytes} {b : UInt8} (hb : b < 0x80) :
    validUtf8 (a ++ [b] ++ s) = true ↔ validUtf8 (a ++ [b]) = true ∧ validUtf8 s = true := by
  rw [validUtf8_iff, validUtf8_iff, validUtf8_iff]
  simp only [List.foldl_append, List.foldl_cons, List.foldl_nil]
  rw [utf8_ascii_step hb]
  by_cases h : a.foldl Utf8State.step .start = .start
  · simp [h]
  · simp [h, utf8_bad]

/-! ### HepMC2 -/

theorem markE_last : markE.getLast? = some 69 := by decide
theorem markInit_last : markInit.getLast? = some 62 := by decide
theorem markEvent_last : markEvent.getLast? = some 62 := by decide
theorem markSe_last : markSe.getLast? = some 101 := by decide

/-- What `readAll` means for one step. -/
theorem readAllLoop_succ (readRaw : Bytes → Option (Outcome ReadError Bytes) × Bytes) (fuel : Nat) (src : Bytes) :
    readAllLoop readRaw (fuel + 1) src =
      match readRaw src with
      | (none, _) => .ok []
      | (some (.ok r), rest) => (readAllLoop readRaw fuel rest).map (r :: ·)
      | (some (.err e), _) => .err e
      | (some .panic, _) => .panic := rfl

namespace HepMC

/-- Reading a record when there is something left: either everything is one record, or the record ends before the next
line starting with `E`. -/
theorem readRaw_cases (src : Bytes) (hne : src ≠ []) (hutf : validUtf8 (69 :: src) = true) :
    (readRaw src = (some (.ok (69 :: src)), []) ∧ ¬ markE <:+: 69 :: src) ∨
    ∃ r rest, readRaw src = (some (.ok r), rest) ∧ r ++ 69 :: rest = 69 :: src ∧ [69] <+: r ∧ ¬ markE <:+: r ∧
      r.getLast? = some 10 := by
  have hs := readTo_spec markE_last (ascii "E") src
  have hE : ascii "E" = [69] := by decide
  rw [hE] at hs
  unfold readRaw
  rw [hE]
  generalize readTo 69 markE [69] src = l at hs
  have hpre := hs.pre
  -- no marker inside
  have hno : ∀ p, p <+: l.buf → p ≠ l.buf → ¬ markE <:+ p := by
    intro p hp hpne hm
    refine hs.first p ?_ hp hpne hm
    rcases List.prefix_or_prefix_of_prefix hpre hp with h | h
    · exact h
    · have h1 := hm.length_le
      have h2 := h.length_le
      simp [markE, ascii] at h1
      simp at h2
      omega
  cases he : l.eof with
  | true =>
    left
    obtain ⟨hr, hn⟩ := hs.ended he
    have ha := hs.append
    rw [hr, List.append_nil] at ha
    have ha' : l.buf = 69 :: src := ha
    have hlen : l.buf.length > 1 := by
      rw [ha']
      have := List.length_pos_iff.2 hne
      simp
      omega
    constructor
    · simp [he, hr, utf8OrPanic, ha', hutf, hne]
    · intro hi
      obtain ⟨p, hp, hm⟩ := exists_prefix_of_infix hi
      rw [← ha'] at hp
      by_cases hpe : p = l.buf
      · exact hn (hpe ▸ hm)
      · exact hno p hp hpe hm
  | false =>
    right
    have hf := hs.found he
    obtain ⟨t, ht⟩ := hf
    have hbuf : l.buf = (t ++ [10]) ++ [69] := by rw [← ht]; simp [markE, ascii]
    have hdl : l.buf.dropLast = t ++ [10] := by rw [hbuf]; exact List.dropLast_concat
    have hcat : (t ++ [10]) ++ 69 :: l.rest = 69 :: src := by
      have := hs.append
      rw [hbuf] at this
      simpa using this
    refine ⟨t ++ [10], l.rest, ?_, hcat, ?_, ?_, by simp⟩
    · have hv : validUtf8 (t ++ [10]) = true := by
        rw [← hcat] at hutf
        exact ((validUtf8_split (by decide)).1 hutf).1
      simp [he, hdl, utf8OrPanic, hv]
    · have h1 : t ++ [10] <+: l.buf := by rw [hbuf]; exact List.prefix_append _ _
      rcases List.prefix_or_prefix_of_prefix hpre h1 with h | h
      · exact h
      · have := h.length_le
        simp at this
        subst this
        exact absurd (h.eq_of_length (by simp)) (by decide)
    · intro hi
      obtain ⟨p, hp, hm⟩ := exists_prefix_of_infix hi
      have hp' : p <+: l.buf := hp.trans (by rw [hbuf]; exact List.prefix_append _ _)
      refine hno p hp' ?_ hm
      rintro rfl
      have := hp.length_le
      rw [hbuf] at this
      simp at this

/-- All records together. -/
theorem readAll_ok : ∀ (fuel : Nat) (src : Bytes), src.length < fuel → src ≠ [] → validUtf8 (69 :: src) = true →
    ¬ markE <:+ 69 :: src →
    ∃ records, readAllLoop readRaw fuel src = .ok records ∧ records.flatten = 69 :: src ∧ records ≠ [] ∧
      (∀ r ∈ records, [69] <+: r ∧ ¬ markE <:+: r) ∧ (∀ r ∈ records.dropLast, r.getLast? = some 10) := by
  intro fuel
  induction fuel with
  | zero => intro src h; omega
  | succ fuel ih =>
    intro src hlen hne hutf hend
    rcases readRaw_cases src hne hutf with ⟨hr, hi⟩ | ⟨r, rest, hr, hcat, hp, hi, hl⟩
    · refine ⟨[69 :: src], ?_, by simp, by simp, ?_, by simp⟩
      · rw [readAllLoop_succ, hr]
        cases fuel with
        | zero =>
          have := List.length_pos_iff.2 hne
          omega
        | succ n =>
          have : readRaw [] = (none, []) := by decide
          simp [readAllLoop_succ, this]
      · intro r hr
        simp at hr
        subst hr
        exact ⟨⟨src, rfl⟩, hi⟩
    · have hlen' : rest.length < src.length := by
        have := congrArg List.length hcat
        have := hp.length_le
        simp at *
        omega
      have hsuf : 69 :: rest <:+ 69 :: src := ⟨r, hcat⟩
      have hrne : rest ≠ [] := by
        rintro rfl
        apply hend
        rw [← hcat]
        obtain ⟨t, rfl⟩ : ∃ t, r = t ++ [10] := by
          obtain ⟨h0, h1⟩ := List.getLast?_eq_some_iff.1 hl
          exact ⟨h0, h1⟩
        refine ⟨t, ?_⟩
        simp [markE, ascii]
      obtain ⟨recs, h1, h2, h3, h4, h5⟩ := ih rest (by omega) hrne
        (by rw [← hcat] at hutf; exact ((validUtf8_split (by decide)).1 hutf).2)
        (fun h => hend (h.trans hsuf))
      refine ⟨r :: recs, ?_, ?_, by simp, ?_, ?_⟩
      · rw [readAllLoop_succ, hr]
        simp [h1]
      · simp [h2, hcat]
      · intro x hx
        rcases List.mem_cons.1 hx with rfl | hx
        · exact ⟨hp, hi⟩
        · exact h4 x hx
      · intro x hx
        rw [List.dropLast_cons_of_ne_nil h3] at hx
        rcases List.mem_cons.1 hx with rfl | hx
        · exact hl
        · exact h5 x hx

/-- The header ends before the first line starting with `E` (not at the very start of the file). -/
theorem initSource_spec (file : Bytes) (h : markE <:+: file) :
    (initSource file).1 ++ 69 :: (initSource file).2 = file ∧ ¬ markE <:+: (initSource file).1 ∧
      (initSource file).1.getLast? = some 10 := by
  have hs := readTo_spec markE_last [] file
  unfold initSource
  generalize readTo 69 markE [] file = l at hs
  have he : l.eof = false := by
    by_contra hc
    exact hs.eof_iff.1 (by simpa using hc) h
  obtain ⟨t, ht⟩ := hs.found he
  have hbuf : l.buf = (t ++ [10]) ++ [69] := by rw [← ht]; simp [markE, ascii]
  have hdl : l.buf.dropLast = t ++ [10] := by rw [hbuf]; exact List.dropLast_concat
  refine ⟨?_, hs.no_infix (by rw [hbuf]; simp), by simp [hdl]⟩
  have := hs.append
  rw [hbuf] at this
  simpa [hdl] using this

end HepMC

namespace Lhef

/-- Reading a record: up to the next `</event>`, if there is one. -/
theorem readRaw_cases (src : Bytes) (hutf : validUtf8 src = true) :
    ((readRaw src).1 = none ∧ ¬ markEvent <:+: src) ∨
    ∃ r rest, readRaw src = (some (.ok r), rest) ∧ r ++ rest = src ∧ markEvent <:+ r ∧ ¬ markEvent <:+: r.dropLast := by
  have hs := readTo_spec markEvent_last [] src
  unfold readRaw
  generalize readTo 62 markEvent [] src = l at hs
  cases he : l.eof with
  | true => exact .inl ⟨by simp [he], hs.eof_iff.1 he⟩
  | false =>
    right
    have hf := hs.found he
    have hcat := hs.append
    rw [List.nil_append] at hcat
    obtain ⟨t, ht⟩ := hf
    have hbuf : l.buf = (t ++ ascii "</event") ++ [62] := by rw [← ht]; simp [markEvent, ascii]
    refine ⟨l.buf, l.rest, ?_, hcat, ⟨t, ht⟩, hs.no_infix (by rw [hbuf]; simp)⟩
    have hv : validUtf8 l.buf = true := by
      rw [← hcat, hbuf] at hutf
      rw [hbuf]
      exact ((validUtf8_split_after (by decide)).1 hutf).1
    simp [he, utf8OrPanic, hv]

theorem readAll_ok : ∀ (fuel : Nat) (src : Bytes), src.length < fuel → validUtf8 src = true →
    ∃ records remainder, readAllLoop readRaw fuel src = .ok records ∧ records.flatten ++ remainder = src ∧
      ¬ markEvent <:+: remainder ∧ (∀ r ∈ records, markEvent <:+ r ∧ ¬ markEvent <:+: r.dropLast) := by
  intro fuel
  induction fuel with
  | zero => intro src h; omega
  | succ fuel ih =>
    intro src hlen hutf
    rcases readRaw_cases src hutf with ⟨hr, hi⟩ | ⟨r, rest, hr, hcat, hm, hi⟩
    · refine ⟨[], src, ?_, by simp, hi, by simp⟩
      rw [readAllLoop_succ]
      generalize readRaw src = x at hr
      obtain ⟨a, b⟩ := x
      simp at hr
      subst hr
      rfl
    · have hmlen := hm.length_le
      have hl : rest.length < src.length := by
        have := congrArg List.length hcat
        simp [markEvent, ascii] at *
        omega
      have hv : validUtf8 rest = true := by
        obtain ⟨t, ht⟩ := hm
        have hb : r = (t ++ ascii "</event") ++ [62] := by rw [← ht]; simp [markEvent, ascii]
        rw [← hcat, hb] at hutf
        exact ((validUtf8_split_after (by decide)).1 hutf).2
      obtain ⟨recs, rem, h1, h2, h3, h4⟩ := ih rest (by omega) hv
      refine ⟨r :: recs, rem, ?_, ?_, h3, ?_⟩
      · rw [readAllLoop_succ, hr]
        simp [h1]
      · simp [← hcat, ← h2]
      · intro x hx
        rcases List.mem_cons.1 hx with rfl | hx
        · exact ⟨hm, hi⟩
        · exact h4 x hx

theorem initSource_append (file : Bytes) : (initSource file).1 ++ (initSource file).2 = file := by
  have hs := readTo_spec markInit_last [] file
  simpa [initSource] using hs.append

/-- The header ends with the first `</init>` at the beginning of a line, or is the whole file. -/
theorem initSource_spec (file : Bytes) :
    (markInit <:+: file → markInit <:+ (initSource file).1 ∧ ¬ markInit <:+: (initSource file).1.dropLast) ∧
    (¬ markInit <:+: file → initSource file = (file, [])) := by
  have hs := readTo_spec markInit_last [] file
  unfold initSource
  generalize readTo 62 markInit [] file = l at hs
  constructor
  · intro h
    have he : l.eof = false := by
      by_contra hc
      exact hs.eof_iff.1 (by simpa using hc) h
    have hf := hs.found he
    refine ⟨hf, hs.no_infix ?_⟩
    intro h0
    have := hf.length_le
    simp [h0, markInit, ascii] at this
  · intro h
    obtain ⟨hr, -⟩ := hs.ended (hs.eof_iff.2 h)
    have ha := hs.append
    rw [hr] at ha
    simp at ha
    simp [ha, hr]

end Lhef

namespace Stripper

/-- What the loop of `read_raw` removes from the buffer. -/
def trunc (l : ReadLoop) : ReadLoop := if l.eof then l else { l with buf := l.buf.take (l.buf.length - 3) }

theorem readRawLoop_eq : ∀ (fuel : Nat) (buf src : Bytes), src ≠ [] → src.length ≤ fuel →
    readRawLoop fuel buf src = trunc (readLoop 101 markSe fuel (buf ++ (readUntil 101 src).1) (readUntil 101 src).2) := by
  intro fuel
  induction fuel with
  | zero =>
    intro buf src hne h
    have := List.length_pos_iff.2 hne
    omega
  | succ fuel ih =>
    intro buf src hne hlen
    rw [readRawLoop, readLoop]
    have hlt := readUntil_length_lt (d := 101) hne
    simp only [hne, if_false]
    split
    · simp [trunc]
    · split
      · next h2 =>
        rw [h2]
        cases fuel <;> simp [readRawLoop, trunc]
      · next h2 => exact ih _ _ h2 (by omega)

/-- Reading a record when something is left. -/
theorem readRaw_cases (src : Bytes) (hne : src ≠ []) (hutf : validUtf8 (markSe ++ src) = true) :
    (readRaw src = (some (.ok (markSe ++ src)), []) ∧ ¬ markSe <:+: (markSe ++ src).tail) ∨
    ∃ r rest, readRaw src = (some (.ok r), rest) ∧ r ++ (markSe ++ rest) = markSe ++ src ∧ markSe <+: r ∧
      ¬ markSe <:+: r.tail := by
  obtain ⟨b, src', rfl⟩ := List.exists_cons_of_ne_nil hne
  have hloop := readRawLoop_eq ((b :: src').length + 1) markSe (b :: src') hne (by omega)
  obtain ⟨h1, h2, h3, h4, h5⟩ := readLoop_spec markSe_last (buf0 := markSe ++ [b]) ((b :: src').length + 1)
    (markSe ++ (readUntil 101 (b :: src')).1) (readUntil 101 (b :: src')).2
    (by have := readUntil_length_lt (d := 101) hne; omega)
    (by
      rw [List.prefix_append_right_inj]
      by_cases hb : b = 101 <;> simp [readUntil, hb])
    (by
      rintro p ⟨u, rfl⟩ hp hpne
      rw [List.append_assoc] at hp hpne ⊢
      refine no_marker_inside markSe_last ((List.prefix_append_right_inj _).1 hp) (fun e => hpne (by rw [e])) (by simp))
    _ rfl
  rw [List.append_assoc, readUntil_append] at h1
  generalize readLoop 101 markSe ((b :: src').length + 1) (markSe ++ (readUntil 101 (b :: src')).1)
    (readUntil 101 (b :: src')).2 = l at hloop h1 h2 h3 h4 h5
  have hpre : markSe ++ [b] <+: l.buf := by
    refine List.IsPrefix.trans ?_ h2
    rw [List.prefix_append_right_inj]
    by_cases hb : b = 101 <;> simp [readUntil, hb]
  -- a marker in the tail of a prefix of the buffer
  have hno : ∀ p, p <+: l.buf → p ≠ l.buf → 4 ≤ p.length → ¬ markSe <:+ p := by
    intro p hp hpne hlen
    refine h5 p ?_ hp hpne
    rcases List.prefix_or_prefix_of_prefix hpre hp with h | h
    · exact h
    · have hle := h.length_le
      have : (markSe ++ [b]).length = 4 := rfl
      rw [h.eq_of_length (by omega)]
  have htail : ∀ s : Bytes, s ≠ [] → markSe <:+: s.tail → ∃ p, p <+: s ∧ markSe <:+ p ∧ 4 ≤ p.length := by
    rintro s hs ⟨x, y, hxy⟩
    obtain ⟨c, s', rfl⟩ := List.exists_cons_of_ne_nil hs
    simp only [List.tail_cons] at hxy
    refine ⟨c :: (x ++ markSe), ⟨y, by simp [← hxy]⟩, ⟨c :: x, by simp⟩, ?_⟩
    have : markSe.length = 3 := rfl
    simp [this]
  unfold readRaw
  rw [hloop]
  cases he : l.eof with
  | true =>
    left
    obtain ⟨hr, hn⟩ := h4 he
    rw [hr, List.append_nil] at h1
    constructor
    · have : ¬ l.buf.length ≤ 3 := by
        rw [h1]
        simp [show markSe.length = 3 from rfl]
      simp only [trunc, he, if_true, this, decide_false, Bool.and_false, Bool.false_eq_true, if_false]
      rw [h1, hutf, hr]
      simp
    · intro hi
      obtain ⟨p, hp, hm, hl⟩ := htail _ (by simp [markSe, ascii]) hi
      rw [← h1] at hp
      by_cases hpe : p = l.buf
      · exact hn (hpe ▸ hm)
      · exact hno p hp hpe hl hm
  | false =>
    right
    obtain ⟨t, ht⟩ := h3 he
    have hbuf : l.buf = t ++ markSe := ht.symm
    have htake : l.buf.take (l.buf.length - 3) = t := by
      rw [hbuf]
      simp [show markSe.length = 3 from rfl]
    have hcat : t ++ (markSe ++ l.rest) = markSe ++ b :: src' := by
      rw [← h1, hbuf, List.append_assoc]
    have hpt : markSe <+: t := by
      have ha : markSe <+: l.buf := (List.prefix_append _ _).trans hpre
      have hb : t <+: l.buf := by rw [hbuf]; exact List.prefix_append _ _
      rcases List.prefix_or_prefix_of_prefix ha hb with h | h
      · exact h
      · -- the marker does not overlap with itself
        by_cases h3' : t.length = 3
        · rw [h.eq_of_length h3']
        exfalso
        have hle := hpre.length_le
        rw [hbuf] at hpre
        have h4' : (markSe ++ [b]).length = 4 := rfl
        have hsl : markSe.length = 3 := rfl
        have htl := h.length_le
        rw [hbuf, List.length_append] at hle
        obtain ⟨z, hz⟩ := hpre
        match t, h3', htl, hle, hz with
        | [], _, _, hle, _ => simp at hle; omega
        | [t0], _, _, _, hz =>
          simp only [markSe, show ascii "<se" = [60, 115, 101] by decide] at hz
          simp at hz
        | [t0, t1], _, _, _, hz =>
          simp only [markSe, show ascii "<se" = [60, 115, 101] by decide] at hz
          simp at hz
        | [t0, t1, t2], h3', _, _, _ => exact h3' rfl
        | t0 :: t1 :: t2 :: t3 :: t', _, htl, _, _ => simp [hsl] at htl
    have hv : validUtf8 t = true := by
      rw [← hcat] at hutf
      have : t ++ (markSe ++ l.rest) = t ++ 60 :: (ascii "se" ++ l.rest) := by simp [markSe, ascii]
      rw [this] at hutf
      exact ((validUtf8_split (by decide)).1 hutf).1
    refine ⟨t, l.rest, ?_, hcat, hpt, ?_⟩
    · simp only [trunc, he, Bool.false_eq_true, if_false, Bool.false_and]
      rw [htake, hv]
      simp
    · intro hi
      obtain ⟨p, hp, hm, hl⟩ := htail t (by rintro rfl; simp [markSe, ascii] at hpt) hi
      refine hno p (hp.trans (by rw [hbuf]; exact List.prefix_append _ _)) ?_ hl hm
      rintro rfl
      have := hp.length_le
      rw [hbuf, List.length_append, show markSe.length = 3 from rfl] at this
      omega

theorem readAll_ok : ∀ (fuel : Nat) (src : Bytes), src.length < fuel → src ≠ [] → validUtf8 (markSe ++ src) = true →
    ¬ markSe <:+ src →
    ∃ records, readAllLoop readRaw fuel src = .ok records ∧ records.flatten = markSe ++ src ∧ records ≠ [] ∧
      (∀ r ∈ records, markSe <+: r ∧ ¬ markSe <:+: r.tail) := by
  intro fuel
  induction fuel with
  | zero => intro src h; omega
  | succ fuel ih =>
    intro src hlen hne hutf hend
    rcases readRaw_cases src hne hutf with ⟨hr, hi⟩ | ⟨r, rest, hr, hcat, hp, hi⟩
    · refine ⟨[markSe ++ src], ?_, by simp, by simp, ?_⟩
      · rw [readAllLoop_succ, hr]
        cases fuel with
        | zero =>
          have := List.length_pos_iff.2 hne
          omega
        | succ n =>
          have : readRaw [] = (none, []) := by decide
          simp [readAllLoop_succ, this]
      · intro x hx
        simp only [List.mem_singleton] at hx
        subst hx
        exact ⟨List.prefix_append _ _, hi⟩
    · have hl3 : markSe.length = 3 := rfl
      obtain ⟨u, hu⟩ := hp
      have hsrc : src = u ++ (markSe ++ rest) := by
        rw [← hu, List.append_assoc] at hcat
        exact (List.append_cancel_left hcat).symm
      have hlen' : rest.length < src.length := by
        rw [hsrc, List.length_append, List.length_append, hl3]
        omega
      have hrne : rest ≠ [] := by
        rintro rfl
        apply hend
        rw [hsrc]
        simp
      obtain ⟨recs, h1, h2, h3, h4⟩ := ih rest (by omega) hrne
        (by
          rw [← hcat] at hutf
          have he : r ++ (markSe ++ rest) = r ++ 60 :: (ascii "se" ++ rest) := by simp [markSe, ascii]
          rw [he] at hutf
          exact ((validUtf8_split (by decide)).1 hutf).2)
        (fun h => hend (h.trans ⟨u ++ markSe, by rw [hsrc]; simp⟩))
      refine ⟨r :: recs, ?_, ?_, by simp, ?_⟩
      · rw [readAllLoop_succ, hr]
        simp [h1]
      · simp [h2, hcat]
      · intro x hx
        rcases List.mem_cons.1 hx with rfl | hx
        · exact ⟨⟨u, hu⟩, hi⟩
        · exact h4 x hx

theorem initSource_spec (debug : Bool) (file : Bytes) (h : markSe <:+: file) :
    ∃ header rest, initSource debug file = some (header, rest) ∧ header ++ (markSe ++ rest) = file ∧
      ¬ markSe <:+: (header ++ markSe).dropLast := by
  have hs := readTo_spec markSe_last [] file
  unfold initSource
  generalize readTo 101 markSe [] file = l at hs
  have he : l.eof = false := by
    by_contra hc
    exact hs.eof_iff.1 (by simpa using hc) h
  obtain ⟨t, ht⟩ := hs.found he
  have hbuf : l.buf = t ++ markSe := ht.symm
  have hl3 : markSe.length = 3 := rfl
  refine ⟨t, l.rest, ?_, ?_, ?_⟩
  · have h1 : ¬ l.buf.length < 3 := by rw [hbuf, List.length_append, hl3]; omega
    have h2 : l.buf.take (l.buf.length - 3) = t := by rw [hbuf, List.length_append, hl3]; simp
    simp only [h1, if_false, h2]
  · have := hs.append
    rw [hbuf] at this
    simpa using this
  · have := hs.no_infix (by rw [hbuf]; simp [markSe, ascii])
    rwa [hbuf] at this

end Stripper

end Cres

import Verif.Model.Lhef
import Verif.Proofs.HepMC

/-!
Facts about parsing and updating LHEF records.
-/

namespace Cres

variable {K V : Type*}

/-! ### Trimming -/

theorem trimStart_ws1 {b0 : UInt8} (h : isWs1 b0 = true) (s : Bytes) : trimStart (b0 :: s) = trimStart s := by
  match s with
  | [] => simp [trimStart, h]
  | [b1] => simp [trimStart, h]
  | b1 :: b2 :: r => rw [trimStart]; simp [h]

theorem trimStart_ws2 {b0 b1 : UInt8} (h0 : ¬ isWs1 b0 = true) (h : isWs2 b0 b1 = true) (s : Bytes) :
    trimStart (b0 :: b1 :: s) = trimStart s := by
  match s with
  | [] => simp [trimStart, h0, h]
  | b2 :: r => rw [trimStart]; simp [h0, h]

theorem trimStart_ws3 {b0 b1 b2 : UInt8} (h0 : ¬ isWs1 b0 = true) (h2 : ¬ isWs2 b0 b1 = true) (h : isWs3 b0 b1 b2 = true)
    (s : Bytes) : trimStart (b0 :: b1 :: b2 :: s) = trimStart s := by
  rw [trimStart]; simp [h0, h2, h]

/-- White space is removed at the beginning of the text only. -/
theorem trimStart_stable : ∀ (n : Nat) (s x body : Bytes), s.length ≤ n → trimStart s = x ++ 10 :: body →
    ∃ p, s = p ++ x ++ 10 :: body ∧ ∀ body', trimStart (p ++ x ++ 10 :: body') = x ++ 10 :: body' := by
  intro n
  induction n with
  | zero =>
    intro s x body hl h
    have : s = [] := List.eq_nil_of_length_eq_zero (by omega)
    subst this
    simp [trimStart] at h
  | succ n ih =>
    intro s x body hl h
    match s, hl, h with
    | [], _, h => simp [trimStart] at h
    | [b0], _, h =>
      by_cases h0 : isWs1 b0 = true
      · simp [trimStart, h0] at h
      · simp only [trimStart, h0] at h
        have hx : x = [] ∧ b0 = 10 := by
          cases x with
          | nil => simpa using (List.cons.inj h).1
          | cons a x => simp at h
        exact absurd (show isWs1 b0 = true by rw [hx.2]; decide) h0
    | [b0, b1], hl, h =>
      by_cases h0 : isWs1 b0 = true
      · rw [trimStart_ws1 h0] at h
        obtain ⟨p, h1, h2⟩ := ih _ x body (by simpa using hl) h
        exact ⟨b0 :: p, by rw [h1]; simp, fun body' => by
          simp only [List.cons_append]; rw [trimStart_ws1 h0]; exact h2 body'⟩
      · by_cases h2 : isWs2 b0 b1 = true
        · simp [trimStart, h0, h2] at h
        · simp only [trimStart, h0, h2] at h
          refine ⟨[], by simpa using h, fun body' => ?_⟩
          rw [List.nil_append]
          match x, h with
          | [], h =>
            simp only [Bool.false_eq_true, if_false, List.nil_append, List.cons.injEq] at h
            exact absurd (show isWs1 b0 = true by rw [h.1]; decide) h0
          | [a], h =>
            simp only [Bool.false_eq_true, if_false, List.cons_append, List.nil_append, List.cons.injEq] at h
            obtain ⟨rfl, rfl, -⟩ := h
            match body' with
            | [] => simp [trimStart, h0, isWs2]
            | b2 :: r =>
              have h3 : ¬ isWs3 b0 10 b2 = true := by simp [isWs3]
              simp only [List.cons_append, List.nil_append]
              rw [trimStart, if_neg h0, if_neg h2, if_neg h3]
          | a :: b :: x, h => simp at h
    | b0 :: b1 :: b2 :: r, hl, h =>
      by_cases h0 : isWs1 b0 = true
      · rw [trimStart_ws1 h0] at h
        obtain ⟨p, h1, h2⟩ := ih _ x body (by simpa using hl) h
        exact ⟨b0 :: p, by rw [h1]; simp, fun body' => by
          simp only [List.cons_append]; rw [trimStart_ws1 h0]; exact h2 body'⟩
      · by_cases h2 : isWs2 b0 b1 = true
        · rw [trimStart_ws2 h0 h2] at h
          obtain ⟨p, h1, h3⟩ := ih _ x body (by simp at hl ⊢; omega) h
          exact ⟨b0 :: b1 :: p, by rw [h1]; simp, fun body' => by
            simp only [List.cons_append]; rw [trimStart_ws2 h0 h2]; exact h3 body'⟩
        · by_cases h3 : isWs3 b0 b1 b2 = true
          · rw [trimStart_ws3 h0 h2 h3] at h
            obtain ⟨p, h1, h4⟩ := ih _ x body (by simp at hl ⊢; omega) h
            exact ⟨b0 :: b1 :: b2 :: p, by rw [h1]; simp, fun body' => by
              simp only [List.cons_append]; rw [trimStart_ws3 h0 h2 h3]; exact h4 body'⟩
          · rw [trimStart, if_neg h0, if_neg h2, if_neg h3] at h
            refine ⟨[], by simpa using h, fun body' => ?_⟩
            rw [List.nil_append]
            match x, h with
            | [], h =>
              simp only [List.nil_append, List.cons.injEq] at h
              exact absurd (show isWs1 b0 = true by rw [h.1]; decide) h0
            | [a], h =>
              simp only [List.cons_append, List.nil_append, List.cons.injEq] at h
              obtain ⟨rfl, rfl, -⟩ := h
              match body' with
              | [] => simp [trimStart, h0, isWs2]
              | c2 :: r' =>
                have h3 : ¬ isWs3 b0 10 c2 = true := by simp [isWs3]
                simp only [List.cons_append, List.nil_append]
                rw [trimStart, if_neg h0, if_neg h2, if_neg h3]
            | [a, b], h =>
              simp only [List.cons_append, List.nil_append, List.cons.injEq] at h
              obtain ⟨rfl, rfl, rfl, -⟩ := h
              simp only [List.cons_append, List.nil_append]
              rw [trimStart, if_neg h0, if_neg h2, if_neg h3]
            | a :: b :: d :: x, h =>
              simp only [List.cons_append, List.cons.injEq] at h
              obtain ⟨rfl, rfl, rfl, -⟩ := h
              simp only [List.cons_append]
              rw [trimStart, if_neg h0, if_neg h2, if_neg h3]

/-! ### Lines -/

theorem linesLoop_append {l : Bytes} (hl : (10 : UInt8) ∉ l) (acc s : Bytes) :
    linesLoop acc (l ++ s) = linesLoop (acc ++ l) s := by
  induction l generalizing acc with
  | nil => simp
  | cons b l ih =>
    simp only [List.mem_cons, not_or] at hl
    rw [List.cons_append, linesLoop, if_neg (Ne.symm hl.1), ih hl.2]
    simp

theorem linesLoop_drop (acc acc' s : Bytes) : (linesLoop acc s).drop 1 = (linesLoop acc' s).drop 1 := by
  induction s generalizing acc acc' with
  | nil =>
    simp only [linesLoop]
    split_ifs <;> simp
  | cons b s ih =>
    simp only [linesLoop]
    by_cases hb : b = 10
    · simp [hb]
    · rw [if_neg hb, if_neg hb]
      exact ih _ _

/-- The lines after the first one do not depend on the first one. -/
theorem lines_drop_append {l : Bytes} (hl : (10 : UInt8) ∉ l) (s : Bytes) :
    (lines (l ++ s)).drop 1 = (lines s).drop 1 := by
  unfold lines
  rw [linesLoop_append hl]
  exact linesLoop_drop _ _ _

namespace Lhef

open HepMC (Accepts n64_eq_ok orParseErr_eq_ok accepts_of_finite)

theorem parseParticles_ok (c : ParseCtx K V) : ∀ (ls : List Bytes) {b b' : EventBuilder K V},
    parseParticles c ls b = .ok b' → ∃ outs, ∀ b2 : EventBuilder K V,
      parseParticles c ls b2 = .ok ⟨b2.weights, b2.outgoingByPid ++ outs⟩ := by
  intro ls
  induction ls with
  | nil => intro b b' _; exact ⟨[], fun b2 => by simp [parseParticles]⟩
  | cons l ls ih =>
    intro b b' h
    simp only [parseParticles, Outcome.bind_eq_ok] at h
    obtain ⟨b1, h1, h2⟩ := h
    obtain ⟨outs2, h3⟩ := ih h2
    have key : ∃ outs1, ∀ b2 : EventBuilder K V, parseParticle c b2 l = .ok ⟨b2.weights, b2.outgoingByPid ++ outs1⟩ := by
      unfold parseParticle at h1
      simp only [Outcome.bind_eq_ok, orParseErr_eq_ok] at h1
      obtain ⟨⟨r1, x1⟩, k1, ⟨r2, x2⟩, k2, h9⟩ := h1
      simp only at k2 h9
      by_cases hst : x2 ≠ 1
      · refine ⟨[], fun b2 => ?_⟩
        unfold parseParticle
        simp only [k1, k2, orParseErr, Outcome.bind_ok, if_pos hst, List.append_nil]
      · rw [if_neg hst] at h9
        simp only [Outcome.bind_eq_ok, orParseErr_eq_ok, n64_eq_ok] at h9
        obtain ⟨⟨r3, x3⟩, k3, ⟨r4, x4⟩, k4, ⟨r5, x5⟩, k5, ⟨r6, x6⟩, k6, ⟨r7, x7⟩, k7, y1, ⟨a1, rfl⟩, y2, ⟨a2, rfl⟩,
          y3, ⟨a3, rfl⟩, y4, ⟨a4, rfl⟩, -⟩ := h9
        simp only at k4 k5 k6 k7 a1 a2 a3 a4
        refine ⟨[(x1, c.momentum y1 y2 y3 y4)], fun b2 => ?_⟩
        unfold parseParticle
        simp only [k1, k2, k3, k4, k5, k6, k7, orParseErr, hst, Outcome.bind_ok, if_false, Outcome.bind_eq_ok, n64_eq_ok]
        exact ⟨y1, ⟨a1, rfl⟩, y2, ⟨a2, rfl⟩, y3, ⟨a3, rfl⟩, y4, ⟨a4, rfl⟩, rfl⟩
    obtain ⟨outs1, h4⟩ := key
    refine ⟨outs1 ++ outs2, fun b2 => ?_⟩
    simp [parseParticles, h4, h3]

/-- The number of particles and the word that holds it. -/
theorem u32Entry0_word {s r : Bytes} {n : Nat} (h : u32Entry0 s = some (r, n)) :
    ∃ t, s = t ++ r ∧ (10 : UInt8) ∉ t ∧ ∀ r', StartsBlank r' → u32Entry0 (t ++ r') = some (r', n) ∧
      ∃ w, nonSpace (space0 (t ++ r')) = some (r', w) := by
  unfold u32Entry0 at h
  obtain ⟨ds, h1, h2, h3, h4, h5, h6⟩ := parseU32_eq_some.1 h
  obtain ⟨sp, hsp, hs⟩ : ∃ sp, (∀ b ∈ sp, isBlank b = true) ∧ s = sp ++ space0 s :=
    ⟨s.takeWhile isBlank, fun b hb => List.mem_takeWhile_imp hb, (List.takeWhile_append_dropWhile).symm⟩
  obtain ⟨d, ds, rfl⟩ := List.exists_cons_of_ne_nil h1
  have hd : isBlank d = false := by
    by_contra hc
    rw [Bool.not_eq_false] at hc
    have := isDigit_not_ws (h2 d (by simp))
    rw [isAsciiWs_of_isBlank hc] at this
    simp at this
  refine ⟨sp ++ (d :: ds), by rw [List.append_assoc, ← h6]; exact hs, ?_, fun r' hr' => ?_⟩
  · rw [List.mem_append]
    rintro (h | h)
    · exact not_newline_of_blank hsp h
    · exact not_newline_of_digits h2 h
  · have hs0 : space0 (sp ++ (d :: ds) ++ r') = (d :: ds) ++ r' := by
      unfold space0
      rw [List.append_assoc, List.dropWhile_append_of_pos hsp]
      simp [hd]
    constructor
    · unfold u32Entry0
      rw [hs0]
      exact parseU32_eq_some.2 ⟨d :: ds, h1, h2, hr'.not_digit, h4, h5, rfl⟩
    · rw [hs0]
      exact ⟨d :: ds, nonSpace_eq_some.2 ⟨h1, fun b hb => isDigit_not_ws (h2 b hb), hr'.tailOk, rfl⟩⟩

/-- A number does not start with `<`. -/
theorem double_head {F : FloatFormat K} {s r : Bytes} {w : K} (h : F.double s = some (r, w)) : s.head? ≠ some 60 := by
  intro hs
  cases s with
  | nil => simp at hs
  | cons b s =>
    simp only [List.head?_cons, Option.some.injEq] at hs
    subst hs
    have : recognizeFloat (60 :: s) = none := by
      have h1 : optSign (60 :: s) = ([], 60 :: s) := by simp [optSign]
      have h2 : (60 :: s).span isDigit = ([], 60 :: s) := by simp [List.span, List.span.loop, isDigit]
      have h3 : mantissa (60 :: s) = none := by
        unfold mantissa
        rw [h2]
        simp
      have h4 : tagNoCase (ascii "nan") (60 :: s) = none := by
        simp [show ascii "nan" = [110, 97, 110] by decide, tagNoCase, eqNoCase]
      have h5 : tagNoCase (ascii "infinity") (60 :: s) = none := by
        simp [show ascii "infinity" = [105, 110, 102, 105, 110, 105, 116, 121] by decide, tagNoCase, eqNoCase]
      have h6 : tagNoCase (ascii "inf") (60 :: s) = none := by
        simp [show ascii "inf" = [105, 110, 102] by decide, tagNoCase, eqNoCase]
      simp [recognizeFloat, h1, h3, h4, h5, h6]
    simp [FloatFormat.double, this] at h

/-- Updating the weight of a record. -/
theorem update_central_form [Zero K] [LinearOrder V] (c : ParseCtx K V) {record : Bytes}
    {ev : Event K V} {w : K} (hp : parse c record = .ok ev) (hw : c.float.finite w = true) :
    ∃ pre sep old post, record = pre ++ sep ++ old ++ post ∧
      sep ≠ [] ∧ (∀ b ∈ sep, isBlank b = true) ∧ old ≠ [] ∧ (∀ b ∈ old, isAsciiWs b = false) ∧ TailOk post ∧
      old.head? ≠ some 60 ∧ update c [w] record = .ok (pre ++ sep.take 1 ++ c.float.display w ++ post) ∧
      parse c (pre ++ sep.take 1 ++ c.float.display w ++ post) = .ok { ev with weights := [w] } := by
  unfold parse at hp
  cases ha : afterByte 10 (trimStart record) with
  | none => simp [ha] at hp
  | some body =>
    simp only [ha, Outcome.bind_eq_ok, orParseErr_eq_ok] at hp
    obtain ⟨⟨r1, np⟩, h1, h2⟩ := hp
    simp only at h2
    by_cases hnp : np < 2
    · rw [if_pos hnp] at h2
      simp at h2
    · rw [if_neg hnp] at h2
      simp only [Outcome.bind_eq_ok, orParseErr_eq_ok, n64_eq_ok] at h2
      obtain ⟨⟨r2, x2⟩, k2, ⟨r3, w0⟩, k3, y, ⟨a3, rfl⟩, b, k4, k5⟩ := h2
      simp only at k2 k3 a3 k4 k5
      simp only [Outcome.ok.injEq] at k5
      subst k5
      obtain ⟨x, hx, hxn⟩ := HepMC.afterByte_eq ha
      obtain ⟨p, hp1, hp2⟩ := trimStart_stable _ record x body le_rfl hx
      have hb1 := anyEntry_cuts.blank _ _ k2
      have hb2 := doubleEntry_blank _ _ _ k3
      obtain ⟨t1, e1, l1, g1⟩ := u32Entry0_word h1
      obtain ⟨t2, e2, l2, g2⟩ := anyEntry_cuts.cut _ _ _ k2 hb2
      obtain ⟨sp, tok, junk, after, s1, s2, s3, s4, s5, s6, s7, s8, s9, s10⟩ := doubleEntry_eq_some k3
      obtain ⟨s0, sp, rfl⟩ := List.exists_cons_of_ne_nil s1
      have hs0 := s2 s0 (by simp)
      have hnew := doubleEntry_word (F := c.float) (sp := [s0]) (by simp) (by simpa using hs0) (display_noWs c.float hw) s5
        (double_display c.float hw)
      rw [List.nil_append] at hnew
      simp only [List.cons_append, List.nil_append] at hnew
      -- the record up to the weight, with something else after it
      have sb2 : ∀ r', StartsBlank r' → StartsBlank (t2 ++ r') := by
        intro r' hr'
        cases t2 with
        | nil => exact hr'
        | cons z t2 =>
          obtain ⟨b, r, e, hb⟩ := hb1
          rw [e2] at e
          simp only [List.cons_append, List.cons.injEq] at e
          exact ⟨z, t2 ++ r', rfl, e.1 ▸ hb⟩
      have hhead : ∀ r', StartsBlank r' → afterByte 10 (trimStart (p ++ x ++ 10 :: (t1 ++ t2) ++ r')) =
          some (t1 ++ (t2 ++ r')) := by
        intro r' _
        have : p ++ x ++ 10 :: (t1 ++ t2) ++ r' = p ++ x ++ 10 :: (t1 ++ (t2 ++ r')) := by simp
        rw [this, hp2, HepMC.afterByte_append hxn]
        simp [afterByte]
      have hrec : record = p ++ x ++ 10 :: (t1 ++ t2) ++ r2 := by
        rw [hp1, e1, e2]
        simp
      refine ⟨p ++ x ++ 10 :: (t1 ++ t2), s0 :: sp, tok, after, by rw [hrec, s6]; simp, s1, s2, s3, s4, s5, double_head s8, ?_, ?_⟩
      · have hnw : nonWeightEntries record = .ok (some r2) := by
          unfold nonWeightEntries
          obtain ⟨wd, hwd⟩ := (g1 (t2 ++ r2) (sb2 r2 hb2)).2
          rw [hrec, hhead r2 hb2]
          simp only [hwd, g2 r2 hb2]
        have htk : record.take (record.length - r2.length) = p ++ x ++ 10 :: (t1 ++ t2) := by
          rw [hrec]
          apply List.take_left'
          simp only [List.length_append, Nat.add_sub_cancel]
        have htk1 : r2.take 1 = [s0] := by rw [s6]; simp
        simp only [update, hnw, Outcome.bind_ok, updateCentralWeight, s10, htk, htk1]
        simp
      · have hsb : StartsBlank (s0 :: (c.float.display w ++ after)) := ⟨s0, _, rfl, hs0⟩
        have hrw : p ++ x ++ 10 :: (t1 ++ t2) ++ (s0 :: sp).take 1 ++ c.float.display w ++ after =
            p ++ x ++ 10 :: (t1 ++ t2) ++ (s0 :: (c.float.display w ++ after)) := by simp
        rw [hrw]
        unfold parse
        rw [hhead _ hsb]
        simp only [(g1 _ (sb2 _ hsb)).1, g2 _ hsb, hnew, orParseErr, Outcome.bind_ok, if_neg hnp, n64_finite _ _ hw]
        have hj : (10 : UInt8) ∉ junk := not_newline_of_noWs s9
        rw [s7, lines_drop_append hj] at k4
        obtain ⟨outs, ho⟩ := parseParticles_ok c _ k4
        rw [ho] at k4 ⊢
        simp only [Outcome.ok.injEq] at k4
        subst k4
        simp only [Outcome.bind_ok, EventBuilder.build, Outcome.ok.injEq, Event.mk.injEq, true_and]
        cases hm : c.multi <;> simp [EventBuilder.new, EventBuilder.addWeight]

/-- Updating the weight of a record. -/
theorem update_central [Zero K] [LinearOrder V] (c : ParseCtx K V) {record : Bytes}
    {ev : Event K V} {w : K} (hp : parse c record = .ok ev) (hw : c.float.finite w = true) :
    ∃ pre sep old post, record = pre ++ sep ++ old ++ post ∧
      sep ≠ [] ∧ (∀ b ∈ sep, isBlank b = true) ∧ old ≠ [] ∧ (∀ b ∈ old, isAsciiWs b = false) ∧
      update c [w] record = .ok (pre ++ sep.take 1 ++ c.float.display w ++ post) ∧
      parse c (pre ++ sep.take 1 ++ c.float.display w ++ post) = .ok { ev with weights := [w] } := by
  obtain ⟨pre, sep, old, post, h1, h2, h3, h4, h5, -, -, h6, h7⟩ := update_central_form c hp hw
  exact ⟨pre, sep, old, post, h1, h2, h3, h4, h5, h6, h7⟩

end Lhef

end Cres

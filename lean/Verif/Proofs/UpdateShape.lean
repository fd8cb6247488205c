import Verif.Props.ClassifyReread
import Verif.Props.SplitUnique
import Verif.Props.Records
import Verif.Spec.Reread

/-!
What updating the weights leaves of the structure of a record.
-/

namespace Cres

open Spec

variable {K V : Type*}

/-! ### Lists -/

/-- A text without the bytes of the marker separates occurrences of the marker. -/
theorem infix_around {α : Type*} {m a y b : List α} (hm : ∀ c ∈ m, c ∉ y) (hy : y ≠ []) (h : m <:+: a ++ y ++ b) :
    m <:+: a ∨ m <:+: b := by
  have hy1 : ∀ {z}, z ≠ [] → z <:+: m → ¬ z <:+: y := by
    intro z hz hzm hzy
    obtain ⟨c, z, rfl⟩ := List.exists_cons_of_ne_nil hz
    exact hm c (hzm.subset (by simp)) (hzy.subset (by simp))
  rcases infix_append_cases h with h | h | ⟨m1, m2, rfl, h1, h2, h3, h4⟩
  · rcases infix_append_cases h with h | h | ⟨m1, m2, rfl, h1, h2, h3, h4⟩
    · exact Or.inl h
    · by_cases hmn : m = []
      · subst hmn; exact Or.inl (List.nil_infix)
      · exact absurd h (hy1 hmn (List.infix_refl m))
    · exact absurd h4.isInfix (hy1 h2 (List.suffix_append m1 m2).isInfix)
  · exact Or.inr h
  · exfalso
    -- the last byte of `a ++ y` is in `y`
    obtain ⟨c, hc⟩ : ∃ c, m1.getLast? = some c := by
      cases hl : m1.getLast? with
      | none => exact absurd (List.getLast?_eq_none_iff.1 hl) h1
      | some c => exact ⟨c, rfl⟩
    obtain ⟨s, hs⟩ := h3
    have h5 : (a ++ y).getLast? = some c := by rw [← hs, List.getLast?_append, hc]; rfl
    rw [List.getLast?_append_of_ne_nil _ hy] at h5
    exact hm c (List.mem_append_left _ (List.mem_of_getLast? hc)) (List.mem_of_getLast? h5)

/-- A text without the first byte of the marker can be removed from the beginning. -/
theorem infix_after {α : Type*} {x : α} {m a b : List α} (ha : x ∉ a) (h : x :: m <:+: a ++ b) : x :: m <:+: b := by
  rcases infix_append_cases h with h | h | ⟨m1, m2, h0, h1, h2, h3, h4⟩
  · exact absurd (h.subset (by simp)) ha
  · exact h
  · exfalso
    obtain ⟨c, m1, rfl⟩ := List.exists_cons_of_ne_nil h1
    simp only [List.cons_append, List.cons.injEq] at h0
    exact ha (h3.subset (by simp [h0.1]))

/-! ### Texts of numbers -/

theorem display_bytes (F : FloatFormat K) {w : K} (hw : F.finite w = true) :
    ∀ b ∈ F.display w, isDigit b = true ∨ b = 45 ∨ b = 46 := by
  obtain ⟨neg, d, f, -, h1, h2, h3⟩ := F.display_form w hw
  rw [h3]
  intro b hb
  simp only [List.mem_append] at hb
  rcases hb with (hb | hb) | hb
  · cases neg <;> simp at hb
    exact Or.inr (Or.inl hb)
  · exact Or.inl (h1 b hb)
  · split_ifs at hb
    · simp at hb
    · rcases List.mem_cons.1 hb with rfl | hb
      · simp
      · exact Or.inl (h2 b hb)

theorem display_notMem (F : FloatFormat K) {w : K} (hw : F.finite w = true) {c : UInt8} (h1 : isDigit c = false) (h2 : c ≠ 45)
    (h3 : c ≠ 46) : c ∉ F.display w := by
  intro h
  rcases display_bytes F hw c h with h | h | h
  · rw [h1] at h; cases h
  · exact h2 h
  · exact h3 h

theorem validUtf8_ascii {s : Bytes} (h : ∀ b ∈ s, b < 0x80) : validUtf8 s = true := by
  induction s with
  | nil => rfl
  | cons b s ih =>
    have : b :: s = [] ++ b :: s := rfl
    have h1 : validUtf8 [b] = true := by
      rw [validUtf8_iff]
      simp [Utf8State.step, h b (by simp)]
    rw [show b :: s = [b] ++ s from rfl, validUtf8_append h1]
    exact ih fun c hc => h c (by simp [hc])

theorem display_valid (F : FloatFormat K) {w : K} (hw : F.finite w = true) : validUtf8 (F.display w) = true := by
  apply validUtf8_ascii
  intro b hb
  rcases display_bytes F hw b hb with h | rfl | rfl
  · simp only [isDigit, Bool.and_eq_true, decide_eq_true_eq] at h
    have := h.2
    rw [UInt8.le_iff_toNat_le] at this
    rw [UInt8.lt_iff_toNat_lt]
    exact Nat.lt_of_le_of_lt this (by decide)
  · decide
  · decide

theorem ws_ascii {b : UInt8} (h : isAsciiWs b = true) : b < 0x80 := by
  simp only [isAsciiWs, Bool.or_eq_true, decide_eq_true_eq] at h
  rcases h with (((rfl | rfl) | rfl) | rfl) | rfl <;> decide

theorem blank_ascii {b : UInt8} (h : isBlank b = true) : b < 0x80 := ws_ascii (isAsciiWs_of_isBlank h)

/-- An entry with blanks in front: what is before and what is after it are texts. -/
theorem entry_valid {pre sep old post : Bytes} (h : validUtf8 (pre ++ sep ++ old ++ post) = true) (hs : sep ≠ [])
    (hb : ∀ b ∈ sep, isBlank b = true) (hp : TailOk post) : validUtf8 pre = true ∧ validUtf8 post = true := by
  obtain ⟨s0, sep, rfl⟩ := List.exists_cons_of_ne_nil hs
  have h0 := blank_ascii (hb s0 (by simp))
  constructor
  · have e : pre ++ s0 :: sep ++ old ++ post = pre ++ s0 :: (sep ++ old ++ post) := by simp
    rw [e, validUtf8_split h0] at h
    exact h.1
  · cases post with
    | nil => rfl
    | cons p post =>
      rw [validUtf8_split (ws_ascii (hp p rfl))] at h
      exact h.2

theorem replaced_valid (F : FloatFormat K) {w : K} (hw : F.finite w = true) {pre sep old post : Bytes}
    (h : validUtf8 (pre ++ sep ++ old ++ post) = true) (hs : sep ≠ []) (hb : ∀ b ∈ sep, isBlank b = true) (hp : TailOk post) :
    validUtf8 (pre ++ sep.take 1 ++ F.display w ++ post) = true := by
  obtain ⟨h1, h2⟩ := entry_valid h hs hb hp
  have h3 : validUtf8 (sep.take 1) = true := validUtf8_ascii fun b hb' => blank_ascii (hb b (List.mem_of_mem_take hb'))
  rw [List.append_assoc, List.append_assoc, validUtf8_append h1, validUtf8_append h3, validUtf8_append (display_valid F hw), h2]

/-! ### Words -/

theorem splitWsLoop_spec : ∀ (s acc : Bytes), validUtf8 (acc ++ s) = true → (∀ b ∈ acc, isAsciiWs b = false) →
    ∀ t ∈ splitWsLoop acc s, validUtf8 t = true ∧ ∀ b ∈ t, isAsciiWs b = false := by
  intro s
  induction s with
  | nil =>
    intro acc h1 h2 t ht
    simp only [splitWsLoop] at ht
    split_ifs at ht
    · simp at ht
    · simp only [List.mem_singleton] at ht
      subst ht
      exact ⟨by simpa using h1, h2⟩
  | cons b s ih =>
    intro acc h1 h2 t ht
    simp only [splitWsLoop] at ht
    by_cases hb : isAsciiWs b = true
    · have hv := (validUtf8_split (ws_ascii hb)).1 h1
      have hv2 : validUtf8 ([] ++ s) = true := by
        have h3 : validUtf8 [b] = true := validUtf8_ascii (by simpa using ws_ascii hb)
        have h4 := hv.2
        rw [show b :: s = [b] ++ s from rfl, validUtf8_append h3] at h4
        simpa using h4
      rw [if_pos hb] at ht
      split_ifs at ht
      · exact ih [] hv2 (by simp) t ht
      · rcases List.mem_cons.1 ht with rfl | ht
        · exact ⟨hv.1, h2⟩
        · exact ih [] hv2 (by simp) t ht
    · rw [if_neg hb] at ht
      refine ih (acc ++ [b]) (by simpa using h1) ?_ t ht
      intro x hx
      rcases List.mem_append.1 hx with hx | hx
      · exact h2 x hx
      · simp only [List.mem_singleton] at hx
        subst hx
        simpa using hb

theorem joinWith_spec {ts : List Bytes} (h : ∀ t ∈ ts, validUtf8 t = true ∧ (10 : UInt8) ∉ t) :
    validUtf8 (joinWith [32] ts) = true ∧ (10 : UInt8) ∉ joinWith [32] ts := by
  induction ts with
  | nil => simp [joinWith, validUtf8]
  | cons t ts ih =>
    have ht := h t (by simp)
    have ih := ih fun x hx => h x (by simp [hx])
    cases ts with
    | nil => simpa [joinWith] using ht
    | cons t2 ts =>
      simp only [joinWith] at ih ⊢
      have h32 : validUtf8 [32] = true := by decide
      constructor
      · rw [List.append_assoc, validUtf8_append ht.1, validUtf8_append h32]
        exact ih.1
      · simp only [List.mem_append, not_or]
        exact ⟨⟨ht.2, by decide⟩, ih.2⟩

theorem HepMC.replaceEntries_spec {F : FloatFormat K} : ∀ (l : List (Nat × K)) {ts ts' : List Bytes},
    (∀ x ∈ l, F.finite x.2 = true) → (∀ t ∈ ts, validUtf8 t = true ∧ (10 : UInt8) ∉ t) → replaceEntries F l ts = some ts' →
    ∀ t ∈ ts', validUtf8 t = true ∧ (10 : UInt8) ∉ t := by
  intro l
  induction l with
  | nil =>
    intro ts ts' _ h1 h2
    simp only [replaceEntries, Option.some.injEq] at h2
    exact h2 ▸ h1
  | cons x l ih =>
    obtain ⟨i, w⟩ := x
    intro ts ts' hf h1 h2
    simp only [replaceEntries] at h2
    split_ifs at h2
    refine ih (fun x hx => hf x (by simp [hx])) ?_ h2
    intro t ht
    rcases List.mem_or_eq_of_mem_set ht with ht | rfl
    · exact h1 t ht
    · have hw : F.finite w = true := hf (i, w) (by simp)
      exact ⟨display_valid F hw, display_notMem F hw (by decide) (by decide) (by decide)⟩

/-! ### HepMC2 -/

theorem HepMC.update_form {c : ParseCtx K V} {w : K} {ws : List K} {record record' : Bytes}
    (h : update c (w :: ws) record = .ok record') (hE : [69] <+: record) :
    ∃ t sp old after n, record = t ++ (sp ++ old ++ after) ∧ [69] <+: t ∧ (10 : UInt8) ∉ t ∧ sp ≠ [] ∧
      (∀ b ∈ sp, isBlank b = true) ∧ (∀ b ∈ old, isAsciiWs b = false) ∧ old ≠ [] ∧ TailOk after ∧
      (if c.multi then updateNamedWeights c.float c.names t (sp.take 1 ++ c.float.display w ++ after) n (w :: ws)
        else .ok (t ++ sp.take 1 ++ c.float.display w ++ after)) = .ok record' := by
  have h' := h
  unfold update at h
  cases hn : nonWeightEntries record with
  | none => simp [hn] at h
  | some r0 =>
    simp only [hn, Outcome.bind_eq_ok, orParseErr_eq_ok] at h
    obtain ⟨⟨r, n⟩, h1, h2⟩ := h
    simp only [updateCentralWeight] at h2
    cases ha : anyEntry r with
    | none =>
      rw [ha] at h2
      obtain ⟨y, h3, -⟩ := h2
      cases h3
    | some x =>
      obtain ⟨after, old⟩ := x
      obtain ⟨sp, g1, g2, g3, g4, g5, g6⟩ := anyEntry_eq_some.1 ha
      have hh : headEntries record = some (r, n) := by simp [headEntries, hn, h1]
      have hsb : StartsBlank r := by
        obtain ⟨s0, sp, rfl⟩ := List.exists_cons_of_ne_nil g1
        exact ⟨s0, sp ++ old ++ after, by rw [g6]; simp, g2 s0 (by simp)⟩
      obtain ⟨t, e1, e2, e3, -⟩ := headEntries_cut hh hE hsb
      refine ⟨t, sp, old, after, n, by rw [e1, g6], e2, e3, g1, g2, g4, g3, g5, ?_⟩
      have htk : r.take 1 = sp.take 1 := by
        obtain ⟨s0, sp, rfl⟩ := List.exists_cons_of_ne_nil g1
        rw [g6]; simp
      rw [← htk, ← update_head c (w' := w) (more := ws) (by rw [← e1]; exact hh) ha, ← e1]
      exact h'

/-- What remains of a HepMC2 record after an update. -/
theorem HepMC.update_shape {c : ParseCtx K V} {ws : List K} {record record' : Bytes} (h : update c ws record = .ok record')
    (hf : ∀ w ∈ ws, c.float.finite w = true) (hE : [69] <+: record) (h1 : ¬ Contains record (ascii "\nE"))
    (hv : validUtf8 record = true) :
    ascii "E" <+: record' ∧ ¬ Contains record' (ascii "\nE") ∧ validUtf8 record' = true ∧
      (record.getLast? = some 10 → record'.getLast? = some 10) ∧ (record ≠ ascii "E" → record' ≠ ascii "E") := by
  have hm : ascii "\nE" = [10, 69] := by decide
  have hE' : ascii "E" = [69] := by decide
  rw [hE', hm] at *
  cases ws with
  | nil =>
    simp only [update, Outcome.ok.injEq] at h
    subst h
    exact ⟨hE, h1, hv, id, id⟩
  | cons w ws =>
    obtain ⟨t, sp, old, after, n, e, e1, e2, e3, e4, e5, e6, e7, e8⟩ := update_form h hE
    have hw := hf w (by simp)
    have hD10 : (10 : UInt8) ∉ c.float.display w := display_notMem _ hw (by decide) (by decide) (by decide)
    have hsp10 : (10 : UInt8) ∉ sp.take 1 := fun hx => not_newline_of_blank e4 (List.mem_of_mem_take hx)
    have hpre : (10 : UInt8) ∉ t ++ sp.take 1 ++ c.float.display w := by simp [e2, hsp10, hD10]
    have hafter : ¬ [10, 69] <:+: after := fun hx => h1 (by
      unfold Contains
      rw [e]
      exact hx.trans ⟨t ++ (sp ++ old), [], by simp⟩)
    have hval : validUtf8 (t ++ sp.take 1 ++ c.float.display w ++ after) = true := by
      apply replaced_valid (old := old) _ hw _ e3 e4 e7
      rw [e] at hv
      simpa using hv
    have hlong : ∀ {x : Bytes}, t ++ sp.take 1 ++ x ≠ [69] := by
      intro x hx
      have := congrArg List.length hx
      obtain ⟨t', rfl⟩ := e1
      obtain ⟨s0, sp, rfl⟩ := List.exists_cons_of_ne_nil e3
      simp at this
    have hcen : [69] <+: t ++ sp.take 1 ++ c.float.display w ++ after ∧
        ¬ [10, 69] <:+: t ++ sp.take 1 ++ c.float.display w ++ after ∧
        validUtf8 (t ++ sp.take 1 ++ c.float.display w ++ after) = true ∧
        (record.getLast? = some 10 → (t ++ sp.take 1 ++ c.float.display w ++ after).getLast? = some 10) ∧
        (record ≠ [69] → t ++ sp.take 1 ++ c.float.display w ++ after ≠ [69]) := by
      refine ⟨?_, fun hx => hafter (infix_after hpre hx), hval, ?_, ?_⟩
      · rw [List.append_assoc, List.append_assoc]
        exact e1.trans (List.prefix_append _ _)
      · intro hl
        have hane : after ≠ [] := by
          rintro rfl
          rw [e, List.append_nil, ← List.append_assoc, List.getLast?_append_of_ne_nil _ e6] at hl
          exact not_newline_of_noWs e5 (List.mem_of_getLast? hl)
        rw [e, ← List.append_assoc, List.getLast?_append_of_ne_nil _ hane] at hl
        rw [List.getLast?_append_of_ne_nil _ hane, hl]
      · intro _
        rw [List.append_assoc]
        exact hlong
    cases hmu : c.multi with
    | false =>
      simp only [hmu, Bool.false_eq_true, if_false, Outcome.ok.injEq] at e8
      subst e8
      exact hcen
    | true =>
      simp only [hmu, if_true, updateNamedWeights] at e8
      split_ifs at e8 with k1 k2
      · simp only [Outcome.ok.injEq] at e8
        have e9 : t ++ sp.take 1 ++ c.float.display w ++ after = record' := by rw [← e8]; simp
        rw [← e9]
        exact hcen
      · split at e8
        · cases e8
        · simp only [Outcome.bind_eq_ok] at e8
          obtain ⟨⟨rest, nn⟩, -, pos, -, e9⟩ := e8
          cases hre : replaceEntries c.float (pos.zip (w :: ws).tail)
              ((splitAsciiWs (sp.take 1 ++ c.float.display w ++ after)).take n) with
          | none => rw [hre] at e9; cases e9
          | some words =>
            rw [hre] at e9
            simp only at e9
            cases hsp : splitAtPattern [10] ((sp.take 1 ++ c.float.display w ++ after).drop 1) with
            | none => rw [hsp] at e9; cases e9
            | some x =>
              obtain ⟨l, A⟩ := x
              rw [hsp] at e9
              simp only [Outcome.ok.injEq] at e9
              have hent : validUtf8 (sp.take 1 ++ c.float.display w ++ after) = true := by
                have := hval
                rw [List.append_assoc, List.append_assoc] at this
                have ht := (entry_valid (pre := t) (sep := sp) (old := old) (post := after)
                  (by rw [e] at hv; simpa using hv) e3 e4 e7).1
                rw [validUtf8_append ht] at this
                simpa using this
              have hws : ∀ x ∈ words, validUtf8 x = true ∧ (10 : UInt8) ∉ x := by
                refine replaceEntries_spec _ ?_ ?_ hre
                · intro x hx
                  exact hf _ (List.mem_of_mem_tail (List.of_mem_zip (show (x.1, x.2) ∈ _ from hx)).2)
                · intro x hx
                  have := splitWsLoop_spec _ [] hent (by simp) x (List.mem_of_mem_take hx)
                  exact ⟨this.1, not_newline_of_noWs this.2⟩
              obtain ⟨j1, j2⟩ := joinWith_spec hws
              obtain ⟨s0, sp, rfl⟩ := List.exists_cons_of_ne_nil e3
              simp only [List.take_succ_cons, List.take_zero, List.cons_append, List.nil_append, List.drop_succ_cons,
                List.drop_zero] at hsp e9
              have hA := splitAtPattern_suffix hsp
              have hAi : ¬ [10, 69] <:+: 10 :: A := by
                intro hx
                have : [10, 69] <:+: c.float.display w ++ after := by
                  rw [hA]
                  exact hx.trans ⟨l, [], by simp⟩
                exact hafter (infix_after hD10 this)
              have hs0 : s0 ≠ 10 := by
                rintro rfl
                exact absurd (e4 10 (by simp)) (by decide)
              have hnp : (10 : UInt8) ∉ t ++ [s0] ++ joinWith [32] words := by
                simp only [List.mem_append, List.mem_singleton, not_or]
                exact ⟨⟨e2, fun h => hs0 h.symm⟩, j2⟩
              rw [← e9]
              refine ⟨?_, fun hx => hAi (infix_after hnp hx), ?_, ?_, ?_⟩
              · rw [List.append_assoc, List.append_assoc]
                exact e1.trans (List.prefix_append _ _)
              · have ht := (entry_valid (pre := t) (sep := s0 :: sp) (old := old) (post := after)
                  (by rw [e] at hv; simpa using hv) e3 e4 e7).1
                have hs : validUtf8 [s0] = true := validUtf8_ascii (by simpa using blank_ascii (e4 s0 (by simp)))
                rw [List.append_assoc, List.append_assoc, validUtf8_append ht, validUtf8_append hs, validUtf8_append j1]
                have hx := hent
                simp only [List.take_succ_cons, List.take_zero, List.cons_append, List.nil_append] at hx
                rw [hA, show s0 :: (l ++ [10] ++ A) = (s0 :: l) ++ 10 :: A by simp, validUtf8_split (by decide)] at hx
                exact hx.2
              · intro hl
                rw [List.getLast?_append_of_ne_nil _ (by simp)]
                cases A with
                | nil => rfl
                | cons a A =>
                  have h10 : 10 :: a :: A = [10] ++ a :: A := rfl
                  rw [h10, List.getLast?_append_of_ne_nil _ (by simp)]
                  have hane : after ≠ [] := by
                    rintro rfl
                    rw [e, List.append_nil, ← List.append_assoc, List.getLast?_append_of_ne_nil _ e6] at hl
                    exact not_newline_of_noWs e5 (List.mem_of_getLast? hl)
                  rw [e, ← List.append_assoc, List.getLast?_append_of_ne_nil _ hane] at hl
                  have h2 := congrArg List.getLast? hA
                  rw [List.getLast?_append_of_ne_nil _ hane, List.getLast?_append_of_ne_nil _ (by simp), hl] at h2
                  exact h2.symm
              · intro _
                rw [List.append_assoc]
                exact hlong (x := joinWith [32] words ++ 10 :: A) 

/-! ### LHEF -/

theorem markEvent_noWs : ∀ b ∈ ascii "</event>", isAsciiWs b = false := by decide

/-- If a text ends with white space and a tag, and an entry in it does not start like a tag, then the tag is in what
follows the entry. -/
theorem tag_after_entry {r pre sep old post tag : Bytes} {b : UInt8} (e : r = pre ++ sep ++ old ++ post) (hs : sep ≠ [])
    (hb : ∀ b ∈ sep, isBlank b = true) (ho : old ≠ []) (how : ∀ b ∈ old, isAsciiWs b = false) (hp : TailOk post)
    (h60 : old.head? ≠ tag.head?) (htag : ∀ b ∈ tag, isAsciiWs b = false) (hend : b :: tag <:+ r) (hbw : isAsciiWs b = true) :
    tag <:+ post := by
  obtain ⟨z, hz⟩ := hend
  have h1 : z ++ [b] ++ tag = pre ++ sep ++ (old ++ post) := by
    rw [← List.append_assoc, ← e, ← hz]; simp
  have hpost : post ++ [] = post := List.append_nil _
  -- compare the positions of `tag` and `post`
  have h2 : z ++ [b] ++ tag = pre ++ sep ++ old ++ post := by rw [h1]; simp
  rcases List.append_eq_append_iff.1 h2 with ⟨y, h3, h4⟩ | ⟨y, h3, h4⟩
  · -- `tag = y ++ post`
    by_cases hy : y = []
    · subst hy
      rw [List.nil_append] at h4
      rw [h4]
    · exfalso
      have hpn : post = [] := by
        cases post with
        | nil => rfl
        | cons p post =>
          have h5 := hp p rfl
          rw [htag p (by rw [h4]; simp)] at h5
          cases h5
      subst hpn
      rw [List.append_nil] at h4 h2
      subst h4
      -- `pre ++ sep ++ old = z ++ [b] ++ tag`
      rcases List.append_eq_append_iff.1 h2 with ⟨y, h5, h6⟩ | ⟨y, h5, h6⟩
      · -- `tag = y ++ old`
        cases hyl : y.getLast? with
        | none =>
          rw [List.getLast?_eq_none_iff] at hyl
          subst hyl
          rw [List.nil_append] at h6
          exact h60 (by rw [h6])
        | some x =>
          have h7 := congrArg List.getLast? h5
          rw [List.getLast?_append_of_ne_nil _ hs, List.getLast?_append, hyl] at h7
          have hx := List.mem_of_getLast? h7
          have hx2 := isAsciiWs_of_isBlank (hb x (by simpa using hx))
          rw [htag x (by rw [h6]; exact List.mem_append_left _ (List.mem_of_getLast? hyl))] at hx2
          cases hx2
      · -- `old = y ++ tag`
        cases hyl : y.getLast? with
        | none =>
          rw [List.getLast?_eq_none_iff] at hyl
          subst hyl
          rw [List.nil_append] at h6
          exact h60 (by rw [h6])
        | some x =>
          have h7 := congrArg List.getLast? h5
          rw [List.getLast?_append_of_ne_nil _ (by simp), List.getLast?_append, hyl] at h7
          simp only [List.getLast?_singleton, Option.some_or, Option.some.injEq] at h7
          subst h7
          rw [how b (by rw [h6]; exact List.mem_append_left _ (List.mem_of_getLast? hyl))] at hbw
          cases hbw
  · exact ⟨y, h4.symm⟩

/-- What remains of a Les Houches event record after an update. -/
theorem Lhef.update_shape [Zero K] [LinearOrder V] {c : ParseCtx K V} {ws : List K} {record record' : Bytes} {ev : Event K V}
    (hpa : parse c record = .ok ev) (h : update c ws record = .ok record') (hf : ∀ w ∈ ws, c.float.finite w = true)
    {b : UInt8} (hb : isAsciiWs b = true) (hend : b :: ascii "</event>" <:+ record)
    (h1 : ¬ Contains record.dropLast (ascii "</event>")) (hv : validUtf8 record = true) :
    (∃ b, isAsciiWs b = true ∧ b :: ascii "</event>" <:+ record') ∧ ¬ Contains record'.dropLast (ascii "</event>") ∧
      validUtf8 record' = true := by
  cases ws with
  | nil =>
    simp only [update, Outcome.ok.injEq] at h
    subst h
    exact ⟨⟨b, hb, hend⟩, h1, hv⟩
  | cons w ws =>
    have hw := hf w (by simp)
    obtain ⟨pre, sep, old, post, e, e1, e2, e3, e4, e5, e6, e7, -⟩ := update_central_form c hpa hw
    have hr : record' = pre ++ sep.take 1 ++ c.float.display w ++ post := by
      simp only [update, Outcome.bind_eq_ok] at h e7
      obtain ⟨r1, g1, g2⟩ := h
      obtain ⟨r2, g3, g4⟩ := e7
      rw [g1] at g3
      cases g3
      cases r1 with
      | none => cases g2
      | some r1 =>
        simp only [Outcome.bind_eq_ok] at g2 g4
        obtain ⟨r3, g5, g6⟩ := g2
        obtain ⟨r4, g7, g8⟩ := g4
        rw [g5] at g7
        cases g7
        split_ifs at g6
        simp only [ne_eq, not_true_eq_false, and_false, if_false, Outcome.ok.injEq] at g8 g6
        rw [← g6, g8]
    have hT : ascii "</event>" = [60, 47, 101, 118, 101, 110, 116, 62] := by decide
    have htag := tag_after_entry e e1 e2 e3 e4 e5 (tag := ascii "</event>") (by rw [hT]; simpa using e6) markEvent_noWs hend hb
    obtain ⟨q, hq⟩ := htag
    have hpl : post ≠ [] := by
      rintro rfl
      rw [hT] at hq
      simp at hq
    -- `post` starts with white space
    obtain ⟨p0, post', rfl⟩ := List.exists_cons_of_ne_nil hpl
    have hp0 := e5 p0 rfl
    have hqn : q ≠ [] := by
      rintro rfl
      rw [List.nil_append, hT] at hq
      simp only [List.cons.injEq] at hq
      rw [← hq.1] at hp0
      cases hp0
    have hD : c.float.display w ≠ [] := display_ne_nil _ hw
    subst hr
    refine ⟨⟨b, hb, ?_⟩, ?_, replaced_valid _ hw (e ▸ hv) e1 e2 e5⟩
    · -- the byte before the tag
      obtain ⟨z, hz⟩ := hend
      have h2 : (pre ++ sep ++ old ++ q) ++ ascii "</event>" = (z ++ [b]) ++ ascii "</event>" := by
        rw [List.append_assoc, hq, ← e, ← hz]; simp
      have h3 := List.append_cancel_right h2
      have h4 : q.getLast? = some b := by
        have := congrArg List.getLast? h3
        rw [List.getLast?_append_of_ne_nil _ hqn] at this
        simpa using this
      obtain ⟨q', rfl⟩ : ∃ q', q = q' ++ [b] := ⟨q.dropLast, by
        rw [List.getLast?_eq_some_iff] at h4
        obtain ⟨ys, rfl⟩ := h4
        simp⟩
      rw [← hq]
      exact ⟨pre ++ sep.take 1 ++ c.float.display w ++ q', by simp⟩
    · intro hx
      unfold Contains at hx h1
      rw [List.dropLast_append_of_ne_nil hpl] at hx
      have hmem : ∀ x ∈ ascii "</event>", x ∉ c.float.display w := by
        rw [hT]
        intro x hx
        simp only [List.mem_cons, List.not_mem_nil, or_false] at hx
        rcases hx with rfl | rfl | rfl | rfl | rfl | rfl | rfl | rfl <;>
          exact display_notMem _ hw (by decide) (by decide) (by decide)
      apply h1
      rw [e, List.dropLast_append_of_ne_nil hpl]
      rcases infix_around hmem hD hx with hx | hx
      · exact hx.trans ⟨[], sep.drop 1 ++ old ++ (p0 :: post').dropLast, by
          conv_rhs => rw [← List.take_append_drop 1 sep]
          simp⟩
      · exact hx.trans ⟨pre ++ sep ++ old, [], by simp⟩

/-! ### STRIPPER XML -/

theorem Stripper.weightStart_prefix {record r : Bytes} (h : weightStart record = some r) : ascii "<se" <+: record := by
  unfold weightStart at h
  cases h1 : tag (ascii "<se") record with
  | none => simp [h1] at h
  | some r1 =>
    rw [tag_eq_some] at h1
    exact ⟨r1, h1.symm⟩

/-- What remains of a STRIPPER XML record after an update. -/
theorem Stripper.update_shape [Div K] {c : ParseCtx K V} {s : K} {ws : List K} {record record' : Bytes}
    (h : update c s ws record = .ok record') (hf : ∀ w ∈ ws, c.float.finite (w / s) = true) (hq : Spec.Quoted c.float record)
    (hst : ascii "<se" <+: record) (h1 : ¬ Contains record.tail (ascii "<se")) (hv : validUtf8 record = true) :
    ascii "<se" <+: record' ∧ ¬ Contains record'.tail (ascii "<se") ∧ validUtf8 record' = true ∧ Spec.Quoted c.float record' ∧
      (record ≠ ascii "<se" → record' ≠ ascii "<se") := by
  cases ws with
  | nil =>
    simp only [update, Outcome.ok.injEq] at h
    subst h
    exact ⟨hst, h1, hv, hq, id⟩
  | cons w ws =>
    have hw := hf w (by simp)
    simp only [update, Outcome.bind_eq_ok, HepMC.n64_eq_ok] at h
    obtain ⟨x, ⟨-, rfl⟩, r1, h2, h3⟩ := h
    split_ifs at h3
    simp only [Outcome.ok.injEq] at h3
    subst h3
    unfold replaceWeight at h2
    cases hws : weightStart record with
    | none => simp [hws] at h2
    | some r =>
      simp only [hws, Outcome.bind_eq_ok, HepMC.orParseErr_eq_ok] at h2
      obtain ⟨⟨rest, v⟩, h3, h4⟩ := h2
      simp only [Outcome.ok.injEq] at h4
      obtain ⟨head, rfl, hh⟩ := weightStart_eq hws
      obtain ⟨post, rfl⟩ : ∃ post, rest = 34 :: post := by
        obtain ⟨t, ht⟩ := hq _ _ _ hws h3
        exact ⟨t, by rw [← ht]; rfl⟩
      obtain ⟨old, rfl, h5, -, -⟩ := double_append h3
      have htake : (head ++ (old ++ 34 :: post)).take ((head ++ (old ++ 34 :: post)).length - (old ++ 34 :: post).length) = head := by
        simp
      rw [htake] at h4
      subst h4
      have hhead : ascii "<se" <+: head := by
        have := weightStart_prefix (hh [])
        simpa using this
      obtain ⟨head', rfl⟩ := hhead
      have hT : ascii "<se" = [60, 115, 101] := by decide
      have hlong : head' ≠ [] := by
        rintro rfl
        have := hh []
        revert this
        decide
      refine ⟨⟨head' ++ c.float.display (w / s) ++ 34 :: post, by simp⟩, ?_, ?_, ?_, ?_⟩
      · intro hx
        apply h1
        unfold Contains at hx ⊢
        rw [hT] at hx ⊢
        simp only [List.cons_append, List.nil_append, List.tail_cons] at hx ⊢
        have hmem : ∀ x ∈ [(60 : UInt8), 115, 101], x ∉ c.float.display (w / s) := by
          intro x hx
          simp only [List.mem_cons, List.not_mem_nil, or_false] at hx
          rcases hx with rfl | rfl | rfl <;> exact display_notMem _ hw (by decide) (by decide) (by decide)
        rcases infix_around (a := 115 :: 101 :: head') (b := 34 :: post) hmem (display_ne_nil _ hw) (by simpa using hx) with hx | hx
        · exact hx.trans ⟨[], old ++ 34 :: post, by simp⟩
        · exact hx.trans ⟨115 :: 101 :: head' ++ old, [], by simp⟩
      · have e1 : ascii "<se" ++ head' ++ (old ++ 34 :: post) = (ascii "<se" ++ head' ++ old) ++ 34 :: post := by simp
        rw [e1, validUtf8_split (by decide)] at hv
        have hhv : validUtf8 (ascii "<se" ++ head') = true := by
          -- the start of a record ends with a quotation mark
          have h6 := hh []
          unfold weightStart at h6
          cases g1 : tag (ascii "<se") (ascii "<se" ++ head' ++ []) with
          | none => rw [g1] at h6; cases h6
          | some r1 =>
            rw [g1] at h6
            simp only at h6
            cases g2 : space1 r1 with
            | none => simp [g2] at h6
            | some r2 =>
              simp only [g2] at h6
              rw [tag_eq_some] at g1 h6
              obtain ⟨sp, s1, s2, s3, rfl⟩ := space1_eq_some.1 g2
              have : head' = sp ++ ascii "w=\"" := by
                rw [h6] at g1
                simpa using g1
              rw [this]
              apply validUtf8_ascii
              intro b hb
              simp only [List.mem_append] at hb
              rcases hb with hb | hb | hb
              · revert b; decide
              · exact blank_ascii (s2 b hb)
              · revert b; decide
        rw [List.append_assoc, validUtf8_append hhv, validUtf8_append (display_valid _ hw), hv.2]
      · intro r w' rest g1 g2
        rw [List.append_assoc, hh, Option.some.injEq] at g1
        subst g1
        rw [double_display_stop c.float hw (by decide), Option.some.injEq, Prod.mk.injEq] at g2
        rw [← g2.1]
        exact ⟨post, rfl⟩
      · intro _ hx
        have := congrArg List.length hx
        simp [hT] at this

end Cres

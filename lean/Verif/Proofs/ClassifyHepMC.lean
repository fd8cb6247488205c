import Verif.Proofs.HepMCNamed
import Verif.Proofs.Lhef
import Verif.Spec.Classify
import Verif.Model.Classify

/-!
Auxiliary results for C94: parsing HepMC2 records with and without a footer.
-/

namespace Cres

open Spec

variable {K V : Type*}

/-! ### White space -/

theorem Blank.nil : Blank [] := ⟨[], rfl, by simp⟩

theorem isBlank_first {c : Bytes} (h : IsBlank c) : ∃ b r, c = b :: r ∧ (isWs1 b = true ∨ b = 0xC2 ∨ b = 0xE1 ∨ b = 0xE2 ∨ b = 0xE3) := by
  rcases h with ⟨b, rfl, hb⟩ | ⟨b0, b1, rfl, hb⟩ | ⟨b0, b1, b2, rfl, hb⟩
  · exact ⟨b, [], rfl, Or.inl hb⟩
  · simp only [isWs2, Bool.and_eq_true, decide_eq_true_eq] at hb
    exact ⟨b0, [b1], rfl, Or.inr (Or.inl hb.1)⟩
  · simp only [isWs3, Bool.or_eq_true, Bool.and_eq_true, decide_eq_true_eq] at hb
    refine ⟨b0, [b1, b2], rfl, Or.inr (Or.inr ?_)⟩
    tauto

/-- A line break is a character of its own. -/
theorem isBlank_newline {c : Bytes} (h : IsBlank c) (hm : (10 : UInt8) ∈ c) : c = [10] := by
  rcases h with ⟨b, rfl, hb⟩ | ⟨b0, b1, rfl, hb⟩ | ⟨b0, b1, b2, rfl, hb⟩
  · simp at hm; rw [hm]
  · exfalso
    simp only [isWs2, Bool.and_eq_true, Bool.or_eq_true, decide_eq_true_eq] at hb
    obtain ⟨rfl, rfl | rfl⟩ := hb <;> revert hm <;> decide
  · exfalso
    simp only [isWs3, Bool.or_eq_true, Bool.and_eq_true, decide_eq_true_eq] at hb
    simp only [List.mem_cons, List.not_mem_nil, or_false] at hm
    rcases hm with rfl | rfl | rfl <;> simp at hb

theorem blank_split {a b : Bytes} (h : Blank (a ++ 10 :: b)) : Blank a ∧ Blank b := by
  obtain ⟨cs, h1, h2⟩ := h
  induction cs generalizing a with
  | nil => simp at h1
  | cons c cs ih =>
    have hc := h2 c (by simp)
    have hcs : ∀ x ∈ cs, IsBlank x := fun x hx => h2 x (by simp [hx])
    rw [List.flatten_cons, List.append_eq_append_iff] at h1
    rcases h1 with ⟨x, h3, h4⟩ | ⟨x, h3, h4⟩
    · -- the line break is not after `c`
      cases x with
      | nil =>
        rw [List.append_nil] at h3
        rw [List.nil_append] at h4
        obtain ⟨_, hb⟩ := ih (a := []) (by rw [List.nil_append]; exact h4) hcs
        exact ⟨⟨[a], by simp, by simp [← h3, hc]⟩, hb⟩
      | cons y x =>
        rw [List.cons_append, List.cons.injEq] at h4
        have := isBlank_newline hc (by rw [h3, ← h4.1]; simp)
        rw [this] at h3
        have hl := congrArg List.length h3
        simp only [List.length_cons, List.length_nil, List.length_append] at hl
        have ha : a = [] := List.length_eq_zero_iff.1 (by omega)
        have hx : x = [] := List.length_eq_zero_iff.1 (by omega)
        subst ha hx
        exact ⟨Blank.nil, ⟨cs, by rw [h4.2]; rfl, hcs⟩⟩
    · obtain ⟨⟨ds, hd, hd'⟩, hb⟩ := ih h4.symm hcs
      refine ⟨⟨c :: ds, by rw [h3, hd]; rfl, ?_⟩, hb⟩
      intro z hz
      rcases List.mem_cons.1 hz with rfl | hz
      · exact hc
      · exact hd' z hz

theorem blank_cons_char {c s : Bytes} (hc : IsBlank c) (hs : Blank s) : Blank (c ++ s) := by
  obtain ⟨cs, rfl, h⟩ := hs
  refine ⟨c :: cs, rfl, ?_⟩
  intro z hz
  rcases List.mem_cons.1 hz with rfl | hz
  · exact hc
  · exact h z hz

theorem trimStart_blank {s : Bytes} (h : Blank s) : trimStart s = [] := by
  obtain ⟨cs, rfl, h⟩ := h
  induction cs with
  | nil => rfl
  | cons c cs ih =>
    have ih := ih fun x hx => h x (by simp [hx])
    rw [List.flatten_cons]
    rcases h c (by simp) with ⟨b, rfl, hb⟩ | ⟨b0, b1, rfl, hb⟩ | ⟨b0, b1, b2, rfl, hb⟩
    · rw [List.singleton_append, trimStart_ws1 hb, ih]
    · have h0 : ¬ isWs1 b0 = true := by
        simp only [isWs2, Bool.and_eq_true, decide_eq_true_eq] at hb
        rw [hb.1]; decide
      rw [List.cons_append, List.singleton_append, trimStart_ws2 h0 hb, ih]
    · have h0 : ¬ isWs1 b0 = true ∧ ¬ isWs2 b0 b1 = true := by
        simp only [isWs3, Bool.or_eq_true, Bool.and_eq_true, decide_eq_true_eq] at hb
        have : b0 = 0xE1 ∨ b0 = 0xE2 ∨ b0 = 0xE3 := by tauto
        rcases this with rfl | rfl | rfl <;> simp [isWs1, isWs2]
      rw [List.cons_append, List.cons_append, List.singleton_append, trimStart_ws3 h0.1 h0.2 hb, ih]

theorem blank_of_trimStart : ∀ (n : Nat) (s : Bytes), s.length ≤ n → trimStart s = [] → Blank s := by
  intro n
  induction n with
  | zero =>
    intro s hl _
    rw [List.length_eq_zero_iff.1 (Nat.le_zero.1 hl)]
    exact Blank.nil
  | succ n ih =>
    intro s hl h
    match s, hl, h with
    | [], _, _ => exact Blank.nil
    | [b], _, h =>
      by_cases hb : isWs1 b = true
      · exact ⟨[[b]], rfl, by simp [IsBlank, hb]⟩
      · simp [trimStart, hb] at h
    | [b0, b1], hl, h =>
      by_cases h0 : isWs1 b0 = true
      · rw [trimStart_ws1 h0] at h
        exact blank_cons_char (c := [b0]) (Or.inl ⟨b0, rfl, h0⟩) (ih _ (by simp at hl ⊢; omega) h)
      · by_cases h2 : isWs2 b0 b1 = true
        · exact ⟨[[b0, b1]], rfl, by simp [IsBlank, h2]⟩
        · simp [trimStart, h0, h2] at h
    | b0 :: b1 :: b2 :: r, hl, h =>
      simp only [List.length_cons] at hl
      by_cases h0 : isWs1 b0 = true
      · rw [trimStart_ws1 h0] at h
        exact blank_cons_char (c := [b0]) (Or.inl ⟨b0, rfl, h0⟩) (ih _ (by simp; omega) h)
      · by_cases h2 : isWs2 b0 b1 = true
        · rw [trimStart_ws2 h0 h2] at h
          exact blank_cons_char (c := [b0, b1]) (Or.inr (Or.inl ⟨b0, b1, rfl, h2⟩)) (ih _ (by simp; omega) h)
        · by_cases h3 : isWs3 b0 b1 b2 = true
          · rw [trimStart_ws3 h0 h2 h3] at h
            exact blank_cons_char (c := [b0, b1, b2]) (Or.inr (Or.inr ⟨b0, b1, b2, rfl, h3⟩)) (ih _ (by omega) h)
          · rw [trimStart, if_neg h0, if_neg h2, if_neg h3] at h
            simp at h

theorem trimStart_eq_nil {s : Bytes} : trimStart s = [] ↔ Blank s := ⟨blank_of_trimStart s.length s le_rfl, trimStart_blank⟩

namespace HepMC

/-! ### Parsers and the end of a line -/

/-- What a parser does before a line break does not depend on the text `tl` after it. -/
def Stops (tl : Bytes) {α : Type*} (p : Bytes → PResult α) : Prop :=
  ∀ s, p (s ++ 10 :: tl) = (p s).map (fun x => (x.1 ++ 10 :: tl, x.2))

variable {tl : Bytes}

theorem space1_stops (tl s : Bytes) : space1 (s ++ 10 :: tl) = (space1 s).map (· ++ 10 :: tl) := by
  cases s with
  | nil => simp [space1, isBlank]
  | cons b s =>
    simp only [List.cons_append, space1]
    split_ifs
    · rw [dropWhile_stop isBlank (by decide)]; rfl
    · rfl

theorem nonSpace_stops : Stops tl nonSpace := by
  intro s
  unfold nonSpace
  rw [span_stop _ (by decide)]
  generalize s.span (fun b => !isAsciiWs b) = x
  obtain ⟨t, r⟩ := x
  cases t <;> rfl

theorem parseU32_stops : Stops tl parseU32 := by
  intro s
  unfold parseU32
  rw [span_stop isDigit (by decide)]
  generalize s.span isDigit = x
  obtain ⟨t, r⟩ := x
  cases t with
  | nil => rfl
  | cons b t =>
    simp only
    split_ifs <;> rfl

theorem parseI32_stops : Stops tl parseI32 := by
  intro s
  unfold parseI32
  rw [optSign_stop (by decide)]
  simp only
  rw [span_stop isDigit (by decide)]
  generalize (optSign s).2.span isDigit = x
  obtain ⟨t, r⟩ := x
  cases t with
  | nil => rfl
  | cons b t =>
    simp only
    split_ifs <;> rfl

theorem anyEntry_stops : Stops tl anyEntry := by
  intro s
  unfold anyEntry
  rw [space1_stops]
  cases space1 s with
  | none => rfl
  | some r => exact nonSpace_stops r

theorem u32Entry_stops : Stops tl u32Entry := by
  intro s
  unfold u32Entry
  rw [space1_stops]
  cases space1 s with
  | none => rfl
  | some r => exact parseU32_stops r

theorem i32Entry_stops : Stops tl i32Entry := by
  intro s
  unfold i32Entry
  rw [space1_stops]
  cases space1 s with
  | none => rfl
  | some r => exact parseI32_stops r

theorem doubleEntry_stops (F : FloatFormat K) : Stops tl F.doubleEntry := by
  intro s
  unfold FloatFormat.doubleEntry
  rw [space1_stops]
  cases space1 s with
  | none => rfl
  | some r => exact double_stop F (by decide) r tl

theorem count_stops {α : Type*} {p : Bytes → PResult α} (h : Stops tl p) (n : Nat) : Stops tl (count p n) := by
  induction n with
  | zero => intro s; rfl
  | succ n ih =>
    intro s
    simp only [count]
    rw [h s]
    cases p s with
    | none => rfl
    | some x =>
      simp only [Option.map_some]
      rw [ih x.1]
      cases count p n x.1 <;> rfl

theorem splitAtPattern_stops {ch : UInt8} (hc : ch ≠ 10) (htl : ch ∉ tl) (s : Bytes) :
    splitAtPattern [ch] (s ++ 10 :: tl) = (splitAtPattern [ch] s).map (fun x => (x.1, x.2 ++ 10 :: tl)) := by
  induction s with
  | nil =>
    have : ch ∉ (10 :: tl : Bytes) := by simp [hc, htl]
    have h2 := splitAtPattern_append (p0 := ch) (pat := []) this []
    rw [List.append_nil] at h2
    rw [List.nil_append, h2]
    simp [splitAtPattern]
  | cons b s ih =>
    by_cases hb : [ch] <+: b :: s
    · have hb' : [ch] <+: b :: (s ++ 10 :: tl) := by
        simp only [List.cons_prefix_cons, List.nil_prefix, and_true] at hb ⊢
        exact hb
      simp only [List.cons_append, splitAtPattern, if_pos hb, if_pos hb']
      simp
    · have hb' : ¬ [ch] <+: b :: (s ++ 10 :: tl) := by
        simp only [List.cons_prefix_cons, List.nil_prefix, and_true] at hb ⊢
        exact hb
      rw [List.cons_append, splitAtPattern_cons hb', splitAtPattern_cons hb, ih]
      cases splitAtPattern [ch] s <;> rfl

theorem string_stops (htl : (34 : UInt8) ∉ tl) : Stops tl string := by
  intro s
  match s with
  | [] => rfl
  | b :: s =>
    by_cases hb : b = 34
    · subst hb
      simp only [List.cons_append, string]
      rw [splitAtPattern_stops (by decide) htl]
      cases splitAtPattern [34] s <;> rfl
    · have : ∀ r : Bytes, string (b :: r) = none := by
        intro r
        unfold string
        split
        · rename_i h; simp at h; exact absurd h.1 hb
        · rfl
      rw [List.cons_append, this, this]; rfl

theorem stringEntry_stops (htl : (34 : UInt8) ∉ tl) : Stops tl stringEntry := by
  intro s
  unfold stringEntry
  rw [space1_stops]
  cases space1 s with
  | none => rfl
  | some r => exact string_stops htl r

theorem orParseErr_stops {α : Type*} {p : Bytes → PResult α} (h : Stops tl p) (what : String) (s : Bytes) :
    orParseErr what (p (s ++ 10 :: tl)) = (orParseErr what (p s)).map (fun x => (x.1 ++ 10 :: tl, x.2)) := by
  rw [h s]
  cases p s <;> rfl

theorem nonWeightEntries_stops (b : UInt8) (s : Bytes) :
    nonWeightEntries (b :: s ++ 10 :: tl) = (nonWeightEntries (b :: s)).map (· ++ 10 :: tl) := by
  unfold nonWeightEntries
  simp only [List.cons_append, List.drop_succ_cons, List.drop_zero]
  rw [count_stops anyEntry_stops 10 s]
  cases count anyEntry 10 s with
  | none => rfl
  | some x =>
    simp only [Option.map_some]
    rw [u32Entry_stops x.1]
    cases u32Entry x.1 with
    | none => rfl
    | some y =>
      simp only [Option.map_some]
      rw [count_stops anyEntry_stops y.2 y.1]
      cases count anyEntry y.2 y.1 <;> rfl

theorem extractWeights_stops (c : ParseCtx K V) (b : UInt8) (s : Bytes) :
    extractWeights c (b :: s ++ 10 :: tl) = (extractWeights c (b :: s)).map (fun x => (x.1, x.2.1, x.2.2 ++ 10 :: tl)) := by
  unfold extractWeights
  have hp : [69] <+: b :: s ++ 10 :: tl ↔ [69] <+: b :: s := by
    rw [List.cons_append]
    simp only [List.cons_prefix_cons, List.nil_prefix]
  simp only [hp]
  split_ifs with h1 h2
  · rw [nonWeightEntries_stops]
    cases nonWeightEntries (b :: s) with
    | none => rfl
    | some rest =>
      simp only [Option.map_some]
      rw [orParseErr_stops u32Entry_stops]
      cases orParseErr "number of weights entry" (u32Entry rest) with
      | err e => rfl
      | panic => rfl
      | ok x =>
        simp only [Outcome.map, Outcome.bind_ok]
        rw [orParseErr_stops (count_stops (doubleEntry_stops c.float) x.2)]
        cases orParseErr "event weight entries" (count c.float.doubleEntry x.2 x.1) with
        | err e => rfl
        | panic => rfl
        | ok y =>
          obtain ⟨y1, ws⟩ := y
          cases ws <;> rfl
  · rw [nonWeightEntries_stops]
    cases nonWeightEntries (b :: s) with
    | none => rfl
    | some rest =>
      simp only [Option.map_some]
      rw [orParseErr_stops u32Entry_stops]
      cases orParseErr "number of weights entry" (u32Entry rest) with
      | err e => rfl
      | panic => rfl
      | ok x =>
        simp only [Outcome.map, Outcome.bind_ok]
        rw [orParseErr_stops (doubleEntry_stops c.float)]
        cases orParseErr "event weight entry" (c.float.doubleEntry x.1) <;> rfl
  · rfl

theorem namesLoop_stops (c : ParseCtx K V) (htl : (34 : UInt8) ∉ tl) (ws : List K) : ∀ (s : Bytes) (b : EventBuilder K V)
    (seen : List Bytes), namesLoop c ws (s ++ 10 :: tl) b seen = (namesLoop c ws s b seen).map (fun x => (x.1 ++ 10 :: tl, x.2)) := by
  induction ws with
  | nil => intro s b seen; rfl
  | cons w ws ih =>
    intro s b seen
    simp only [namesLoop]
    rw [orParseErr_stops (stringEntry_stops htl)]
    cases orParseErr "weight name entry" (stringEntry s) with
    | err e => rfl
    | panic => rfl
    | ok x =>
      simp only [Outcome.map, Outcome.bind_ok]
      split_ifs
      · cases c.float.n64 c.debug w with
        | err e => rfl
        | panic => rfl
        | ok w => exact ih _ _ _
      · exact ih _ _ _

theorem parseNamesLine_stops (c : ParseCtx K V) (htl : (34 : UInt8) ∉ tl) (a : UInt8) (s : Bytes) (ws : List K) (b : EventBuilder K V) :
    parseNamesLine c (a :: s ++ 10 :: tl) ws b = (parseNamesLine c (a :: s) ws b).map (fun x => (x.1 ++ 10 :: tl, x.2)) := by
  unfold parseNamesLine
  simp only [List.cons_append, List.drop_succ_cons, List.drop_zero]
  split_ifs
  · rfl
  · rw [orParseErr_stops u32Entry_stops]
    cases orParseErr "number of weight names entry" (u32Entry s) with
    | err e => rfl
    | panic => rfl
    | ok x =>
      simp only [Outcome.map, Outcome.bind_ok]
      rw [namesLoop_stops c htl]
      cases namesLoop c (ws.take x.2) x.1 b [] with
      | err e => rfl
      | panic => rfl
      | ok y =>
        simp only [Outcome.map, Outcome.bind_ok]
        cases c.names.find? (fun n => n ∉ y.2.2) <;> rfl

theorem parseUnitsLine_stops (a : UInt8) (s : Bytes) :
    parseUnitsLine (a :: s ++ 10 :: tl) = (parseUnitsLine (a :: s)).map (fun x => (x.1, x.2 ++ 10 :: tl)) := by
  unfold parseUnitsLine
  simp only [List.cons_append, List.drop_succ_cons, List.drop_zero]
  rw [orParseErr_stops anyEntry_stops]
  cases orParseErr "energy unit entry" (anyEntry s) with
  | err e => rfl
  | panic => rfl
  | ok x =>
    simp only [Outcome.map, Outcome.bind_ok]
    split_ifs <;> rfl

theorem bind_stops {α β : Type*} {p : Bytes → PResult α} (h : Stops tl p) (what : String) (s : Bytes)
    {f : Bytes × α → Outcome ReadError (Bytes × β)}
    (hf : ∀ r a, f (r ++ 10 :: tl, a) = (f (r, a)).map (fun x => (x.1 ++ 10 :: tl, x.2))) :
    (orParseErr what (p (s ++ 10 :: tl))).bind f = ((orParseErr what (p s)).bind f).map (fun x => (x.1 ++ 10 :: tl, x.2)) := by
  rw [orParseErr_stops h]
  cases orParseErr what (p s) with
  | err e => rfl
  | panic => rfl
  | ok x => exact hf x.1 x.2

theorem parseParticleLine_stops (c : ParseCtx K V) (a : UInt8) (s : Bytes) (b : EventBuilder K V) :
    parseParticleLine c (a :: s ++ 10 :: tl) b = (parseParticleLine c (a :: s) b).map (fun x => (x.1 ++ 10 :: tl, x.2)) := by
  unfold parseParticleLine
  simp only [List.cons_append, List.drop_succ_cons, List.drop_zero]
  have hd := doubleEntry_stops (tl := tl) c.float
  apply bind_stops anyEntry_stops; intro r _
  apply bind_stops i32Entry_stops; intro r id
  apply bind_stops hd; intro r px
  apply bind_stops hd; intro r py
  apply bind_stops hd; intro r pz
  apply bind_stops hd; intro r e
  apply bind_stops anyEntry_stops; intro r _
  apply bind_stops i32Entry_stops; intro r status
  simp only
  split_ifs
  · rfl
  · cases c.float.n64 c.debug e <;> try rfl
    cases c.float.n64 c.debug px <;> try rfl
    cases c.float.n64 c.debug py <;> try rfl
    cases c.float.n64 c.debug pz <;> rfl

theorem parseLine_stops (c : ParseCtx K V) (htl : (34 : UInt8) ∉ tl) (ws : List K) (b : EventBuilder K V) (unit : EnergyUnit) {s : Bytes}
    (hs : ¬ Blank s) :
    parseLine c ws b unit (s ++ 10 :: tl) = (parseLine c ws b unit s).map (fun x => (x.1 ++ 10 :: tl, x.2)) := by
  have h1 : trimStart s ≠ [] := fun h => hs (trimStart_eq_nil.1 h)
  have h2 : trimStart (s ++ 10 :: tl) ≠ [] := fun h => hs (blank_split (trimStart_eq_nil.1 h)).1
  cases s with
  | nil => exact absurd Blank.nil hs
  | cons a s =>
    have hh : (a :: s ++ 10 :: tl).head? = (a :: s).head? := rfl
    unfold parseLine
    simp only [hh]
    split
    · rfl
    · rfl
    · rfl
    · rfl
    · split_ifs
      · rw [parseNamesLine_stops c htl]
        cases parseNamesLine c (a :: s) ws b <;> rfl
      · rfl
    · rw [parseParticleLine_stops]
      cases parseParticleLine c (a :: s) b <;> rfl
    · rw [parseUnitsLine_stops]
      cases parseUnitsLine (a :: s) <;> rfl
    · rw [if_pos h1, if_pos h2]; rfl

/-! ### The loop over lines -/

theorem parseLine_blank (c : ParseCtx K V) (ws : List K) (b : EventBuilder K V) (unit : EnergyUnit) {s : Bytes} (hs : Blank s) :
    parseLine c ws b unit s = .ok (s, b, unit) := by
  have ht := trimStart_blank hs
  obtain ⟨cs, rfl, hcs⟩ := hs
  cases cs with
  | nil => rfl
  | cons ch cs =>
    obtain ⟨x, r, rfl, hx⟩ := isBlank_first (hcs ch (by simp))
    have hn : x ≠ 86 ∧ x ≠ 70 ∧ x ≠ 72 ∧ x ≠ 67 ∧ x ≠ 78 ∧ x ≠ 80 ∧ x ≠ 85 := by
      rcases hx with hx | rfl | rfl | rfl | rfl
      · refine ⟨?_, ?_, ?_, ?_, ?_, ?_, ?_⟩ <;> rintro rfl <;> revert hx <;> decide
      all_goals decide
    unfold parseLine
    simp only [ht]
    rw [List.flatten_cons, List.cons_append, List.head?_cons]
    obtain ⟨n1, n2, n3, n4, n5, n6, n7⟩ := hn
    split
    all_goals first | (rename_i h; simp only [Option.some.injEq] at h; exact absurd h ‹_›) | skip
    simp

theorem blank_afterByte {s r : Bytes} (hs : Blank s) (h : afterByte 10 s = some r) : Blank r := by
  obtain ⟨l, rfl, -⟩ := afterByte_eq h
  exact (blank_split hs).2

/-- White space at the end is skipped. -/
theorem parseLoop_blank (c : ParseCtx K V) (ws : List K) (b : EventBuilder K V) (unit : EnergyUnit) : ∀ (n : Nat) {s : Bytes}, Blank s →
    parseLoop c ws n b unit s = .ok (b, unit) := by
  intro n
  induction n with
  | zero => intro s _; rfl
  | succ n ih =>
    intro s hs
    simp only [parseLoop]
    cases h : afterByte 10 s with
    | none => rfl
    | some r =>
      have hr := blank_afterByte hs h
      simp only [parseLine_blank c ws b unit hr, Outcome.bind_ok]
      exact ih hr

/-- A text after the last line that has no effect. -/
def Ignored (tl : Bytes) : Prop := Blank tl ∨ ∃ ws, tl = Classify.footer .hepmc ++ ws ∧ Blank ws

theorem parseLoop_ignored (c : ParseCtx K V) (ws : List K) (b : EventBuilder K V) (unit : EnergyUnit) (n : Nat) {tl : Bytes}
    (h : Ignored tl) : parseLoop c ws n b unit (10 :: tl) = .ok (b, unit) := by
  rcases h with h | ⟨wsp, rfl, h⟩
  · apply parseLoop_blank
    exact blank_cons_char (c := [10]) (Or.inl ⟨10, rfl, by decide⟩) h
  · cases n with
    | zero => rfl
    | succ n =>
      have h1 : afterByte 10 (10 :: (Classify.footer .hepmc ++ wsp)) = some (Classify.footer .hepmc ++ wsp) := by
        simp [afterByte]
      have h2 : parseLine c ws b unit (Classify.footer .hepmc ++ wsp) = .ok (Classify.footer .hepmc ++ wsp, b, unit) := rfl
      simp only [parseLoop, h1, h2, Outcome.bind_ok]
      cases n with
      | zero => rfl
      | succ n =>
        have h3 : afterByte 10 (Classify.footer .hepmc ++ wsp) = afterByte 10 wsp := afterByte_append (by decide +kernel) _
        have := parseLoop_blank c ws b unit (n + 1) h
        simp only [parseLoop] at this ⊢
        rw [h3]
        exact this

theorem ignored_noQuote {tl : Bytes} (h : Ignored tl) : (34 : UInt8) ∉ tl := by
  have hb : ∀ s, Blank s → (34 : UInt8) ∉ s := by
    rintro s ⟨cs, rfl, hcs⟩ hm
    obtain ⟨c, hc, hm⟩ := List.mem_flatten.1 hm
    rcases hcs c hc with ⟨b, rfl, hb⟩ | ⟨b0, b1, rfl, hb⟩ | ⟨b0, b1, b2, rfl, hb⟩
    · simp only [List.mem_singleton] at hm
      subst hm
      revert hb; decide
    · simp only [isWs2, Bool.and_eq_true, Bool.or_eq_true, decide_eq_true_eq] at hb
      obtain ⟨rfl, rfl | rfl⟩ := hb <;> revert hm <;> decide
    · simp only [isWs3, Bool.or_eq_true, Bool.and_eq_true, decide_eq_true_eq] at hb
      simp only [List.mem_cons, List.not_mem_nil, or_false] at hm
      rcases hm with rfl | rfl | rfl <;> simp at hb
  rcases h with h | ⟨ws, rfl, h⟩
  · exact hb _ h
  · rw [List.mem_append, not_or]
    exact ⟨by decide +kernel, hb _ h⟩

theorem parseLoop_stops (c : ParseCtx K V) (ws : List K) {tl : Bytes} (htl : Ignored tl) : ∀ (n : Nat) (b : EventBuilder K V)
    (unit : EnergyUnit) (s : Bytes), (∀ a y, s = a ++ 10 :: y → ¬ Blank y) → s.length < n → ∀ m, s.length + tl.length + 1 < m →
    parseLoop c ws m b unit (s ++ 10 :: tl) = parseLoop c ws n b unit s := by
  intro n
  induction n with
  | zero => intro b unit s _ h; omega
  | succ n ih =>
    intro b unit s hs hn m hm
    obtain ⟨m, rfl⟩ : ∃ g, m = g + 1 := ⟨m - 1, by omega⟩
    cases ha : afterByte 10 s with
    | none =>
      have hr : parseLoop c ws (n + 1) b unit s = .ok (b, unit) := by simp only [parseLoop, ha]
      have h1 : afterByte 10 (s ++ 10 :: tl) = afterByte 10 (10 :: tl) := afterByte_append (afterByte_none ha) _
      have := parseLoop_ignored c ws b unit (m + 1) htl
      rw [hr, ← this]
      simp only [parseLoop, h1]
    | some y =>
      obtain ⟨l, hl, hnl⟩ := afterByte_eq ha
      have h1 : afterByte 10 (s ++ 10 :: tl) = some (y ++ 10 :: tl) := by
        rw [hl, List.append_assoc, afterByte_append hnl]
        simp [afterByte]
      simp only [parseLoop, ha, h1]
      rw [parseLine_stops c (ignored_noQuote htl) ws b unit (hs l y hl)]
      cases hp : parseLine c ws b unit y with
      | err e => rfl
      | panic => rfl
      | ok x =>
        obtain ⟨r, b1, u1⟩ := x
        simp only [Outcome.map, Outcome.bind_ok]
        obtain ⟨nl, outs, e, -⟩ := parseLine_ok c hp
        obtain ⟨z, hz⟩ := e.suffix
        have hlen : s.length = l.length + 1 + z.length + r.length := by
          rw [hl, ← hz]; simp; omega
        apply ih
        · intro a y' hy'
          apply hs (l ++ 10 :: z ++ a) y'
          rw [hl, ← hz, hy']
          simp
        · omega
        · omega

theorem InLine.suffix {α : Type*} {p : Bytes → PResult α} (hp : InLine p) (s r : Bytes) (a : α) (h : p s = some (r, a)) : r <:+ s := by
  obtain ⟨t, ht, -⟩ := hp s r a h
  exact ⟨t, ht.symm⟩

theorem extractWeights_suffix (c : ParseCtx K V) {record : Bytes} {w : K} {all : List K} {rest : Bytes}
    (h : extractWeights c record = .ok (w, all, rest)) : rest <:+ record := by
  obtain ⟨-, r, n, h1, h2⟩ := (extractWeights_eq c record).1 h
  have hr : rest <:+ r := by
    rcases h2 with ⟨-, -, h2⟩ | ⟨-, -, h2⟩
    · exact count_suffix (InLine.suffix (doubleEntry_inLine c.float)) h2
    · obtain ⟨t, ht, -⟩ := doubleEntry_inLine c.float _ _ _ h2
      exact ⟨t, ht.symm⟩
  refine hr.trans ?_
  unfold headEntries nonWeightEntries at h1
  cases g1 : count anyEntry 10 (record.drop 1) with
  | none => rw [g1] at h1; simp at h1
  | some x =>
    simp only [g1] at h1
    cases g2 : u32Entry x.1 with
    | none => simp [g2] at h1
    | some y =>
      simp only [g2] at h1
      cases g3 : count anyEntry y.2 y.1 with
      | none => simp [g3] at h1
      | some z =>
        simp only [g3] at h1
        obtain ⟨t1, e1, -⟩ := u32Entry_inLine _ _ _ h1
        obtain ⟨t2, e2, -⟩ := u32Entry_inLine _ _ _ g2
        have s1 : r <:+ z.1 := ⟨t1, e1.symm⟩
        have s2 := count_suffix (InLine.suffix anyEntry_inLine) g3
        have s3 : y.1 <:+ x.1 := ⟨t2, e2.symm⟩
        have s4 := count_suffix (InLine.suffix anyEntry_inLine) g1
        exact s1.trans (s2.trans (s3.trans (s4.trans (List.drop_suffix _ _))))

/-- Parsing a record that ends with a line which is not blank does not depend on whether the footer or white space follows. -/
theorem parse_stops [Zero K] [LinearOrder V] (c : ParseCtx K V) {s : Bytes} (hne : s ≠ []) (hs : ∀ a y, s = a ++ 10 :: y → ¬ Blank y)
    {tl : Bytes} (htl : Ignored tl) : parse c (s ++ 10 :: tl) = parse c s := by
  cases s with
  | nil => exact absurd rfl hne
  | cons a s =>
    unfold parse
    rw [extractWeights_stops]
    cases hx : extractWeights c (a :: s) with
    | err e => rfl
    | panic => rfl
    | ok x =>
      obtain ⟨w, all, rest⟩ := x
      simp only [Outcome.map, Outcome.bind_ok]
      cases c.float.n64 c.debug w with
      | err e => rfl
      | panic => rfl
      | ok w1 =>
        simp only [Outcome.bind_ok]
        have hsuf : rest <:+ a :: s := by
          exact extractWeights_suffix c hx
        obtain ⟨z, hz⟩ := hsuf
        rw [parseLoop_stops c all htl (rest.length + 1) _ _ rest]
        · intro p y hy
          apply hs (z ++ p) y
          rw [← hz, hy, List.append_assoc]
        · omega
        · simp

end HepMC

end Cres

import Mathlib.Data.List.TakeDrop
import Verif.Model.HepMC
import Verif.Proofs.Parsing

/-!
Facts about parsing and updating HepMC2 records.
-/

namespace Cres

variable {K V α : Type*}

/-! ### What entries consume -/

/-- A parser that consumes a part of a line. -/
def InLine (p : Bytes → PResult α) : Prop := ∀ s r a, p s = some (r, a) → ∃ t, s = t ++ r ∧ (10 : UInt8) ∉ t

theorem not_newline_of_blank {sp : Bytes} (h : ∀ b ∈ sp, isBlank b = true) : (10 : UInt8) ∉ sp := by
  intro hm
  have := h 10 hm
  simp [isBlank] at this

theorem not_newline_of_noWs {t : Bytes} (h : ∀ b ∈ t, isAsciiWs b = false) : (10 : UInt8) ∉ t := by
  intro hm
  have := h 10 hm
  simp [isAsciiWs] at this

theorem not_newline_of_digits {t : Bytes} (h : ∀ b ∈ t, isDigit b = true) : (10 : UInt8) ∉ t := by
  intro hm
  have := h 10 hm
  simp [isDigit] at this

theorem anyEntry_inLine : InLine anyEntry := by
  intro s r a h
  obtain ⟨sp, h1, h2, h3, h4, h5, rfl⟩ := anyEntry_eq_some.1 h
  refine ⟨sp ++ a, rfl, ?_⟩
  simp [not_newline_of_blank h2, not_newline_of_noWs h4]

theorem u32Entry_inLine : InLine u32Entry := by
  intro s r a h
  obtain ⟨sp, ds, h1, h2, h3, h4, h5, h6, h7, rfl⟩ := u32Entry_eq_some.1 h
  refine ⟨sp ++ ds, rfl, ?_⟩
  simp [not_newline_of_blank h2, not_newline_of_digits h4]

theorem doubleEntry_inLine (F : FloatFormat K) : InLine F.doubleEntry := by
  intro s r a h
  unfold FloatFormat.doubleEntry at h
  cases hs : space1 s with
  | none => simp [hs] at h
  | some x =>
    simp only [hs] at h
    obtain ⟨sp, h1, h2, h3, rfl⟩ := space1_eq_some.1 hs
    obtain ⟨t, rfl, h5, h6, h7⟩ := double_append h
    refine ⟨sp ++ t, by simp, ?_⟩
    simp [not_newline_of_blank h2, not_newline_of_noWs h6]

theorem parseI32_inLine : InLine parseI32 := by
  intro s r a h
  unfold parseI32 at h
  have h0 := optSign_append s
  have hs : (10 : UInt8) ∉ (optSign s).1 := by
    cases s with
    | nil => simp [optSign]
    | cons b s =>
      by_cases hb : (b = 43 || b = 45) = true
      · simp only [optSign, hb, if_true, List.mem_singleton]
        rintro rfl
        simp at hb
      · simp [optSign, hb]
  obtain ⟨h1, h2, -⟩ := span_spec isDigit (optSign s).2
  generalize (optSign s).2.span isDigit = y at *
  obtain ⟨ds, u⟩ := y
  have key : ∀ x : Bytes, u = x → ∃ t, s = t ++ x ∧ (10 : UInt8) ∉ t := by
    rintro x rfl
    refine ⟨(optSign s).1 ++ ds, ?_, ?_⟩
    · conv_lhs => rw [← h0, h1]
      simp
    · rw [List.mem_append]
      rintro (h | h)
      · exact hs h
      · exact not_newline_of_digits h2 h
  cases ds with
  | nil => simp at h
  | cons d ds =>
    dsimp only at h
    generalize (if (optSign s).1 = [45] then -(digitsValue (d :: ds) : ℤ) else digitsValue (d :: ds)) = v at h
    by_cases hv : -(2 ^ 31) ≤ v ∧ v < 2 ^ 31
    · rw [if_pos hv] at h
      simp only [Option.some.injEq, Prod.mk.injEq] at h
      exact key r h.1
    · rw [if_neg hv] at h
      simp at h

theorem i32Entry_inLine : InLine i32Entry := by
  intro s r a h
  unfold i32Entry at h
  cases hs : space1 s with
  | none => simp [hs] at h
  | some x =>
    simp only [hs] at h
    obtain ⟨sp, h1, h2, h3, rfl⟩ := space1_eq_some.1 hs
    obtain ⟨t, rfl, h5⟩ := parseI32_inLine _ _ _ h
    exact ⟨sp ++ t, by simp, by simp [not_newline_of_blank h2, h5]⟩

theorem InLine.trans {t1 t2 : Bytes} (h1 : (10 : UInt8) ∉ t1) (h2 : (10 : UInt8) ∉ t2) : (10 : UInt8) ∉ t1 ++ t2 := by
  simp [h1, h2]

/-! ### Entries before a given entry do not depend on what follows -/

/-- A parser of entries: it needs a blank at the beginning, and if a further entry follows, the result does not depend on
what that is. -/
structure Cuts (p : Bytes → PResult α) : Prop where
  blank : ∀ s x, p s = some x → StartsBlank s
  cut : ∀ s r a, p s = some (r, a) → StartsBlank r →
    ∃ t, s = t ++ r ∧ (10 : UInt8) ∉ t ∧ ∀ r', StartsBlank r' → p (t ++ r') = some (r', a)

theorem anyEntry_cuts : Cuts anyEntry := by
  constructor
  · rintro s ⟨r, t⟩ h
    unfold anyEntry at h
    cases hs : space1 s with
    | none => simp [hs] at h
    | some x => exact startsBlank_of_space1 hs
  · intro s r a h _
    obtain ⟨sp, h1, h2, h3, h4, h5, rfl⟩ := anyEntry_eq_some.1 h
    exact ⟨sp ++ a, rfl, by simp [not_newline_of_blank h2, not_newline_of_noWs h4],
      fun r' hr' => anyEntry_eq_some.2 ⟨sp, h1, h2, h3, h4, hr'.tailOk, rfl⟩⟩

theorem StartsBlank.not_digit {s : Bytes} (h : StartsBlank s) : ∀ b, s.head? = some b → isDigit b = false := by
  obtain ⟨b, r, rfl, hb⟩ := h
  intro c hc
  simp at hc
  subst hc
  simp [isBlank] at hb
  rcases hb with rfl | rfl <;> decide

theorem u32Entry_cuts : Cuts u32Entry := by
  constructor
  · rintro s ⟨r, t⟩ h
    unfold u32Entry at h
    cases hs : space1 s with
    | none => simp [hs] at h
    | some x => exact startsBlank_of_space1 hs
  · intro s r a h _
    obtain ⟨sp, ds, h1, h2, h3, h4, h5, h6, h7, rfl⟩ := u32Entry_eq_some.1 h
    exact ⟨sp ++ ds, rfl, by simp [not_newline_of_blank h2, not_newline_of_digits h4],
      fun r' hr' => u32Entry_eq_some.2 ⟨sp, ds, h1, h2, h3, h4, hr'.not_digit, h6, h7, rfl⟩⟩

theorem doubleEntry_blank (F : FloatFormat K) (s : Bytes) (x : Bytes × K) (h : F.doubleEntry s = some x) :
    StartsBlank s := by
  unfold FloatFormat.doubleEntry at h
  cases hs : space1 s with
  | none => simp [hs] at h
  | some x => exact startsBlank_of_space1 hs

/-- Entries in sequence. -/
theorem Cuts.count_cut {p : Bytes → PResult α} (hp : Cuts p) : ∀ (n : Nat) (s r : Bytes) (as : List α),
    count p n s = some (r, as) → StartsBlank r →
    ∃ t, s = t ++ r ∧ (10 : UInt8) ∉ t ∧ StartsBlank s ∧ ∀ r', StartsBlank r' → count p n (t ++ r') = some (r', as) := by
  intro n
  induction n with
  | zero =>
    intro s r as h hr
    simp only [count, Option.some.injEq, Prod.mk.injEq] at h
    obtain ⟨rfl, rfl⟩ := h
    exact ⟨[], by simp, by simp, hr, fun r' _ => by simp [count]⟩
  | succ n ih =>
    intro s r as h hr
    simp only [count] at h
    cases hs : p s with
    | none => simp [hs] at h
    | some x =>
      obtain ⟨r1, a⟩ := x
      simp only [hs] at h
      cases hc : count p n r1 with
      | none => simp [hc] at h
      | some y =>
        obtain ⟨r2, as'⟩ := y
        simp only [hc, Option.some.injEq, Prod.mk.injEq] at h
        obtain ⟨rfl, rfl⟩ := h
        obtain ⟨t, h1, h2, h3, h4⟩ := ih r1 r2 as' hc hr
        obtain ⟨t1, g1, g2, g3⟩ := hp.cut s r1 a hs h3
        refine ⟨t1 ++ t, by rw [g1, h1]; simp, by simp [g2, h2], hp.blank s _ hs, ?_⟩
        intro r' hr'
        have hb : StartsBlank (t ++ r') := by
          cases t with
          | nil => exact hr'
          | cons b t =>
            obtain ⟨b', r'', e, hb'⟩ := h3
            rw [h1] at e
            simp only [List.cons_append, List.cons.injEq] at e
            exact ⟨b, t ++ r', rfl, e.1 ▸ hb'⟩
        simp only [List.append_assoc, count, g3 _ hb, h4 _ hr']

namespace HepMC

/-- The entries up to and including the number of weights. -/
def headEntries (record : Bytes) : PResult Nat :=
  match nonWeightEntries record with
  | none => none
  | some r => u32Entry r

theorem headEntries_cut {record r : Bytes} {n : Nat} (h : headEntries record = some (r, n)) (hE : [69] <+: record)
    (hr : StartsBlank r) :
    ∃ t, record = t ++ r ∧ [69] <+: t ∧ (10 : UInt8) ∉ t ∧ ∀ r', StartsBlank r' → headEntries (t ++ r') = some (r', n) := by
  obtain ⟨rec', rfl⟩ := hE
  unfold headEntries nonWeightEntries at h
  simp only [List.cons_append, List.nil_append, List.drop_succ_cons, List.drop_zero] at h
  cases h1 : count anyEntry 10 rec' with
  | none => simp [h1] at h
  | some x1 =>
    obtain ⟨r1, a1⟩ := x1
    simp only [h1] at h
    cases h2 : u32Entry r1 with
    | none => simp [h2] at h
    | some x2 =>
      obtain ⟨r2, n2⟩ := x2
      simp only [h2] at h
      cases h3 : count anyEntry n2 r2 with
      | none => simp [h3] at h
      | some x3 =>
        obtain ⟨r3, a3⟩ := x3
        simp only [h3] at h
        have b1 := u32Entry_cuts.blank _ _ h2
        have b3 := u32Entry_cuts.blank _ _ h
        obtain ⟨t3, e3, l3, b2, g3⟩ := anyEntry_cuts.count_cut _ _ _ _ h3 b3
        obtain ⟨t1, e1, l1, -, g1⟩ := anyEntry_cuts.count_cut _ _ _ _ h1 b1
        obtain ⟨t2, e2, l2, g2⟩ := u32Entry_cuts.cut _ _ _ h2 b2
        obtain ⟨t4, e4, l4, g4⟩ := u32Entry_cuts.cut _ _ _ h hr
        -- blanks at the start of the parts
        have sb : ∀ {t s s' : Bytes}, StartsBlank (t ++ s) → StartsBlank s' → StartsBlank (t ++ s') := by
          intro t s s' ha hb
          cases t with
          | nil => exact hb
          | cons c t =>
            obtain ⟨b, r, e, hb'⟩ := ha
            simp only [List.cons_append, List.cons.injEq] at e
            exact ⟨c, t ++ s', rfl, e.1 ▸ hb'⟩
        refine ⟨69 :: (t1 ++ t2 ++ t3 ++ t4), ?_, ⟨t1 ++ t2 ++ t3 ++ t4, rfl⟩, ?_, ?_⟩
        · rw [e1, e2, e3, e4]
          simp
        · simp [l1, l2, l3, l4]
        · intro r' hr'
          have c4 : StartsBlank (t4 ++ r') := sb (e4 ▸ b3) hr'
          have c3 : StartsBlank (t3 ++ (t4 ++ r')) := sb (e3 ▸ b2) c4
          have c2 : StartsBlank (t2 ++ (t3 ++ (t4 ++ r'))) := sb (e2 ▸ b1) c3
          unfold headEntries nonWeightEntries
          simp only [List.cons_append, List.drop_succ_cons, List.drop_zero, List.append_assoc]
          rw [g1 _ c2]
          simp only
          rw [g2 _ c3]
          simp only
          rw [g3 _ c4]
          simp only
          exact g4 _ hr'

/-- `extract_weights` in terms of the entries. -/
theorem extractWeights_eq (c : ParseCtx K V) (record : Bytes) {w : K} {ws : List K} {rest : Bytes} :
    extractWeights c record = .ok (w, ws, rest) ↔ [69] <+: record ∧ ∃ r n, headEntries record = some (r, n) ∧
      ((c.multi = true ∧ ws.head? = some w ∧ count c.float.doubleEntry n r = some (rest, ws)) ∨
       (c.multi = false ∧ ws = [] ∧ c.float.doubleEntry r = some (rest, w))) := by
  unfold extractWeights headEntries
  by_cases hE : [69] <+: record
  · simp only [hE, not_true_eq_false, if_false, true_and]
    cases h1 : nonWeightEntries record with
    | none => simp
    | some r1 =>
      simp only
      cases h2 : u32Entry r1 with
      | none => simp [orParseErr]
      | some x =>
        obtain ⟨r2, n⟩ := x
        simp only [orParseErr, Outcome.bind_ok, Option.some.injEq, Prod.mk.injEq]
        cases hm : c.multi with
        | true =>
          simp only [if_true, true_and, Bool.true_eq_false, false_and, or_false]
          cases h3 : count c.float.doubleEntry n r2 with
          | none =>
            simp only [Outcome.bind_err, reduceCtorEq, false_iff]
            rintro ⟨r, n', ⟨rfl, rfl⟩, -, h⟩
            rw [h3] at h
            simp at h
          | some y =>
            obtain ⟨r3, ws'⟩ := y
            simp only [Outcome.bind_ok]
            cases ws' with
            | nil =>
              simp only [reduceCtorEq, false_iff]
              rintro ⟨r, n', ⟨rfl, rfl⟩, h, h'⟩
              rw [h3] at h'
              simp only [Option.some.injEq, Prod.mk.injEq] at h'
              rw [← h'.2] at h
              simp at h
            | cons w' ws' =>
              simp only [Outcome.ok.injEq, Prod.mk.injEq]
              constructor
              · rintro ⟨rfl, rfl, rfl⟩
                exact ⟨r2, n, ⟨rfl, rfl⟩, rfl, h3⟩
              · rintro ⟨r, n', ⟨rfl, rfl⟩, h, h'⟩
                rw [h3] at h'
                simp only [Option.some.injEq, Prod.mk.injEq] at h'
                obtain ⟨rfl, rfl⟩ := h'
                simp only [List.head?_cons, Option.some.injEq] at h
                exact ⟨h, rfl, rfl⟩
        | false =>
          simp only [Bool.false_eq_true, if_false, false_and, false_or, true_and]
          cases h3 : c.float.doubleEntry r2 with
          | none =>
            simp only [Outcome.bind_err, reduceCtorEq, false_iff]
            rintro ⟨r, n', ⟨rfl, rfl⟩, -, h⟩
            rw [h3] at h
            simp at h
          | some y =>
            obtain ⟨r3, w'⟩ := y
            simp only [Outcome.bind_ok, Outcome.ok.injEq, Prod.mk.injEq]
            constructor
            · rintro ⟨rfl, rfl, rfl⟩
              exact ⟨r2, n, ⟨rfl, rfl⟩, rfl, h3⟩
            · rintro ⟨r, n', ⟨rfl, rfl⟩, rfl, h'⟩
              rw [h3] at h'
              simp only [Option.some.injEq, Prod.mk.injEq] at h'
              exact ⟨h'.2, rfl, h'.1⟩
  · simp [hE]

/-! ### Lines -/

/-- A weight that `n64` accepts. -/
def Accepts (c : ParseCtx K V) (w : K) : Prop := (c.debug && c.float.isNaN w) = false

theorem n64_eq_ok {c : ParseCtx K V} {w x : K} :
    (c.float.n64 c.debug w : Outcome ReadError K) = .ok x ↔ Accepts c w ∧ x = w := by
  unfold FloatFormat.n64 Accepts
  by_cases h : (c.debug && c.float.isNaN w) = true
  · simp [h]
  · rw [if_neg h]
    simp only [Outcome.ok.injEq]
    constructor
    · rintro rfl
      exact ⟨by simpa using h, rfl⟩
    · rintro ⟨-, rfl⟩
      rfl

theorem accepts_of_finite (c : ParseCtx K V) {w : K} (h : c.float.finite w = true) : Accepts c w := by
  simp [Accepts, c.float.finite_not_nan w h]

theorem orParseErr_eq_ok {what : String} {x : PResult α} {y : Bytes × α} : orParseErr what x = .ok y ↔ x = some y := by
  cases x <;> simp [orParseErr]

/-- The weights whose names are requested. -/
def selected (names nms : List Bytes) (ws : List K) : List K :=
  ((nms.zip ws).filter (fun x => decide (x.1 ∈ names))).map Prod.snd

theorem namesLoop_ok (c : ParseCtx K V) (hm : c.multi = true) : ∀ (ws : List K) (record : Bytes) (b : EventBuilder K V)
    (seen : List Bytes) (r : Bytes) (b' : EventBuilder K V) (seen' : List Bytes),
    namesLoop c ws record b seen = .ok (r, b', seen') ↔
      ∃ nms, count stringEntry ws.length record = some (r, nms) ∧ (∀ w ∈ selected c.names nms ws, Accepts c w) ∧
        b' = ⟨b.weights ++ selected c.names nms ws, b.outgoingByPid⟩ ∧
        seen' = (nms.filter (fun n => decide (n ∈ c.names))).reverse ++ seen := by
  intro ws
  induction ws with
  | nil =>
    intro record b seen r b' seen'
    simp only [namesLoop, Outcome.ok.injEq, Prod.mk.injEq, count, List.length_nil, Option.some.injEq]
    constructor
    · rintro ⟨rfl, rfl, rfl⟩
      exact ⟨[], ⟨rfl, rfl⟩, by simp [selected], by simp [selected], by simp⟩
    · rintro ⟨nms, ⟨rfl, rfl⟩, -, rfl, rfl⟩
      simp [selected]
  | cons w ws ih =>
    intro record b seen r b' seen'
    simp only [namesLoop, List.length_cons, count]
    cases hs : stringEntry record with
    | none => simp [orParseErr]
    | some x =>
      obtain ⟨r1, name⟩ := x
      simp only [orParseErr, Outcome.bind_ok]
      by_cases hn : name ∈ c.names
      · simp only [hn, if_true, Outcome.bind_eq_ok, n64_eq_ok]
        constructor
        · rintro ⟨x, ⟨ha, rfl⟩, h⟩
          obtain ⟨nms, h1, h2, rfl, rfl⟩ := (ih _ _ _ _ _ _).1 h
          refine ⟨name :: nms, by simp [h1], ?_, ?_, ?_⟩
          · intro y hy
            simp only [selected, List.zip_cons_cons, List.filter_cons, hn, decide_true, if_true, List.map_cons,
              List.mem_cons] at hy
            rcases hy with rfl | hy
            · exact ha
            · exact h2 y hy
          · simp [selected, hn, EventBuilder.addWeight, hm]
          · simp [hn]
        · rintro ⟨nms, h1, h2, rfl, rfl⟩
          cases hc : count stringEntry ws.length r1 with
          | none => simp [hc] at h1
          | some y =>
            obtain ⟨r2, nms'⟩ := y
            simp only [hc, Option.some.injEq, Prod.mk.injEq] at h1
            obtain ⟨rfl, rfl⟩ := h1
            refine ⟨w, ⟨h2 w (by simp [selected, hn]), rfl⟩, (ih _ _ _ _ _ _).2 ⟨nms', hc, ?_, ?_, ?_⟩⟩
            · intro y hy
              exact h2 y (by simp only [selected, List.zip_cons_cons, List.filter_cons, hn, decide_true, if_true,
                List.map_cons, List.mem_cons]; exact Or.inr hy)
            · simp [selected, hn, EventBuilder.addWeight, hm]
            · simp [hn]
      · simp only [hn, if_false]
        rw [ih]
        constructor
        · rintro ⟨nms, h1, h2, rfl, rfl⟩
          refine ⟨name :: nms, by simp [h1], ?_, ?_, ?_⟩
          · simpa [selected, hn] using h2
          · simp [selected, hn]
          · simp [hn]
        · rintro ⟨nms, h1, h2, rfl, rfl⟩
          cases hc : count stringEntry ws.length r1 with
          | none => simp [hc] at h1
          | some y =>
            obtain ⟨r2, nms'⟩ := y
            simp only [hc, Option.some.injEq, Prod.mk.injEq] at h1
            obtain ⟨rfl, rfl⟩ := h1
            refine ⟨nms', rfl, ?_, ?_, ?_⟩
            · simpa [selected, hn] using h2
            · simp [selected, hn]
            · simp [hn]

theorem selected_take (names nms : List Bytes) (ws : List K) (n : Nat) (h : nms.length ≤ n) :
    selected names nms (ws.take n) = selected names nms ws := by
  unfold selected
  congr 2
  induction nms generalizing ws n with
  | nil => simp
  | cons a nms ih =>
    cases n with
    | zero => simp at h
    | succ n =>
      cases ws with
      | nil => simp
      | cons w ws =>
        simp only [List.take_succ_cons, List.zip_cons_cons]
        rw [ih ws n (by simpa using h)]

theorem count_length {p : Bytes → PResult α} : ∀ {n : Nat} {s r : Bytes} {as : List α},
    count p n s = some (r, as) → as.length = n := by
  intro n
  induction n with
  | zero =>
    intro s r as h
    simp only [count, Option.some.injEq, Prod.mk.injEq] at h
    simp [← h.2]
  | succ n ih =>
    intro s r as h
    simp only [count] at h
    cases hs : p s with
    | none => simp [hs] at h
    | some x =>
      simp only [hs] at h
      cases hc : count p n x.1 with
      | none => simp [hc] at h
      | some y =>
        simp only [hc, Option.some.injEq, Prod.mk.injEq] at h
        rw [← h.2, List.length_cons, ih hc]

/-- The names line. -/
theorem parseNamesLine_ok (c : ParseCtx K V) (hm : c.multi = true) (hn : c.names ≠ []) {record r : Bytes} {ws : List K}
    {b b' : EventBuilder K V} : parseNamesLine c record ws b = .ok (r, b') ↔
      ∃ rest nn nms, u32Entry (record.drop 1) = some (rest, nn) ∧
        count stringEntry (min nn ws.length) rest = some (r, nms) ∧ (∀ w ∈ selected c.names nms ws, Accepts c w) ∧
        (∀ n ∈ c.names, n ∈ nms) ∧ b' = ⟨b.weights ++ selected c.names nms ws, b.outgoingByPid⟩ := by
  unfold parseNamesLine
  simp only [hn, if_false]
  cases hu : u32Entry (record.drop 1) with
  | none => simp [orParseErr]
  | some x =>
    obtain ⟨rest, nn⟩ := x
    simp only [orParseErr, Outcome.bind_ok, Outcome.bind_eq_ok, Option.some.injEq, Prod.mk.injEq]
    constructor
    · rintro ⟨⟨r1, b1, seen⟩, h1, h2⟩
      obtain ⟨nms, g1, g2, rfl, rfl⟩ := (namesLoop_ok c hm _ _ _ _ _ _ _).1 h1
      have hl := count_length g1
      rw [List.length_take] at g1 hl
      rw [selected_take _ _ _ _ (by omega)] at g2 h2
      simp only [List.append_nil] at h2
      split at h2
      · simp at h2
      · rename_i hf
        simp only [Outcome.ok.injEq, Prod.mk.injEq] at h2
        obtain ⟨rfl, rfl⟩ := h2
        refine ⟨rest, nn, nms, ⟨rfl, rfl⟩, g1, g2, ?_, rfl⟩
        intro n hnn
        have := List.find?_eq_none.1 hf n hnn
        simp only [List.mem_reverse, List.mem_filter, decide_eq_true_eq] at this
        by_contra hc
        exact this (fun h => hc h.1)
    · rintro ⟨rest', nn', nms, ⟨rfl, rfl⟩, g1, g2, g3, rfl⟩
      have hl := count_length g1
      refine ⟨(r, ⟨b.weights ++ selected c.names nms ws, b.outgoingByPid⟩,
        (nms.filter (fun n => decide (n ∈ c.names))).reverse ++ []),
        (namesLoop_ok c hm _ _ _ _ _ _ _).2 ⟨nms, ?_, ?_, ?_, rfl⟩, ?_⟩
      · rw [List.length_take]
        exact g1
      · rwa [selected_take _ _ _ _ (by omega)]
      · rw [selected_take _ _ _ _ (by omega)]
      · have hf : c.names.find? (fun n => decide (n ∉ (nms.filter (fun n => decide (n ∈ c.names))).reverse ++ [])) = none := by
          rw [List.find?_eq_none]
          intro n hnn
          simp only [List.append_nil, List.mem_reverse, List.mem_filter, decide_eq_true_eq]
          exact fun h => h ⟨g3 n hnn, hnn⟩
        simp only [hf]

theorem drop_one_of_head? {s : Bytes} {b : UInt8} (h : s.head? = some b) : s = b :: s.drop 1 := by
  cases s with
  | nil => simp at h
  | cons x s => simp at h; simp [h]

/-- A particle line adds the same particle to every builder, and stays in its line. -/
theorem parseParticleLine_ok (c : ParseCtx K V) {record r : Bytes} {b b' : EventBuilder K V}
    (hh : record.head? = some 80) (h : parseParticleLine c record b = .ok (r, b')) :
    (∃ t, record = t ++ r ∧ (10 : UInt8) ∉ t) ∧ ∃ outs, ∀ b2 : EventBuilder K V, parseParticleLine c record b2 =
      .ok (r, ⟨b2.weights, b2.outgoingByPid ++ outs⟩) := by
  unfold parseParticleLine at h
  simp only [Outcome.bind_eq_ok, orParseErr_eq_ok] at h
  obtain ⟨⟨r1, x1⟩, h1, ⟨r2, x2⟩, h2, ⟨r3, x3⟩, h3, ⟨r4, x4⟩, h4, ⟨r5, x5⟩, h5, ⟨r6, x6⟩, h6, ⟨r7, x7⟩, h7,
    ⟨r8, x8⟩, h8, h9⟩ := h
  simp only at h2 h3 h4 h5 h6 h7 h8 h9
  obtain ⟨t1, e1, l1⟩ := anyEntry_inLine _ _ _ h1
  obtain ⟨t2, e2, l2⟩ := i32Entry_inLine _ _ _ h2
  obtain ⟨t3, e3, l3⟩ := doubleEntry_inLine _ _ _ _ h3
  obtain ⟨t4, e4, l4⟩ := doubleEntry_inLine _ _ _ _ h4
  obtain ⟨t5, e5, l5⟩ := doubleEntry_inLine _ _ _ _ h5
  obtain ⟨t6, e6, l6⟩ := doubleEntry_inLine _ _ _ _ h6
  obtain ⟨t7, e7, l7⟩ := anyEntry_inLine _ _ _ h7
  obtain ⟨t8, e8, l8⟩ := i32Entry_inLine _ _ _ h8
  have hl : ∃ t, record = t ++ r8 ∧ (10 : UInt8) ∉ t := by
    refine ⟨80 :: (t1 ++ t2 ++ t3 ++ t4 ++ t5 ++ t6 ++ t7 ++ t8), ?_, ?_⟩
    · rw [drop_one_of_head? hh, e1, e2, e3, e4, e5, e6, e7, e8]
      simp
    · simp [l1, l2, l3, l4, l5, l6, l7, l8]
  by_cases hst : x8 ≠ 1
  · rw [if_pos hst] at h9
    simp only [Outcome.ok.injEq, Prod.mk.injEq] at h9
    obtain ⟨rfl, rfl⟩ := h9
    refine ⟨hl, [], fun b2 => ?_⟩
    unfold parseParticleLine
    simp only [h1, h2, h3, h4, h5, h6, h7, h8, orParseErr, Outcome.bind_ok, if_pos hst, List.append_nil]
  · rw [if_neg hst] at h9
    simp only [Outcome.bind_eq_ok, n64_eq_ok] at h9
    obtain ⟨y1, ⟨a1, rfl⟩, y2, ⟨a2, rfl⟩, y3, ⟨a3, rfl⟩, y4, ⟨a4, rfl⟩, h9⟩ := h9
    simp only [Outcome.ok.injEq, Prod.mk.injEq] at h9
    obtain ⟨rfl, rfl⟩ := h9
    refine ⟨hl, [(x2, c.momentum y1 y2 y3 y4)], fun b2 => ?_⟩
    unfold parseParticleLine
    simp only [h1, h2, h3, h4, h5, h6, h7, h8, orParseErr, hst, Outcome.bind_ok, if_false, Outcome.bind_eq_ok, n64_eq_ok]
    exact ⟨y1, ⟨a1, rfl⟩, y2, ⟨a2, rfl⟩, y3, ⟨a3, rfl⟩, y4, ⟨a4, rfl⟩, rfl⟩

theorem parseUnitsLine_ok {record r : Bytes} {u : EnergyUnit} (hh : record.head? = some 85)
    (h : parseUnitsLine record = .ok (u, r)) : ∃ t, record = t ++ r ∧ (10 : UInt8) ∉ t := by
  unfold parseUnitsLine at h
  simp only [Outcome.bind_eq_ok, orParseErr_eq_ok] at h
  obtain ⟨⟨r1, x1⟩, h1, h2⟩ := h
  obtain ⟨t1, e1, l1⟩ := anyEntry_inLine _ _ _ h1
  have hr : r1 = r := by
    split_ifs at h2 <;> simp at h2 <;> exact h2.2
  subst hr
  refine ⟨85 :: t1, ?_, by simp [l1]⟩
  rw [drop_one_of_head? hh, e1]
  simp

theorem splitAtPattern_suffix {pat : Bytes} : ∀ {s pre post : Bytes}, splitAtPattern pat s = some (pre, post) →
    s = pre ++ pat ++ post := by
  intro s
  induction s with
  | nil =>
    intro pre post h
    simp only [splitAtPattern] at h
    split_ifs at h with hp
    simp only [Option.some.injEq, Prod.mk.injEq] at h
    simp [← h.1, ← h.2, hp]
  | cons b s ih =>
    intro pre post h
    simp only [splitAtPattern] at h
    split_ifs at h with hp
    · simp only [Option.some.injEq, Prod.mk.injEq] at h
      obtain ⟨rfl, rfl⟩ := h
      obtain ⟨u, hu⟩ := hp
      rw [← hu]
      simp
    · cases hs : splitAtPattern pat s with
      | none => simp [hs] at h
      | some x =>
        obtain ⟨p', q'⟩ := x
        simp only [hs, Option.some.injEq, Prod.mk.injEq] at h
        obtain ⟨rfl, rfl⟩ := h
        rw [ih hs]
        simp

theorem stringEntry_suffix {s r a : Bytes} (h : stringEntry s = some (r, a)) : r <:+ s := by
  unfold stringEntry at h
  cases hs : space1 s with
  | none => simp [hs] at h
  | some x =>
    simp only [hs] at h
    obtain ⟨sp, -, -, -, rfl⟩ := space1_eq_some.1 hs
    unfold string at h
    split at h
    · split at h
      · rename_i hp
        simp only [Option.some.injEq, Prod.mk.injEq] at h
        rw [h.1, h.2] at hp
        rw [splitAtPattern_suffix hp]
        exact ⟨sp ++ 34 :: (a ++ [34]), by simp⟩
      · simp at h
    · simp at h

theorem count_suffix {p : Bytes → PResult α} (hp : ∀ s r a, p s = some (r, a) → r <:+ s) : ∀ {n : Nat} {s r : Bytes}
    {as : List α}, count p n s = some (r, as) → r <:+ s := by
  intro n
  induction n with
  | zero =>
    intro s r as h
    simp only [count, Option.some.injEq, Prod.mk.injEq] at h
    exact h.1 ▸ List.suffix_rfl
  | succ n ih =>
    intro s r as h
    simp only [count] at h
    cases hs : p s with
    | none => simp [hs] at h
    | some x =>
      obtain ⟨r1, a⟩ := x
      simp only [hs] at h
      cases hc : count p n r1 with
      | none => simp [hc] at h
      | some y =>
        obtain ⟨r2, as'⟩ := y
        simp only [hc, Option.some.injEq, Prod.mk.injEq] at h
        rw [← h.1]
        exact (ih hc).trans (hp _ _ _ hs)

/-- The same context with other names. -/
def _root_.Cres.ParseCtx.withNames (c : ParseCtx K V) (sel : List Bytes) : ParseCtx K V := { c with names := sel }

@[simp] theorem withNames_float (c : ParseCtx K V) (sel : List Bytes) : (c.withNames sel).float = c.float := rfl
@[simp] theorem withNames_multi (c : ParseCtx K V) (sel : List Bytes) : (c.withNames sel).multi = c.multi := rfl
@[simp] theorem withNames_debug (c : ParseCtx K V) (sel : List Bytes) : (c.withNames sel).debug = c.debug := rfl
@[simp] theorem withNames_names (c : ParseCtx K V) (sel : List Bytes) : (c.withNames sel).names = sel := rfl
@[simp] theorem withNames_milli (c : ParseCtx K V) (sel : List Bytes) : (c.withNames sel).milli = c.milli := rfl
theorem withNames_self (c : ParseCtx K V) : c.withNames c.names = c := rfl
theorem withNames_accepts (c : ParseCtx K V) (sel : List Bytes) (w : K) : Accepts (c.withNames sel) w ↔ Accepts c w := Iff.rfl
theorem parseParticleLine_withNames (c : ParseCtx K V) (sel : List Bytes) : parseParticleLine (c.withNames sel) = parseParticleLine c := rfl
theorem extractWeights_withNames (c : ParseCtx K V) (sel : List Bytes) : extractWeights (c.withNames sel) = extractWeights c := rfl

/-- What one line does. `nl` holds the names in a names line that is used. -/
structure LineEffect (c : ParseCtx K V) (ws : List K) (record r : Bytes) (unit unit' : EnergyUnit)
    (nl : Option (List Bytes)) (outs : List (ℤ × V)) : Prop where
  suffix : r <:+ record
  inLine : nl = none → ∃ t, record = t ++ r ∧ (10 : UInt8) ∉ t
  names : ∀ nms, nl = some nms → c.multi = true ∧ c.names ≠ [] ∧ record.head? = some 78 ∧ (∀ n ∈ c.names, n ∈ nms) ∧
    ∃ rest nn, u32Entry (record.drop 1) = some (rest, nn) ∧ count stringEntry (min nn ws.length) rest = some (r, nms)
  noNames : nl = none → record.head? = some 78 → c.multi = false ∨ c.names = []
  other : ∀ (sel : List Bytes) (ws2 : List K) (b2 : EventBuilder K V), (sel = [] ↔ c.names = []) →
    ws2.length = ws.length → (∀ nms, nl = some nms → ∀ n ∈ sel, n ∈ nms) →
    (∀ nms, nl = some nms → ∀ w ∈ selected sel nms ws2, Accepts c w) →
    parseLine (c.withNames sel) ws2 b2 unit record =
      .ok (r, ⟨b2.weights ++ nl.elim [] (selected sel · ws2), b2.outgoingByPid ++ outs⟩, unit')

theorem parseLine_ok (c : ParseCtx K V) {ws : List K} {b b' : EventBuilder K V} {unit unit' : EnergyUnit}
    {record r : Bytes} (h : parseLine c ws b unit record = .ok (r, b', unit')) :
    ∃ nl outs, LineEffect c ws record r unit unit' nl outs ∧
      (∀ nms, nl = some nms → ∀ w ∈ selected c.names nms ws, Accepts c w) := by
  have key : r = record → unit' = unit → (record.head? = some 78 → c.multi = false ∨ c.names = []) →
      (∀ (sel : List Bytes) (ws2 : List K) (b2 : EventBuilder K V), (sel = [] ↔ c.names = []) →
        parseLine (c.withNames sel) ws2 b2 unit record = .ok (record, b2, unit)) →
      ∃ nl outs, LineEffect c ws record r unit unit' nl outs ∧
        (∀ nms, nl = some nms → ∀ w ∈ selected c.names nms ws, Accepts c w) := by
    rintro rfl rfl hn ho
    refine ⟨none, [], ⟨List.suffix_rfl, fun _ => ⟨[], by simp⟩, by simp, fun _ => hn, ?_⟩, by simp⟩
    intro sel ws2 b2 hsel _ _ _
    rw [ho sel ws2 b2 hsel]
    simp
  unfold parseLine at h
  split at h
  · rename_i hh
    simp only [Outcome.ok.injEq, Prod.mk.injEq] at h
    exact key h.1.symm h.2.2.symm (by simp [hh]) (fun sel ws2 b2 _ => by simp [parseLine, hh])
  · rename_i hh
    simp only [Outcome.ok.injEq, Prod.mk.injEq] at h
    exact key h.1.symm h.2.2.symm (by simp [hh]) (fun sel ws2 b2 _ => by simp [parseLine, hh])
  · rename_i hh
    simp only [Outcome.ok.injEq, Prod.mk.injEq] at h
    exact key h.1.symm h.2.2.symm (by simp [hh]) (fun sel ws2 b2 _ => by simp [parseLine, hh])
  · rename_i hh
    simp only [Outcome.ok.injEq, Prod.mk.injEq] at h
    exact key h.1.symm h.2.2.symm (by simp [hh]) (fun sel ws2 b2 _ => by simp [parseLine, hh])
  · rename_i hh
    by_cases hm : c.multi = true
    · rw [if_pos hm] at h
      by_cases hn : c.names = []
      · simp only [parseNamesLine, hn, if_true, Outcome.map_ok, Outcome.ok.injEq, Prod.mk.injEq] at h
        exact key h.1.symm h.2.2.symm (fun _ => Or.inr hn)
          (fun sel ws2 b2 hsel => by simp [parseLine, hh, hm, parseNamesLine, hsel.2 hn])
      · simp only [Outcome.map_eq_ok, Prod.mk.injEq] at h
        obtain ⟨⟨r1, b1⟩, h1, rfl, rfl, rfl⟩ := h
        obtain ⟨rest, nn, nms, g1, g2, g3, g4, -⟩ := (parseNamesLine_ok c hm hn).1 h1
        refine ⟨some nms, [], ⟨?_, by simp, ?_, by simp, ?_⟩, ?_⟩
        · obtain ⟨t, e, -⟩ := u32Entry_inLine _ _ _ g1
          have h2 := count_suffix (fun s r a h => stringEntry_suffix h) g2
          refine (h2.trans ⟨t, e.symm⟩).trans (List.drop_suffix 1 record)
        · rintro nms' h
          simp only [Option.some.injEq] at h
          subst h
          exact ⟨hm, hn, hh, g4, rest, nn, g1, g2⟩
        · intro sel ws2 b2 hsel hl hs ha
          have := (parseNamesLine_ok (b := b2) (c.withNames sel) hm (fun h => hn (hsel.1 h)) (ws := ws2)).2
            ⟨rest, nn, nms, g1, hl ▸ g2, ha nms rfl, hs nms rfl, rfl⟩
          simp [parseLine, hh, hm, this]
        · rintro nms' h
          simp only [Option.some.injEq] at h
          subst h
          exact g3
    · rw [if_neg hm] at h
      simp only [Outcome.ok.injEq, Prod.mk.injEq] at h
      exact key h.1.symm h.2.2.symm (fun _ => Or.inl (by simpa using hm))
          (fun sel ws2 b2 _ => by simp [parseLine, hh, hm])
  · rename_i hh
    simp only [Outcome.map_eq_ok, Prod.mk.injEq] at h
    obtain ⟨⟨r1, b1⟩, h1, rfl, rfl, rfl⟩ := h
    obtain ⟨⟨t, e, l⟩, outs, ho⟩ := parseParticleLine_ok c hh h1
    refine ⟨none, outs, ⟨⟨t, e.symm⟩, fun _ => ⟨t, e, l⟩, by simp, by simp [hh], ?_⟩, by simp⟩
    intro sel ws2 b2 _ _ _ _
    simp [parseLine, hh, parseParticleLine_withNames, ho]
  · rename_i hh
    simp only [Outcome.map_eq_ok, Prod.mk.injEq] at h
    obtain ⟨⟨u1, r1⟩, h1, rfl, rfl, rfl⟩ := h
    obtain ⟨t, e, l⟩ := parseUnitsLine_ok hh h1
    refine ⟨none, [], ⟨⟨t, e.symm⟩, fun _ => ⟨t, e, l⟩, by simp, by simp [hh], ?_⟩, by simp⟩
    intro sel ws2 b2 _ _ _ _
    simp [parseLine, hh, h1]
  · rename_i h1 h2 h3 h4 h5 h6 h7
    by_cases ht : trimStart record ≠ []
    · rw [if_pos ht] at h
      simp at h
    · rw [if_neg ht] at h
      simp only [Outcome.ok.injEq, Prod.mk.injEq] at h
      refine key h.1.symm h.2.2.symm (fun h => absurd h (by simpa using h5)) (fun sel ws2 b2 _ => ?_)
      unfold parseLine
      split <;> first | rfl | skip
      · exact absurd ‹_› h5
      · exact absurd ‹_› h6
      · exact absurd ‹_› h7
      · rw [if_neg ht]

/-! ### The loop over lines -/

theorem afterByte_eq {ch : UInt8} : ∀ {s r : Bytes}, afterByte ch s = some r → ∃ l, s = l ++ ch :: r ∧ ch ∉ l := by
  intro s
  induction s with
  | nil => intro r h; simp [afterByte] at h
  | cons b s ih =>
    intro r h
    simp only [afterByte] at h
    split_ifs at h with hb
    · simp only [Option.some.injEq] at h
      exact ⟨[], by simp [h, hb], by simp⟩
    · obtain ⟨l, rfl, hl⟩ := ih h
      exact ⟨b :: l, by simp, by simp [hl, Ne.symm hb]⟩

theorem afterByte_append {ch : UInt8} {l : Bytes} (hl : ch ∉ l) (s : Bytes) : afterByte ch (l ++ s) = afterByte ch s := by
  induction l with
  | nil => rfl
  | cons b l ih =>
    simp only [List.mem_cons, not_or] at hl
    simp only [List.cons_append, afterByte, if_neg (Ne.symm hl.1), ih hl.2]

theorem splitAtPattern_cons {pat : Bytes} {b : UInt8} {s : Bytes} (h : ¬ pat <+: b :: s) :
    splitAtPattern pat (b :: s) = (splitAtPattern pat s).map (fun x => (b :: x.1, x.2)) := by
  simp only [splitAtPattern, if_neg h]
  cases splitAtPattern pat s <;> rfl

/-- Skipping text that does not contain the first byte of the pattern. -/
theorem splitAtPattern_append {p0 : UInt8} {pat l : Bytes} (hl : p0 ∉ l) (s : Bytes) :
    splitAtPattern (p0 :: pat) (l ++ s) = (splitAtPattern (p0 :: pat) s).map (fun x => (l ++ x.1, x.2)) := by
  induction l with
  | nil =>
    rw [List.nil_append]
    cases h : splitAtPattern (p0 :: pat) s <;> simp
  | cons b l ih =>
    simp only [List.mem_cons, not_or] at hl
    rw [List.cons_append, splitAtPattern_cons, ih hl.2]
    · cases splitAtPattern (p0 :: pat) s <;> simp
    · rintro ⟨u, hu⟩
      simp only [List.cons_append, List.cons.injEq] at hu
      exact hl.1 hu.1

theorem splitAtPattern_here (pat s : Bytes) : splitAtPattern pat (pat ++ s) = some ([], s) := by
  cases hp : pat ++ s with
  | nil =>
    simp only [List.append_eq_nil_iff] at hp
    simp [splitAtPattern, hp.1, hp.2]
  | cons b r =>
    rw [splitAtPattern, if_pos (hp ▸ List.prefix_append pat s), ← hp]
    simp

/-- What the loop over lines does. `nls` holds the names of the names lines that are used, `outs` the outgoing particles. -/
structure LoopEffect (c : ParseCtx K V) (ws : List K) (fuel : Nat) (record : Bytes) (unit unit' : EnergyUnit)
    (nls : List (List Bytes)) (outs : List (ℤ × V)) : Prop where
  names : ∀ nms ∈ nls, c.multi = true ∧ c.names ≠ [] ∧ (∀ n ∈ c.names, n ∈ nms) ∧ nms.length ≤ ws.length
  first : ∀ nms, nls.head? = some nms → ∃ pre nline rest nn r, splitAtPattern [10, 78] record = some (pre, nline) ∧
    u32Entry nline = some (rest, nn) ∧ count stringEntry (min nn ws.length) rest = some (r, nms)
  other : ∀ (sel : List Bytes) (ws2 : List K) (b2 : EventBuilder K V), (sel = [] ↔ c.names = []) →
    ws2.length = ws.length → (∀ nms ∈ nls, ∀ n ∈ sel, n ∈ nms) →
    (∀ nms ∈ nls, ∀ w ∈ selected sel nms ws2, Accepts c w) →
    parseLoop (c.withNames sel) ws2 fuel b2 unit record =
      .ok (⟨b2.weights ++ (nls.map (selected sel · ws2)).flatten, b2.outgoingByPid ++ outs⟩, unit')

theorem parseLoop_ok (c : ParseCtx K V) {ws : List K} : ∀ (fuel : Nat) {b b' : EventBuilder K V} {unit unit' : EnergyUnit}
    {record : Bytes}, parseLoop c ws fuel b unit record = .ok (b', unit') →
    ∃ nls outs, LoopEffect c ws fuel record unit unit' nls outs ∧
      (∀ nms ∈ nls, ∀ w ∈ selected c.names nms ws, Accepts c w) := by
  intro fuel
  induction fuel with
  | zero =>
    intro b b' unit unit' record h
    simp only [parseLoop, Outcome.ok.injEq, Prod.mk.injEq] at h
    obtain ⟨rfl, rfl⟩ := h
    exact ⟨[], [], ⟨by simp, by simp, fun sel ws2 b2 _ _ _ _ => by simp [parseLoop]⟩, by simp⟩
  | succ fuel ih =>
    intro b b' unit unit' record h
    simp only [parseLoop] at h
    cases ha : afterByte 10 record with
    | none =>
      simp only [ha, Outcome.ok.injEq, Prod.mk.injEq] at h
      obtain ⟨rfl, rfl⟩ := h
      exact ⟨[], [], ⟨by simp, by simp, fun sel ws2 b2 _ _ _ _ => by simp [parseLoop, ha]⟩, by simp⟩
    | some body =>
      simp only [ha, Outcome.bind_eq_ok] at h
      obtain ⟨⟨r, b1, u1⟩, h1, h2⟩ := h
      simp only at h2
      obtain ⟨nl, outs1, e1, a1⟩ := parseLine_ok c h1
      obtain ⟨nls, outs2, e2, a2⟩ := ih h2
      obtain ⟨l, rfl, hl⟩ := afterByte_eq ha
      refine ⟨nl.toList ++ nls, outs1 ++ outs2, ⟨?_, ?_, ?_⟩, ?_⟩
      · intro nms hn
        rw [List.mem_append, Option.mem_toList] at hn
        rcases hn with hn | hn
        · obtain ⟨g1, g2, -, g3, rest, nn, g4, g5⟩ := e1.names nms hn
          refine ⟨g1, g2, g3, ?_⟩
          rw [count_length g5]
          omega
        · exact e2.names nms hn
      · intro nms hn
        cases nl with
        | some x =>
          simp only [Option.toList_some, List.cons_append, List.head?_cons, Option.some.injEq] at hn
          subst hn
          obtain ⟨-, -, g1, -, rest, nn, g4, g5⟩ := e1.names x rfl
          have hb := drop_one_of_head? g1
          refine ⟨l, body.drop 1, rest, nn, r, ?_, g4, g5⟩
          rw [splitAtPattern_append hl, hb]
          have := splitAtPattern_here [10, 78] (body.drop 1)
          simp only [List.cons_append, List.nil_append] at this
          rw [List.drop_succ_cons, List.drop_zero, this]
          simp
        | none =>
          simp only [Option.toList_none, List.nil_append] at hn
          obtain ⟨pre, nline, rest, nn, r', g1, g2, g3⟩ := e2.first nms hn
          obtain ⟨t, ht, hlt⟩ := e1.inLine rfl
          have h78 : body.head? ≠ some 78 := by
            intro hb
            have hmem : nms ∈ nls := by
              cases nls with
              | nil => simp at hn
              | cons a as => simp at hn; simp [hn]
            obtain ⟨k1, k2, -⟩ := e2.names nms hmem
            rcases e1.noNames rfl hb with k | k
            · simp [k1] at k
            · exact k2 k
          refine ⟨l ++ 10 :: (t ++ pre), nline, rest, nn, r', ?_, g2, g3⟩
          rw [splitAtPattern_append hl, splitAtPattern_cons, ht, splitAtPattern_append hlt, g1]
          · simp
          · rintro ⟨u, hu⟩
            simp only [List.cons_append, List.cons.injEq, true_and, List.nil_append] at hu
            rw [← hu] at h78
            simp at h78
      · intro sel ws2 b2 hsel hlen hs hacc
        simp only [parseLoop, ha]
        rw [e1.other sel ws2 b2 hsel hlen (fun nms hn => hs nms (by simp [hn])) (fun nms hn => hacc nms (by simp [hn])),
          Outcome.bind_ok,
          e2.other sel ws2 _ hsel hlen (fun nms hn => hs nms (by simp [hn])) (fun nms hn => hacc nms (by simp [hn]))]
        cases nl <;> simp
      · intro nms hn
        rw [List.mem_append, Option.mem_toList] at hn
        rcases hn with hn | hn
        · exact a1 nms hn
        · exact a2 nms hn

/-- More steps than bytes are never needed. -/
theorem parseLoop_fuel (c : ParseCtx K V) {ws : List K} : ∀ (f f' : Nat) {b : EventBuilder K V} {unit : EnergyUnit}
    {record : Bytes}, record.length < f → record.length < f' →
    parseLoop c ws f b unit record = parseLoop c ws f' b unit record := by
  intro f
  induction f with
  | zero => intro f' b unit record h; omega
  | succ f ih =>
    intro f' b unit record h h'
    obtain ⟨f', rfl⟩ : ∃ g, f' = g + 1 := ⟨f' - 1, by omega⟩
    simp only [parseLoop]
    cases ha : afterByte 10 record with
    | none => rfl
    | some body =>
      simp only
      cases hp : parseLine c ws b unit body with
      | err e => rfl
      | panic => rfl
      | ok x =>
        obtain ⟨r, b1, u1⟩ := x
        simp only [Outcome.bind_ok]
        obtain ⟨nl, outs, e, -⟩ := parseLine_ok c hp
        obtain ⟨l, rfl, -⟩ := afterByte_eq ha
        have hs := e.suffix.length_le
        simp only [List.length_append, List.length_cons] at h h'
        exact ih f' (by omega) (by omega)

/-- The loop starts with the next line. -/
theorem parseLoop_append (c : ParseCtx K V) {ws : List K} {b : EventBuilder K V} {unit : EnergyUnit} {l : Bytes}
    (hl : (10 : UInt8) ∉ l) (s : Bytes) :
    parseLoop c ws ((l ++ s).length + 1) b unit (l ++ s) = parseLoop c ws (s.length + 1) b unit s := by
  rw [← parseLoop_fuel c ((l ++ s).length + 1) (s.length + 1) (record := s) (by simp; omega) (by omega)]
  simp only [parseLoop, afterByte_append hl]

/-! ### Updating the central weight -/

/-- What a successful parse consists of. -/
theorem parse_ok [Zero K] [LinearOrder V] (c : ParseCtx K V) {record : Bytes} {ev : Event K V} :
    parse c record = .ok ev ↔ ∃ w ws rest b unit, extractWeights c record = .ok (w, ws, rest) ∧ Accepts c w ∧
      parseLoop c ws (rest.length + 1) ⟨[w], []⟩ .GeV rest = .ok (b, unit) ∧
      ev = (if unit ≠ .GeV then b.rescaleEnergies c.milli else b).build := by
  have hb : ∀ w : K, ((EventBuilder.new c.multi : EventBuilder K V).addWeight c.multi w) = ⟨[w], []⟩ := by
    intro w
    cases h : c.multi <;> simp [EventBuilder.new, EventBuilder.addWeight]
  unfold parse
  simp only [Outcome.bind_eq_ok, n64_eq_ok, hb]
  constructor
  · rintro ⟨⟨w, ws, rest⟩, h1, x, ⟨h2, hx⟩, ⟨b, unit⟩, h3, h4⟩
    simp only at hx h3
    subst hx
    refine ⟨x, ws, rest, b, unit, h1, h2, h3, ?_⟩
    simp only at h4
    split_ifs at h4 ⊢ <;> simp at h4 <;> exact h4.symm
  · rintro ⟨w, ws, rest, b, unit, h1, h2, h3, rfl⟩
    refine ⟨(w, ws, rest), h1, w, ⟨h2, rfl⟩, (b, unit), h3, ?_⟩
    simp only
    split_ifs <;> rfl

/-- The first weight entry and its replacement. -/
theorem firstWeight_replace (c : ParseCtx K V) {r : Bytes} {n : Nat} {w w' : K} {ws : List K} {rest : Bytes}
    (hw : c.float.finite w' = true)
    (h : (c.multi = true ∧ ws.head? = some w ∧ count c.float.doubleEntry n r = some (rest, ws)) ∨
       (c.multi = false ∧ ws = [] ∧ c.float.doubleEntry r = some (rest, w))) :
    ∃ sp old after junk rest', sp ≠ [] ∧ (∀ b ∈ sp, isBlank b = true) ∧ old ≠ [] ∧ (∀ b ∈ old, isAsciiWs b = false) ∧
      r = sp ++ old ++ after ∧ anyEntry r = some (after, old) ∧ (10 : UInt8) ∉ junk ∧ rest = junk ++ rest' ∧
      ((c.multi = true ∧ (ws.set 0 w').head? = some w' ∧
          count c.float.doubleEntry n (sp.take 1 ++ c.float.display w' ++ after) = some (rest', ws.set 0 w')) ∨
       (c.multi = false ∧ ws.set 0 w' = [] ∧
          c.float.doubleEntry (sp.take 1 ++ c.float.display w' ++ after) = some (rest', w'))) := by
  have hsp : ∀ sp : Bytes, sp ≠ [] → (∀ b ∈ sp, isBlank b = true) → sp.take 1 ≠ [] ∧ ∀ b ∈ sp.take 1, isBlank b = true := by
    intro sp h1 h2
    refine ⟨?_, fun b hb => h2 b (List.mem_of_mem_take hb)⟩
    cases sp with
    | nil => exact absurd rfl h1
    | cons b sp => simp
  rcases h with ⟨hm, hh, hc⟩ | ⟨hm, rfl, hd⟩
  · cases n with
    | zero =>
      simp only [count, Option.some.injEq, Prod.mk.injEq] at hc
      rw [← hc.2] at hh
      simp at hh
    | succ n =>
      simp only [count] at hc
      cases hd : c.float.doubleEntry r with
      | none => simp [hd] at hc
      | some x =>
        obtain ⟨r1, w0⟩ := x
        simp only [hd] at hc
        cases hc2 : count c.float.doubleEntry n r1 with
        | none => simp [hc2] at hc
        | some y =>
          obtain ⟨r2, ws2⟩ := y
          simp only [hc2, Option.some.injEq, Prod.mk.injEq] at hc
          obtain ⟨rfl, rfl⟩ := hc
          obtain ⟨sp, tok, junk, after, h1, h2, h3, h4, h5, h6, h7, h8, h9, h10⟩ := doubleEntry_eq_some hd
          obtain ⟨k1, k2⟩ := hsp sp h1 h2
          have hnew := doubleEntry_word (F := c.float) k1 k2 (display_noWs c.float hw) h5 (double_display c.float hw)
          rw [List.nil_append] at hnew
          cases n with
          | zero =>
            simp only [count, Option.some.injEq, Prod.mk.injEq] at hc2
            obtain ⟨rfl, rfl⟩ := hc2
            refine ⟨sp, tok, after, junk, after, h1, h2, h3, h4, h6, h10, not_newline_of_noWs h9, h7, Or.inl ⟨hm, by simp, ?_⟩⟩
            rw [count, hnew]
            simp [count]
          | succ n =>
            have hb : StartsBlank r1 := by
              simp only [count] at hc2
              cases hd2 : c.float.doubleEntry r1 with
              | none => simp [hd2] at hc2
              | some z => exact doubleEntry_blank _ _ _ hd2
            have hj : junk = [] := by
              cases junk with
              | nil => rfl
              | cons j junk =>
                obtain ⟨b, t, e, hb⟩ := hb
                rw [h7] at e
                simp only [List.cons_append, List.cons.injEq] at e
                have := h9 j (by simp)
                rw [e.1, isAsciiWs_of_isBlank hb] at this
                simp at this
            subst hj
            simp only [List.nil_append] at h7
            subst h7
            refine ⟨sp, tok, r1, [], r2, h1, h2, h3, h4, h6, h10, by simp, by simp, Or.inl ⟨hm, by simp, ?_⟩⟩
            rw [count, hnew]
            simp [hc2]
  · obtain ⟨sp, tok, junk, after, h1, h2, h3, h4, h5, h6, h7, h8, h9, h10⟩ := doubleEntry_eq_some hd
    obtain ⟨k1, k2⟩ := hsp sp h1 h2
    have hnew := doubleEntry_word (F := c.float) k1 k2 (display_noWs c.float hw) h5 (double_display c.float hw)
    rw [List.nil_append] at hnew
    exact ⟨sp, tok, after, junk, after, h1, h2, h3, h4, h6, h10, not_newline_of_noWs h9, h7, Or.inr ⟨hm, rfl, hnew⟩⟩

/-- The first steps of `update`. -/
theorem update_head (c : ParseCtx K V) {w' : K} {more : List K} {t r after old : Bytes} {n : Nat}
    (h1 : headEntries (t ++ r) = some (r, n)) (h2 : anyEntry r = some (after, old)) :
    update c (w' :: more) (t ++ r) =
      if c.multi then updateNamedWeights c.float c.names t (r.take 1 ++ c.float.display w' ++ after) n (w' :: more)
      else .ok (t ++ r.take 1 ++ c.float.display w' ++ after) := by
  unfold headEntries at h1
  cases hn : nonWeightEntries (t ++ r) with
  | none => simp [hn] at h1
  | some r1 =>
    simp only [hn] at h1
    have ht : (t ++ r).take ((t ++ r).length - r.length) = t := by simp
    simp only [update, hn, h1, orParseErr, Outcome.bind_ok, updateCentralWeight, h2, ht]
    simp

/-- Updating the central weight, without named weights. -/
theorem update_central [Zero K] [LinearOrder V] (c : ParseCtx K V) (hc : c.multi = true → c.names = []) {record : Bytes}
    {ev : Event K V} {w : K} (hp : parse c record = .ok ev) (hw : c.float.finite w = true) :
    ∃ pre sep old post, record = pre ++ sep ++ old ++ post ∧ (10 : UInt8) ∉ pre ∧
      sep ≠ [] ∧ (∀ b ∈ sep, isBlank b = true) ∧ old ≠ [] ∧ (∀ b ∈ old, isAsciiWs b = false) ∧
      update c [w] record = .ok (pre ++ sep.take 1 ++ c.float.display w ++ post) ∧
      parse c (pre ++ sep.take 1 ++ c.float.display w ++ post) = .ok { ev with weights := [w] } := by
  obtain ⟨w0, ws, rest, b, unit, h1, h2, h3, rfl⟩ := (parse_ok c).1 hp
  obtain ⟨hE, r, n, h4, h5⟩ := (extractWeights_eq c record).1 h1
  obtain ⟨sp, old, after, junk, rest', g1, g2, g3, g4, g5, g6, g7, g8, g9⟩ := firstWeight_replace c hw h5
  have hsb : StartsBlank r := by
    cases sp with
    | nil => exact absurd rfl g1
    | cons s sp => exact ⟨s, _, g5, g2 s (by simp)⟩
  obtain ⟨t, e1, e2, e3, e4⟩ := headEntries_cut h4 hE hsb
  have htake : r.take 1 = sp.take 1 := by
    cases sp with
    | nil => exact absurd rfl g1
    | cons s sp => rw [g5]; simp
  have hsb' : StartsBlank (sp.take 1 ++ c.float.display w ++ after) := by
    cases sp with
    | nil => exact absurd rfl g1
    | cons s sp => exact ⟨s, _, rfl, g2 s (by simp)⟩
  refine ⟨t, sp, old, after, by rw [e1, g5]; simp, e3, g1, g2, g3, g4, ?_, ?_⟩
  · rw [e1, update_head c (e1 ▸ h4) g6, htake]
    cases hm : c.multi with
    | false => simp
    | true =>
      simp only [if_true, updateNamedWeights, hc hm]
      simp
  · rw [List.append_assoc, List.append_assoc, ← List.append_assoc (sp.take 1), parse_ok c]
    have hx : extractWeights c (t ++ (sp.take 1 ++ c.float.display w ++ after)) = .ok (w, ws.set 0 w, rest') := by
      rw [extractWeights_eq]
      exact ⟨e2.trans (List.prefix_append _ _), _, n, e4 _ hsb', g9⟩
    obtain ⟨nls, outs, le, -⟩ := parseLoop_ok c _ h3
    have hnls : nls = [] := by
      cases nls with
      | nil => rfl
      | cons a nls =>
        obtain ⟨k1, k2, -⟩ := le.names a (by simp)
        exact absurd (hc k1) k2
    subst hnls
    have o1 := le.other c.names ws ⟨[w0], []⟩ Iff.rfl rfl (by simp) (by simp)
    rw [withNames_self, h3] at o1
    simp only [List.map_nil, List.flatten_nil, List.append_nil, List.nil_append, Outcome.ok.injEq, Prod.mk.injEq] at o1
    obtain ⟨rfl, -⟩ := o1
    have o2 := le.other c.names (ws.set 0 w) ⟨[w], []⟩ Iff.rfl (by simp) (by simp) (by simp)
    simp only [List.map_nil, List.flatten_nil, List.append_nil, List.nil_append, withNames_self] at o2
    refine ⟨w, ws.set 0 w, rest', ⟨[w], outs⟩, unit, hx, accepts_of_finite c hw, ?_, ?_⟩
    · rw [← o2, g8, parseLoop_append c g7]
    · by_cases hu : unit = .GeV <;> simp [hu, EventBuilder.build, EventBuilder.rescaleEnergies]

end HepMC

end Cres

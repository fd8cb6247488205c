import Verif.Model.ExampleFormat
import Verif.Proofs.RecordText

/-!
Property C64: what is read from a HepMC2 record.
-/

namespace Cres

open Spec

variable {K V : Type*}

namespace HepMC

theorem not_mem_lineRest {s : Bytes} (h : LineRest s) : (10 : UInt8) ∉ s := h.1

/-- The text is empty or starts with a line break. -/
def EndOfLine (s : Bytes) : Prop := s = [] ∨ ∃ t, s = 10 :: t

theorem EndOfLine.tailOk {s : Bytes} (h : EndOfLine s) : TailOk s := by
  rcases h with rfl | ⟨t, rfl⟩
  · intro b hb; simp at hb
  · intro b hb; simp at hb; subst hb; decide

theorem lineRest_tailOk {s t : Bytes} (h : LineRest s) (ht : EndOfLine t) : TailOk (s ++ t) := by
  cases s with
  | nil => exact ht.tailOk
  | cons b s => intro x hx; exact h.2 x (by simpa using hx)

/-- What a line contributes. -/
def applyLine (c : ParseCtx K V) (ws : List K) (l : HepMCLine) (x : EventBuilder K V × EnergyUnit) :
    EventBuilder K V × EnergyUnit :=
  match l with
  | .other => x
  | .names ns => if c.multi then ({ x.1 with weights := x.1.weights ++ selectedWeights c.names ns ws }, x.2) else x
  | .units gev => (x.1, if gev then .GeV else .MeV)
  | .particle p =>
    if p.status = 1 then (x.1.addOutgoing p.id (p.p.vector c.float.value c.momentum), x.2) else x

variable {c : ParseCtx K V}

theorem n64_number (hF : ∀ t, Decimal t → c.float.isNaN (c.float.value t) = false) {t : Bytes} (h : Decimal t) :
    c.float.n64 c.debug (c.float.value t) = (.ok (c.float.value t) : Outcome ReadError K) := by
  simp [FloatFormat.n64, hF t h]

theorem particle_text (hF : ∀ t, Decimal t → c.float.isNaN (c.float.value t) = false) {p : ParticleEntry} {line tail : Bytes}
    (h : (HepMCLine.particle p).IsText line) (ht : EndOfLine tail) (b : EventBuilder K V) :
    ∃ rest, (10 : UInt8) ∉ rest ∧ parseParticleLine c (line ++ tail) b =
      .ok (rest ++ tail, if p.status = 1 then b.addOutgoing p.id (p.p.vector c.float.value c.momentum) else b) := by
  obtain ⟨barcode, id, mass, status, fields, rest, rfl, hf, hid, hst, ⟨ok1, ok2, ok3, ok4⟩, hrest⟩ := h
  refine ⟨rest, hrest.1, ?_⟩
  have hr := lineRest_tailOk hrest ht
  obtain ⟨b1, f1, rfl, hb1, hw1, h1⟩ := hf.cons_inv
  obtain ⟨b2, f2, rfl, hb2, hw2, h2⟩ := h1.cons_inv
  obtain ⟨b3, f3, rfl, hb3, hw3, h3⟩ := h2.cons_inv
  obtain ⟨b4, f4, rfl, hb4, hw4, h4⟩ := h3.cons_inv
  obtain ⟨b5, f5, rfl, hb5, hw5, h5⟩ := h4.cons_inv
  obtain ⟨b6, f6, rfl, hb6, hw6, h6⟩ := h5.cons_inv
  obtain ⟨b7, f7, rfl, hb7, hw7, h7⟩ := h6.cons_inv
  obtain ⟨b8, f8, rfl, hb8, hw8, h8⟩ := h7.cons_inv
  cases h8
  have e1 := anyEntry_word hb1 hw1 (h1.tailOk hr)
  have e2 := i32Entry_text hb2 hid (h2.tailOk hr).noDigit
  have e3 := doubleEntry_text c.float hb3 ok1 (h3.tailOk hr)
  have e4 := doubleEntry_text c.float hb4 ok2 (h4.tailOk hr)
  have e5 := doubleEntry_text c.float hb5 ok3 (h5.tailOk hr)
  have e6 := doubleEntry_text c.float hb6 ok4 (h6.tailOk hr)
  have e7 := anyEntry_word hb7 hw7 (h7.tailOk hr)
  have e8 := i32Entry_text hb8 hst hr.noDigit
  simp only [List.append_assoc, List.nil_append] at e1 e2 e3 e4 e5 e6 e7 e8 ⊢
  have hd : ∀ x : Bytes, List.drop 1 (ascii "P" ++ x) = x := fun x => rfl
  unfold parseParticleLine
  rw [hd, e1]
  simp only [orParseErr, Outcome.bind]
  rw [e2]
  simp only
  rw [e3]
  simp only
  rw [e4]
  simp only
  rw [e5]
  simp only
  rw [e6]
  simp only
  rw [e7]
  simp only
  rw [e8]
  simp only
  by_cases hs : p.status = 1
  · rw [if_neg (by simp [hs]), if_pos hs, n64_number hF ok1, n64_number hF ok2, n64_number hF ok3, n64_number hF ok4]
    rfl
  · rw [if_pos hs, if_neg hs]

theorem units_text {gev : Bool} {line tail : Bytes} (h : (HepMCLine.units gev).IsText line) (ht : EndOfLine tail) :
    ∃ rest, (10 : UInt8) ∉ rest ∧ parseUnitsLine (line ++ tail) = .ok (if gev then .GeV else .MeV, rest ++ tail) := by
  obtain ⟨bl, rest, rfl, hb, hrest⟩ := h
  refine ⟨rest, hrest.1, ?_⟩
  have hw : Word (if gev then ascii "GEV" else ascii "MEV") := by
    cases gev
    · exact ⟨by decide, by decide⟩
    · exact ⟨by decide, by decide⟩
  have e := anyEntry_word hb hw (lineRest_tailOk hrest ht)
  have hd : ∀ x : Bytes, List.drop 1 (ascii "U" ++ x) = x := fun x => rfl
  unfold parseUnitsLine
  rw [List.append_assoc, List.append_assoc, List.append_assoc, hd]
  rw [List.append_assoc] at e
  rw [e]
  simp only [orParseErr, Outcome.bind]
  cases gev
  · have : ascii "MEV" ≠ ascii "GEV" := by decide
    simp [this]
  · simp

theorem QuotedNames.noNewline {ns : List Bytes} {q : Bytes} (h : QuotedNames ns q) : (10 : UInt8) ∉ q := by
  induction h with
  | nil => simp
  | cons h1 h2 h3 h4 ih =>
    simp only [List.mem_append, not_or, List.mem_singleton]
    refine ⟨⟨⟨⟨fun hb => ?_, by decide⟩, h3⟩, by decide⟩, ih⟩
    rcases h1.2 _ hb with h | h <;> simp at h

theorem stringEntry_text {bl name r : Bytes} (hb : Blanks bl) (hn : (34 : UInt8) ∉ name) :
    stringEntry (bl ++ [34] ++ name ++ [34] ++ r) = some (r, name) := by
  have e1 : space1 (bl ++ (34 :: (name ++ 34 :: r))) = some (34 :: (name ++ 34 :: r)) :=
    space1_blanks hb (fun b h => by simp at h; subst h; decide)
  have e : bl ++ [34] ++ name ++ [34] ++ r = bl ++ (34 :: (name ++ 34 :: r)) := by simp
  unfold stringEntry
  rw [e, e1]
  simp only [string]
  have e2 : splitAtPattern [34] (name ++ 34 :: r) = some (name, r) := by
    rw [splitAtPattern_append hn]
    have := splitAtPattern_here [34] r
    rw [List.singleton_append] at this
    rw [this]
    simp
  rw [e2]

theorem namesLoop_text (hm : c.multi = true) : ∀ (ws : List K) {ns : List Bytes} {q r : Bytes} (b : EventBuilder K V)
    (seen : List Bytes), QuotedNames ns q → (∀ w ∈ ws, c.float.isNaN w = false) → ws.length ≤ ns.length →
    ∃ q' seen', (10 : UInt8) ∉ q' ∧ (∀ n, n ∈ seen' ↔ n ∈ seen ∨ (n ∈ c.names ∧ n ∈ ns.take ws.length)) ∧
      namesLoop c ws (q ++ r) b seen =
        .ok (q' ++ r, { b with weights := b.weights ++ selectedWeights c.names ns ws }, seen') := by
  intro ws
  induction ws with
  | nil =>
    intro ns q r b seen hq _ _
    refine ⟨q, seen, QuotedNames.noNewline hq, by simp, ?_⟩
    simp [namesLoop, selectedWeights]
  | cons w ws ih =>
    intro ns q r b seen hq hws hlen
    cases hq with
    | nil => simp at hlen
    | cons h1 h2 h3 h4 =>
      rename_i bl name text names
      have e := stringEntry_text (r := text ++ r) h1 h2
      have e' : bl ++ [34] ++ name ++ [34] ++ text ++ r = bl ++ [34] ++ name ++ [34] ++ (text ++ r) := by simp
      rw [namesLoop, e', e]
      simp only [orParseErr, Outcome.bind]
      have hlen' : ws.length ≤ names.length := by simpa using hlen
      by_cases hn : name ∈ c.names
      · rw [if_pos hn]
        have hw : c.float.n64 c.debug w = (.ok w : Outcome ReadError K) := by
          simp [FloatFormat.n64, hws w (by simp)]
        rw [hw]
        simp only
        obtain ⟨q', seen', g1, g2, g3⟩ := ih (r := r) (b.addWeight c.multi w) (name :: seen) h4
          (fun w h => hws w (by simp [h])) hlen'
        refine ⟨q', seen', g1, fun n => ?_, ?_⟩
        · rw [g2]
          simp only [List.mem_cons, List.length_cons, List.take_succ_cons]
          constructor
          · rintro ((rfl | h) | h)
            · exact Or.inr ⟨hn, Or.inl rfl⟩
            · exact Or.inl h
            · exact Or.inr ⟨h.1, Or.inr h.2⟩
          · rintro (h | ⟨h, rfl | h'⟩)
            · exact Or.inl (Or.inr h)
            · exact Or.inl (Or.inl rfl)
            · exact Or.inr ⟨h, h'⟩
        · rw [g3]
          simp [EventBuilder.addWeight, hm, selectedWeights, hn]
      · rw [if_neg hn]
        obtain ⟨q', seen', g1, g2, g3⟩ := ih (r := r) b seen h4 (fun w h => hws w (by simp [h])) hlen'
        refine ⟨q', seen', g1, fun n => ?_, ?_⟩
        · rw [g2]
          simp only [List.mem_cons, List.length_cons, List.take_succ_cons]
          constructor
          · rintro (h | h)
            · exact Or.inl h
            · exact Or.inr ⟨h.1, Or.inr h.2⟩
          · rintro (h | ⟨h, rfl | h'⟩)
            · exact Or.inl h
            · exact absurd h hn
            · exact Or.inr ⟨h, h'⟩
        · rw [g3]
          simp [selectedWeights, hn]

theorem selectedWeights_take (sel ns : List Bytes) (ws : List K) :
    selectedWeights sel ns (ws.take ns.length) = selectedWeights sel ns ws := by
  unfold selectedWeights
  congr 2
  induction ns generalizing ws with
  | nil => simp
  | cons n ns ih =>
    cases ws with
    | nil => simp
    | cons w ws => simp [ih]

theorem selectedWeights_nil (ns : List Bytes) (ws : List K) : selectedWeights [] ns ws = [] := by
  simp [selectedWeights]

theorem names_text (hm : c.multi = true) {ns : List Bytes} {line tail : Bytes} {ws : List K}
    (h : (HepMCLine.names ns).IsText line) (ht : EndOfLine tail) (hws : ∀ w ∈ ws, c.float.isNaN w = false)
    (hsel : ∀ n ∈ c.names, n ∈ ns.take ws.length) (b : EventBuilder K V) :
    ∃ rest, (10 : UInt8) ∉ rest ∧ parseNamesLine c (line ++ tail) ws b =
      .ok (rest ++ tail, { b with weights := b.weights ++ selectedWeights c.names ns ws }) := by
  obtain ⟨bl, n, quoted, rest, rfl, hb, hn, hq, hrest⟩ := h
  have hnn : (10 : UInt8) ∉ ascii "N" ++ bl ++ n ++ quoted ++ rest := by
    simp only [List.mem_append, not_or]
    refine ⟨⟨⟨⟨by decide, fun hb' => ?_⟩, fun hn' => ?_⟩, QuotedNames.noNewline hq⟩, hrest.1⟩
    · rcases hb.2 _ hb' with h | h <;> simp at h
    · have := hn.1 _ hn'
      simp at this
  by_cases hc : c.names = []
  · refine ⟨_, hnn, ?_⟩
    unfold parseNamesLine
    rw [if_pos hc, hc]
    simp [selectedWeights_nil]
  · have hnd : NoDigit (quoted ++ rest ++ tail) := by
      cases hq with
      | nil =>
        rw [List.nil_append]
        exact (lineRest_tailOk hrest ht).noDigit
      | cons h1 h2 h3 h4 =>
        rename_i bl' name text names
        intro x hx
        cases bl' with
        | nil => exact absurd rfl h1.1
        | cons y bl' =>
          simp at hx
          subst hx
          rcases h1.2 y (by simp) with h | h <;> · rw [h]; decide
    have e := u32Entry_text hb hn hnd
    have hd : ∀ x : Bytes, List.drop 1 (ascii "N" ++ x) = x := fun x => rfl
    obtain ⟨q', seen', g1, g2, g3⟩ := namesLoop_text (c := c) hm (ws.take ns.length) (r := rest ++ tail) b [] hq
      (fun w h => hws w (List.mem_of_mem_take h)) (by simp)
    refine ⟨q' ++ rest, by simp [g1, hrest.1], ?_⟩
    unfold parseNamesLine
    have e' : ascii "N" ++ bl ++ n ++ quoted ++ rest ++ tail = ascii "N" ++ (bl ++ n ++ (quoted ++ rest ++ tail)) := by simp
    rw [if_neg hc, e', hd, e]
    simp only [orParseErr, Outcome.bind]
    rw [List.append_assoc quoted, g3]
    simp only
    have hf : c.names.find? (fun n => decide (n ∉ seen')) = none := by
      rw [List.find?_eq_none]
      intro n hn
      simp only [decide_not, Bool.not_eq_eq_eq_not, Bool.not_true, decide_eq_false_iff_not, not_not]
      rw [g2]
      refine Or.inr ⟨hn, ?_⟩
      have := hsel n hn
      rw [List.length_take]
      rcases Nat.le_total ns.length ws.length with h | h
      · rw [Nat.min_eq_left h, List.take_length]
        exact List.mem_of_mem_take this
      · rw [Nat.min_eq_right h]
        exact this
    rw [hf, selectedWeights_take]
    simp

theorem head_append {a : Bytes} {x : UInt8} (h : a.head? = some x) (b : Bytes) : (a ++ b).head? = some x := by
  cases a with
  | nil => simp at h
  | cons y a => simpa using h

/-- One line. -/
theorem parseLine_text (hF : ∀ t, Decimal t → c.float.isNaN (c.float.value t) = false) {l : HepMCLine} {line tail : Bytes}
    {ws : List K} (h : l.IsText line) (ht : EndOfLine tail) (hws : ∀ w ∈ ws, c.float.isNaN w = false)
    (hsel : c.multi = true → ∀ ns, l = .names ns → ∀ n ∈ c.names, n ∈ ns.take ws.length) (b : EventBuilder K V)
    (unit : EnergyUnit) :
    ∃ rest, (10 : UInt8) ∉ rest ∧ parseLine c ws b unit (line ++ tail) =
      .ok (rest ++ tail, applyLine c ws l (b, unit)) := by
  cases l with
  | other =>
    refine ⟨line, h.1, ?_⟩
    obtain ⟨x, hx, hx'⟩ := h.2
    have e : ascii "VFHC" = [86, 70, 72, 67] := by decide
    rw [e] at hx'
    simp only [List.mem_cons, List.not_mem_nil, or_false] at hx'
    unfold parseLine
    rw [head_append hx]
    rcases hx' with rfl | rfl | rfl | rfl <;> rfl
  | names ns =>
    have hh : (line ++ tail).head? = some 78 := by
      obtain ⟨bl, n, quoted, rest, rfl, -⟩ := h
      rfl
    have hnn : (10 : UInt8) ∉ line := by
      obtain ⟨bl, n, quoted, rest, rfl, hb, hn, hq, hrest⟩ := h
      simp only [List.mem_append, not_or]
      refine ⟨⟨⟨⟨by decide, fun hb' => ?_⟩, fun hn' => ?_⟩, QuotedNames.noNewline hq⟩, hrest.1⟩
      · rcases hb.2 _ hb' with h | h <;> simp at h
      · have := hn.1 _ hn'
        simp at this
    unfold parseLine
    rw [hh]
    simp only
    cases hm : c.multi with
    | true =>
      obtain ⟨rest, g1, g2⟩ := names_text (c := c) hm h ht hws (hsel hm ns rfl) b
      refine ⟨rest, g1, ?_⟩
      rw [if_pos rfl, g2]
      simp [Outcome.map, applyLine, hm]
    | false => exact ⟨line, hnn, by simp [applyLine, hm]⟩
  | units gev =>
    have hh : (line ++ tail).head? = some 85 := by
      obtain ⟨bl, rest, rfl, -⟩ := h
      rfl
    obtain ⟨rest, g1, g2⟩ := units_text h ht
    refine ⟨rest, g1, ?_⟩
    unfold parseLine
    rw [hh]
    simp only
    rw [g2]
    simp [Outcome.map, applyLine]
  | particle p =>
    have hh : (line ++ tail).head? = some 80 := by
      obtain ⟨barcode, id, mass, status, fields, rest, rfl, -⟩ := h
      rfl
    obtain ⟨rest, g1, g2⟩ := particle_text (c := c) hF h ht b
    refine ⟨rest, g1, ?_⟩
    unfold parseLine
    rw [hh]
    simp only
    rw [g2]
    by_cases hs : p.status = 1 <;> simp [Outcome.map, applyLine, hs]

theorem endOfLine_lines {ls : List HepMCLine} {text eol : Bytes} (h : HepMCLines ls text) (he : eol = [] ∨ eol = [10]) :
    EndOfLine (text ++ eol) := by
  cases h with
  | nil =>
    rcases he with rfl | rfl
    · exact Or.inl rfl
    · exact Or.inr ⟨[], rfl⟩
  | cons h1 h2 => exact Or.inr ⟨_, by simp; rfl⟩

/-- All lines. -/
theorem parseLoop_text (hF : ∀ t, Decimal t → c.float.isNaN (c.float.value t) = false) {ws : List K}
    (hws : ∀ w ∈ ws, c.float.isNaN w = false) {eol : Bytes} (he : eol = [] ∨ eol = [10]) : ∀ {ls : List HepMCLine}
    {text rest : Bytes} (fuel : Nat) (b : EventBuilder K V) (unit : EnergyUnit), HepMCLines ls text → (10 : UInt8) ∉ rest →
    (c.multi = true → ∀ ns, .names ns ∈ ls → ∀ n ∈ c.names, n ∈ ns.take ws.length) →
    ls.length < fuel →
    parseLoop c ws fuel b unit (rest ++ text ++ eol) = .ok (ls.foldl (fun x l => applyLine c ws l x) (b, unit)) := by
  intro ls
  induction ls with
  | nil =>
    intro text rest fuel b unit h hr hsel hfuel
    cases h
    cases fuel with
    | zero => simp at hfuel
    | succ fuel =>
      rw [parseLoop]
      simp only [List.append_nil]
      rw [afterByte_append hr]
      rcases he with rfl | rfl
      · rfl
      · have e1 : afterByte 10 [10] = some [] := by decide
        rw [e1]
        simp only
        have e2 : parseLine c ws b unit [] = .ok ([], b, unit) := rfl
        rw [e2]
        simp only [Outcome.bind]
        cases fuel with
        | zero => rfl
        | succ fuel => rfl
  | cons l ls ih =>
    intro text rest fuel b unit h hr hsel hfuel
    cases h with
    | cons h1 h2 =>
      rename_i line text
      cases fuel with
      | zero => simp at hfuel
      | succ fuel =>
        have e : rest ++ ([10] ++ line ++ text) ++ eol = rest ++ (10 :: (line ++ (text ++ eol))) := by simp
        rw [e]
        rw [parseLoop, afterByte_append hr]
        have e1 : afterByte 10 (10 :: (line ++ (text ++ eol))) = some (line ++ (text ++ eol)) := by simp [afterByte]
        rw [e1]
        simp only
        obtain ⟨rest', g1, g2⟩ := parseLine_text (c := c) hF h1 (endOfLine_lines h2 he) hws
          (fun hm ns hl => hsel hm ns (by simp [hl])) b unit
        rw [g2]
        simp only [Outcome.bind]
        rw [← List.append_assoc, ih fuel _ _ h2 g1 (fun hm ns hl => hsel hm ns (by simp [hl])) (by
          simp only [List.length_cons] at hfuel
          omega)]
        rfl

theorem HepMCLines.length_le {ls : List HepMCLine} {text : Bytes} (h : HepMCLines ls text) : ls.length ≤ text.length := by
  induction h with
  | nil => simp
  | cons _ _ ih => simp; omega

/-- What the lines contribute. -/
theorem foldl_applyLine (ws : List K) : ∀ (ls : List HepMCLine) (b : EventBuilder K V) (unit : EnergyUnit),
    ls.foldl (fun x l => applyLine c ws l x) (b, unit) =
      (⟨b.weights ++ (if c.multi then
            (ls.filterMap (fun l => match l with | .names ns => some ns | _ => none)).flatMap
              (fun ns => selectedWeights c.names ns ws) else []),
          b.outgoingByPid ++ withStatus 1 c.float.value c.momentum
            (ls.filterMap (fun l => match l with | .particle p => some p | _ => none))⟩,
        ((ls.filterMap (fun l => match l with | .units gev => some gev | _ => none)).getLast?.map
          (fun gev : Bool => if gev then EnergyUnit.GeV else .MeV)).getD unit) := by
  intro ls
  induction ls with
  | nil => intro b unit; simp [withStatus]
  | cons l ls ih =>
    intro b unit
    rw [List.foldl_cons, ih]
    cases l with
    | other => simp [applyLine]
    | names ns =>
      cases hm : c.multi <;> simp [applyLine, hm]
    | units gev =>
      simp only [applyLine, List.filterMap_cons]
      rw [List.getLast?_cons]
      cases (ls.filterMap (fun l => match l with | .units gev => some gev | _ => none)).getLast? <;> simp
    | particle p =>
      by_cases hs : p.status = 1 <;> simp [applyLine, hs, EventBuilder.addOutgoing, withStatus]

end HepMC

/-- **C64**: converting a HepMC2 record, whatever its length and however its entries are separated, yields the event it
describes: the first weight, with `multiweight` also the weights with the selected names, and the particles with status 1 with
their energies and momenta, in GeV if the record is in MeV. `hF` says that a number is read for a decimal number. Names have
to be found, see **C34**. -/
theorem C64_parse [Zero K] [LinearOrder V] (c : ParseCtx K V)
    (hF : ∀ t, Decimal t → c.float.isNaN (c.float.value t) = false) (r : HepMCRecord) (text : Bytes) (h : r.IsText text)
    (hw : r.weights ≠ []) (hsel : c.multi = true → ∀ ns ∈ r.names, ∀ n ∈ c.names, n ∈ ns.take r.weights.length) :
    ∃ ev, HepMC.parse c text = .ok ev ∧
      Describes ((r.weights.take 1).map c.float.value ++ (if c.multi then
          r.names.flatMap (fun ns => selectedWeights c.names ns (r.weights.map c.float.value)) else []))
        ((withStatus 1 c.float.value c.momentum r.particles).map (fun x => (x.1, if r.gev then x.2 else c.milli x.2))) ev := by
  obtain ⟨entries, nstates, states, nweights, fields, rest, lines, eol, rfl, hf, h10, hns, hnw, hdec, hrest, hlines, heol⟩ := h
  have ht := HepMC.endOfLine_lines hlines heol
  have hr := HepMC.lineRest_tailOk hrest ht
  obtain ⟨g4, f5, rfl, hg4, hf5⟩ := hf.append_inv
  obtain ⟨g3, f4, rfl, hg3, hf4⟩ := hg4.append_inv
  obtain ⟨g2, f3, rfl, hg2, hf3⟩ := hg3.append_inv
  obtain ⟨f1, f2, rfl, hf1, hf2⟩ := hg2.append_inv
  obtain ⟨b2, t2, rfl, hb2, hw2, hn2⟩ := hf2.cons_inv
  cases hn2
  obtain ⟨b4, t4, rfl, hb4, hw4, hn4⟩ := hf4.cons_inv
  cases hn4
  have k5 : TailOk (f5 ++ (rest ++ (lines ++ eol))) := hf5.tailOk hr
  have k4 : TailOk (b4 ++ nweights ++ [] ++ (f5 ++ (rest ++ (lines ++ eol)))) := hf4.tailOk k5
  have k3 := hf3.tailOk k4
  have k2 := hf2.tailOk k3
  have e1 := count_fields hf1 k2
  rw [h10] at e1
  have e2 := u32Entry_text hb2 hns k3.noDigit
  have e3 := count_fields hf3 k4
  have e4 := u32Entry_text hb4 hnw k5.noDigit
  have e5 := count_decimals c.float hf5 hdec hr
  simp only [List.append_nil, List.append_assoc] at e1 e2 e3 e4 e5
  obtain ⟨w, ws, hww⟩ := List.exists_cons_of_ne_nil hw
  have hnan : ∀ x ∈ r.weights.map c.float.value, c.float.isNaN x = false := by
    intro x hx
    obtain ⟨t, ht, rfl⟩ := List.mem_map.1 hx
    exact hF t (hdec t ht)
  have hlen := HepMC.HepMCLines.length_le hlines
  have hnw' : HepMC.nonWeightEntries (ascii "E" ++ (f1 ++ (b2 ++ nstates ++ []) ++ f3 ++ (b4 ++ nweights ++ []) ++ f5) ++
      rest ++ lines ++ eol) = some (b4 ++ (nweights ++ (f5 ++ (rest ++ (lines ++ eol))))) := by
    unfold HepMC.nonWeightEntries
    have hd : ∀ x : Bytes, List.drop 1 (ascii "E" ++ x) = x := fun x => rfl
    simp only [List.append_nil, List.append_assoc]
    rw [hd, e1]
    simp only
    rw [e2]
    simp only
    rw [e3]
  have hpre : [69] <+: ascii "E" ++ (f1 ++ (b2 ++ nstates ++ []) ++ f3 ++ (b4 ++ nweights ++ []) ++ f5) ++ rest ++ lines ++ eol := by
    simp only [List.append_assoc]
    exact List.prefix_append _ _
  have hext : ∃ more vals, HepMC.extractWeights c (ascii "E" ++ (f1 ++ (b2 ++ nstates ++ []) ++ f3 ++ (b4 ++ nweights ++ []) ++ f5) ++
      rest ++ lines ++ eol) = .ok (c.float.value w, vals, more ++ lines ++ eol) ∧ (10 : UInt8) ∉ more ∧
      (c.multi = true → vals = r.weights.map c.float.value) ∧ (∀ x ∈ vals, c.float.isNaN x = false) := by
    unfold HepMC.extractWeights
    rw [if_neg (not_not.2 hpre), hnw']
    simp only
    rw [e4]
    simp only [orParseErr, Outcome.bind]
    cases hm : c.multi with
    | true =>
      refine ⟨rest, r.weights.map c.float.value, ?_, hrest.1, fun _ => rfl, hnan⟩
      rw [if_pos rfl, e5, hww]
      simp
    | false =>
      rw [hww] at hf5
      obtain ⟨b6, f6, rfl, hb6, hw6, hf6⟩ := hf5.cons_inv
      have e6 := doubleEntry_text c.float hb6 (hdec w (by simp [hww])) (hf6.tailOk hr)
      refine ⟨f6 ++ rest, [], ?_, ?_, by simp, by simp⟩
      · simp only [List.append_assoc] at e6
        simp only [Bool.false_eq_true, if_false, List.append_assoc]
        rw [e6]
      · simp only [List.mem_append, not_or]
        exact ⟨hf6.noNewline, hrest.1⟩
  obtain ⟨more, vals, hext, hmore, hvals, hvnan⟩ := hext
  have hloop := HepMC.parseLoop_text (c := c) hF hvnan heol ((more ++ lines ++ eol).length + 1)
    ((EventBuilder.new c.multi).addWeight c.multi (c.float.value w)) .GeV hlines hmore (by
      intro hm ns hl n hn
      rw [hvals hm, List.length_map]
      exact hsel hm ns (List.mem_filterMap.2 ⟨_, hl, rfl⟩) n hn) (by simp; omega)
  rw [HepMC.foldl_applyLine] at hloop
  unfold HepMC.parse
  rw [hext]
  simp only [Outcome.bind]
  rw [HepMC.n64_number hF (hdec w (by simp [hww]))]
  simp only
  rw [hloop]
  simp only
  have hgev : ((List.filterMap (fun l => match l with | HepMCLine.units gev => some gev | _ => none) r.lines).getLast?.map
      (fun gev : Bool => if gev then HepMC.EnergyUnit.GeV else .MeV)).getD .GeV = if r.gev then .GeV else .MeV := by
    unfold HepMCRecord.gev
    cases (List.filterMap (fun l => match l with | HepMCLine.units gev => some gev | _ => none) r.lines).getLast? with
    | none => rfl
    | some g => cases g <;> rfl
  rw [hgev]
  have hweights : ((EventBuilder.new c.multi : EventBuilder K V).addWeight c.multi (c.float.value w)).weights ++
      (if c.multi then r.names.flatMap (fun ns => selectedWeights c.names ns vals) else []) =
      (r.weights.take 1).map c.float.value ++ (if c.multi then
          r.names.flatMap (fun ns => selectedWeights c.names ns (r.weights.map c.float.value)) else []) := by
    cases hm : c.multi with
    | true => rw [hvals hm]; simp [EventBuilder.addWeight, EventBuilder.new, hww]
    | false => simp [EventBuilder.addWeight, hww]
  have hout : ((EventBuilder.new c.multi : EventBuilder K V).addWeight c.multi (c.float.value w)).outgoingByPid = [] := by
    simp [EventBuilder.addWeight, EventBuilder.new]
  rw [hout, List.nil_append]
  change ∃ ev, (if (if r.gev then HepMC.EnergyUnit.GeV else .MeV) ≠ .GeV then
      Outcome.ok ((⟨_ ++ (if c.multi then r.names.flatMap (fun ns => selectedWeights c.names ns vals) else []), withStatus 1
        c.float.value c.momentum r.particles⟩ : EventBuilder K V).rescaleEnergies c.milli).build
    else .ok (⟨_ ++ (if c.multi then r.names.flatMap (fun ns => selectedWeights c.names ns vals) else []), withStatus 1
        c.float.value c.momentum r.particles⟩ : EventBuilder K V).build) = Outcome.ok ev ∧ _
  rw [hweights]
  cases hg : r.gev with
  | true =>
    refine ⟨_, rfl, ?_⟩
    have := describes_build (⟨(r.weights.take 1).map c.float.value ++ (if c.multi then
          r.names.flatMap (fun ns => selectedWeights c.names ns (r.weights.map c.float.value)) else []),
        withStatus 1 c.float.value c.momentum r.particles⟩ : EventBuilder K V)
    simpa using this
  | false =>
    refine ⟨_, rfl, ?_⟩
    exact describes_build ((⟨(r.weights.take 1).map c.float.value ++ (if c.multi then
          r.names.flatMap (fun ns => selectedWeights c.names ns (r.weights.map c.float.value)) else []),
        withStatus 1 c.float.value c.momentum r.particles⟩ : EventBuilder K V).rescaleEnergies c.milli)

/-! Non-vacuity: a record with two weights, their names, energies in MeV, an outgoing and another particle. -/

/-- The entries of the example. -/
def exampleHepMC : HepMCRecord :=
  ⟨[ascii "0.5", ascii "-3e1"],
   [.names [ascii "a", ascii "b c"], .units false, .other, .particle ⟨11, 1, ⟨ascii "1", ascii "2", ascii "3", ascii "45"⟩⟩,
    .particle ⟨21, 2, ⟨ascii "1", ascii "0", ascii "0", ascii "1"⟩⟩]⟩

/-- The example as text. -/
def exampleHepMCText : Bytes :=
  ascii "E 1 2 3 4 5 6 7 8 9 0 1 17 2  0.5 -3e1 \nN 2 \"a\" \"b c\"\nU MEV MM\nV -1 0\nP 1 11 1 2 3 45 0 1 0\nP 2\t21 1 0 0 1 0 2\n"

theorem exampleHepMC_isText : exampleHepMC.IsText exampleHepMCText := by
  have sp : Blanks (ascii " ") := by decide
  have w : ∀ {s : Bytes}, Word s → Word s := id
  have half : Decimal (ascii "0.5") := ⟨[], ascii "0", ascii "5", [], Or.inl rfl, by decide, by decide, by decide, Or.inl rfl,
    Or.inl (by decide)⟩
  have m30 : Decimal (ascii "-3e1") := ⟨[45], ascii "3", [], ascii "e1", Or.inr (Or.inr rfl), by decide, by decide, by decide,
    Or.inr ⟨101, [], ascii "1", by decide, Or.inl rfl, Or.inl rfl, by decide, by decide⟩, Or.inr ⟨rfl, by decide⟩⟩
  have i : ∀ {d : Bytes}, Digits d → d ≠ [] → Decimal d := decimal_of_digits
  refine ⟨[ascii "1", ascii "2", ascii "3", ascii "4", ascii "5", ascii "6", ascii "7", ascii "8", ascii "9", ascii "0"], ascii "1",
    [ascii "17"], ascii "2", ascii " 1 2 3 4 5 6 7 8 9 0 1 17 2  0.5 -3e1", ascii " ",
    ascii "\nN 2 \"a\" \"b c\"\nU MEV MM\nV -1 0\nP 1 11 1 2 3 45 0 1 0\nP 2\t21 1 0 0 1 0 2", [10], by decide, ?_, rfl, by decide,
    by decide, ?_, by decide, ?_, Or.inr rfl⟩
  · refine .cons (bl := ascii " ") sp (by decide) <| .cons (bl := ascii " ") sp (by decide) <| .cons (bl := ascii " ") sp (by decide) <|
      .cons (bl := ascii " ") sp (by decide) <| .cons (bl := ascii " ") sp (by decide) <| .cons (bl := ascii " ") sp (by decide) <|
      .cons (bl := ascii " ") sp (by decide) <| .cons (bl := ascii " ") sp (by decide) <| .cons (bl := ascii " ") sp (by decide) <|
      .cons (bl := ascii " ") sp (by decide) <| .cons (bl := ascii " ") sp (by decide) <| .cons (bl := ascii " ") sp (by decide) <|
      .cons (bl := ascii " ") sp (by decide) <| .cons (bl := ascii "  ") (by decide) (by decide) <|
      .cons (bl := ascii " ") sp (by decide) .nil
  · intro x hx
    simp only [exampleHepMC, List.mem_cons, List.not_mem_nil, or_false] at hx
    rcases hx with rfl | rfl
    · exact half
    · exact m30
  · refine .cons (line := ascii "N 2 \"a\" \"b c\"") ?_ <| .cons (line := ascii "U MEV MM") ?_ <| .cons (line := ascii "V -1 0") ?_ <|
      .cons (line := ascii "P 1 11 1 2 3 45 0 1 0") ?_ <| .cons (line := ascii "P 2\t21 1 0 0 1 0 2") ?_ .nil
    · exact ⟨ascii " ", ascii "2", ascii " \"a\" \"b c\"", [], by decide, sp, by decide,
        .cons (bl := ascii " ") sp (by decide) (by decide) (.cons (bl := ascii " ") sp (by decide) (by decide) .nil), lineRest_nil⟩
    · exact ⟨ascii " ", ascii " MM", by decide, sp, by decide⟩
    · exact ⟨by decide, 86, by decide, by decide⟩
    · refine ⟨ascii "1", ascii "11", ascii "0", ascii "1", ascii " 1 11 1 2 3 45 0 1", ascii " 0", by decide, ?_,
        intText_of_digits (n := 11) (by decide) (by decide) (by decide) (by decide),
        intText_of_digits (n := 1) (by decide) (by decide) (by decide) (by decide),
        ⟨i (by decide) (by decide), i (by decide) (by decide), i (by decide) (by decide), i (by decide) (by decide)⟩, by decide⟩
      exact .cons (bl := ascii " ") sp (by decide) <| .cons (bl := ascii " ") sp (by decide) <| .cons (bl := ascii " ") sp (by decide) <|
        .cons (bl := ascii " ") sp (by decide) <| .cons (bl := ascii " ") sp (by decide) <| .cons (bl := ascii " ") sp (by decide) <|
        .cons (bl := ascii " ") sp (by decide) <| .cons (bl := ascii " ") sp (by decide) .nil
    · refine ⟨ascii "2", ascii "21", ascii "0", ascii "2", ascii " 2\t21 1 0 0 1 0 2", [], by decide, ?_,
        intText_of_digits (n := 21) (by decide) (by decide) (by decide) (by decide),
        intText_of_digits (n := 2) (by decide) (by decide) (by decide) (by decide),
        ⟨i (by decide) (by decide), i (by decide) (by decide), i (by decide) (by decide), i (by decide) (by decide)⟩, lineRest_nil⟩
      exact .cons (bl := ascii " ") sp (by decide) <| .cons (bl := ascii "\t") (by decide) (by decide) <|
        .cons (bl := ascii " ") sp (by decide) <|
        .cons (bl := ascii " ") sp (by decide) <| .cons (bl := ascii " ") sp (by decide) <| .cons (bl := ascii " ") sp (by decide) <|
        .cons (bl := ascii " ") sp (by decide) <| .cons (bl := ascii " ") sp (by decide) .nil

/-- The theorem applies to the example, with the weight "b c" selected; the energy of the outgoing particle is 45 MeV. -/
example : ∃ ev, HepMC.parse (ratCtx true true [ascii "b c"]) exampleHepMCText = .ok ev ∧
    Describes ([ascii "0.5", ascii "-3e1"].map decValue) [(11, 45 / 1000)] ev := by
  obtain ⟨ev, h1, h2⟩ := C64_parse (ratCtx true true [ascii "b c"]) (fun _ _ => rfl) exampleHepMC exampleHepMCText
    exampleHepMC_isText (by decide) (by decide)
  refine ⟨ev, h1, ?_⟩
  have e1 : (exampleHepMC.weights.take 1).map (ratCtx true true [ascii "b c"]).float.value ++
      (if (ratCtx true true [ascii "b c"]).multi then exampleHepMC.names.flatMap (fun ns =>
        selectedWeights (ratCtx true true [ascii "b c"]).names ns (exampleHepMC.weights.map (ratCtx true true [ascii "b c"]).float.value))
        else []) = [ascii "0.5", ascii "-3e1"].map decValue := by decide +kernel
  have e2 : ((withStatus 1 (ratCtx true true [ascii "b c"]).float.value (ratCtx true true [ascii "b c"]).momentum
      exampleHepMC.particles).map (fun x => (x.1, if exampleHepMC.gev then x.2 else (ratCtx true true [ascii "b c"]).milli x.2))) =
      [(11, 45 / 1000)] := by decide +kernel
  rwa [e1, e2] at h2

end Cres

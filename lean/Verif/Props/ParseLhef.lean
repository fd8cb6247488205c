import Verif.Model.ExampleFormat
import Verif.Proofs.Lhef
import Verif.Props.ParseHepMC

/-!
Property C65: what is read from an LHEF record.
-/

namespace Cres

open Spec

variable {K V : Type*}

namespace Lhef

open HepMC (EndOfLine lineRest_tailOk n64_number)

theorem trimStart_ascii {ws s : Bytes} (h : ∀ b ∈ ws, isAsciiWs b = true) : trimStart (ws ++ 60 :: s) = 60 :: s := by
  induction ws with
  | nil =>
    have h1 : isWs1 60 = false := by decide
    match s with
    | [] => simp [trimStart, h1]
    | [b1] => simp [trimStart, h1, isWs2]
    | b1 :: b2 :: r => simp [trimStart, h1, isWs2, isWs3]
  | cons b ws ih =>
    have hb : isWs1 b = true := by
      have := h b (by simp)
      simp only [isAsciiWs, Bool.or_eq_true, decide_eq_true_eq] at this
      rcases this with (((rfl | rfl) | rfl) | rfl) | rfl <;> decide
    rw [List.cons_append, trimStart_ws1 hb]
    exact ih (fun b hb => h b (by simp [hb]))

theorem space0_blanks {bl r : Bytes} (h : ∀ b ∈ bl, b = 32 ∨ b = 9) (hr : ∀ b, r.head? = some b → isBlank b = false) :
    space0 (bl ++ r) = r := by
  have := span_append isBlank (fun b hb => isBlank_iff.2 (h b hb)) hr
  rw [List.span_eq_takeWhile_dropWhile] at this
  exact (Prod.mk.inj this).2

theorem natText_word {t : Bytes} {n : Nat} (h : NatText t n) : Word t := ⟨h.2.1, digit_noWs h.1⟩

/-- A line without the carriage return at its end. -/
def strip (l : Bytes) : Bytes := if l.getLast? = some 13 then l.dropLast else l

theorem lines_cons {l : Bytes} (hl : (10 : UInt8) ∉ l) (s : Bytes) : lines (l ++ 10 :: s) = strip l :: lines s := by
  unfold lines
  rw [linesLoop_append hl, linesLoop, if_pos rfl]
  rfl

variable {c : ParseCtx K V}

/-- A particle line. -/
theorem particle_text (hF : ∀ t, Decimal t → c.float.isNaN (c.float.value t) = false) {p : ParticleEntry} {line : Bytes}
    (h : LhefParticle p line) (b : EventBuilder K V) :
    parseParticle c b line =
      .ok (if p.status = 1 then b.addOutgoing p.id (p.p.vector c.float.value c.momentum) else b) := by
  obtain ⟨bl, id, status, m1, m2, c1, c2, fields, rest, rfl, hbl, hid, hst, ⟨ok1, ok2, ok3, ok4⟩, hf, hrest⟩ := h
  have hr : TailOk rest := hrest.2
  obtain ⟨b1, f1, rfl, hb1, hw1, h1⟩ := hf.cons_inv
  have h1' : Fields ([m1, m2, c1, c2] ++ [p.p.px, p.p.py, p.p.pz, p.p.e]) f1 := h1
  obtain ⟨g, f2, rfl, hg, h2⟩ := h1'.append_inv
  obtain ⟨b3, f3, rfl, hb3, hw3, h3⟩ := h2.cons_inv
  obtain ⟨b4, f4, rfl, hb4, hw4, h4⟩ := h3.cons_inv
  obtain ⟨b5, f5, rfl, hb5, hw5, h5⟩ := h4.cons_inv
  obtain ⟨b6, f6, rfl, hb6, hw6, h6⟩ := h5.cons_inv
  cases h6
  have e0 := parseI32_text hid (hf.tailOk hr).noDigit
  have e1 := i32Entry_text hb1 hst (h1.tailOk hr).noDigit
  have e2 : count anyEntry 4 _ = some (_, [m1, m2, c1, c2]) := count_fields hg (h2.tailOk hr)
  have e3 := doubleEntry_text c.float hb3 ok1 (h3.tailOk hr)
  have e4 := doubleEntry_text c.float hb4 ok2 (h4.tailOk hr)
  have e5 := doubleEntry_text c.float hb5 ok3 (h5.tailOk hr)
  have e6 := doubleEntry_text c.float hb6 ok4 hr
  simp only [List.append_assoc, List.nil_append] at e0 e1 e2 e3 e4 e5 e6 ⊢
  have e00 := space0_blanks hbl (word_noBlank (r := b1 ++ (status ++ (g ++ (b3 ++ (p.p.px ++ (b4 ++ (p.p.py ++ (b5 ++ (p.p.pz ++
    (b6 ++ (p.p.e ++ rest))))))))))) hid.word)
  unfold parseParticle i32Entry0
  rw [e00, e0]
  simp only [orParseErr, Outcome.bind]
  rw [e1]
  simp only
  by_cases hs : p.status = 1
  · rw [if_neg (by simp [hs]), if_pos hs]
    rw [e2]
    simp only
    rw [e3]
    simp only
    rw [e4]
    simp only
    rw [e5]
    simp only
    rw [e6]
    simp only
    rw [n64_number hF ok1, n64_number hF ok2, n64_number hF ok3, n64_number hF ok4]
    rfl
  · rw [if_pos hs, if_neg hs]

theorem _root_.Cres.Spec.Fields.getLast {ws : List Bytes} {text : Bytes} {b : UInt8} (h : Fields ws text) (hl : text.getLast? = some b) :
    isAsciiWs b = false := by
  induction h with
  | nil => simp at hl
  | cons h1 h2 h3 ih =>
    rename_i bl w text ws
    by_cases ht : text = []
    · subst ht
      rw [List.append_nil, List.getLast?_append_of_ne_nil _ h2.1] at hl
      exact h2.2 b (List.mem_of_getLast? hl)
    · rw [List.getLast?_append_of_ne_nil _ ht] at hl
      exact ih hl

/-- A carriage return at the end of the line does not matter. -/
theorem particle_strip {p : ParticleEntry} {line : Bytes} (h : LhefParticle p line) : LhefParticle p (strip line) := by
  unfold strip
  split_ifs with hl
  · obtain ⟨bl, id, status, m1, m2, c1, c2, fields, rest, rfl, hbl, hid, hst, hp, hf, hrest⟩ := h
    refine ⟨bl, id, status, m1, m2, c1, c2, fields, rest.dropLast, ?_, hbl, hid, hst, hp, hf, ?_, ?_⟩
    · cases rest with
      | nil =>
        exfalso
        obtain ⟨b1, f1, rfl, -, hw1, h1⟩ := hf.cons_inv
        rw [List.append_nil, List.getLast?_append_of_ne_nil _ (by simp [hw1.1])] at hl
        have := hf.getLast hl
        simp [isAsciiWs] at this
      | cons x rest => rw [List.dropLast_append_of_ne_nil (by simp)]
    · exact fun hm => hrest.1 (List.mem_of_mem_dropLast hm)
    · intro b hb
      cases rest with
      | nil => simp at hb
      | cons x rest =>
        cases rest with
        | nil => simp at hb
        | cons y rest => exact hrest.2 b (by simpa using hb)
  · exact h

theorem particle_noNewline {p : ParticleEntry} {line : Bytes} (h : LhefParticle p line) : (10 : UInt8) ∉ line := by
  obtain ⟨bl, id, status, m1, m2, c1, c2, fields, rest, rfl, hbl, hid, hst, hp, hf, hrest⟩ := h
  simp only [List.mem_append, not_or]
  refine ⟨⟨⟨fun h => ?_, fun h => ?_⟩, hf.noNewline⟩, hrest.1⟩
  · rcases hbl _ h with h | h <;> simp at h
  · have := hid.word.2 _ h
    simp [isAsciiWs] at this

/-- The particle lines. -/
theorem lines_particles {ps : List ParticleEntry} {text : Bytes} (h : LhefLines ps text) (more : Bytes) :
    ∃ ls, lines (text ++ more) = ls ++ lines more ∧ List.Forall₂ LhefParticle ps ls := by
  induction h with
  | nil => exact ⟨[], rfl, .nil⟩
  | cons h1 h2 ih =>
    obtain ⟨ls, e, h⟩ := ih
    refine ⟨strip _ :: ls, ?_, .cons (particle_strip h1) h⟩
    rw [List.append_assoc, List.append_assoc, List.singleton_append, lines_cons (particle_noNewline h1), e]
    rfl

theorem particles_text (hF : ∀ t, Decimal t → c.float.isNaN (c.float.value t) = false) {ps : List ParticleEntry}
    {ls : List Bytes} (h : List.Forall₂ LhefParticle ps ls) (b : EventBuilder K V) :
    parseParticles c ls b =
      .ok ⟨b.weights, b.outgoingByPid ++ withStatus 1 c.float.value c.momentum ps⟩ := by
  induction h generalizing b with
  | nil => simp [parseParticles, withStatus]
  | cons h1 h2 ih =>
    rename_i p l ps ls
    rw [parseParticles, particle_text hF h1]
    simp only [Outcome.bind]
    rw [ih]
    by_cases hs : p.status = 1 <;> simp [withStatus, hs, EventBuilder.addOutgoing]

end Lhef

/-- **C65**: converting an LHEF record with at least two particles, whatever its length, spacing and additional text, yields
the event it describes: the weight, and the particles with status 1 with their energies and momenta. `hF` says that a number is
read for a decimal number. -/
theorem C65_parse [Zero K] [LinearOrder V] (c : ParseCtx K V)
    (hF : ∀ t, Decimal t → c.float.isNaN (c.float.value t) = false) (weight : Bytes) (ps : List ParticleEntry) (text : Bytes)
    (h : LhefRecord weight ps text) (h2 : 2 ≤ ps.length) :
    ∃ ev, Lhef.parse c text = .ok ev ∧
      Describes [c.float.value weight] (withStatus 1 c.float.value c.momentum ps) ev := by
  obtain ⟨ws, attr, bl, n, process, fields, rest, lns, more, rfl, hws, hattr, hbl, hn, hf, hdec, hrest, hl⟩ := h
  have hev : ascii "<event" = 60 :: ascii "event" := by decide
  have e0 : ws ++ ascii "<event" ++ attr ++ [10] ++ bl ++ n ++ fields ++ rest ++ [10] ++ lns ++ more =
      ws ++ 60 :: (ascii "event" ++ attr ++ 10 :: (bl ++ (n ++ (fields ++ (rest ++ 10 :: (lns ++ more)))))) := by
    rw [hev]; simp
  have hr : TailOk (rest ++ 10 :: (lns ++ more)) := HepMC.lineRest_tailOk hrest (Or.inr ⟨_, rfl⟩)
  obtain ⟨b1, f1, rfl, hb1, hw1, h1⟩ := hf.cons_inv
  obtain ⟨b3, f3, rfl, hb3, hw3, h3⟩ := h1.cons_inv
  cases h3
  have hno : (10 : UInt8) ∉ 60 :: (ascii "event" ++ attr) := by
    have : (10 : UInt8) ∉ ascii "event" := by decide
    simp [this, hattr]
  have e1 : afterByte 10 (60 :: (ascii "event" ++ attr ++ 10 :: (bl ++ (n ++ (b1 ++ process ++ (b3 ++ weight ++ []) ++ (rest ++ 10 :: (lns ++ more))))))) =
      some (bl ++ (n ++ (b1 ++ process ++ (b3 ++ weight ++ []) ++ (rest ++ 10 :: (lns ++ more))))) := by
    rw [← List.cons_append, HepMC.afterByte_append hno]
    simp [afterByte]
  have e2 := parseU32_text hn (hf.tailOk hr).noDigit
  have e3 := anyEntry_word hb1 hw1 (h1.tailOk hr)
  have e4 := doubleEntry_text c.float hb3 hdec hr
  have e22 := Lhef.space0_blanks hbl (word_noBlank (r := b1 ++ process ++ (b3 ++ weight ++ []) ++ (rest ++ 10 :: (lns ++ more)))
    (Lhef.natText_word hn))
  obtain ⟨ls, el, hls⟩ := Lhef.lines_particles hl more
  have e5 : ((lines (rest ++ 10 :: (lns ++ more))).drop 1).take ps.length = ls := by
    rw [Lhef.lines_cons hrest.1, List.drop_one, List.tail_cons, el, hls.length_eq, List.take_left]
  unfold Lhef.parse
  rw [e0, Lhef.trimStart_ascii hws, e1]
  simp only
  unfold Lhef.u32Entry0
  rw [e22, e2]
  simp only [orParseErr, Outcome.bind]
  rw [if_neg (by omega), List.append_assoc, e3]
  simp only
  rw [List.append_nil, e4]
  simp only
  rw [HepMC.n64_number hF hdec]
  simp only
  rw [e5, Lhef.particles_text hF hls]
  simp only
  refine ⟨_, rfl, ?_⟩
  have hw : ((EventBuilder.new c.multi : EventBuilder K V).addWeight c.multi (c.float.value weight)).weights =
      [c.float.value weight] := by
    cases hm : c.multi <;> simp [EventBuilder.addWeight, EventBuilder.new]
  have hout : ((EventBuilder.new c.multi : EventBuilder K V).addWeight c.multi (c.float.value weight)).outgoingByPid = [] := by
    simp [EventBuilder.addWeight, EventBuilder.new]
  rw [hw, hout, List.nil_append]
  exact describes_build (⟨[c.float.value weight], withStatus 1 c.float.value c.momentum ps⟩ : EventBuilder K V)

/-- The particles of the example. -/
def exampleLhef : List ParticleEntry :=
  [⟨21, -1, ⟨ascii "0", ascii "0", ascii "4", ascii "5"⟩⟩, ⟨11, 1, ⟨ascii "0", ascii "3", ascii "4", ascii "25"⟩⟩]

/-- The hypotheses are met by a record with two particles, one of them outgoing. -/
theorem exampleLhef_isText : LhefRecord (ascii "3") exampleLhef
    (ascii "<event>\n 2 0 3 9 9 9\n21 -1 0 0 1 2 0 0 4 5\n 11  1 1 1 0 0 0 3 4 25 0 9\n</event>\n") := by
  have sp : Blanks (ascii " ") := by decide
  have i : ∀ {d : Bytes}, Digits d → d ≠ [] → Decimal d := decimal_of_digits
  refine ⟨[], ascii ">", ascii " ", ascii "2", ascii "0", ascii " 0 3", ascii " 9 9 9",
    ascii "21 -1 0 0 1 2 0 0 4 5\n 11  1 1 1 0 0 0 3 4 25 0 9\n", ascii "</event>\n", by decide, by simp, by decide, by decide, by decide,
    .cons (bl := ascii " ") sp (by decide) (.cons (bl := ascii " ") sp (by decide) .nil), i (by decide) (by decide), by decide, ?_⟩
  refine .cons (line := ascii "21 -1 0 0 1 2 0 0 4 5") ?_ (.cons (line := ascii " 11  1 1 1 0 0 0 3 4 25 0 9") ?_ .nil)
  · refine ⟨[], ascii "21", ascii "-1", ascii "0", ascii "0", ascii "1", ascii "2", ascii " -1 0 0 1 2 0 0 4 5", [], by decide, by simp,
      intText_of_digits (n := 21) (by decide) (by decide) (by decide) (by decide),
      ⟨[45], ascii "1", by decide, Or.inr (Or.inr rfl), by decide, by decide, by decide, by decide, by decide⟩,
      ⟨i (by decide) (by decide), i (by decide) (by decide), i (by decide) (by decide), i (by decide) (by decide)⟩, ?_, lineRest_nil⟩
    exact .cons (bl := ascii " ") sp (by decide) <| .cons (bl := ascii " ") sp (by decide) <| .cons (bl := ascii " ") sp (by decide) <|
      .cons (bl := ascii " ") sp (by decide) <| .cons (bl := ascii " ") sp (by decide) <| .cons (bl := ascii " ") sp (by decide) <|
      .cons (bl := ascii " ") sp (by decide) <| .cons (bl := ascii " ") sp (by decide) <| .cons (bl := ascii " ") sp (by decide) .nil
  · refine ⟨ascii " ", ascii "11", ascii "1", ascii "1", ascii "1", ascii "0", ascii "0", ascii "  1 1 1 0 0 0 3 4 25", ascii " 0 9", by decide,
      by decide, intText_of_digits (n := 11) (by decide) (by decide) (by decide) (by decide),
      intText_of_digits (n := 1) (by decide) (by decide) (by decide) (by decide),
      ⟨i (by decide) (by decide), i (by decide) (by decide), i (by decide) (by decide), i (by decide) (by decide)⟩, ?_, by decide⟩
    exact .cons (bl := ascii "  ") (by decide) (by decide) <| .cons (bl := ascii " ") sp (by decide) <| .cons (bl := ascii " ") sp (by decide) <|
      .cons (bl := ascii " ") sp (by decide) <| .cons (bl := ascii " ") sp (by decide) <| .cons (bl := ascii " ") sp (by decide) <|
      .cons (bl := ascii " ") sp (by decide) <| .cons (bl := ascii " ") sp (by decide) <| .cons (bl := ascii " ") sp (by decide) .nil

/-- The theorem applies to the example. -/
example : ∃ ev, Lhef.parse (ratCtx false true [])
    (ascii "<event>\n 2 0 3 9 9 9\n21 -1 0 0 1 2 0 0 4 5\n 11  1 1 1 0 0 0 3 4 25 0 9\n</event>\n") = .ok ev ∧
    Describes [3] [(11, 25)] ev := by
  obtain ⟨ev, h1, h2⟩ := C65_parse (ratCtx false true []) (fun _ _ => rfl) _ _ _ exampleLhef_isText (by decide)
  refine ⟨ev, h1, ?_⟩
  have e1 : (ratCtx false true []).float.value (ascii "3") = 3 := by decide +kernel
  have e2 : withStatus 1 (ratCtx false true []).float.value (ratCtx false true []).momentum exampleLhef = [(11, 25)] := by
    decide +kernel
  rwa [e1, e2] at h2

end Cres

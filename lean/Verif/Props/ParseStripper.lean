import Verif.Model.ExampleFormat
import Verif.Props.ParseLhef

/-!
Property C66: what is read from a STRIPPER XML record.
-/

namespace Cres

open Spec

variable {K V : Type*}

namespace Stripper

open HepMC (n64_number afterByte_append splitAtPattern_append splitAtPattern_here)
open Lhef (space0_blanks)

theorem tag_here (t s : Bytes) : tag t (t ++ s) = some s := tag_eq_some.2 rfl

theorem multispace0_ws {ws s : Bytes} (h : ∀ b ∈ ws, b = 32 ∨ b = 9 ∨ b = 13 ∨ b = 10) (hs : s.head? = some 60) :
    multispace0 (ws ++ s) = s := by
  have := span_append (fun b => b = 32 || b = 9 || b = 13 || b = 10) (t := ws) (r := s) (fun b hb => by
    rcases h b hb with rfl | rfl | rfl | rfl <;> rfl) (fun b hb => by
    rw [hs] at hb
    simp at hb
    subst hb
    rfl)
  rw [List.span_eq_takeWhile_dropWhile] at this
  exact (Prod.mk.inj this).2

theorem digits_noLt {s : Bytes} (h : Digits s) : (60 : UInt8) ∉ s := fun hm => by
  have := (h _ hm).2
  revert this
  decide

theorem sign_noLt {s : Bytes} (h : Sign s) : (60 : UInt8) ∉ s := by
  rcases h with rfl | rfl | rfl <;> decide

theorem intText_noLt {s : Bytes} {i : ℤ} (h : IntText s i) : (60 : UInt8) ∉ s := by
  obtain ⟨sign, ds, rfl, h1, h2, -⟩ := h
  simp [sign_noLt h1, digits_noLt h2]

theorem decimal_noLt {s : Bytes} (h : Decimal s) : (60 : UInt8) ∉ s := by
  obtain ⟨sign, d, f, exp, h1, h2, h3, -, h5, h6⟩ := h
  have he : (60 : UInt8) ∉ exp := by
    rcases h5 with rfl | ⟨c, es, ds, rfl, hc, hes, hds, -⟩
    · simp
    · simp only [List.cons_append, List.mem_cons, List.mem_append, not_or]
      refine ⟨?_, sign_noLt hes, digits_noLt hds⟩
      rcases hc with rfl | rfl <;> decide
  rcases h6 with rfl | ⟨-, rfl⟩
  · simp [sign_noLt h1, digits_noLt h2, digits_noLt h3, he]
  · simp [sign_noLt h1, digits_noLt h2, he]

theorem blanks_noLt {s : Bytes} (h : ∀ b ∈ s, b = 32 ∨ b = 9) : (60 : UInt8) ∉ s := fun hm => by
  rcases h _ hm with h | h <;> simp at h

variable {c : ParseCtx K V}

theorem commaDouble_text (F : FloatFormat K) {t r : Bytes} (h : Decimal t) (hr : ∀ b, r.head? = some b → StopByte b) :
    commaDouble F (ascii "," ++ (t ++ r)) = some (r, F.value t) := by
  unfold commaDouble
  rw [tag_here]
  exact double_decimal F h hr

theorem comma_head {s : Bytes} : ∀ b, (ascii "," ++ s).head? = some b → StopByte b := by
  intro b hb
  have e : (ascii "," ++ s).head? = some 44 := rfl
  rw [e] at hb
  simp at hb
  subst hb
  decide

theorem lt_head {bl s : Bytes} (h : ∀ b ∈ bl, b = 32 ∨ b = 9) (hs : s.head? = some 60) :
    ∀ b, (bl ++ s).head? = some b → StopByte b := by
  intro b hb
  cases bl with
  | nil =>
    rw [List.nil_append, hs] at hb
    simp at hb
    subst hb
    decide
  | cons x bl =>
    simp at hb
    subst hb
    rcases h x (by simp) with rfl | rfl <;> decide

/-- The momentum of a particle. -/
theorem momentum_text (F : FloatFormat K) {p : MomentumText} (hp : p.Ok) {bl bl' r : Bytes} (hbl : ∀ b ∈ bl, b = 32 ∨ b = 9)
    (hbl' : ∀ b ∈ bl', b = 32 ∨ b = 9) (hr : r.head? = some 60) :
    particleMomentum F (bl ++ (p.e ++ (ascii "," ++ (p.px ++ (ascii "," ++ (p.py ++ (ascii "," ++ (p.pz ++ (bl' ++ r))))))))) =
      some (r, (F.value p.e, F.value p.px, F.value p.py, F.value p.pz)) := by
  obtain ⟨h1, h2, h3, h4⟩ := hp
  unfold particleMomentum
  rw [space0_blanks hbl (word_noBlank h4.word), double_decimal F h4 comma_head]
  simp only
  rw [commaDouble_text F h1 comma_head]
  simp only
  rw [commaDouble_text F h2 comma_head]
  simp only
  rw [commaDouble_text F h3 (lt_head hbl' hr)]
  simp only
  rw [space0_blanks hbl' (fun b hb => by rw [hr] at hb; simp at hb; subst hb; decide)]

/-- A particle. -/
theorem particle_text (hF : ∀ t, Decimal t → c.float.isNaN (c.float.value t) = false) {p : ParticleEntry} {pre t : Bytes}
    (hpre : Blanks pre) (h : StripperParticle pre p t) (r : Bytes) (b : EventBuilder K V) :
    ∃ t', particleStart (t ++ r) = some t' ∧ parseParticle c b t' =
      .ok (r, if p.status = 0 then b.addOutgoing p.id (p.p.vector c.float.value c.momentum) else b) := by
  obtain ⟨ws, bl, status, id, bl', rfl, hws, hbl, hbl', hst, hid, hp⟩ := h
  have hcomma : NoDigit (ascii "," ++ (id ++ (ascii "\">" ++ (pre ++ (p.p.e ++ (ascii "," ++ (p.p.px ++ (ascii "," ++ (p.p.py ++
      (ascii "," ++ (p.p.pz ++ (bl' ++ (ascii "</p>" ++ r))))))))))))) := fun b hb => (comma_head b hb).digit
  have hquote : ∀ s : Bytes, NoDigit (ascii "\">" ++ s) := by
    intro s b hb
    have e : (ascii "\">" ++ s).head? = some 34 := rfl
    rw [e] at hb
    simp at hb
    subst hb
    decide
  refine ⟨bl ++ (ascii "id=\"" ++ (status ++ (ascii "," ++ (id ++ (ascii "\">" ++ (pre ++ (p.p.e ++ (ascii "," ++ (p.p.px ++
    (ascii "," ++ (p.p.py ++ (ascii "," ++ (p.p.pz ++ (bl' ++ (ascii "</p>" ++ r))))))))))))))), ?_, ?_⟩
  · simp only [List.append_assoc]
    unfold particleStart
    rw [multispace0_ws hws rfl, tag_here]
  · unfold parseParticle particleStatus
    rw [space0_blanks hbl (fun b hb => by
      have e : ∀ s : Bytes, (ascii "id=\"" ++ s).head? = some 105 := fun s => rfl
      rw [e] at hb
      simp at hb
      subst hb
      decide), tag_here]
    simp only
    rw [parseI32_text hst hcomma]
    simp only [orParseErr, Outcome.bind]
    by_cases hs : p.status = 0
    · rw [if_neg (by simp [hs]), if_pos hs]
      unfold particleId
      rw [tag_here]
      simp only
      rw [parseI32_text hid (hquote _)]
      simp only
      rw [tag_here]
      obtain ⟨x, pre', rfl⟩ := List.exists_cons_of_ne_nil hpre.1
      have hx : x < 128 := by rcases hpre.2 x (by simp) with rfl | rfl <;> decide
      simp only [List.cons_append, skipOne, hx, if_true]
      rw [momentum_text c.float hp (fun b hb => hpre.2 b (by simp [hb])) hbl' rfl]
      obtain ⟨h1, h2, h3, h4⟩ := hp
      simp only
      rw [n64_number hF h1, n64_number hF h2, n64_number hF h3, n64_number hF h4]
      simp only
      rw [tag_here]
      rfl
    · rw [if_pos hs, if_neg hs]
      obtain ⟨h1, h2, h3, h4⟩ := hp
      have hno : (60 : UInt8) ∉ ascii "," ++ id ++ ascii "\">" ++ pre ++ p.p.e ++ ascii "," ++ p.p.px ++ ascii "," ++ p.p.py ++
          ascii "," ++ p.p.pz ++ bl' := by
        have k1 : (60 : UInt8) ∉ ascii "," := by decide
        have k2 : (60 : UInt8) ∉ ascii "\">" := by decide
        simp [k1, k2, intText_noLt hid, blanks_noLt hpre.2, decimal_noLt h1, decimal_noLt h2, decimal_noLt h3, decimal_noLt h4,
          blanks_noLt hbl']
      have hpat : ascii "</p>" = 60 :: ascii "/p>" := by decide
      have e : splitAtPattern (ascii "</p>") ((ascii "," ++ id ++ ascii "\">" ++ pre ++ p.p.e ++ ascii "," ++ p.p.px ++ ascii "," ++
          p.p.py ++ ascii "," ++ p.p.pz ++ bl') ++ (ascii "</p>" ++ r)) = some (ascii "," ++ id ++ ascii "\">" ++ pre ++ p.p.e ++
          ascii "," ++ p.p.px ++ ascii "," ++ p.p.py ++ ascii "," ++ p.p.pz ++ bl', r) := by
        rw [hpat, splitAtPattern_append hno, ← hpat, splitAtPattern_here]
        simp
      simp only [List.append_assoc] at e
      rw [e]

/-- All particles. -/
theorem parseLoop_text (hF : ∀ t, Decimal t → c.float.isNaN (c.float.value t) = false) {ps : List ParticleEntry} {text r : Bytes}
    (h : StripperParticles Blanks ps text) (hr : particleStart r = none) : ∀ (fuel : Nat) (b : EventBuilder K V), ps.length < fuel →
    parseLoop c fuel b (text ++ r) = .ok ⟨b.weights, b.outgoingByPid ++ withStatus 0 c.float.value c.momentum ps⟩ := by
  induction h with
  | nil =>
    intro fuel b hfuel
    cases fuel with
    | zero => simp at hfuel
    | succ fuel => simp [parseLoop, hr, withStatus]
  | cons h1 h2 h3 ih =>
    rename_i p ps pre t text
    intro fuel b hfuel
    cases fuel with
    | zero => simp at hfuel
    | succ fuel =>
      obtain ⟨t', e1, e2⟩ := particle_text (c := c) hF h1 h2 (text ++ r) b
      rw [parseLoop, List.append_assoc, e1]
      simp only
      rw [e2]
      simp only [Outcome.bind]
      rw [ih fuel _ (by simp at hfuel; omega)]
      by_cases hs : p.status = 0 <;> simp [withStatus, hs, EventBuilder.addOutgoing]

theorem _root_.Cres.Spec.StripperParticles.length_le {Pre : Bytes → Prop} {ps : List ParticleEntry} {text : Bytes}
    (h : StripperParticles Pre ps text) : ps.length ≤ text.length := by
  induction h with
  | nil => simp
  | cons h1 h2 h3 ih =>
    obtain ⟨ws, bl, status, id, bl', rfl, -⟩ := h2
    have : (ascii ",").length = 1 := by decide
    simp only [List.length_append, List.length_cons, this]
    omega

end Stripper

/-- **C66** as stated: there may or may not be blanks between the tag of a particle and its energy. -/
def C66_claim : Prop :=
  ∀ (weight : Bytes) (ps : List ParticleEntry) (text : Bytes), StripperRecord (fun s => ∀ b ∈ s, b = 32 ∨ b = 9) weight ps text →
    ∃ ev, Stripper.parse (ratCtx false true []) text = .ok ev ∧
      Describes [decValue weight] (withStatus 0 decValue (ratCtx false true []).momentum ps) ev

/-- **C66**, the part that holds: converting a STRIPPER XML record in which there is at least one blank in front of each
energy, whatever its length, yields the event it describes: the weight, and the particles with status 0 with their energies and
momenta. `hF` says that a number is read for a decimal number. Without the blank, the first digit of the energy is lost. -/
theorem C66_parse_partial [Zero K] [LinearOrder V] (c : ParseCtx K V)
    (hF : ∀ t, Decimal t → c.float.isNaN (c.float.value t) = false) (weight : Bytes) (ps : List ParticleEntry) (text : Bytes)
    (h : StripperRecord Blanks weight ps text) :
    ∃ ev, Stripper.parse c text = .ok ev ∧
      Describes [c.float.value weight] (withStatus 0 c.float.value c.momentum ps) ev := by
  obtain ⟨bl, attr, particles, ws, more, rfl, hbl, hattr, hdec, hp, hws⟩ := h
  have hend : Stripper.particleStart (ws ++ (ascii "</se>" ++ more)) = none := by
    unfold Stripper.particleStart
    rw [Stripper.multispace0_ws hws rfl]
    unfold tag
    rw [if_neg]
    intro hpre
    have e1 : ascii "<p" = [60, 112] := by decide
    have e2 : ascii "</se>" = [60, 47, 115, 101, 62] := by decide
    rw [e1, e2] at hpre
    simp at hpre
  have hhead : ∀ s : Bytes, ∀ b, (ascii "w=\"" ++ s).head? = some b → isBlank b = false := by
    intro s b hb
    have e : (ascii "w=\"" ++ s).head? = some 119 := rfl
    rw [e] at hb
    simp at hb
    subst hb
    decide
  have e1 : Stripper.weightStart (ascii "<se" ++ bl ++ ascii "w=\"" ++ weight ++ ascii "\"" ++ attr ++ ascii ">" ++ particles ++ ws ++
      ascii "</se>" ++ more) = some (weight ++ (ascii "\"" ++ (attr ++ (ascii ">" ++ (particles ++ (ws ++ (ascii "</se>" ++ more))))))) := by
    simp only [List.append_assoc]
    unfold Stripper.weightStart
    rw [Stripper.tag_here]
    simp only
    rw [space1_blanks hbl (hhead _)]
    simp only
    rw [Stripper.tag_here]
  have e2 : afterByte 62 (ascii "\"" ++ (attr ++ (ascii ">" ++ (particles ++ (ws ++ (ascii "</se>" ++ more)))))) =
      some (particles ++ (ws ++ (ascii "</se>" ++ more))) := by
    rw [HepMC.afterByte_append (by decide), HepMC.afterByte_append hattr]
    rfl
  unfold Stripper.parse
  rw [e1]
  simp only
  rw [double_decimal c.float hdec (fun b hb => by
    have e : ∀ s : Bytes, (ascii "\"" ++ s).head? = some 34 := fun s => rfl
    rw [e] at hb
    simp at hb
    subst hb
    decide)]
  simp only [orParseErr, Outcome.bind]
  rw [HepMC.n64_number hF hdec]
  simp only
  rw [e2]
  simp only
  have hlen := hp.length_le
  rw [Stripper.parseLoop_text hF hp hend _ _ (by simp only [List.length_append]; omega)]
  simp only
  refine ⟨_, rfl, ?_⟩
  have hw : ((EventBuilder.new c.multi : EventBuilder K V).addWeight c.multi (c.float.value weight)).weights =
      [c.float.value weight] := by
    cases hm : c.multi <;> simp [EventBuilder.addWeight, EventBuilder.new]
  have hout : ((EventBuilder.new c.multi : EventBuilder K V).addWeight c.multi (c.float.value weight)).outgoingByPid = [] := by
    simp [EventBuilder.addWeight, EventBuilder.new]
  rw [hw, hout, List.nil_append]
  exact describes_build (⟨[c.float.value weight], withStatus 0 c.float.value c.momentum ps⟩ : EventBuilder K V)

/-- The particles of the counterexample and of the example. -/
def exampleStripper : List ParticleEntry :=
  [⟨11, 0, ⟨ascii "0", ascii "3", ascii "4", ascii "25"⟩⟩, ⟨21, 1, ⟨ascii "0", ascii "3", ascii "4", ascii "7"⟩⟩]

theorem exampleStripper_ok : ∀ p ∈ exampleStripper, p.p.Ok := by
  have i : ∀ {d : Bytes}, Digits d → d ≠ [] → Decimal d := decimal_of_digits
  intro p hp
  simp only [exampleStripper, List.mem_cons, List.not_mem_nil, or_false] at hp
  rcases hp with rfl | rfl <;>
    exact ⟨i (by decide) (by decide), i (by decide) (by decide), i (by decide) (by decide), i (by decide) (by decide)⟩

/-- The hypotheses are met by a record with blanks. -/
theorem exampleStripper_isText : StripperRecord Blanks (ascii "3") exampleStripper
    (ascii "<se w=\"3\" x=\"1\">\n<p id=\"0,11\"> 25,0,3,4</p>\n<p id=\"1,21\"> 7,0,3,4 </p></se>") := by
  refine ⟨ascii " ", ascii " x=\"1\"", ascii "\n<p id=\"0,11\"> 25,0,3,4</p>\n<p id=\"1,21\"> 7,0,3,4 </p>", [], [], by decide,
    by decide, by decide, decimal_of_digits (by decide) (by decide), ?_, by simp⟩
  refine .cons (pre := ascii " ") (t := ascii "\n<p id=\"0,11\"> 25,0,3,4</p>") (by decide) ?_
    (.cons (pre := ascii " ") (t := ascii "\n<p id=\"1,21\"> 7,0,3,4 </p>") (by decide) ?_ .nil)
  · exact ⟨ascii "\n", ascii " ", ascii "0", ascii "11", [], by decide, by decide, by decide, by decide,
      intText_of_digits (n := 0) (by decide) (by decide) (by decide) (by decide),
      intText_of_digits (n := 11) (by decide) (by decide) (by decide) (by decide), exampleStripper_ok _ (by simp [exampleStripper])⟩
  · exact ⟨ascii "\n", ascii " ", ascii "1", ascii "21", ascii " ", by decide, by decide, by decide, by decide,
      intText_of_digits (n := 1) (by decide) (by decide) (by decide) (by decide),
      intText_of_digits (n := 21) (by decide) (by decide) (by decide) (by decide), exampleStripper_ok _ (by simp [exampleStripper])⟩

/-- **C66** fails: without a blank the first digit of the energy is lost, 25 is read as 5. -/
theorem C66_violated : ¬ C66_claim := by
  intro h
  have i : ∀ {d : Bytes}, Digits d → d ≠ [] → Decimal d := decimal_of_digits
  obtain ⟨ev, h1, h2⟩ := h (ascii "3") [⟨11, 0, ⟨ascii "0", ascii "3", ascii "4", ascii "25"⟩⟩]
    (ascii "<se w=\"3\"><p id=\"0,11\">25,0,3,4</p></se>") ⟨ascii " ", [], ascii "<p id=\"0,11\">25,0,3,4</p>", [], [], by decide,
      by decide, by decide, i (by decide) (by decide),
      .cons (pre := []) (t := ascii "<p id=\"0,11\">25,0,3,4</p>") (by simp)
        ⟨[], ascii " ", ascii "0", ascii "11", [], by decide, by decide, by decide, by decide,
          intText_of_digits (n := 0) (by decide) (by decide) (by decide) (by decide),
          intText_of_digits (n := 11) (by decide) (by decide) (by decide) (by decide),
          ⟨i (by decide) (by decide), i (by decide) (by decide), i (by decide) (by decide), i (by decide) (by decide)⟩⟩ .nil,
      by simp⟩
  have h3 : Stripper.parse (ratCtx false true []) (ascii "<se w=\"3\"><p id=\"0,11\">25,0,3,4</p></se>") =
      .ok ⟨0, [3], [(11, [5])]⟩ := by decide +kernel
  rw [h3] at h1
  obtain rfl := Outcome.ok.inj h1
  have h4 := h2.momenta 11 [5] (by simp)
  have h5 : ((withStatus 0 decValue (ratCtx false true []).momentum
      [⟨11, 0, ⟨ascii "0", ascii "3", ascii "4", ascii "25"⟩⟩]).filter (fun x => x.1 = 11)).map Prod.snd = [25] := by
    decide +kernel
  rw [h5] at h4
  simp at h4

/-- The theorem applies to the example. -/
example : ∃ ev, Stripper.parse (ratCtx false true [])
    (ascii "<se w=\"3\" x=\"1\">\n<p id=\"0,11\"> 25,0,3,4</p>\n<p id=\"1,21\"> 7,0,3,4 </p></se>") = .ok ev ∧
    Describes [3] [(11, 25)] ev := by
  obtain ⟨ev, h1, h2⟩ := C66_parse_partial (ratCtx false true []) (fun _ _ => rfl) _ _ _ exampleStripper_isText
  refine ⟨ev, h1, ?_⟩
  have e1 : (ratCtx false true []).float.value (ascii "3") = 3 := by decide +kernel
  have e2 : withStatus 0 (ratCtx false true []).float.value (ratCtx false true []).momentum exampleStripper = [(11, 25)] := by
    decide +kernel
  rwa [e1, e2] at h2

end Cres

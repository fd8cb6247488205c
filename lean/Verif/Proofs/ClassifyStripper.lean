import Verif.Proofs.ClassifyHepMC
import Verif.Model.Stripper
import Verif.Proofs.Stripper

/-!
Auxiliary results for C94: parsing STRIPPER XML records with and without a footer.
-/

namespace Cres.Stripper

open HepMC (splitAtPattern_cons splitAtPattern_append afterByte_append afterByte_eq afterByte_none)
open Spec

variable {K V : Type*}

/-- The footer, followed by a text. -/
def foot (u : Bytes) : Bytes := 60 :: (ascii "/Eventrecord>" ++ u)

theorem foot_eq (u : Bytes) : Classify.footer .stripper ++ u = foot u := rfl

theorem blank_noTag {u : Bytes} (h : Blank u) : (60 : UInt8) ∉ u := by
  obtain ⟨cs, rfl, hcs⟩ := h
  intro hm
  obtain ⟨c, hc, hm⟩ := List.mem_flatten.1 hm
  rcases hcs c hc with ⟨b, rfl, hb⟩ | ⟨b0, b1, rfl, hb⟩ | ⟨b0, b1, b2, rfl, hb⟩
  · simp only [List.mem_singleton] at hm
    subst hm
    revert hb; decide
  · simp only [isWs2, Bool.and_eq_true, Bool.or_eq_true, decide_eq_true_eq] at hb
    obtain ⟨rfl, rfl | rfl⟩ := hb <;> revert hm <;> decide
  · simp only [isWs3, Bool.or_eq_true, Bool.and_eq_true, decide_eq_true_eq] at hb
    simp only [List.mem_cons, List.not_mem_nil, or_false] at hm
    rcases hm with rfl | rfl | rfl <;> simp at hb

/-! ### Parsers and the footer -/

/-- No part at the end of `t` is the beginning of the footer. -/
def NoFoot (t : Bytes) : Prop := ∀ i < t.length, ¬ (t.drop i).take 3 <+: [60, 47, 69]

instance (t : Bytes) : Decidable (NoFoot t) := inferInstanceAs (Decidable (∀ i < t.length, ¬ (t.drop i).take 3 <+: [60, 47, 69]))

theorem noFoot_prefix {t s u : Bytes} (h : NoFoot t) : t <+: s ++ foot u ↔ t <+: s := by
  constructor
  · rintro ⟨r, hr⟩
    rw [List.append_eq_append_iff] at hr
    rcases hr with ⟨x, h1, _⟩ | ⟨x, h1, h2⟩
    · exact ⟨x, h1.symm⟩
    · cases x with
      | nil => rw [List.append_nil] at h1; rw [h1]; exact List.prefix_rfl
      | cons b x =>
        exfalso
        apply h s.length (by rw [h1]; simp)
        rw [h1, List.drop_left]
        have hp : b :: x <+: foot u := ⟨r, h2.symm⟩
        refine List.prefix_of_prefix_length_le ((List.take_prefix 3 _).trans hp) ?_ (List.length_take_le 3 _)
        exact ⟨ascii "ventrecord>" ++ u, rfl⟩
  · exact fun h => h.trans (List.prefix_append _ _)

theorem tag_foot {t : Bytes} (h : NoFoot t) (s u : Bytes) : tag t (s ++ foot u) = (tag t s).map (· ++ foot u) := by
  unfold tag
  simp only [noFoot_prefix h]
  split_ifs with hp
  · rw [Option.map_some, List.drop_append_of_le_length hp.length_le]
  · rfl

theorem splitAtPattern_foot {p0 : UInt8} {t u : Bytes} (h : NoFoot (p0 :: t)) (h0 : p0 = 60) (hu : Blank u) (s : Bytes) :
    splitAtPattern (p0 :: t) (s ++ foot u) = (splitAtPattern (p0 :: t) s).map (fun x => (x.1, x.2 ++ foot u)) := by
  subst h0
  induction s with
  | nil =>
    have h1 : ¬ (60 :: t) <+: foot u := by
      have := (noFoot_prefix (s := []) (u := u) h).not
      rw [List.nil_append] at this
      exact this.2 (by simp)
    have h2 : (60 : UInt8) ∉ ascii "/Eventrecord>" ++ u := by
      rw [List.mem_append, not_or]
      exact ⟨by decide +kernel, blank_noTag hu⟩
    have h3 := splitAtPattern_append (pat := t) h2 []
    rw [List.append_nil] at h3
    rw [List.nil_append]
    unfold foot at h1 ⊢
    rw [splitAtPattern_cons h1, h3]
    simp [splitAtPattern]
  | cons b s ih =>
    have hb := noFoot_prefix (s := b :: s) (u := u) h
    by_cases hp : (60 :: t) <+: b :: s
    · have hp' := hb.2 hp
      simp only [List.cons_append] at hp' ⊢
      simp only [splitAtPattern, if_pos hp, if_pos hp', Option.map_some, Option.some.injEq, Prod.mk.injEq, true_and]
      rw [← List.cons_append, List.drop_append_of_le_length hp.length_le]
    · have hp' := hb.not.2 hp
      rw [List.cons_append] at hp' ⊢
      rw [splitAtPattern_cons hp', splitAtPattern_cons hp, ih]
      cases splitAtPattern (60 :: t) s <;> rfl

theorem space1_foot (s u : Bytes) : space1 (s ++ foot u) = (space1 s).map (· ++ foot u) := by
  cases s with
  | nil => rfl
  | cons b s =>
    simp only [List.cons_append, space1]
    split_ifs
    · unfold foot
      rw [dropWhile_stop isBlank (by decide)]; rfl
    · rfl

theorem space0_foot (s u : Bytes) : space0 (s ++ foot u) = space0 s ++ foot u := dropWhile_stop isBlank (by decide) _ _

theorem multispace0_foot (s u : Bytes) : multispace0 (s ++ foot u) = multispace0 s ++ foot u := dropWhile_stop _ (by decide) _ _

theorem double_foot (F : FloatFormat K) (s u : Bytes) : F.double (s ++ foot u) = (F.double s).map (fun x => (x.1 ++ foot u, x.2)) :=
  double_stop F (by decide) s _

theorem parseI32_foot (s u : Bytes) : parseI32 (s ++ foot u) = (parseI32 s).map (fun x => (x.1 ++ foot u, x.2)) := by
  unfold parseI32 foot
  rw [optSign_stop (by decide)]
  simp only
  rw [span_stop isDigit (by decide)]
  generalize (optSign s).2.span isDigit = x
  obtain ⟨t, r⟩ := x
  cases t with
  | nil => rfl
  | cons b t =>
    simp only
    split_ifs <;> rfl

theorem weightStart_foot (s u : Bytes) : weightStart (s ++ foot u) = (weightStart s).map (· ++ foot u) := by
  unfold weightStart
  rw [tag_foot (by decide)]
  cases tag (ascii "<se") s with
  | none => rfl
  | some r =>
    simp only [Option.map_some]
    rw [space1_foot]
    cases space1 r with
    | none => rfl
    | some r => exact tag_foot (by decide) _ _

theorem particleStart_foot (s u : Bytes) : particleStart (s ++ foot u) = (particleStart s).map (· ++ foot u) := by
  unfold particleStart
  rw [multispace0_foot, tag_foot (by decide)]

theorem particleStatus_foot (s u : Bytes) : particleStatus (s ++ foot u) = (particleStatus s).map (fun x => (x.1 ++ foot u, x.2)) := by
  unfold particleStatus
  rw [space0_foot, tag_foot (by decide)]
  cases tag (ascii "id=\"") (space0 s) with
  | none => rfl
  | some r => exact parseI32_foot _ _

theorem particleId_foot (s u : Bytes) : particleId (s ++ foot u) = (particleId s).map (fun x => (x.1 ++ foot u, x.2)) := by
  unfold particleId
  rw [tag_foot (by decide)]
  cases tag (ascii ",") s with
  | none => rfl
  | some r => exact parseI32_foot _ _

theorem commaDouble_foot (F : FloatFormat K) (s u : Bytes) :
    commaDouble F (s ++ foot u) = (commaDouble F s).map (fun x => (x.1 ++ foot u, x.2)) := by
  unfold commaDouble
  rw [tag_foot (by decide)]
  cases tag (ascii ",") s with
  | none => rfl
  | some r => exact double_foot F _ _

theorem particleMomentum_foot (F : FloatFormat K) (s u : Bytes) :
    particleMomentum F (s ++ foot u) = (particleMomentum F s).map (fun x => (x.1 ++ foot u, x.2)) := by
  unfold particleMomentum
  rw [space0_foot, double_foot]
  cases F.double (space0 s) with
  | none => rfl
  | some x1 =>
    simp only [Option.map_some]
    rw [commaDouble_foot]
    cases commaDouble F x1.1 with
    | none => rfl
    | some x2 =>
      simp only [Option.map_some]
      rw [commaDouble_foot]
      cases commaDouble F x2.1 with
      | none => rfl
      | some x3 =>
        simp only [Option.map_some]
        rw [commaDouble_foot]
        cases commaDouble F x3.1 with
        | none => rfl
        | some x4 =>
          simp only [Option.map_some]
          rw [space0_foot]

/-! ### Records -/

/-- Both succeed, with results related by `f`, or none does. -/
inductive Agree {E α β : Type*} (f : α → β) : Outcome E α → Outcome E β → Prop
  | ok (x : α) : Agree f (.ok x) (.ok (f x))
  | fail {o1 : Outcome E α} {o2 : Outcome E β} : (∀ x, o1 ≠ .ok x) → (∀ x, o2 ≠ .ok x) → Agree f o1 o2

theorem Agree.bind {E α β α' β' : Type*} {f : α → β} {g : α' → β'} {o1 : Outcome E α} {o2 : Outcome E β} (h : Agree f o1 o2)
    {k1 : α → Outcome E α'} {k2 : β → Outcome E β'} (hk : ∀ x, Agree g (k1 x) (k2 (f x))) : Agree g (o1.bind k1) (o2.bind k2) := by
  cases h with
  | ok x => exact hk x
  | fail h1 h2 =>
    apply Agree.fail
    · intro x hx
      cases o1 with
      | ok y => exact h1 y rfl
      | err e => simp [Outcome.bind] at hx
      | panic => simp [Outcome.bind] at hx
    · intro x hx
      cases o2 with
      | ok y => exact h2 y rfl
      | err e => simp [Outcome.bind] at hx
      | panic => simp [Outcome.bind] at hx

theorem agree_orParseErr {α β : Type*} (f : Bytes × α → Bytes × β) (what : String) (o : PResult α) :
    Agree f (orParseErr what o) (orParseErr what (o.map f)) := by
  cases o with
  | none => exact Agree.fail (by simp [orParseErr]) (by simp [orParseErr])
  | some x => exact Agree.ok x

theorem agree_same {E α : Type*} (o : Outcome E α) : Agree (fun x => x) o o := by
  cases o with
  | ok x => exact Agree.ok x
  | err e => exact Agree.fail (by simp) (by simp)
  | panic => exact Agree.fail (by simp) (by simp)

theorem Agree.iff {E α : Type*} {o1 o2 : Outcome E α} (h : Agree (fun x => x) o1 o2) (x : α) : o1 = .ok x ↔ o2 = .ok x := by
  cases h with
  | ok y => rfl
  | fail h1 h2 => exact ⟨fun h => absurd h (h1 x), fun h => absurd h (h2 x)⟩

theorem particleMomentum_tag (F : FloatFormat K) (s : Bytes) : particleMomentum F (47 :: s) = none := by
  have h1 : space0 (47 :: s) = 47 :: s := by simp [space0, isBlank]
  have h2 : F.double (47 :: s) = none := by
    have hr : recognizeFloat (47 :: s) = none := by
      have hm : mantissa (47 :: s) = none := by
        unfold mantissa
        have : List.span isDigit (47 :: s) = ([], 47 :: s) := by
          rw [List.span_eq_takeWhile_dropWhile]
          simp [isDigit]
        rw [this]
        rfl
      have ho : optSign (47 :: s) = ([], 47 :: s) := by simp [optSign]
      have ht : ∀ l t, eqNoCase l 47 = false → tagNoCase (l :: t) (47 :: s) = none := by
        intro l t hl
        simp [tagNoCase, hl]
      unfold recognizeFloat
      rw [ho]
      simp only [hm]
      rw [show ascii "nan" = 110 :: ascii "an" from rfl, ht _ _ (by decide), show ascii "infinity" = 105 :: ascii "nfinity" from rfl,
        ht _ _ (by decide), show ascii "inf" = 105 :: ascii "nf" from rfl, ht _ _ (by decide)]
    unfold FloatFormat.double
    rw [hr]
  unfold particleMomentum
  rw [h1, h2]

theorem parseParticle_foot (c : ParseCtx K V) (b : EventBuilder K V) {u : Bytes} (hu : Blank u) (s : Bytes) :
    Agree (fun x => (x.1 ++ foot u, x.2)) (parseParticle c b s) (parseParticle c b (s ++ foot u)) := by
  unfold parseParticle
  rw [particleStatus_foot]
  refine Agree.bind (agree_orParseErr _ _ _) ?_
  rintro ⟨r, status⟩
  simp only
  split_ifs with hst
  · rw [show ascii "</p>" = 60 :: ascii "/p>" from rfl, splitAtPattern_foot (by decide) rfl hu]
    cases splitAtPattern (60 :: ascii "/p>") r with
    | none => exact Agree.fail (by simp) (by simp)
    | some x => exact Agree.ok (x.2, b)
  · rw [particleId_foot]
    refine Agree.bind (agree_orParseErr _ _ _) ?_
    rintro ⟨r, pid⟩
    simp only
    rw [tag_foot (by decide)]
    cases tag (ascii "\">") r with
    | none => exact Agree.fail (by simp) (by simp)
    | some r =>
      simp only [Option.map_some]
      cases r with
      | nil =>
        have h1 : skipOne (E := ReadError) ([] ++ foot u) = .ok (47 :: (ascii "Eventrecord>" ++ u)) := rfl
        rw [h1, Outcome.bind_ok, particleMomentum_tag]
        exact Agree.fail (by simp [skipOne, Outcome.bind]) (by simp [orParseErr, Outcome.bind])
      | cons a r =>
        refine Agree.bind (f := (· ++ foot u)) ?_ ?_
        · simp only [List.cons_append, skipOne]
          split_ifs
          · exact Agree.ok r
          · exact Agree.fail (by simp) (by simp)
        intro r
        rw [particleMomentum_foot]
        refine Agree.bind (agree_orParseErr _ _ _) ?_
        rintro ⟨r, p⟩
        simp only
        refine Agree.bind (agree_same _) fun e => ?_
        refine Agree.bind (agree_same _) fun px => ?_
        refine Agree.bind (agree_same _) fun py => ?_
        refine Agree.bind (agree_same _) fun pz => ?_
        rw [tag_foot (by decide)]
        cases tag (ascii "</p>") r with
        | none => exact Agree.fail (by simp) (by simp)
        | some rest => exact Agree.ok (rest, b.addOutgoing pid (c.momentum e px py pz))

theorem parseLoop_foot (c : ParseCtx K V) {u : Bytes} (hu : Blank u) : ∀ (n : Nat) (b : EventBuilder K V) (s : Bytes),
    Agree (fun x => x) (parseLoop c n b s) (parseLoop c n b (s ++ foot u)) := by
  intro n
  induction n with
  | zero => intro b s; exact Agree.ok b
  | succ n ih =>
    intro b s
    simp only [parseLoop]
    rw [particleStart_foot]
    cases particleStart s with
    | none => exact Agree.ok b
    | some r =>
      refine Agree.bind (parseParticle_foot c b hu r) ?_
      rintro ⟨r, b⟩
      exact ih b r

theorem splitAtPattern_length {pat : Bytes} : ∀ {s a b : Bytes}, splitAtPattern pat s = some (a, b) → b.length ≤ s.length := by
  intro s
  induction s with
  | nil =>
    intro a b h
    simp only [splitAtPattern] at h
    split_ifs at h
    simp only [Option.some.injEq, Prod.mk.injEq] at h
    simp [← h.2]
  | cons x s ih =>
    intro a b h
    simp only [splitAtPattern] at h
    split_ifs at h
    · simp only [Option.some.injEq, Prod.mk.injEq] at h
      rw [← h.2, List.length_drop]
      omega
    · cases hs : splitAtPattern pat s with
      | none => simp [hs] at h
      | some y =>
        simp only [hs, Option.some.injEq, Prod.mk.injEq] at h
        have := ih (a := y.1) (b := y.2) hs
        rw [← h.2, List.length_cons]
        omega

theorem tag_length {t s r : Bytes} (h : tag t s = some r) : s.length = t.length + r.length := by
  rw [tag_eq_some.1 h, List.length_append]

theorem space0_length (s : Bytes) : (space0 s).length ≤ s.length := (List.dropWhile_suffix _).length_le

theorem parseI32_length {s r : Bytes} {i : ℤ} (h : parseI32 s = some (r, i)) : r.length ≤ s.length := by
  obtain ⟨t, rfl, -⟩ := parseI32_inLine _ _ _ h
  simp

theorem double_length (F : FloatFormat K) {s r : Bytes} {x : K} (h : F.double s = some (r, x)) : r.length ≤ s.length := by
  unfold FloatFormat.double at h
  cases hr : recognizeFloat s with
  | none => simp [hr] at h
  | some y =>
    obtain ⟨r1, t⟩ := y
    simp only [hr] at h
    have := (recognizeFloat_append hr).1
    simp only [Option.some.injEq, Prod.mk.injEq] at h
    rw [this, ← h.1]
    simp

theorem commaDouble_length (F : FloatFormat K) {s r : Bytes} {x : K} (h : commaDouble F s = some (r, x)) : r.length ≤ s.length := by
  unfold commaDouble at h
  cases ht : tag (ascii ",") s with
  | none => simp [ht] at h
  | some r1 =>
    simp only [ht] at h
    have h1 := tag_length ht
    have h2 := double_length F h
    omega

theorem particleMomentum_length (F : FloatFormat K) {s r : Bytes} {x : K × K × K × K} (h : particleMomentum F s = some (r, x)) :
    r.length ≤ s.length := by
  unfold particleMomentum at h
  have h0 := space0_length s
  cases h1 : F.double (space0 s) with
  | none => simp [h1] at h
  | some x1 =>
    simp only [h1] at h
    have l1 := double_length F h1
    cases h2 : commaDouble F x1.1 with
    | none => simp [h2] at h
    | some x2 =>
      simp only [h2] at h
      have l2 := commaDouble_length F h2
      cases h3 : commaDouble F x2.1 with
      | none => simp [h3] at h
      | some x3 =>
        simp only [h3] at h
        have l3 := commaDouble_length F h3
        cases h4 : commaDouble F x3.1 with
        | none => simp [h4] at h
        | some x4 =>
          simp only [h4, Option.some.injEq, Prod.mk.injEq] at h
          have l4 := commaDouble_length F h4
          have l5 := space0_length x4.1
          rw [← h.1]
          omega

theorem parseParticle_length (c : ParseCtx K V) {b b' : EventBuilder K V} {s r : Bytes} (h : parseParticle c b s = .ok (r, b')) :
    r.length ≤ s.length := by
  unfold parseParticle at h
  simp only [Outcome.bind_eq_ok, HepMC.orParseErr_eq_ok] at h
  obtain ⟨⟨r2, st⟩, k1, h⟩ := h
  have l1 : r2.length ≤ s.length := by
    unfold particleStatus at k1
    cases ht : tag (ascii "id=\"") (space0 s) with
    | none => simp [ht] at k1
    | some r1 =>
      simp only [ht] at k1
      have := tag_length ht
      have := parseI32_length k1
      have := space0_length s
      omega
  simp only at h
  split_ifs at h with hst
  · cases k2 : splitAtPattern (ascii "</p>") r2 with
    | none => simp [k2] at h
    | some x =>
      simp only [k2, Outcome.ok.injEq, Prod.mk.injEq] at h
      have := splitAtPattern_length (a := x.1) (b := x.2) k2
      rw [← h.1]
      omega
  · simp only [Outcome.bind_eq_ok, HepMC.orParseErr_eq_ok] at h
    obtain ⟨⟨r3, pid⟩, k2, h⟩ := h
    have l2 : r3.length ≤ r2.length := by
      unfold particleId at k2
      cases ht : tag (ascii ",") r2 with
      | none => simp [ht] at k2
      | some r1 =>
        simp only [ht] at k2
        have := tag_length ht
        have := parseI32_length k2
        omega
    simp only at h
    cases k3 : tag (ascii "\">") r3 with
    | none => simp [k3] at h
    | some r4 =>
      have l3 := tag_length k3
      simp only [k3, Outcome.bind_eq_ok, HepMC.orParseErr_eq_ok] at h
      obtain ⟨r5, k4, ⟨r6, q⟩, k5, y1, -, y2, -, y3, -, y4, -, h⟩ := h
      have l4 : r5.length ≤ r4.length := by
        cases r4 with
        | nil => simp [skipOne] at k4
        | cons a r4 =>
          simp only [skipOne] at k4
          split_ifs at k4
          simp only [Outcome.ok.injEq] at k4
          rw [← k4, List.length_cons]
          omega
      have l5 := particleMomentum_length c.float k5
      simp only at h
      cases k6 : tag (ascii "</p>") r6 with
      | none => simp [k6] at h
      | some r7 =>
        simp only [k6, Outcome.ok.injEq, Prod.mk.injEq] at h
        have l6 := tag_length k6
        rw [← h.1]
        omega

/-- More steps than bytes are never needed. -/
theorem parseLoop_fuel (c : ParseCtx K V) : ∀ (f f' : Nat) {b : EventBuilder K V} {s : Bytes}, s.length < f → s.length < f' →
    parseLoop c f b s = parseLoop c f' b s := by
  intro f
  induction f with
  | zero => intro f' b s h; omega
  | succ f ih =>
    intro f' b s h h'
    obtain ⟨f', rfl⟩ : ∃ g, f' = g + 1 := ⟨f' - 1, by omega⟩
    simp only [parseLoop]
    cases hs : particleStart s with
    | none => rfl
    | some r =>
      simp only
      cases hp : parseParticle c b r with
      | err e => rfl
      | panic => rfl
      | ok x =>
        obtain ⟨r1, b1⟩ := x
        simp only [Outcome.bind_ok]
        have l1 := parseParticle_length c hp
        have l2 : (multispace0 s).length ≤ s.length := (List.dropWhile_suffix _).length_le
        have l3 := tag_length hs
        have l4 : (ascii "<p").length = 2 := rfl
        exact ih f' (by omega) (by omega)

/-- Parsing a record with a closing bracket does not depend on whether the footer follows. -/
theorem parse_foot [Zero K] [LinearOrder V] (c : ParseCtx K V) {u : Bytes} (hu : Blank u) {s : Bytes} (hs : (62 : UInt8) ∈ s)
    (ev : Event K V) : parse c s = .ok ev ↔ parse c (s ++ foot u) = .ok ev := by
  apply Agree.iff
  unfold parse
  rw [weightStart_foot]
  cases h1 : weightStart s with
  | none => exact Agree.fail (by simp) (by simp)
  | some r =>
    simp only [Option.map_some]
    rw [double_foot]
    cases h2 : c.float.double r with
    | none => exact Agree.fail (by simp [orParseErr, Outcome.bind]) (by simp [orParseErr, Outcome.bind])
    | some x =>
      obtain ⟨rest, w⟩ := x
      simp only [Option.map_some, orParseErr, Outcome.bind_ok]
      refine Agree.bind (agree_same _) fun w => ?_
      have h62 : (62 : UInt8) ∈ rest := by
        have hr : (62 : UInt8) ∈ r := by
          unfold weightStart at h1
          cases g1 : tag (ascii "<se") s with
          | none => simp [g1] at h1
          | some r1 =>
            simp only [g1] at h1
            cases g2 : space1 r1 with
            | none => simp [g2] at h1
            | some r2 =>
              simp only [g2] at h1
              obtain ⟨sp, -, hsp, -, e2⟩ := space1_eq_some.1 g2
              rw [tag_eq_some.1 g1, e2, tag_eq_some.1 h1] at hs
              simp only [List.mem_append] at hs
              rcases hs with hs | hs | hs | hs
              · exact absurd hs (by decide)
              · exact absurd (hsp _ hs) (by decide)
              · exact absurd hs (by decide)
              · exact hs
        obtain ⟨a, tail, rfl⟩ := List.append_of_mem hr
        rw [double_stop c.float (c := 62) (by decide)] at h2
        cases g : c.float.double a with
        | none => simp [g] at h2
        | some y =>
          simp only [g, Option.map_some, Option.some.injEq, Prod.mk.injEq] at h2
          rw [← h2.1]
          simp
      cases h3 : afterByte 62 rest with
      | none => exact absurd h62 (afterByte_none h3)
      | some body =>
        obtain ⟨l, rfl, hl⟩ := afterByte_eq h3
        have h4 : afterByte 62 (l ++ 62 :: body ++ foot u) = some (body ++ foot u) := by
          rw [List.append_assoc, afterByte_append hl]
          simp [afterByte]
        rw [h4]
        refine Agree.bind ?_ fun b => Agree.ok _
        rw [parseLoop_fuel c (body.length + 1) ((body ++ foot u).length + 1) (by omega) (by simp; omega)]
        exact parseLoop_foot c hu _ _ _

end Cres.Stripper

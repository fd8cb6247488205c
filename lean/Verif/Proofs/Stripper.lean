import Mathlib.Algebra.Field.Basic
import Mathlib.Algebra.BigOperators.Group.List.Basic
import Verif.Model.Stripper
import Verif.Proofs.HepMC

/-!
Facts about parsing, rescaling and updating STRIPPER XML records, and about the scale of a channel.
-/

namespace Cres

variable {K V : Type*}

theorem tag_eq_some {t s r : Bytes} : tag t s = some r ↔ s = t ++ r := by
  unfold tag
  constructor
  · intro h
    split_ifs at h with hp
    simp only [Option.some.injEq] at h
    obtain ⟨u, rfl⟩ := hp
    simp at h
    rw [h]
  · rintro rfl
    simp

namespace Stripper

open HepMC (Accepts n64_eq_ok orParseErr_eq_ok accepts_of_finite afterByte_append)

/-- The start of a record, up to the weight. -/
theorem weightStart_eq {record r : Bytes} (h : weightStart record = some r) :
    ∃ head, record = head ++ r ∧ ∀ r', weightStart (head ++ r') = some r' := by
  unfold weightStart at h
  cases h1 : tag (ascii "<se") record with
  | none => simp [h1] at h
  | some r1 =>
    simp only [h1] at h
    cases h2 : space1 r1 with
    | none => simp [h2] at h
    | some r2 =>
      simp only [h2] at h
      rw [tag_eq_some] at h1 h
      obtain ⟨sp, s1, s2, s3, rfl⟩ := space1_eq_some.1 h2
      refine ⟨ascii "<se" ++ sp ++ ascii "w=\"", by rw [h1, h]; simp, fun r' => ?_⟩
      unfold weightStart
      have e1 : tag (ascii "<se") (ascii "<se" ++ sp ++ ascii "w=\"" ++ r') = some (sp ++ (ascii "w=\"" ++ r')) := by
        rw [tag_eq_some]
        simp
      have e2 : space1 (sp ++ (ascii "w=\"" ++ r')) = some (ascii "w=\"" ++ r') := by
        rw [space1_eq_some]
        refine ⟨sp, s1, s2, fun b hb => ?_, rfl⟩
        have : b = 119 := by
          have : (ascii "w=\"" ++ r').head? = some 119 := by rfl
          rw [this] at hb
          simpa using hb.symm
        subst this
        decide
      rw [e1]
      simp only
      rw [e2]
      simp only
      rw [tag_eq_some]

/-- Reading a weight that was written before a byte at which numbers end. -/
theorem double_display_stop (F : FloatFormat K) {w : K} (hw : F.finite w = true) {ch : UInt8} (hc : StopByte ch) (s : Bytes) :
    F.double (F.display w ++ ch :: s) = some (ch :: s, w) := by
  rw [double_stop F hc, double_display F hw]
  simp

/-- What a successful parse consists of. -/
theorem parse_ok [Zero K] [LinearOrder V] (c : ParseCtx K V) {record : Bytes} {ev : Event K V} :
    parse c record = .ok ev ↔ ∃ r w rest body b, weightStart record = some r ∧ c.float.double r = some (rest, w) ∧
      Accepts c w ∧ afterByte 62 rest = some body ∧ parseLoop c (body.length + 1) ⟨[w], []⟩ body = .ok b ∧ ev = b.build := by
  have hb : ∀ w : K, ((EventBuilder.new c.multi : EventBuilder K V).addWeight c.multi w) = ⟨[w], []⟩ := by
    intro w
    cases h : c.multi <;> simp [EventBuilder.new, EventBuilder.addWeight]
  unfold parse
  cases h1 : weightStart record with
  | none => simp
  | some r =>
    simp only [Outcome.bind_eq_ok, orParseErr_eq_ok, n64_eq_ok, hb]
    constructor
    · rintro ⟨⟨rest, w⟩, h2, y, ⟨h3, rfl⟩, h4⟩
      simp only at h4 h3
      cases h5 : afterByte 62 rest with
      | none => simp [h5] at h4
      | some body =>
        simp only [h5, Outcome.bind_eq_ok, Outcome.ok.injEq] at h4
        obtain ⟨b, h6, rfl⟩ := h4
        exact ⟨r, y, rest, body, b, rfl, h2, h3, h5, h6, rfl⟩
    · rintro ⟨r', w, rest, body, b, h2, h3, h4, h5, h6, rfl⟩
      simp only [Option.some.injEq] at h2
      subst h2
      refine ⟨(rest, w), h3, w, ⟨h4, rfl⟩, ?_⟩
      simp only [h5, h6, Outcome.bind_ok]

/-- The particles do not depend on the weight. -/
theorem parseLoop_ok (c : ParseCtx K V) : ∀ (fuel : Nat) {b b' : EventBuilder K V} {rest : Bytes},
    parseLoop c fuel b rest = .ok b' → ∃ outs, ∀ b2 : EventBuilder K V,
      parseLoop c fuel b2 rest = .ok ⟨b2.weights, b2.outgoingByPid ++ outs⟩ := by
  intro fuel
  induction fuel with
  | zero => intro b b' rest _; exact ⟨[], fun b2 => by simp [parseLoop]⟩
  | succ fuel ih =>
    intro b b' rest h
    simp only [parseLoop] at h
    cases hs : particleStart rest with
    | none => exact ⟨[], fun b2 => by simp [parseLoop, hs]⟩
    | some r =>
      simp only [hs, Outcome.bind_eq_ok] at h
      obtain ⟨⟨r1, b1⟩, h1, h2⟩ := h
      obtain ⟨outs2, h3⟩ := ih h2
      have key : ∃ outs1, ∀ b2 : EventBuilder K V, parseParticle c b2 r = .ok (r1, ⟨b2.weights, b2.outgoingByPid ++ outs1⟩) := by
        unfold parseParticle at h1
        simp only [Outcome.bind_eq_ok, orParseErr_eq_ok] at h1
        obtain ⟨⟨r2, st⟩, k1, h1⟩ := h1
        simp only at h1
        by_cases hst : st ≠ 0
        · rw [if_pos hst] at h1
          cases k2 : splitAtPattern (ascii "</p>") r2 with
          | none => simp [k2] at h1
          | some x =>
            simp only [k2, Outcome.ok.injEq, Prod.mk.injEq] at h1
            refine ⟨[], fun b2 => ?_⟩
            unfold parseParticle
            simp only [k1, orParseErr, Outcome.bind_ok, if_pos hst, k2, h1.1, List.append_nil]
        · rw [if_neg hst] at h1
          simp only [Outcome.bind_eq_ok, orParseErr_eq_ok] at h1
          obtain ⟨⟨r3, pid⟩, k2, h1⟩ := h1
          simp only at h1
          cases k3 : tag (ascii "\">") r3 with
          | none => simp [k3] at h1
          | some r4 =>
            simp only [k3, Outcome.bind_eq_ok, orParseErr_eq_ok, n64_eq_ok] at h1
            obtain ⟨r5, k4, ⟨r6, q⟩, k5, y1, ⟨a1, rfl⟩, y2, ⟨a2, rfl⟩, y3, ⟨a3, rfl⟩, y4, ⟨a4, rfl⟩, h1⟩ := h1
            simp only at h1 a1 a2 a3 a4
            cases k6 : tag (ascii "</p>") r6 with
            | none => simp [k6] at h1
            | some r7 =>
              simp only [k6, Outcome.ok.injEq, Prod.mk.injEq] at h1
              refine ⟨[(pid, c.momentum q.1 q.2.1 q.2.2.1 q.2.2.2)], fun b2 => ?_⟩
              unfold parseParticle
              simp only [k1, k2, k3, k4, k5, orParseErr, hst, Outcome.bind_ok, if_false, Outcome.bind_eq_ok, n64_eq_ok]
              exact ⟨q.1, ⟨a1, rfl⟩, q.2.1, ⟨a2, rfl⟩, q.2.2.1, ⟨a3, rfl⟩, q.2.2.2, ⟨a4, rfl⟩, by simp only [k6, h1.1]; rfl⟩
      obtain ⟨outs1, h4⟩ := key
      refine ⟨outs1 ++ outs2, fun b2 => ?_⟩
      simp [parseLoop, hs, h4, h3]

/-- Replacing the weight of a record in which the weight is enclosed in quotation marks. -/
theorem replaceWeight_ok [Zero K] [LinearOrder V] (c : ParseCtx K V) {record : Bytes} {ev : Event K V} (new : K → K)
    (hp : parse c record = .ok ev) (hq : ∀ r w rest, weightStart record = some r → c.float.double r = some (rest, w) → rest.head? = some 34)
    (hfin : ∀ w, ev.weights = [w] → c.float.finite (new w) = true) :
    ∃ head old post w, record = head ++ old ++ 34 :: post ∧ (∀ r, weightStart (head ++ r) = some r) ∧ ev.weights = [w] ∧
      c.float.double (old ++ 34 :: post) = some (34 :: post, w) ∧
      replaceWeight c.float new record = .ok (head ++ c.float.display (new w) ++ 34 :: post) ∧
      parse c (head ++ c.float.display (new w) ++ 34 :: post) = .ok { ev with weights := [new w] } := by
  obtain ⟨r, w, rest, body, b, h1, h2, h3, h4, h5, rfl⟩ := (parse_ok c).1 hp
  obtain ⟨head, rfl, hh⟩ := weightStart_eq h1
  obtain ⟨old, rfl, -, -, -⟩ := double_append h2
  have hr := hq _ _ _ h1 h2
  obtain ⟨post, rfl⟩ : ∃ post, rest = 34 :: post := by
    cases rest with
    | nil => simp at hr
    | cons a post => simp at hr; exact ⟨post, by rw [hr]⟩
  obtain ⟨outs, ho⟩ := parseLoop_ok c _ h5
  have hb := ho ⟨[w], []⟩
  rw [h5] at hb
  simp only [Outcome.ok.injEq] at hb
  subst hb
  have hf := hfin w rfl
  refine ⟨head, old, post, w, by simp, hh, rfl, h2, ?_, ?_⟩
  · unfold replaceWeight
    have : (head ++ (old ++ 34 :: post)).take ((head ++ (old ++ 34 :: post)).length - (old ++ 34 :: post).length) = head := by
      apply List.take_left'
      simp only [List.length_append, Nat.add_sub_cancel]
    simp only [h1, h2, orParseErr, Outcome.bind_ok, this]
  · rw [List.append_assoc, parse_ok]
    refine ⟨_, new w, 34 :: post, body, ⟨[new w], outs⟩, hh _, double_display_stop _ hf (by decide) _,
      accepts_of_finite c hf, h4, ?_, ?_⟩
    · rw [ho]
      simp
    · simp [EventBuilder.build]

/-! ### Scales -/

theorem get_insert (m : ScalingMap K) (name name' : Bytes) (v : K × Nat) :
    (m.insert name v).get name' = if name' = name then some v else m.get name' := by
  unfold ScalingMap.insert ScalingMap.get
  by_cases h : name' = name
  · simp [h]
  · rw [List.lookup_cons, if_neg h]
    have : (name' == name) = false := by simpa using h
    rw [this]
    simp only
    induction m with
    | nil => rfl
    | cons x m ih =>
      obtain ⟨n, v⟩ := x
      by_cases hn : n = name
      · have h1 : (name' == n) = false := by simpa [hn] using h
        rw [List.filter_cons, if_neg (by simp [hn]), List.lookup_cons, h1]
        exact ih
      · rw [List.filter_cons, if_pos (by simp [hn]), List.lookup_cons, List.lookup_cons]
        by_cases h2 : name' = n
        · simp [h2]
        · have h1 : (name' == n) = false := by simpa using h2
          rw [h1]
          exact ih

/-- Cross sections given for a channel. -/
def xsections (name : Bytes) (files : List (Option (XmlTag K))) : List K :=
  files.filterMap (fun f => match f with
    | some (.normalization n s) => if n = name then some s else none
    | _ => none)

/-- Numbers of events in the files of a channel. -/
def eventCounts (name : Bytes) (files : List (Option (XmlTag K))) : List Nat :=
  files.filterMap (fun f => match f with
    | some (.eventrecord n k _) => if n = name then some k else none
    | _ => none)

theorem foldl_scaling [Zero K] [One K] [Neg K] (name : Bytes) : ∀ (files : List (Option (XmlTag K))) (m : ScalingMap K),
    (files.foldl scalingStep m).get name =
      match m.get name with
      | some v => some ((xsections name files).getLast?.getD v.1, v.2 + (eventCounts name files).sum)
      | none =>
        if xsections name files = [] ∧ eventCounts name files = [] then none
        else some ((xsections name files).getLast?.getD (-1), (eventCounts name files).sum) := by
  intro files
  induction files with
  | nil =>
    intro m
    simp only [List.foldl_nil, xsections, eventCounts]
    cases m.get name <;> simp
  | cons f files ih =>
    intro m
    rw [List.foldl_cons, ih]
    cases f with
    | none => rfl
    | some t =>
      cases t with
      | normalization n s =>
        by_cases hn : n = name
        · subst hn
          have hx : xsections n (some (.normalization n s) :: files) = s :: xsections n files := by simp [xsections]
          have he : eventCounts n (some (.normalization n s) :: files) = eventCounts n files := by simp [eventCounts]
          simp only [scalingStep, get_insert, if_true, hx, he, List.getLast?_cons, Option.getD_some]
          cases hm : m.get n <;> simp
        · have hx : xsections name (some (.normalization n s) :: files) = xsections name files := by simp [xsections, hn]
          have he : eventCounts name (some (.normalization n s) :: files) = eventCounts name files := by simp [eventCounts]
          simp only [scalingStep, get_insert, if_neg (Ne.symm hn), hx, he]
      | eventrecord n k sub =>
        by_cases hn : n = name
        · subst hn
          have hx : xsections n (some (.eventrecord n k sub) :: files) = xsections n files := by simp [xsections]
          have he : eventCounts n (some (.eventrecord n k sub) :: files) = k :: eventCounts n files := by simp [eventCounts]
          simp only [scalingStep, get_insert, if_true, hx, he]
          cases hm : m.get n <;> simp [Nat.add_assoc]
        · have hx : xsections name (some (.eventrecord n k sub) :: files) = xsections name files := by simp [xsections]
          have he : eventCounts name (some (.eventrecord n k sub) :: files) = eventCounts name files := by
            simp [eventCounts, hn]
          simp only [scalingStep, get_insert, if_neg (Ne.symm hn), hx, he]

end Stripper

end Cres

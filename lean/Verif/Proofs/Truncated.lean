import Verif.Props.SplitUnique
import Verif.Spec.Reread

/-!
Reading the first part of a file.
-/

namespace Cres

open Spec

/-! ### HepMC2 -/

theorem hepmc_records_part : ∀ (rs rs' : List Bytes), rs'.flatten <+: rs.flatten → rs' ≠ [] →
    (∀ r ∈ rs, ascii "E" <+: r) → (∀ r ∈ rs', ascii "E" <+: r) →
    (∀ r ∈ rs, ¬ Contains r (ascii "\nE")) → (∀ r ∈ rs', ¬ Contains r (ascii "\nE")) →
    (∀ r ∈ rs.dropLast, r.getLast? = some 10) → (∀ r ∈ rs'.dropLast, r.getLast? = some 10) →
    ∃ k r p, rs[k]? = some r ∧ p <+: r ∧ rs' = rs.take k ++ [p]
  | _, [], _, h, _, _, _, _, _, _ => absurd rfl h
  | [], r' :: rs', h, _, _, hs', _, _, _, _ => by
    obtain ⟨x, hx⟩ := head_of_E (hs' r' (by simp))
    rw [hx] at h
    have := h.length_le
    simp at this
  | r :: rs, r' :: rs', h, _, hs, hs', ho, ho', he, he' => by
    obtain ⟨c, h⟩ := h
    rw [List.flatten_cons, List.flatten_cons, List.append_assoc, List.append_eq_append_iff] at h
    rcases h with ⟨a, h1, h2⟩ | ⟨a, h1, h2⟩
    · -- the part ends in the first record, or contains it
      by_cases hn : rs' = []
      · subst hn
        exact ⟨0, r, r', by simp, ⟨a, h1.symm⟩, by simp⟩
      · by_cases ha : a = []
        · subst ha
          rw [List.append_nil] at h1
          rw [List.nil_append] at h2
          subst h1
          have hd : ∀ {x y : Bytes} {ys : List Bytes}, x ∈ ys.dropLast → x ∈ (y :: ys).dropLast := by
            intro x y ys hx
            rw [List.dropLast_cons_of_ne_nil (by rintro rfl; simp at hx)]
            simp [hx]
          obtain ⟨k, r0, p, g1, g2, g3⟩ := hepmc_records_part rs rs' ⟨c, h2⟩ hn (fun x hx => hs x (by simp [hx]))
            (fun x hx => hs' x (by simp [hx])) (fun x hx => ho x (by simp [hx])) (fun x hx => ho' x (by simp [hx]))
            (fun x hx => he x (hd hx)) (fun x hx => he' x (hd hx))
          exact ⟨k + 1, r0, p, by simpa using g1, g2, by simp [g3]⟩
        · exfalso
          apply ho r (by simp)
          have hr : r'.getLast? = some 10 := he' r' (by rw [List.dropLast_cons_of_ne_nil hn]; simp)
          rw [h1]
          refine contains_newline_E hr (E_prefix_of_append ha h2.symm ?_)
          exact (flatten_starts_E hn fun x hx => hs' x (by simp [hx])).trans (List.prefix_append _ _)
    · by_cases ha : a = []
      · subst ha
        rw [List.append_nil] at h1
        rw [List.nil_append] at h2
        subst h1
        by_cases hn : rs' = []
        · subst hn
          exact ⟨0, r', r', by simp, List.prefix_refl _, by simp⟩
        · have hd : ∀ {x y : Bytes} {ys : List Bytes}, x ∈ ys.dropLast → x ∈ (y :: ys).dropLast := by
            intro x y ys hx
            rw [List.dropLast_cons_of_ne_nil (by rintro rfl; simp at hx)]
            simp [hx]
          obtain ⟨k, r0, p, g1, g2, g3⟩ := hepmc_records_part rs rs' ⟨c, h2.symm⟩ hn (fun x hx => hs x (by simp [hx]))
            (fun x hx => hs' x (by simp [hx])) (fun x hx => ho x (by simp [hx])) (fun x hx => ho' x (by simp [hx]))
            (fun x hx => he x (hd hx)) (fun x hx => he' x (hd hx))
          exact ⟨k + 1, r0, p, by simpa using g1, g2, by simp [g3]⟩
      · exfalso
        apply ho' r' (by simp)
        have hrs : rs ≠ [] := by
          rintro rfl
          rw [List.flatten_nil] at h2
          exact ha (List.append_eq_nil_iff.1 h2.symm).1
        have hr : r.getLast? = some 10 := he r (by rw [List.dropLast_cons_of_ne_nil hrs]; simp)
        rw [h1]
        exact contains_newline_E hr (E_prefix_of_append ha h2.symm (flatten_starts_E hrs fun x hx => hs x (by simp [hx])))

/-- The first part of a HepMC2 file has the same records, except that the last one can be incomplete. -/
theorem hepmc_part {file part h h' : Bytes} {rs rs' : List Bytes} (s : HepMCSplit file h rs) (s' : HepMCSplit part h' rs')
    (hp : part <+: file) : h' = h ∧ ∃ k r p, rs[k]? = some r ∧ p <+: r ∧ rs' = rs.take k ++ [p] := by
  obtain ⟨c, hc⟩ := hp
  rw [← s.whole, ← s'.whole, List.append_assoc, List.append_eq_append_iff] at hc
  have hE := flatten_starts_E s.nonempty s.starts
  have hE' := flatten_starts_E s'.nonempty s'.starts
  have hh : h' = h ∧ rs'.flatten <+: rs.flatten := by
    rcases hc with ⟨a, h1, h2⟩ | ⟨a, h1, h2⟩
    · by_cases ha : a = []
      · subst ha; simp at h1 h2; exact ⟨h1.symm, ⟨c, h2⟩⟩
      · exfalso
        apply s.header_events
        rw [h1]
        exact contains_newline_E s'.header_end (E_prefix_of_append ha h2.symm (hE'.trans (List.prefix_append _ _)))
    · by_cases ha : a = []
      · subst ha; simp at h1 h2; exact ⟨h1, ⟨c, h2.symm⟩⟩
      · exfalso
        apply s'.header_events
        rw [h1]
        exact contains_newline_E s.header_end (E_prefix_of_append ha h2.symm hE)
  exact ⟨hh.1, hepmc_records_part rs rs' hh.2 s'.nonempty s.starts s'.starts s.one s'.one s.ends s'.ends⟩

/-! ### LHEF -/

theorem lhef_records_part : ∀ (rs rs' : List Bytes) (t t' : Bytes), rs'.flatten ++ t' <+: rs.flatten ++ t →
    ¬ Contains t (ascii "</event>") →
    (∀ r ∈ rs, ascii "</event>" <:+ r) → (∀ r ∈ rs', ascii "</event>" <:+ r) →
    (∀ r ∈ rs, ¬ Contains r.dropLast (ascii "</event>")) → (∀ r ∈ rs', ¬ Contains r.dropLast (ascii "</event>")) → rs' <+: rs
  | _, [], _, _, _, _, _, _, _, _ => List.nil_prefix
  | [], r' :: rs', t, t', h, ht, _, he', _, _ => by
    exfalso
    apply ht
    obtain ⟨c, h⟩ := h
    rw [List.flatten_nil, List.nil_append, List.flatten_cons] at h
    rw [← h]
    refine (he' r' (by simp)).isInfix.trans (List.IsPrefix.isInfix ?_)
    simp only [List.append_assoc]
    exact List.prefix_append _ _
  | r :: rs, r' :: rs', t, t', h, ht, he, he', ho, ho' => by
    have key : ∀ {r r' a : Bytes}, r' = r ++ a → a ≠ [] → ascii "</event>" <:+ r → Contains r'.dropLast (ascii "</event>") := by
      intro r r' a h1 ha hr
      rw [h1]
      exact hr.isInfix.trans (prefix_dropLast_append ha).isInfix
    obtain ⟨c, h⟩ := h
    rw [List.flatten_cons, List.flatten_cons, List.append_assoc, List.append_assoc, List.append_assoc, List.append_eq_append_iff] at h
    have hrr : r' = r ∧ rs'.flatten ++ t' <+: rs.flatten ++ t := by
      rcases h with ⟨a, h1, h2⟩ | ⟨a, h1, h2⟩
      · by_cases ha : a = []
        · subst ha
          simp only [List.append_nil] at h1
          rw [List.nil_append, ← List.append_assoc] at h2
          exact ⟨h1.symm, ⟨c, h2⟩⟩
        · exact absurd (key h1 ha (he' r' (by simp))) (ho r (by simp))
      · by_cases ha : a = []
        · subst ha
          simp only [List.append_nil] at h1
          rw [List.nil_append, ← List.append_assoc] at h2
          exact ⟨h1, ⟨c, h2.symm⟩⟩
        · exact absurd (key h1 ha (he r (by simp))) (ho' r' (by simp))
    rw [hrr.1]
    exact (List.cons_prefix_cons.2 ⟨rfl, lhef_records_part rs rs' t t' hrr.2 ht (fun x hx => he x (by simp [hx]))
      (fun x hx => he' x (by simp [hx])) (fun x hx => ho x (by simp [hx])) (fun x hx => ho' x (by simp [hx]))⟩)

/-- The records in the first part of an LHEF file are first records of the file. -/
theorem lhef_part {file part h h' : Bytes} {rs rs' : List Bytes} (s : LhefSplit file h rs) (s' : LhefSplit part h' rs')
    (hp : part <+: file) : h' = h ∧ rs' <+: rs := by
  obtain ⟨t, ht, hn⟩ := s.beginning
  obtain ⟨t', ht', -⟩ := s'.beginning
  obtain ⟨c, hc⟩ := hp
  have key : ∀ {h h' a : Bytes}, h' = h ++ a → a ≠ [] → ascii "\n</init>" <:+ h → Contains h'.dropLast (ascii "\n</init>") := by
    intro r r' a h1 ha hr
    rw [h1]
    exact hr.isInfix.trans (prefix_dropLast_append ha).isInfix
  rw [← ht, ← ht', List.append_assoc, List.append_assoc, List.append_assoc, List.append_eq_append_iff] at hc
  have hh : h' = h ∧ rs'.flatten ++ t' <+: rs.flatten ++ t := by
    rcases hc with ⟨a, h1, h2⟩ | ⟨a, h1, h2⟩
    · by_cases ha : a = []
      · subst ha
        simp only [List.append_nil] at h1
        rw [List.nil_append, ← List.append_assoc] at h2
        exact ⟨h1.symm, ⟨c, h2⟩⟩
      · exact absurd (key h1 ha s'.header_end) s.header_once
    · by_cases ha : a = []
      · subst ha
        simp only [List.append_nil] at h1
        rw [List.nil_append, ← List.append_assoc] at h2
        exact ⟨h1, ⟨c, h2.symm⟩⟩
      · exact absurd (key h1 ha s.header_end) s'.header_once
  exact ⟨hh.1, lhef_records_part rs rs' t t' hh.2 hn s.ends s'.ends s.once s'.once⟩

/-! ### STRIPPER XML -/

theorem stripper_records_part : ∀ (rs rs' : List Bytes), rs'.flatten <+: rs.flatten → rs' ≠ [] →
    (∀ r ∈ rs, ascii "<se" <+: r) → (∀ r ∈ rs', ascii "<se" <+: r) →
    (∀ r ∈ rs, ¬ Contains r.tail (ascii "<se")) → (∀ r ∈ rs', ¬ Contains r.tail (ascii "<se")) →
    ∃ k p, k < rs.length ∧ rs' = rs.take k ++ [p]
  | _, [], _, h, _, _, _, _ => absurd rfl h
  | [], r' :: rs', h, _, _, hs', _, _ => by
    exfalso
    rw [List.flatten_nil, List.prefix_nil, List.flatten_cons] at h
    exact se_ne_nil (hs' r' (by simp)) (List.append_eq_nil_iff.1 h).1
  | r :: rs, r' :: rs', h, _, hs, hs', ho, ho' => by
    by_cases hn : rs' = []
    · subst hn
      exact ⟨0, r', by simp, by simp⟩
    obtain ⟨c, h⟩ := h
    rw [List.flatten_cons, List.flatten_cons, List.append_assoc, List.append_eq_append_iff] at h
    have hst := (flatten_starts_se hn fun x hx => hs' x (by simp [hx])).trans (List.prefix_append _ c)
    have hrr : r' = r ∧ rs'.flatten <+: rs.flatten := by
      rcases h with ⟨a, h1, h2⟩ | ⟨a, h1, h2⟩
      · by_cases ha : a = []
        · subst ha; simp at h1 h2; exact ⟨h1.symm, ⟨c, h2⟩⟩
        · exfalso
          apply ho r (by simp)
          rw [h2] at hst
          have hpre := se_prefix_of_append ha hst (by
            by_cases hn : rs = []
            · exact Or.inl (by rw [hn]; rfl)
            · exact Or.inr (flatten_starts_se hn fun x hx => hs x (by simp [hx])))
          rw [h1, List.tail_append_of_ne_nil (se_ne_nil (hs' r' (by simp)))]
          exact hpre.isInfix.trans (List.suffix_append _ _).isInfix
      · by_cases ha : a = []
        · subst ha; simp at h1 h2; exact ⟨h1, ⟨c, h2.symm⟩⟩
        · exfalso
          apply ho' r' (by simp)
          have hrs : rs ≠ [] := by
            rintro rfl
            rw [List.flatten_nil] at h2
            exact ha (List.append_eq_nil_iff.1 h2.symm).1
          have hst2 := flatten_starts_se hrs fun x hx => hs x (by simp [hx])
          rw [h2] at hst2
          have hpre := se_prefix_of_append ha hst2 (Or.inr hst)
          rw [h1, List.tail_append_of_ne_nil (se_ne_nil (hs r (by simp)))]
          exact hpre.isInfix.trans (List.suffix_append _ _).isInfix
    obtain ⟨k, p, g1, g2⟩ := stripper_records_part rs rs' hrr.2 hn (fun x hx => hs x (by simp [hx]))
      (fun x hx => hs' x (by simp [hx])) (fun x hx => ho x (by simp [hx])) (fun x hx => ho' x (by simp [hx]))
    exact ⟨k + 1, p, by simpa using g1, by simp [g2, hrr.1]⟩

/-- The first part of a STRIPPER XML file has the same records, except for the last one. -/
theorem stripper_part {file part h h' : Bytes} {rs rs' : List Bytes} (s : StripperSplit file h rs) (s' : StripperSplit part h' rs')
    (hp : part <+: file) : h' = h ∧ ∃ k p, k < rs.length ∧ rs' = rs.take k ++ [p] := by
  obtain ⟨c, hc⟩ := hp
  rw [← s.whole, ← s'.whole, List.append_assoc, List.append_eq_append_iff] at hc
  have hs := flatten_starts_se s.nonempty s.starts
  have hs' := (flatten_starts_se s'.nonempty s'.starts).trans (List.prefix_append _ c)
  have hh : h' = h ∧ rs'.flatten <+: rs.flatten := by
    rcases hc with ⟨a, h1, h2⟩ | ⟨a, h1, h2⟩
    · by_cases ha : a = []
      · subst ha; simp at h1 h2; exact ⟨h1.symm, ⟨c, h2⟩⟩
      · exfalso
        apply s.header_events
        rw [h2] at hs'
        rw [h1]
        exact (se_prefix_of_append ha hs' (Or.inr hs)).isInfix.trans (List.suffix_append _ _).isInfix
    · by_cases ha : a = []
      · subst ha; simp at h1 h2; exact ⟨h1, ⟨c, h2.symm⟩⟩
      · exfalso
        apply s'.header_events
        rw [h2] at hs
        rw [h1]
        exact (se_prefix_of_append ha hs (Or.inr hs')).isInfix.trans (List.suffix_append _ _).isInfix
  exact ⟨hh.1, stripper_records_part rs rs' hh.2 s'.nonempty s.starts s'.starts s.once s'.once⟩

/-! ### event files -/

section

variable {K V : Type*} [Zero K] [Mul K] [LinearOrder V] {cfg : IOConfig K V}

theorem recordEvent_same {kind : Kind K} {r : Bytes} {e e' : Event K V} (h : RecordEvent cfg kind r e)
    (h' : RecordEvent cfg kind r e') : e = e' := by
  cases kind with
  | hepmc2 => simp only [RecordEvent] at h h'; rw [h] at h'; simpa using h'
  | lhef => simp only [RecordEvent] at h h'; rw [h] at h'; simpa using h'
  | stripperXml s =>
    obtain ⟨ev, w, h1, h2, -, h4⟩ := h
    obtain ⟨ev', w', g1, g2, -, g4⟩ := h'
    rw [h1] at g1
    simp only [Outcome.ok.injEq] at g1
    subst g1
    rw [h2] at g2
    simp only [List.cons.injEq, and_true] at g2
    subst g2
    rw [h4, g4]

theorem recordEvents_same {kind : Kind K} {rs : List Bytes} {es es' : List (Event K V)}
    (h : List.Forall₂ (RecordEvent cfg kind) rs es) (h' : List.Forall₂ (RecordEvent cfg kind) rs es') : es = es' := by
  induction h generalizing es' with
  | nil => cases h'; rfl
  | cons h1 _ ih =>
    cases h' with
    | cons g1 g2 => rw [recordEvent_same h1 g1, ih g2]

theorem recordEvents_prefix {kind : Kind K} {rs rs' : List Bytes} {es es' : List (Event K V)}
    (h : List.Forall₂ (RecordEvent cfg kind) rs es) (h' : List.Forall₂ (RecordEvent cfg kind) rs' es') (hp : rs' <+: rs) :
    es' <+: es := by
  have h2 := List.forall₂_take rs'.length h
  rw [(List.prefix_iff_eq_take.1 hp).symm] at h2
  rw [recordEvents_same h' h2]
  exact List.take_prefix _ _

theorem recordEvents_dropLast {kind : Kind K} {rs rs' : List Bytes} {es es' : List (Event K V)} {k : Nat} {p : Bytes}
    (h : List.Forall₂ (RecordEvent cfg kind) rs es) (h' : List.Forall₂ (RecordEvent cfg kind) rs' es') (hk : k < rs.length)
    (hp : rs' = rs.take k ++ [p]) : es'.length ≤ es.length ∧ es'.dropLast <+: es := by
  subst hp
  have hl := h.length_eq
  have hl' := h'.length_eq
  simp only [List.length_append, List.length_take, List.length_singleton] at hl'
  refine ⟨by omega, ?_⟩
  have h2 := List.forall₂_take k h'
  rw [List.take_left' (by rw [List.length_take]; omega)] at h2
  rw [List.dropLast_eq_take, show es'.length - 1 = k by omega]
  exact recordEvents_prefix h h2 (List.take_prefix _ _)

theorem isEventFile_part {file part : Bytes} {d d' : EventFile K V} (h : IsEventFile cfg file d) (h' : IsEventFile cfg part d')
    (hp : part <+: file) : d'.kind = d.kind ∧ d'.header = d.header ∧ d'.events.length ≤ d.events.length ∧
      d'.events.dropLast <+: d.events ∧ (d.kind = .lhef → d'.events <+: d.events) := by
  obtain ⟨⟨-, hd, ht⟩, he⟩ := h
  obtain ⟨⟨-, hd', ht'⟩, he'⟩ := h'
  have hfile : ∃ rest, file = d.header ++ rest := by
    cases hk : d.kind with
    | hepmc2 => rw [hk] at ht; exact ⟨_, ht.1.whole.symm⟩
    | lhef =>
      rw [hk] at ht
      obtain ⟨t, h1, -⟩ := ht.1.beginning
      exact ⟨_, by rw [← h1, List.append_assoc]⟩
    | stripperXml s => rw [hk] at ht; exact ⟨_, ht.1.whole.symm⟩
  have hfile' : ∃ rest, file = d'.header ++ rest := by
    obtain ⟨c, rfl⟩ := hp
    cases hk : d'.kind with
    | hepmc2 => rw [hk] at ht'; exact ⟨_, by rw [← ht'.1.whole, List.append_assoc]⟩
    | lhef =>
      rw [hk] at ht'
      obtain ⟨t, h1, -⟩ := ht'.1.beginning
      exact ⟨_, by rw [← h1, List.append_assoc, List.append_assoc]⟩
    | stripperXml s => rw [hk] at ht'; exact ⟨_, by rw [← ht'.1.whole, List.append_assoc]⟩
  obtain ⟨rest, hrest⟩ := hfile
  obtain ⟨rest', hrest'⟩ := hfile'
  have hformat : d'.kind.format = d.kind.format := by
    have h1 := hd rest
    have h2 := hd' rest'
    rw [← hrest] at h1
    rw [← hrest', h1] at h2
    simpa using h2.symm
  cases hk : d.kind with
  | hepmc2 =>
    cases hk' : d'.kind with
    | hepmc2 =>
      rw [hk] at ht he
      rw [hk'] at ht' he'
      obtain ⟨h1, k, r, p, h2, -, h3⟩ := hepmc_part ht.1 ht'.1 hp
      obtain ⟨h4, h5⟩ := recordEvents_dropLast he he' (List.getElem?_eq_some_iff.1 h2).1 h3
      exact ⟨rfl, h1, h4, h5, by simp⟩
    | lhef => rw [hk, hk'] at hformat; simp [Kind.format] at hformat
    | stripperXml s => rw [hk, hk'] at hformat; simp [Kind.format] at hformat
  | lhef =>
    cases hk' : d'.kind with
    | lhef =>
      rw [hk] at ht he
      rw [hk'] at ht' he'
      obtain ⟨h1, h2⟩ := lhef_part ht.1 ht'.1 hp
      have h3 := recordEvents_prefix he he' h2
      exact ⟨rfl, h1, h3.length_le, (List.dropLast_prefix _).trans h3, fun _ => h3⟩
    | hepmc2 => rw [hk, hk'] at hformat; simp [Kind.format] at hformat
    | stripperXml s => rw [hk, hk'] at hformat; simp [Kind.format] at hformat
  | stripperXml s =>
    cases hk' : d'.kind with
    | stripperXml s' =>
      rw [hk] at ht he
      rw [hk'] at ht' he'
      obtain ⟨h1, k, p, h2, h3⟩ := stripper_part ht.1 ht'.1 hp
      obtain ⟨-, -, -, name, n, m, g1, g2, -⟩ := ht
      obtain ⟨-, -, -, name', n', m', g1', g2', -⟩ := ht'
      rw [h1, g1] at g1'
      injection g1' with g1'
      injection g1'
      subst_vars
      rw [g2, Option.some.injEq] at g2'
      subst g2'
      obtain ⟨h4, h5⟩ := recordEvents_dropLast he he' h2 h3
      exact ⟨rfl, h1, h4, h5, by simp⟩
    | hepmc2 => rw [hk, hk'] at hformat; simp [Kind.format] at hformat
    | lhef => rw [hk, hk'] at hformat; simp [Kind.format] at hformat

end

end Cres

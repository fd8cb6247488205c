import Verif.Spec.Reader
import Verif.Props.Reader

/-!
The specifications in `Verif/Spec/Reader.lean` determine header and records: there is at most one way to split a file
(C35, C36, C37).
-/

namespace Cres

open Spec

/-! ### HepMC2 -/

theorem contains_newline_E {a b : Bytes} (ha : a.getLast? = some 10) (hb : ascii "E" <+: b) : Contains (a ++ b) (ascii "\nE") := by
  obtain ⟨a', rfl⟩ : ∃ a', a = a' ++ [10] := by
    obtain ⟨a', h⟩ := List.getLast?_eq_some_iff.1 ha
    exact ⟨a', h⟩
  obtain ⟨b', rfl⟩ := hb
  exact ⟨a', b', by rw [show ascii "\nE" = [10] ++ ascii "E" from by decide]; simp⟩

theorem head_of_E {r : Bytes} (h : ascii "E" <+: r) : ∃ r', r = 69 :: r' := by
  obtain ⟨r', rfl⟩ := h
  exact ⟨r', rfl⟩

/-- A nonempty prefix of something that starts with `E`. -/
theorem E_prefix_of_append {a b c : Bytes} (ha : a ≠ []) (h : a ++ b = c) (hc : ascii "E" <+: c) : ascii "E" <+: a := by
  obtain ⟨r, hr⟩ := head_of_E hc
  cases a with
  | nil => exact absurd rfl ha
  | cons x a =>
    rw [hr, List.cons_append, List.cons.injEq] at h
    rw [h.1]
    exact ⟨a, rfl⟩

theorem flatten_starts_E {rs : List Bytes} (hne : rs ≠ []) (h : ∀ r ∈ rs, ascii "E" <+: r) : ascii "E" <+: rs.flatten := by
  cases rs with
  | nil => exact absurd rfl hne
  | cons r rs =>
    rw [List.flatten_cons]
    exact (h r (by simp)).trans (List.prefix_append _ _)

theorem hepmc_records_unique : ∀ (rs rs' : List Bytes), rs.flatten = rs'.flatten →
    (∀ r ∈ rs, ascii "E" <+: r) → (∀ r ∈ rs', ascii "E" <+: r) →
    (∀ r ∈ rs, ¬ Contains r (ascii "\nE")) → (∀ r ∈ rs', ¬ Contains r (ascii "\nE")) →
    (∀ r ∈ rs.dropLast, r.getLast? = some 10) → (∀ r ∈ rs'.dropLast, r.getLast? = some 10) → rs = rs'
  | [], [], _, _, _, _, _, _, _ => rfl
  | [], r :: rs, h, _, hs', _, _, _, _ => by
    obtain ⟨r', hr⟩ := head_of_E (hs' r (by simp))
    rw [hr] at h
    simp at h
  | r :: rs, [], h, hs, _, _, _, _, _ => by
    obtain ⟨r', hr⟩ := head_of_E (hs r (by simp))
    rw [hr] at h
    simp at h
  | r :: rs, r' :: rs', h, hs, hs', ho, ho', he, he' => by
    -- a longer record would contain the start of the next one
    have key : ∀ {r : Bytes} {rs : List Bytes} {r' a b : Bytes}, r' = r ++ a → rs.flatten = a ++ b → a ≠ [] →
        (∀ x ∈ r :: rs, ascii "E" <+: x) → (∀ x ∈ (r :: rs).dropLast, x.getLast? = some 10) → Contains r' (ascii "\nE") := by
      intro r rs r' a b h1 h2 ha hs he
      have hrs : rs ≠ [] := by
        rintro rfl
        rw [List.flatten_nil] at h2
        exact ha (List.append_eq_nil_iff.1 h2.symm).1
      have hr : r.getLast? = some 10 := he r (by rw [List.dropLast_cons_of_ne_nil hrs]; simp)
      rw [h1]
      exact contains_newline_E hr (E_prefix_of_append ha h2.symm (flatten_starts_E hrs fun x hx => hs x (by simp [hx])))
    rw [List.flatten_cons, List.flatten_cons, List.append_eq_append_iff] at h
    have hrr : r = r' ∧ rs.flatten = rs'.flatten := by
      rcases h with ⟨a, h1, h2⟩ | ⟨a, h1, h2⟩
      · by_cases ha : a = []
        · subst ha; simp at h1 h2; exact ⟨h1.symm, h2⟩
        · exact absurd (key h1 h2 ha hs he) (ho' r' (by simp))
      · by_cases ha : a = []
        · subst ha; simp at h1 h2; exact ⟨h1, h2.symm⟩
        · exact absurd (key h1 h2 ha hs' he') (ho r (by simp))
    rw [hrr.1, hepmc_records_unique rs rs' hrr.2 (fun x hx => hs x (by simp [hx])) (fun x hx => hs' x (by simp [hx]))
      (fun x hx => ho x (by simp [hx])) (fun x hx => ho' x (by simp [hx])) ?_ ?_]
    · intro x hx
      apply he
      rw [List.dropLast_cons_of_ne_nil (by rintro rfl; simp at hx)]
      simp [hx]
    · intro x hx
      apply he'
      rw [List.dropLast_cons_of_ne_nil (by rintro rfl; simp at hx)]
      simp [hx]

/-- **C35**: there is at most one way to split a HepMC2 file. -/
theorem C35_unique {file h h' : Bytes} {rs rs' : List Bytes} (s : HepMCSplit file h rs) (s' : HepMCSplit file h' rs') :
    h = h' ∧ rs = rs' := by
  have hw := s.whole.trans s'.whole.symm
  rw [List.append_eq_append_iff] at hw
  have hh : h = h' ∧ rs.flatten = rs'.flatten := by
    rcases hw with ⟨a, h1, h2⟩ | ⟨a, h1, h2⟩
    · by_cases ha : a = []
      · subst ha; simp at h1 h2; exact ⟨h1.symm, h2⟩
      · exfalso
        apply s'.header_events
        rw [h1]
        exact contains_newline_E s.header_end (E_prefix_of_append ha h2.symm (flatten_starts_E s.nonempty s.starts))
    · by_cases ha : a = []
      · subst ha; simp at h1 h2; exact ⟨h1, h2.symm⟩
      · exfalso
        apply s.header_events
        rw [h1]
        exact contains_newline_E s'.header_end (E_prefix_of_append ha h2.symm (flatten_starts_E s'.nonempty s'.starts))
  exact ⟨hh.1, hepmc_records_unique rs rs' hh.2 s.starts s'.starts s.one s'.one s.ends s'.ends⟩

/-- A file is read as any split of it says. -/
theorem hepmc_read_of_split {file h : Bytes} {rs : List Bytes} (s : HepMCSplit file h rs) (hutf : validUtf8 file = true)
    (hend : ¬ ascii "\nE" <:+ file) : HepMC.readFile file = (h, .ok rs) := by
  have hE : Contains file (ascii "\nE") := by
    rw [← s.whole]
    exact contains_newline_E s.header_end (flatten_starts_E s.nonempty s.starts)
  obtain ⟨h', rs', h1, h2⟩ := C35_hepmc_split_partial hE hutf hend
  obtain ⟨rfl, rfl⟩ := C35_unique s h2
  exact h1

/-! ### LHEF -/

theorem prefix_dropLast_append {a b : Bytes} (hb : b ≠ []) : a <+: (a ++ b).dropLast := by
  rw [List.dropLast_append_of_ne_nil hb]
  exact List.prefix_append _ _

theorem lhef_records_unique : ∀ (rs rs' : List Bytes) (t t' : Bytes), rs.flatten ++ t = rs'.flatten ++ t' →
    ¬ Contains t (ascii "</event>") → ¬ Contains t' (ascii "</event>") →
    (∀ r ∈ rs, ascii "</event>" <:+ r) → (∀ r ∈ rs', ascii "</event>" <:+ r) →
    (∀ r ∈ rs, ¬ Contains r.dropLast (ascii "</event>")) → (∀ r ∈ rs', ¬ Contains r.dropLast (ascii "</event>")) → rs = rs'
  | [], [], _, _, _, _, _, _, _, _, _ => rfl
  | [], r :: rs, t, t', h, ht, _, _, he', _, _ => by
    exfalso
    apply ht
    rw [List.flatten_nil, List.nil_append, List.flatten_cons] at h
    rw [h]
    refine (he' r (by simp)).isInfix.trans (List.IsPrefix.isInfix ?_)
    rw [List.append_assoc]
    exact List.prefix_append _ _
  | r :: rs, [], t, t', h, _, ht', he, _, _, _ => by
    exfalso
    apply ht'
    rw [List.flatten_nil, List.nil_append, List.flatten_cons] at h
    rw [← h]
    refine (he r (by simp)).isInfix.trans (List.IsPrefix.isInfix ?_)
    rw [List.append_assoc]
    exact List.prefix_append _ _
  | r :: rs, r' :: rs', t, t', h, ht, ht', he, he', ho, ho' => by
    have key : ∀ {r r' a : Bytes}, r' = r ++ a → a ≠ [] → ascii "</event>" <:+ r → Contains r'.dropLast (ascii "</event>") := by
      intro r r' a h1 ha hr
      rw [h1]
      exact hr.isInfix.trans (prefix_dropLast_append ha).isInfix
    rw [List.flatten_cons, List.flatten_cons, List.append_assoc, List.append_assoc, List.append_eq_append_iff] at h
    have hrr : r = r' ∧ rs.flatten ++ t = rs'.flatten ++ t' := by
      rcases h with ⟨a, h1, h2⟩ | ⟨a, h1, h2⟩
      · by_cases ha : a = []
        · subst ha; simp at h1 h2; exact ⟨h1.symm, h2⟩
        · exact absurd (key h1 ha (he r (by simp))) (ho' r' (by simp))
      · by_cases ha : a = []
        · subst ha; simp at h1 h2; exact ⟨h1, h2.symm⟩
        · exact absurd (key h1 ha (he' r' (by simp))) (ho r (by simp))
    rw [hrr.1, lhef_records_unique rs rs' t t' hrr.2 ht ht' (fun x hx => he x (by simp [hx])) (fun x hx => he' x (by simp [hx]))
      (fun x hx => ho x (by simp [hx])) (fun x hx => ho' x (by simp [hx]))]

/-- **C36**: there is at most one way to split an LHEF file. -/
theorem C36_unique {file h h' : Bytes} {rs rs' : List Bytes} (s : LhefSplit file h rs) (s' : LhefSplit file h' rs') :
    h = h' ∧ rs = rs' := by
  obtain ⟨t, ht, hn⟩ := s.beginning
  obtain ⟨t', ht', hn'⟩ := s'.beginning
  have hw := ht.trans ht'.symm
  rw [List.append_assoc, List.append_assoc, List.append_eq_append_iff] at hw
  have key : ∀ {h h' a : Bytes}, h' = h ++ a → a ≠ [] → ascii "\n</init>" <:+ h → Contains h'.dropLast (ascii "\n</init>") := by
    intro r r' a h1 ha hr
    rw [h1]
    exact hr.isInfix.trans (prefix_dropLast_append ha).isInfix
  have hh : h = h' ∧ rs.flatten ++ t = rs'.flatten ++ t' := by
    rcases hw with ⟨a, h1, h2⟩ | ⟨a, h1, h2⟩
    · by_cases ha : a = []
      · subst ha; simp at h1 h2; exact ⟨h1.symm, h2⟩
      · exact absurd (key h1 ha s.header_end) s'.header_once
    · by_cases ha : a = []
      · subst ha; simp at h1 h2; exact ⟨h1, h2.symm⟩
      · exact absurd (key h1 ha s'.header_end) s.header_once
  exact ⟨hh.1, lhef_records_unique rs rs' t t' hh.2 hn hn' s.ends s'.ends s.once s'.once⟩

/-- A file is read as any split of it says. -/
theorem lhef_read_of_split {file h : Bytes} {rs : List Bytes} (s : LhefSplit file h rs) (hutf : validUtf8 file = true) :
    Lhef.readFile file = (h, .ok rs) := by
  have hI : Contains file (ascii "\n</init>") := by
    obtain ⟨t, ht, _⟩ := s.beginning
    rw [← ht, List.append_assoc]
    exact s.header_end.isInfix.trans (List.prefix_append _ _).isInfix
  obtain ⟨h', rs', h1, h2⟩ := C36_lhef_split_partial hI hutf
  obtain ⟨rfl, rfl⟩ := C36_unique s h2
  exact h1

/-! ### STRIPPER XML -/

/-- If `<se` starts at the beginning of `a ++ b` and of `b`, then it is in `a` (unless `a` is empty). -/
theorem se_prefix_of_append {a b : Bytes} (ha : a ≠ []) (h : ascii "<se" <+: a ++ b) (hb : b = [] ∨ ascii "<se" <+: b) :
    ascii "<se" <+: a := by
  have hse : ascii "<se" = [60, 115, 101] := by decide
  rw [hse] at h hb ⊢
  obtain ⟨x, hx⟩ := h
  match a, ha with
  | [a0], _ =>
    rcases hb with rfl | ⟨y, rfl⟩
    · simp at hx
    · simp at hx
  | [a0, a1], _ =>
    rcases hb with rfl | ⟨y, rfl⟩
    · simp at hx
    · simp at hx
  | a0 :: a1 :: a2 :: a', _ =>
    simp only [List.cons_append, List.nil_append, List.cons.injEq] at hx
    obtain ⟨rfl, rfl, rfl, _⟩ := hx
    exact ⟨a', rfl⟩

theorem flatten_starts_se {rs : List Bytes} (hne : rs ≠ []) (h : ∀ r ∈ rs, ascii "<se" <+: r) : ascii "<se" <+: rs.flatten := by
  cases rs with
  | nil => exact absurd rfl hne
  | cons r rs =>
    rw [List.flatten_cons]
    exact (h r (by simp)).trans (List.prefix_append _ _)

theorem se_ne_nil {r : Bytes} (h : ascii "<se" <+: r) : r ≠ [] := by
  rintro rfl
  have := h.length_le
  revert this
  decide

theorem stripper_records_unique : ∀ (rs rs' : List Bytes), rs.flatten = rs'.flatten →
    (∀ r ∈ rs, ascii "<se" <+: r) → (∀ r ∈ rs', ascii "<se" <+: r) →
    (∀ r ∈ rs, ¬ Contains r.tail (ascii "<se")) → (∀ r ∈ rs', ¬ Contains r.tail (ascii "<se")) → rs = rs'
  | [], [], _, _, _, _, _ => rfl
  | [], r :: rs, h, _, hs', _, _ => by
    rw [List.flatten_nil, List.flatten_cons] at h
    exact absurd (List.append_eq_nil_iff.1 h.symm).1 (se_ne_nil (hs' r (by simp)))
  | r :: rs, [], h, hs, _, _, _ => by
    rw [List.flatten_nil, List.flatten_cons] at h
    exact absurd (List.append_eq_nil_iff.1 h).1 (se_ne_nil (hs r (by simp)))
  | r :: rs, r' :: rs', h, hs, hs', ho, ho' => by
    have key : ∀ {r : Bytes} {rs : List Bytes} {r' : Bytes} {rs' : List Bytes} {a : Bytes}, r' = r ++ a →
        rs.flatten = a ++ rs'.flatten → a ≠ [] →
        (∀ x ∈ r :: rs, ascii "<se" <+: x) → (∀ x ∈ rs', ascii "<se" <+: x) → Contains r'.tail (ascii "<se") := by
      intro r rs r' rs' a h1 h2 ha hs hs'
      have hrs : rs ≠ [] := by
        rintro rfl
        rw [List.flatten_nil] at h2
        exact ha (List.append_eq_nil_iff.1 h2.symm).1
      have hst := flatten_starts_se hrs fun x hx => hs x (by simp [hx])
      rw [h2] at hst
      have hpre := se_prefix_of_append ha hst (by
        by_cases hn : rs' = []
        · exact Or.inl (by rw [hn]; rfl)
        · exact Or.inr (flatten_starts_se hn hs'))
      rw [h1, List.tail_append_of_ne_nil (se_ne_nil (hs r (by simp)))]
      exact hpre.isInfix.trans (List.suffix_append _ _).isInfix
    rw [List.flatten_cons, List.flatten_cons, List.append_eq_append_iff] at h
    have hrr : r = r' ∧ rs.flatten = rs'.flatten := by
      rcases h with ⟨a, h1, h2⟩ | ⟨a, h1, h2⟩
      · by_cases ha : a = []
        · subst ha; simp at h1 h2; exact ⟨h1.symm, h2⟩
        · exact absurd (key h1 h2 ha hs fun x hx => hs' x (by simp [hx])) (ho' r' (by simp))
      · by_cases ha : a = []
        · subst ha; simp at h1 h2; exact ⟨h1, h2.symm⟩
        · exact absurd (key h1 h2 ha hs' fun x hx => hs x (by simp [hx])) (ho r (by simp))
    rw [hrr.1, stripper_records_unique rs rs' hrr.2 (fun x hx => hs x (by simp [hx])) (fun x hx => hs' x (by simp [hx]))
      (fun x hx => ho x (by simp [hx])) (fun x hx => ho' x (by simp [hx]))]

/-- **C37**: there is at most one way to split a STRIPPER XML file. -/
theorem C37_unique {file h h' : Bytes} {rs rs' : List Bytes} (s : StripperSplit file h rs) (s' : StripperSplit file h' rs') :
    h = h' ∧ rs = rs' := by
  have hw := s.whole.trans s'.whole.symm
  rw [List.append_eq_append_iff] at hw
  have key : ∀ {h h' a : Bytes} {rs rs' : List Bytes}, h' = h ++ a → rs.flatten = a ++ rs'.flatten → a ≠ [] →
      ascii "<se" <+: rs.flatten → ascii "<se" <+: rs'.flatten → Contains h' (ascii "<se") := by
    intro h h' a rs rs' h1 h2 ha hs hs'
    rw [h2] at hs
    rw [h1]
    exact (se_prefix_of_append ha hs (Or.inr hs')).isInfix.trans (List.suffix_append _ _).isInfix
  have hs := flatten_starts_se s.nonempty s.starts
  have hs' := flatten_starts_se s'.nonempty s'.starts
  have hh : h = h' ∧ rs.flatten = rs'.flatten := by
    rcases hw with ⟨a, h1, h2⟩ | ⟨a, h1, h2⟩
    · by_cases ha : a = []
      · subst ha; simp at h1 h2; exact ⟨h1.symm, h2⟩
      · exact absurd (key h1 h2 ha hs hs') s'.header_events
    · by_cases ha : a = []
      · subst ha; simp at h1 h2; exact ⟨h1, h2.symm⟩
      · exact absurd (key h1 h2 ha hs' hs) s.header_events
  exact ⟨hh.1, stripper_records_unique rs rs' hh.2 s.starts s'.starts s.once s'.once⟩

/-- A file is read as any split of it says. -/
theorem stripper_read_of_split {debug : Bool} {file h : Bytes} {rs : List Bytes} (s : StripperSplit file h rs)
    (hutf : validUtf8 file = true) (hend : ¬ ascii "<se" <:+ file) : Stripper.readFile debug file = some (h, .ok rs) := by
  have hE : Contains file (ascii "<se") := by
    rw [← s.whole]
    exact (flatten_starts_se s.nonempty s.starts).isInfix.trans (List.suffix_append _ _).isInfix
  obtain ⟨h', rs', h1, h2⟩ := C37_stripper_split_partial (debug := debug) hE hutf hend
  obtain ⟨rfl, rfl⟩ := C37_unique s h2
  exact h1

end Cres

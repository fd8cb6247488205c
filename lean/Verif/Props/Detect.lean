import Verif.Spec.Detect

/-!
Detection of the file format: C46.
-/

namespace Cres

open Cres.Spec

theorem white_iff (b : UInt8) : White b ↔ isAsciiWs b = true := by
  simp [White, isAsciiWs, or_assoc]

theorem isRoot_iff (s : Bytes) : IsRoot s ↔ ascii "root" <+: s := by
  have h : ascii "root" = [114, 111, 111, 116] := by decide
  rw [h]
  constructor
  · rintro ⟨r, rfl⟩
    exact ⟨r, rfl⟩
  · rintro ⟨r, rfl⟩
    exact ⟨r, rfl⟩

theorem isXml_iff (s : Bytes) : IsXml s ↔ ascii "<?xml" <+: trimAsciiStart s := by
  have h : ascii "<?xml" = [60, 63, 120, 109, 108] := by decide
  rw [h]
  constructor
  · rintro ⟨ws, r, rfl, hw⟩
    rw [trimAsciiStart, List.append_assoc, List.dropWhile_append_of_pos fun b hb => (white_iff b).1 (hw b hb)]
    exact ⟨r, by simp [isAsciiWs]⟩
  · rintro ⟨r, hr⟩
    refine ⟨s.takeWhile isAsciiWs, r, ?_, fun b hb => (white_iff b).2 (List.all_eq_true.1 List.all_takeWhile b hb)⟩
    rw [List.append_assoc, hr, trimAsciiStart, List.takeWhile_append_dropWhile]

theorem isLhef_iff (s : Bytes) : IsLhef s ↔ ascii "<LesHouchesEvents" <+: s := by
  constructor
  · rintro ⟨r, rfl⟩
    exact ⟨r, rfl⟩
  · rintro ⟨r, rfl⟩
    exact ⟨r, rfl⟩

/-- **C46** as stated: a file of a format that is compiled in is recognised as such, any other gives an error. -/
def C46_claim : Prop :=
  ∀ (feat : Features) (s : Bytes) (f : FileFormat), FormatOf s f →
    (Enabled feat f → detectFormat feat (some s) = .ok f) ∧ (¬ Enabled feat f → ∃ e, detectFormat feat (some s) = .err e)

/-- Every content has exactly one format. -/
theorem C46_deterministic (s : Bytes) : ∃! f, FormatOf s f := by
  by_cases h1 : IsRoot s
  · refine ⟨.ntuple, h1, fun f hf => ?_⟩
    cases f <;> simp_all [FormatOf]
  · by_cases h2 : IsXml s
    · refine ⟨.stripperXml, ⟨h1, h2⟩, fun f hf => ?_⟩
      cases f <;> simp_all [FormatOf]
    · by_cases h3 : IsLhef s
      · refine ⟨.lhef, ⟨h1, h2, h3⟩, fun f hf => ?_⟩
        cases f <;> simp_all [FormatOf]
      · refine ⟨.hepmc2, ⟨h1, h2, h3⟩, fun f hf => ?_⟩
        cases f <;> simp_all [FormatOf]

/-- **C46**, the part that holds: formats that are compiled in are recognised, and ROOT and XML files give an error if they
are not supported. What does not hold: without support for LHEF, an LHEF file is taken for a HepMC2 file. -/
theorem C46_detect_partial (feat : Features) {s : Bytes} {f : FileFormat} (h : FormatOf s f) :
    (Enabled feat f → detectFormat feat (some s) = .ok f) ∧
    (¬ Enabled feat f → f ≠ .lhef → ∃ e, detectFormat feat (some s) = .err e) ∧
    (¬ Enabled feat f → f = .lhef → detectFormat feat (some s) = .ok .hepmc2) := by
  cases f <;> simp_all [FormatOf, Enabled, detectFormat, isRoot_iff, isXml_iff, isLhef_iff]

/-- Each format occurs, XML also after white space. -/
example : FormatOf (ascii "root\x01\x02") .ntuple ∧ FormatOf (ascii " \n<?xml ") .stripperXml ∧
    FormatOf (ascii "<LesHouchesEvents version") .lhef ∧ FormatOf (ascii " <LesHouchesEvents") .hepmc2 := by
  simp only [FormatOf, isRoot_iff, isXml_iff, isLhef_iff]
  decide +kernel

/-- **C46** fails: support for LHEF is missing, but there is no error. -/
theorem C46_violated : ¬ C46_claim := by
  intro h
  have hf : FormatOf (ascii "<LesHouchesEvents version") .lhef := by
    simp only [FormatOf, isRoot_iff, isXml_iff, isLhef_iff]
    decide +kernel
  obtain ⟨e, he⟩ := (h ⟨false, true, true⟩ _ _ hf).2 (by simp [Enabled])
  rw [(C46_detect_partial ⟨false, true, true⟩ hf).2.2 (by simp [Enabled]) rfl] at he
  cases he

/-- **C46**, only the first bytes matter: detection is based on the bytes in the first buffer. The result is the same as for
the whole content if the buffer contains the white space at the beginning and 17 more bytes. -/
theorem C46_first_bytes {buf content ws r : Bytes} (hb : buf <+: content) (hc : content = ws ++ r) (hw : ∀ b ∈ ws, White b)
    (hr : ∀ b, r.head? = some b → ¬ White b) (hlen : buf = content ∨ ws.length + 17 ≤ buf.length) (feat : Features) :
    detectFormat feat (some buf) = detectFormat feat (some content) := by
  rcases hlen with rfl | hlen
  · rfl
  obtain ⟨rest, rfl⟩ := hb
  have hbuf : ∃ r', buf = ws ++ r' ∧ 17 ≤ r'.length := by
    obtain ⟨t, ht⟩ := List.prefix_of_prefix_length_le (l₁ := ws) (l₂ := buf) (l₃ := buf ++ rest) ⟨r, hc.symm⟩
      ⟨rest, rfl⟩ (by omega)
    refine ⟨t, ht.symm, ?_⟩
    rw [← ht, List.length_append] at hlen
    omega
  obtain ⟨r', rfl, hr'⟩ := hbuf
  rw [List.append_assoc, List.append_cancel_left_eq] at hc
  subst hc
  have hdrop : ∀ x : Bytes, (∀ b, (r' ++ x).head? = some b → ¬ White b) → trimAsciiStart (ws ++ (r' ++ x)) = r' ++ x := by
    intro x hx
    rw [trimAsciiStart, List.dropWhile_append_of_pos fun b hb => (white_iff b).1 (hw b hb)]
    cases hx' : r' ++ x with
    | nil => rfl
    | cons b l =>
      have := hx b (by rw [hx']; rfl)
      rw [white_iff] at this
      rw [List.dropWhile_cons_of_neg this]
  have hne : r' ≠ [] := by
    rintro rfl
    simp at hr'
  have h0 := hdrop [] (by
    intro b hb
    apply hr b
    rw [List.append_nil] at hb
    rw [List.head?_append, hb]; rfl)
  rw [List.append_nil] at h0
  have h1 := hdrop rest hr
  have hpre : ∀ (t x y : Bytes), t.length ≤ x.length → (t <+: x ↔ t <+: x ++ y) := by
    intro t x y hl
    constructor
    · exact fun h => h.trans (List.prefix_append _ _)
    · intro h
      exact List.prefix_of_prefix_length_le h (List.prefix_append _ _) hl
  have hl1 : (ascii "root").length = 4 := by decide
  have hl2 : (ascii "<?xml").length = 5 := by decide
  have hl3 : (ascii "<LesHouchesEvents").length = 17 := by decide
  have e1 := hpre (ascii "root") (ws ++ r') rest (by rw [hl1, List.length_append]; omega)
  have e2 := hpre (ascii "<?xml") r' rest (by omega)
  have e3 := hpre (ascii "<LesHouchesEvents") (ws ++ r') rest (by rw [hl3, List.length_append]; omega)
  simp only [detectFormat, h0, h1, List.append_assoc, e1, e2, e3]

/-- If the first buffer contains nothing but white space, the format is HepMC2, even if the file is XML. -/
theorem C46_white_space (feat : Features) {buf : Bytes} (h : ∀ b ∈ buf, White b) : detectFormat feat (some buf) = .ok .hepmc2 := by
  have h1 : ¬ IsRoot buf := by
    rintro ⟨r, rfl⟩
    have := h 114 (by simp)
    simp [White] at this
  have h2 : ¬ IsXml buf := by
    rintro ⟨ws, r, rfl, -⟩
    have := h 60 (by simp)
    simp [White] at this
  have h3 : ¬ IsLhef buf := by
    rintro ⟨r, rfl⟩
    have := h 60 (by rw [List.mem_append]; exact Or.inl (by decide))
    simp [White] at this
  exact (C46_detect_partial feat (f := .hepmc2) ⟨h1, h2, h3⟩).1 trivial

/-- A case in which only a part of the file is in the buffer. -/
example (feat : Features) : detectFormat feat (some (ascii "  <?xml version=\"1.0\"?>")) =
    detectFormat feat (some (ascii "  <?xml version=\"1.0\"?><r></r>")) :=
  C46_first_bytes (ws := [32, 32]) (r := ascii "<?xml version=\"1.0\"?><r></r>") (by decide +kernel) (by decide +kernel)
    (by simp [White]) (by
      intro b hb
      have : (ascii "<?xml version=\"1.0\"?><r></r>").head? = some 60 := by decide +kernel
      rw [this] at hb
      cases hb
      simp [White]) (Or.inr (by decide +kernel)) feat

end Cres

import Verif.Props.Classify

/-!
Property C60: reading the output files again.
-/

namespace Cres

open Classify Spec

/-! ### Lists -/

theorem infix_append_cases {α : Type*} {m a b : List α} (h : m <:+: a ++ b) :
    m <:+: a ∨ m <:+: b ∨ ∃ m1 m2, m = m1 ++ m2 ∧ m1 ≠ [] ∧ m2 ≠ [] ∧ m1 <:+ a ∧ m2 <+: b := by
  obtain ⟨s, t, h⟩ := h
  rw [List.append_assoc, List.append_eq_append_iff] at h
  rcases h with ⟨x, h1, h2⟩ | ⟨x, h1, h2⟩
  · -- `a` is longer than `s`
    rw [List.append_eq_append_iff] at h2
    rcases h2 with ⟨y, h3, h4⟩ | ⟨y, h3, h4⟩
    · left
      exact ⟨s, y, by rw [h1, h3, List.append_assoc]⟩
    · by_cases hx : x = []
      · subst hx
        right; left
        rw [List.nil_append] at h3
        exact ⟨[], t, by rw [h3, h4]; rfl⟩
      · by_cases hy : y = []
        · subst hy
          left
          rw [List.append_nil] at h3
          exact ⟨s, [], by rw [h1, h3, List.append_nil]⟩
        · right; right
          exact ⟨x, y, h3, hx, hy, ⟨s, h1.symm⟩, ⟨t, h4.symm⟩⟩
  · right; left
    exact ⟨x, t, by rw [h2, List.append_assoc]⟩

theorem mem_dropLast_filter {α : Type*} {p : α → Bool} {l : List α} {x : α} (h : x ∈ (l.filter p).dropLast) : x ∈ l.dropLast := by
  induction l using List.reverseRecOn with
  | nil => simp at h
  | append_singleton l a _ =>
    rw [List.dropLast_concat]
    rw [List.filter_append] at h
    by_cases ha : p a = true
    · rw [show [a].filter p = [a] from by simp [ha], List.dropLast_concat] at h
      exact (List.mem_filter.1 h).1
    · rw [show [a].filter p = [] from by simp [ha], List.append_nil] at h
      exact (List.mem_filter.1 (List.mem_of_mem_dropLast h)).1

/-! ### UTF-8 -/

theorem validUtf8_append {a b : Bytes} (ha : validUtf8 a = true) : validUtf8 (a ++ b) = validUtf8 b := by
  rw [Bool.eq_iff_iff, validUtf8_iff, validUtf8_iff, List.foldl_append, validUtf8_iff.1 ha]

theorem validUtf8_flatten {rs : List Bytes} (h : ∀ r ∈ rs, validUtf8 r = true) : validUtf8 rs.flatten = true := by
  induction rs with
  | nil => rfl
  | cons r rs ih =>
    rw [List.flatten_cons, validUtf8_append (h r (by simp))]
    exact ih fun r hr => h r (by simp [hr])

/-- If all parts start with an ASCII character and the whole is valid, then the parts are. -/
theorem validUtf8_parts {b : UInt8} (hb : b < 0x80) : ∀ {rs : List Bytes} {h : Bytes}, validUtf8 (h ++ rs.flatten) = true → rs ≠ [] →
    (∀ r ∈ rs, ∃ r', r = b :: r') → validUtf8 h = true ∧ ∀ r ∈ rs, validUtf8 r = true
  | [], _, _, hne, _ => absurd rfl hne
  | [r], h, hv, _, hr => by
    obtain ⟨r', rfl⟩ := hr r (by simp)
    rw [List.flatten_cons, List.flatten_nil, List.append_nil, validUtf8_split hb] at hv
    exact ⟨hv.1, by simpa using hv.2⟩
  | r :: r2 :: rs, h, hv, _, hr => by
    obtain ⟨r', rfl⟩ := hr r (by simp)
    rw [List.flatten_cons, List.cons_append, validUtf8_split hb, ← List.cons_append] at hv
    obtain ⟨h1, h2⟩ := validUtf8_parts hb hv.2 (by simp) (fun x hx => hr x (by simp only [List.mem_cons] at hx ⊢; exact Or.inr hx))
    refine ⟨hv.1, ?_⟩
    intro x hx
    rcases List.mem_cons.1 hx with rfl | hx
    · exact h1
    · exact h2 x hx

theorem footer_head (f : Format) : ∃ b r, footer f = b :: r ∧ b < 0x80 := by
  cases f
  · exact ⟨72, _, rfl, by decide⟩
  · exact ⟨60, _, rfl, by decide⟩
  · exact ⟨60, _, rfl, by decide⟩

theorem footer_valid (f : Format) : validUtf8 (footer f ++ [10]) = true := by cases f <;> decide +kernel

theorem trimFooter_prefix (f : Format) (r : Bytes) : trimFooter f r <+: r := by
  rcases trimFooter_spec f r with ⟨ws, _, h⟩ | ⟨h, _⟩
  · exact ⟨footer f ++ ws, by rw [← List.append_assoc]; exact h.symm⟩
  · rw [h]

theorem trimFooter_valid {f : Format} {r : Bytes} (h : validUtf8 r = true) : validUtf8 (trimFooter f r) = true := by
  rcases trimFooter_spec f r with ⟨ws, _, hr⟩ | ⟨hr, _⟩
  · obtain ⟨b, t, hf, hb⟩ := footer_head f
    rw [hr, hf, List.append_assoc, List.cons_append, validUtf8_split hb] at h
    exact h.1
  · rw [hr]; exact h

variable {E K : Type*} [DistNum K]

theorem output_valid {f : Format} {event : Bytes → Outcome ReadError E} {p : VPTreePartition E K} {header : Bytes}
    {records : List Bytes} (hh : validUtf8 header = true) (hr : ∀ r ∈ records, validUtf8 r = true) (i : Nat) :
    validUtf8 (output f event p header records i) = true := by
  unfold output
  rw [List.append_assoc, List.append_assoc, validUtf8_append hh, validUtf8_append, footer_valid]
  apply validUtf8_flatten
  intro r h
  obtain ⟨x, hx, rfl⟩ := List.mem_map.1 h
  exact trimFooter_valid (hr x (List.mem_filter.1 hx).1)

theorem regionRecords_mem {f : Format} {event : Bytes → Outcome ReadError E} {p : VPTreePartition E K}
    {records : List Bytes} {i : Nat} {x : Bytes} (h : x ∈ regionRecords f event p records i) : ∃ r ∈ records, x = trimFooter f r := by
  obtain ⟨r, hr, rfl⟩ := List.mem_map.1 h
  exact ⟨r, (List.mem_filter.1 hr).1, rfl⟩

theorem regionRecords_mem_dropLast {f : Format} {event : Bytes → Outcome ReadError E} {p : VPTreePartition E K}
    {records : List Bytes} {i : Nat} {x : Bytes} (h : x ∈ (regionRecords f event p records i).dropLast) :
    ∃ r ∈ records.dropLast, x = trimFooter f r := by
  unfold regionRecords at h
  rw [← List.map_dropLast] at h
  obtain ⟨r, hr, rfl⟩ := List.mem_map.1 h
  exact ⟨r, mem_dropLast_filter hr, rfl⟩

/-! ### HepMC2 -/

/-- A HepMC2 file without events. -/
theorem hepmc_no_events {file : Bytes} (h : ¬ Contains file (ascii "\nE")) : (HepMC.readFile file).2 = .ok [] := by
  have hs := readTo_spec markE_last [] file
  have he := hs.eof_iff.2 h
  have hr := (hs.ended he).1
  have : (HepMC.initSource file).2 = [] := hr
  unfold HepMC.readFile
  simp only [this]
  decide

/-- No event line begins at the boundary, unless `b` starts with `E`. -/
theorem no_event_append {a b : Bytes} (ha : ¬ Contains a (ascii "\nE")) (hb : ¬ Contains b (ascii "\nE")) (hE : ¬ ascii "E" <+: b) :
    ¬ Contains (a ++ b) (ascii "\nE") := by
  intro h
  rcases infix_append_cases h with h | h | ⟨m1, m2, h, h1, h2, _, h3⟩
  · exact ha h
  · exact hb h
  · have hm : ascii "\nE" = [10, 69] := by decide
    rw [hm] at h
    match m1, m2, h1, h2 with
    | [x], [y], _, _ =>
      simp at h
      apply hE
      rw [← h.2] at h3
      exact h3
    | [x], y :: z :: l, _, _ => simp at h
    | x :: y :: l, z :: l', _, _ =>
      have := congrArg List.length h
      simp at this

theorem hepmc_footer_E : ¬ Contains (footer .hepmc ++ [10]) (ascii "\nE") ∧ ¬ ascii "E" <+: footer .hepmc ++ [10] := by
  unfold Contains
  exact ⟨by decide +kernel, by decide⟩

/-- The parts of an output file with events. -/
theorem hepmc_output_split {file header : Bytes} {records : List Bytes} (hs : HepMCSplit file header records) (hutf : validUtf8 file = true)
    (hfoot : ∀ r ∈ records.dropLast, (trimFooter .hepmc r).getLast? = some 10) (event : Bytes → Outcome ReadError E)
    (p : VPTreePartition E K) (i : Nat) {rs : List Bytes} {last : Bytes} (hrs : regionRecords .hepmc event p records i = rs ++ [last]) :
    validUtf8 (output .hepmc event p header records i) = true ∧ ¬ ascii "\nE" <:+ output .hepmc event p header records i ∧
      HepMCSplit (output .hepmc event p header records i) header (rs ++ [last ++ footer .hepmc ++ [10]]) := by
  obtain ⟨hvh, hvr⟩ := validUtf8_parts (b := 69) (by decide) (h := header) (rs := records) (by rw [hs.whole]; exact hutf) hs.nonempty
    (fun r hr => head_of_E (hs.starts r hr))
  have hv := output_valid (f := .hepmc) (event := event) (p := p) hvh hvr i
  have hout : output .hepmc event p header records i = header ++ (rs ++ [last ++ footer .hepmc ++ [10]]).flatten := by
    unfold output
    rw [hrs]
    simp [List.append_assoc]
  have hmem : ∀ x ∈ regionRecords .hepmc event p records i, ascii "E" <+: x ∧ ¬ Contains x (ascii "\nE") := by
    intro x hx
    obtain ⟨r, hr, rfl⟩ := regionRecords_mem hx
    constructor
    · rcases trimFooter_spec .hepmc r with ⟨ws, _, h⟩ | ⟨h, _⟩
      · have hne : trimFooter .hepmc r ≠ [] := by
          intro hn
          rw [hn] at h
          have := hs.starts r hr
          rw [h] at this
          obtain ⟨t, ht⟩ := this
          have hd := congrArg List.head? ht
          rw [List.nil_append, List.head?_append, List.head?_append] at hd
          have e1 : (ascii "E").head? = some 69 := by decide
          have e2 : (footer .hepmc).head? = some 72 := by decide
          rw [e1, e2, Option.some_or, Option.some_or] at hd
          exact absurd hd (by decide)
        exact E_prefix_of_append hne (by rw [List.append_assoc] at h; exact h.symm) (hs.starts r hr)
      · rw [h]; exact hs.starts r hr
    · intro hc
      exact hs.one r hr (List.IsInfix.trans hc (trimFooter_prefix _ _).isInfix)
  have hlast := hmem last (by rw [hrs]; simp)
  refine ⟨hv, ?_, ?_⟩
  · -- the output does not end with `\nE`
    rintro ⟨t, ht⟩
    have := congrArg List.getLast? ht
    unfold output at this
    have e : (ascii "\nE").getLast? = some 69 := by decide
    rw [List.getLast?_append, List.getLast?_append, e, List.getLast?_singleton, Option.some_or, Option.some_or] at this
    exact absurd this (by decide)
  · rw [hout]
    refine ⟨rfl, by simp, hs.header_end, hs.header_events, ?_, ?_, ?_⟩
    · intro r hr
      rcases List.mem_append.1 hr with hr | hr
      · exact (hmem r (by rw [hrs]; simp [hr])).1
      · rw [List.mem_singleton.1 hr, List.append_assoc]
        exact hlast.1.trans (List.prefix_append _ _)
    · intro r hr
      rcases List.mem_append.1 hr with hr | hr
      · exact (hmem r (by rw [hrs]; simp [hr])).2
      · rw [List.mem_singleton.1 hr, List.append_assoc]
        exact no_event_append hlast.2 hepmc_footer_E.1 hepmc_footer_E.2
    · intro x hx
      rw [List.dropLast_concat] at hx
      obtain ⟨r, hr, rfl⟩ := regionRecords_mem_dropLast (by rw [hrs, List.dropLast_concat]; exact hx)
      exact hfoot r hr

/-- **C60**, HepMC2: reading an output file gives the header of the input file and the records of the region; the last one is
followed by the footer. This holds for input files as in C35 in which the footer, if there is one, starts at the beginning
of a line. -/
theorem C60_hepmc_reread {file : Bytes} (hE : Contains file (ascii "\nE")) (hutf : validUtf8 file = true) (hend : ¬ ascii "\nE" <:+ file)
    (hfoot : ∀ a b, file = a ++ footer .hepmc ++ b → a.getLast? = some 10) (event : Bytes → Outcome ReadError E)
    (p : VPTreePartition E K) :
    ∃ header records, HepMC.readFile file = (header, .ok records) ∧ ∀ i,
      (regionRecords .hepmc event p records i = [] → (HepMC.readFile (output .hepmc event p header records i)).2 = .ok []) ∧
      (∀ rs last, regionRecords .hepmc event p records i = rs ++ [last] →
        HepMC.readFile (output .hepmc event p header records i) = (header, .ok (rs ++ [last ++ footer .hepmc ++ [10]]))) := by
  obtain ⟨header, records, h1, hs⟩ := C35_hepmc_split_partial hE hutf hend
  refine ⟨header, records, h1, ?_⟩
  intro i
  constructor
  · intro hn
    apply hepmc_no_events
    unfold output
    rw [hn, List.flatten_nil, List.append_nil, List.append_assoc]
    exact no_event_append hs.header_events hepmc_footer_E.1 hepmc_footer_E.2
  · intro rs last hrs
    obtain ⟨hv, he, hsp⟩ := hepmc_output_split hs hutf (fun r hr => by
      rcases trimFooter_spec .hepmc r with ⟨ws, _, h⟩ | ⟨h, _⟩
      · -- the footer is at the beginning of a line
        obtain ⟨pre, post, hpp⟩ := List.append_of_mem (List.mem_of_mem_dropLast hr)
        have := hfoot (header ++ pre.flatten ++ trimFooter .hepmc r) (ws ++ post.flatten) (by
          rw [← hs.whole, hpp]
          conv_lhs => rw [List.flatten_append, List.flatten_cons, h]
          simp [List.append_assoc])
        have hne : trimFooter .hepmc r ≠ [] := by
          intro hn
          rw [hn] at h
          have := hs.starts r (List.mem_of_mem_dropLast hr)
          rw [h] at this
          obtain ⟨t, ht⟩ := this
          have hd := congrArg List.head? ht
          rw [List.nil_append, List.head?_append, List.head?_append] at hd
          have e1 : (ascii "E").head? = some 69 := by decide
          have e2 : (footer .hepmc).head? = some 72 := by decide
          rw [e1, e2, Option.some_or, Option.some_or] at hd
          exact absurd hd (by decide)
        rw [List.getLast?_append] at this
        cases hl : (trimFooter .hepmc r).getLast? with
        | none => rw [List.getLast?_eq_none_iff] at hl; exact absurd hl hne
        | some y => rw [hl] at this; exact this
      · rw [h]; exact hs.ends r hr) event p i hrs
    exact hepmc_read_of_split hsp hv he

/-! ### LHEF -/

theorem lhef_trimFooter {r : Bytes} (h : ascii "</event>" <:+ r) : trimFooter .lhef r = r := by
  have hv : trimEnd r = r := by
    obtain ⟨a, rfl⟩ := h
    unfold trimEnd
    have h1 : (a ++ ascii "</event>").reverse = 62 :: ((ascii "</event").reverse ++ a.reverse) := by
      rw [List.reverse_append]; rfl
    rw [h1, trimEndRev_visible (by decide) (by decide), ← h1, List.reverse_reverse]
  unfold trimFooter
  simp only [hv]
  rw [if_neg]
  rintro hf
  obtain ⟨a, ha⟩ := h
  obtain ⟨b, hb⟩ := hf
  have h1 : ascii "</event>" <:+ footer .lhef :=
    List.suffix_of_suffix_length_le ⟨a, ha⟩ ⟨b, hb⟩ (by decide)
  revert h1
  decide

theorem validUtf8_parts_end {b : UInt8} (hb : b < 0x80) : ∀ {rs : List Bytes} {t : Bytes}, validUtf8 (rs.flatten ++ t) = true →
    (∀ r ∈ rs, ∃ r', r = r' ++ [b]) → (∀ r ∈ rs, validUtf8 r = true) ∧ validUtf8 t = true
  | [], t, hv, _ => ⟨by simp, by simpa using hv⟩
  | r :: rs, t, hv, hr => by
    obtain ⟨r', rfl⟩ := hr r (by simp)
    rw [List.flatten_cons, List.append_assoc, validUtf8_split_after hb] at hv
    obtain ⟨h1, h2⟩ := validUtf8_parts_end hb hv.2 (fun x hx => hr x (by simp [hx]))
    refine ⟨?_, h2⟩
    intro x hx
    rcases List.mem_cons.1 hx with rfl | hx
    · exact hv.1
    · exact h1 x hx

/-- The parts of an output file. -/
theorem lhef_output_split {file header : Bytes} {records : List Bytes} (hs : LhefSplit file header records) (hutf : validUtf8 file = true)
    (event : Bytes → Outcome ReadError E) (p : VPTreePartition E K) (i : Nat) :
    validUtf8 (output .lhef event p header records i) = true ∧
      LhefSplit (output .lhef event p header records i) header (records.filter fun r => regionOf event p r = some i) := by
  obtain ⟨rem, hrem, _⟩ := hs.beginning
  have hrr : regionRecords .lhef event p records i = records.filter fun r => regionOf event p r = some i := by
    unfold regionRecords
    conv_rhs => rw [← List.map_id (records.filter _)]
    apply List.map_congr_left
    intro r hr
    exact lhef_trimFooter (hs.ends r (List.mem_filter.1 hr).1)
  have hvalid : validUtf8 header = true ∧ ∀ r ∈ records, validUtf8 r = true := by
    rw [← hrem, List.append_assoc] at hutf
    obtain ⟨h', hh'⟩ := hs.header_end
    have hh : header = h' ++ ascii "\n</init" ++ [62] := by
      rw [← hh', List.append_assoc]; rfl
    rw [hh, validUtf8_split_after (by decide), ← hh] at hutf
    refine ⟨hutf.1, (validUtf8_parts_end (b := 62) (by decide) hutf.2 ?_).1⟩
    intro r hr
    obtain ⟨a, ha⟩ := hs.ends r hr
    exact ⟨a ++ ascii "</event", by rw [← ha, List.append_assoc]; rfl⟩
  have hv := output_valid (f := .lhef) (event := event) (p := p) hvalid.1 hvalid.2 i
  refine ⟨hv, ?_⟩
  unfold output
  rw [hrr]
  refine ⟨⟨footer .lhef ++ [10], by simp [List.append_assoc], by unfold Contains; decide +kernel⟩, hs.header_end, hs.header_once, ?_, ?_⟩
  · intro r hr
    exact hs.ends r (List.mem_filter.1 hr).1
  · intro r hr
    exact hs.once r (List.mem_filter.1 hr).1

/-- **C60**, LHEF: reading an output file gives the header of the input file and exactly the records of the region. -/
theorem C60_lhef_reread {file : Bytes} (hI : Contains file (ascii "\n</init>")) (hutf : validUtf8 file = true)
    (event : Bytes → Outcome ReadError E) (p : VPTreePartition E K) :
    ∃ header records, Lhef.readFile file = (header, .ok records) ∧ ∀ i,
      Lhef.readFile (output .lhef event p header records i) =
        (header, .ok (records.filter fun r => regionOf event p r = some i)) := by
  obtain ⟨header, records, h1, hs⟩ := C36_lhef_split_partial hI hutf
  refine ⟨header, records, h1, ?_⟩
  intro i
  obtain ⟨hv, hsp⟩ := lhef_output_split hs hutf event p i
  exact lhef_read_of_split hsp hv

/-! ### STRIPPER XML -/

theorem head_of_se {r : Bytes} (h : ascii "<se" <+: r) : ∃ r', r = 60 :: r' := by
  obtain ⟨r', rfl⟩ := h
  exact ⟨_, rfl⟩

/-- A STRIPPER XML file without events. -/
theorem stripper_no_events {debug : Bool} {file : Bytes} (h : ¬ Contains file (ascii "<se")) (hl : 3 ≤ file.length) :
    ∃ header, Stripper.readFile debug file = some (header, .ok []) := by
  have hs := readTo_spec markSe_last [] file
  have he := hs.eof_iff.2 h
  have hr := (hs.ended he).1
  have hb : (readTo 101 markSe [] file).buf = file := by
    have := hs.append
    rw [hr, List.append_nil, List.nil_append] at this
    exact this
  refine ⟨file.take (file.length - 3), ?_⟩
  unfold Stripper.readFile Stripper.initSource
  simp only [hb, hr]
  rw [if_neg (by omega)]
  simp only [Option.map_some, Option.some.injEq, Prod.mk.injEq, true_and]
  decide

theorem no_se_append {a b : Bytes} (ha : ¬ Contains a (ascii "<se")) (hb : ¬ Contains b (ascii "<se"))
    (hE : ¬ ascii "e" <+: b) (hE' : ¬ ascii "se" <+: b) : ¬ Contains (a ++ b) (ascii "<se") := by
  intro h
  rcases infix_append_cases h with h | h | ⟨m1, m2, h, h1, h2, _, h3⟩
  · exact ha h
  · exact hb h
  · have hm : ascii "<se" = [60, 115, 101] := by decide
    rw [hm] at h
    match m1, m2, h1, h2 with
    | [x], m2, _, _ =>
      simp at h
      apply hE'
      rw [← h.2] at h3
      exact h3
    | [x, y], m2, _, _ =>
      simp at h
      apply hE
      rw [← h.2.2] at h3
      exact h3
    | x :: y :: z :: l, w :: l', _, _ =>
      have := congrArg List.length h
      simp at this

theorem stripper_footer_se : ¬ Contains (footer .stripper ++ [10]) (ascii "<se") ∧ ¬ ascii "e" <+: footer .stripper ++ [10] ∧
    ¬ ascii "se" <+: footer .stripper ++ [10] := by
  unfold Contains
  exact ⟨by decide +kernel, by decide, by decide⟩

/-- The parts of an output file with events. -/
theorem stripper_output_split {file header : Bytes} {records : List Bytes} (hs : StripperSplit file header records)
    (hutf : validUtf8 file = true) (event : Bytes → Outcome ReadError E) (p : VPTreePartition E K) (i : Nat) {rs : List Bytes}
    {last : Bytes} (hrs : regionRecords .stripper event p records i = rs ++ [last]) :
    validUtf8 (output .stripper event p header records i) = true ∧ ¬ ascii "<se" <:+ output .stripper event p header records i ∧
      StripperSplit (output .stripper event p header records i) header (rs ++ [last ++ footer .stripper ++ [10]]) := by
  obtain ⟨hvh, hvr⟩ := validUtf8_parts (b := 60) (by decide) (h := header) (rs := records) (by rw [hs.whole]; exact hutf) hs.nonempty
    (fun r hr => head_of_se (hs.starts r hr))
  have hv := output_valid (f := .stripper) (event := event) (p := p) hvh hvr i
  obtain ⟨hf1, hf2, hf3⟩ := stripper_footer_se
  have hout : output .stripper event p header records i = header ++ (rs ++ [last ++ footer .stripper ++ [10]]).flatten := by
    unfold output
    rw [hrs]
    simp [List.append_assoc]
  have hmem : ∀ x ∈ regionRecords .stripper event p records i, ascii "<se" <+: x ∧ ¬ Contains x.tail (ascii "<se") := by
    intro x hx
    obtain ⟨r, hr, rfl⟩ := regionRecords_mem hx
    have hst := hs.starts r hr
    have hpre : ascii "<se" <+: trimFooter .stripper r := by
      rcases trimFooter_spec .stripper r with ⟨ws, _, h⟩ | ⟨h, _⟩
      · rw [h, List.append_assoc] at hst
        have hf : footer .stripper ++ ws = 60 :: 47 :: (ascii "Eventrecord>" ++ ws) := rfl
        rw [hf] at hst
        have hm : ascii "<se" = [60, 115, 101] := by decide
        rw [hm] at hst ⊢
        obtain ⟨t, ht⟩ := hst
        match hx : trimFooter .stripper r with
        | [] => rw [hx] at ht; simp at ht
        | [x] => rw [hx] at ht; simp at ht
        | [x, y] => rw [hx] at ht; simp at ht
        | x :: y :: z :: l =>
          rw [hx] at ht
          simp only [List.cons_append, List.nil_append, List.cons.injEq] at ht
          obtain ⟨rfl, rfl, rfl, _⟩ := ht
          exact ⟨l, rfl⟩
      · rw [h]; exact hst
    refine ⟨hpre, ?_⟩
    intro hc
    obtain ⟨t, ht⟩ := trimFooter_prefix .stripper r
    apply hs.once r hr
    rw [← ht, List.tail_append_of_ne_nil (se_ne_nil hpre)]
    exact List.IsInfix.trans hc (List.prefix_append _ _).isInfix
  have hlast := hmem last (by rw [hrs]; simp)
  refine ⟨hv, ?_, ?_⟩
  · rintro ⟨t, ht⟩
    have := congrArg List.getLast? ht
    unfold output at this
    have e : (ascii "<se").getLast? = some 101 := by decide
    rw [List.getLast?_append, List.getLast?_append, e, List.getLast?_singleton, Option.some_or, Option.some_or] at this
    exact absurd this (by decide)
  · rw [hout]
    refine ⟨rfl, by simp, hs.header_events, ?_, ?_⟩
    · intro r hr
      rcases List.mem_append.1 hr with hr | hr
      · exact (hmem r (by rw [hrs]; simp [hr])).1
      · rw [List.mem_singleton.1 hr, List.append_assoc]
        exact hlast.1.trans (List.prefix_append _ _)
    · intro r hr
      rcases List.mem_append.1 hr with hr | hr
      · exact (hmem r (by rw [hrs]; simp [hr])).2
      · rw [List.mem_singleton.1 hr, List.append_assoc, List.tail_append_of_ne_nil (se_ne_nil hlast.1)]
        exact no_se_append hlast.2 hf1 hf2 hf3

/-- **C60**, STRIPPER XML: reading an output file gives the header of the input file and the records of the region; the last one
is followed by the footer. The numbers of events in the header are those of the input file. -/
theorem C60_stripper_reread {file : Bytes} (hE : Contains file (ascii "<se")) (hutf : validUtf8 file = true)
    (hend : ¬ ascii "<se" <:+ file) (event : Bytes → Outcome ReadError E) (p : VPTreePartition E K) (debug : Bool) :
    ∃ header records, Stripper.readFile debug file = some (header, .ok records) ∧ ∀ i,
      (regionRecords .stripper event p records i = [] →
        ∃ header', Stripper.readFile debug (output .stripper event p header records i) = some (header', .ok [])) ∧
      (∀ rs last, regionRecords .stripper event p records i = rs ++ [last] →
        Stripper.readFile debug (output .stripper event p header records i) =
          some (header, .ok (rs ++ [last ++ footer .stripper ++ [10]]))) := by
  obtain ⟨header, records, h1, hs⟩ := C37_stripper_split_partial (debug := debug) hE hutf hend
  refine ⟨header, records, h1, ?_⟩
  intro i
  obtain ⟨hf1, hf2, hf3⟩ := stripper_footer_se
  constructor
  · intro hn
    unfold output
    rw [hn, List.flatten_nil, List.append_nil, List.append_assoc]
    apply stripper_no_events (no_se_append hs.header_events hf1 hf2 hf3)
    rw [List.length_append]
    have : (footer .stripper ++ [10]).length = 15 := by decide
    omega
  · intro rs last hrs
    obtain ⟨hv, he, hsp⟩ := stripper_output_split hs hutf event p i hrs
    exact stripper_read_of_split hsp hv he

/-- An input file for `C60_hepmc_reread`. -/
example : Contains (ascii "h\nE 1\nE 2\nHepMC::IO_GenEvent-END_EVENT_LISTING\n") (ascii "\nE") ∧
    validUtf8 (ascii "h\nE 1\nE 2\nHepMC::IO_GenEvent-END_EVENT_LISTING\n") = true ∧
    ¬ ascii "\nE" <:+ ascii "h\nE 1\nE 2\nHepMC::IO_GenEvent-END_EVENT_LISTING\n" ∧
    HepMC.readFile (ascii "h\nE 1\nE 2\nHepMC::IO_GenEvent-END_EVENT_LISTING\n") =
      (ascii "h\n", .ok [ascii "E 1\n", ascii "E 2\nHepMC::IO_GenEvent-END_EVENT_LISTING\n"]) := by
  unfold Contains
  decide +kernel

end Cres

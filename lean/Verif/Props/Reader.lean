import Verif.Proofs.FileReader
import Verif.Spec.Reader

/-!
# C35–C37: splitting files into header and records
-/

namespace Cres

open Spec

/-! ## C35: HepMC2 -/

/-- **C35** as stated: every file with an event line after the first line is split without loss. -/
def C35_claim : Prop :=
  ∀ file, Contains file (ascii "\nE") → ∃ header records, HepMC.readFile file = (header, .ok records) ∧
    HepMCSplit file header records

/-- **C35** fails for a file that ends right after the `E` of its last event line: this `E` is lost. -/
theorem C35_violated : ¬ C35_claim := by
  intro h
  obtain ⟨header, records, h1, h2⟩ := h (ascii "H\nE") (by unfold Contains; decide)
  have : HepMC.readFile (ascii "H\nE") = (ascii "H\n", .ok []) := by decide
  rw [this, Prod.mk.injEq, Outcome.ok.injEq] at h1
  exact h2.nonempty h1.2.symm

/-- **C35** for files in UTF-8 that do not end with an incomplete event line `E`. -/
theorem C35_hepmc_split_partial {file : Bytes} (hE : Contains file (ascii "\nE")) (hutf : validUtf8 file = true)
    (hend : ¬ ascii "\nE" <:+ file) :
    ∃ header records, HepMC.readFile file = (header, .ok records) ∧ HepMCSplit file header records := by
  obtain ⟨h1, h2, h3⟩ := HepMC.initSource_spec file hE
  generalize hx : HepMC.initSource file = x at *
  obtain ⟨header, src⟩ := x
  simp only at h1 h2 h3
  have hsuf : 69 :: src <:+ file := ⟨header, h1⟩
  have hne : src ≠ [] := by
    rintro rfl
    apply hend
    obtain ⟨hd, hl⟩ : ∃ hd, header = hd ++ [10] := by
      cases hgl : header.getLast? with
      | none => rw [hgl] at h3; simp at h3
      | some z =>
        rw [hgl] at h3
        simp at h3
        subst h3
        have hne : header ≠ [] := by rintro rfl; simp at hgl
        exact ⟨header.dropLast, by
          have := List.dropLast_append_getLast hne
          rw [List.getLast?_eq_getLast_of_ne_nil hne] at hgl
          simp only [Option.some.injEq] at hgl
          rw [hgl] at this
          exact this.symm⟩
    rw [← h1, hl]
    exact ⟨hd, by simp [ascii]⟩
  obtain ⟨records, g1, g2, g3, g4, g5⟩ := HepMC.readAll_ok (src.length + 1) src (by omega) hne
    (by rw [← h1] at hutf; exact ((validUtf8_split (by decide)).1 hutf).2) (fun h => hend (h.trans hsuf))
  refine ⟨header, records, by simp only [HepMC.readFile, hx, g1], ?_⟩
  exact { whole := by rw [g2, h1], nonempty := g3, header_end := h3, header_events := h2,
          starts := fun r hr => (g4 r hr).1, one := fun r hr => (g4 r hr).2, ends := g5 }

/-- The hypotheses are met by a file with two events. -/
example : Contains (ascii "\nHepMC::Version 2\nE 1 2\nP 3\nE 4\nP\nEND\n") (ascii "\nE") ∧
    validUtf8 (ascii "\nHepMC::Version 2\nE 1 2\nP 3\nE 4\nP\nEND\n") = true ∧
    ¬ ascii "\nE" <:+ ascii "\nHepMC::Version 2\nE 1 2\nP 3\nE 4\nP\nEND\n" := by
  unfold Contains
  decide

/-! ## C36: LHEF -/

/-- **C36** as stated, for every file with an end of the initialisation at the beginning of a line. -/
def C36_claim : Prop :=
  ∀ file, Contains file (ascii "\n</init>") → ∃ header records, Lhef.readFile file = (header, .ok records) ∧
    LhefSplit file header records

/-- **C36** fails for files with invalid UTF-8: the reader panics. -/
theorem C36_violated : ¬ C36_claim := by
  intro h
  obtain ⟨header, records, h1, h2⟩ := h (ascii "\n</init>" ++ 0xff :: ascii "</event>") (by unfold Contains; decide)
  have : Lhef.readFile (ascii "\n</init>" ++ 0xff :: ascii "</event>") = (ascii "\n</init>", .panic) := by decide
  rw [this, Prod.mk.injEq] at h1
  simp at h1

/-- **C36** for files in UTF-8. -/
theorem C36_lhef_split_partial {file : Bytes} (hI : Contains file (ascii "\n</init>")) (hutf : validUtf8 file = true) :
    ∃ header records, Lhef.readFile file = (header, .ok records) ∧ LhefSplit file header records := by
  have h1 := Lhef.initSource_append file
  obtain ⟨h2, h3⟩ := (Lhef.initSource_spec file).1 hI
  generalize hx : Lhef.initSource file = x at *
  obtain ⟨header, src⟩ := x
  simp only at h1 h2 h3
  obtain ⟨hd, hh⟩ := h2
  have hv : validUtf8 src = true := by
    have he : header = (hd ++ ascii "\n</init") ++ [62] := by rw [← hh]; simp [markInit, ascii]
    rw [← h1, he] at hutf
    exact ((validUtf8_split_after (by decide)).1 hutf).2
  obtain ⟨records, remainder, g1, g2, g3, g4⟩ := Lhef.readAll_ok (src.length + 1) src (by omega) hv
  refine ⟨header, records, by simp only [Lhef.readFile, hx, g1], ?_⟩
  exact { beginning := ⟨remainder, by rw [List.append_assoc, g2, h1], g3⟩, header_end := ⟨hd, hh⟩, header_once := h3,
          ends := fun r hr => (g4 r hr).1, once := fun r hr => (g4 r hr).2 }

/-- **C36**: a file without end of the initialisation is one header without records. -/
theorem C36_no_init {file : Bytes} (hI : ¬ Contains file (ascii "\n</init>")) :
    Lhef.readFile file = (file, .ok []) := by
  have := (Lhef.initSource_spec file).2 hI
  simp only [Lhef.readFile, this, Prod.mk.injEq, true_and]
  decide

/-- The hypotheses are met by a file with two events. -/
example : Contains (ascii "<init>\n1\n</init>\n<event>\n2\n</event>\n<event>\n3\n</event>\n</LesHouchesEvents>\n")
      (ascii "\n</init>") ∧
    validUtf8 (ascii "<init>\n1\n</init>\n<event>\n2\n</event>\n<event>\n3\n</event>\n</LesHouchesEvents>\n") = true := by
  unfold Contains
  decide

/-! ## C37: STRIPPER XML -/

/-- **C37** as stated: every file with an event tag is split without loss. -/
def C37_claim : Prop :=
  ∀ debug file, Contains file (ascii "<se") → ∃ header records,
    Stripper.readFile debug file = some (header, .ok records) ∧ StripperSplit file header records

/-- **C37** fails for a file that ends with `<se`: the last three bytes are lost. -/
theorem C37_violated : ¬ C37_claim := by
  intro h
  obtain ⟨header, records, h1, h2⟩ := h false (ascii "x<se") (by unfold Contains; decide)
  have : Stripper.readFile false (ascii "x<se") = some (ascii "x", .ok []) := by decide
  rw [this, Option.some.injEq, Prod.mk.injEq, Outcome.ok.injEq] at h1
  exact h2.nonempty h1.2.symm

/-- **C37** for files in UTF-8 that do not end with an incomplete tag `<se`. -/
theorem C37_stripper_split_partial {debug : Bool} {file : Bytes} (hE : Contains file (ascii "<se"))
    (hutf : validUtf8 file = true) (hend : ¬ ascii "<se" <:+ file) :
    ∃ header records, Stripper.readFile debug file = some (header, .ok records) ∧ StripperSplit file header records := by
  obtain ⟨header, src, h1, h2, h3⟩ := Stripper.initSource_spec debug file hE
  have hne : src ≠ [] := by
    rintro rfl
    exact hend ⟨header, by rw [List.append_nil] at h2; exact h2⟩
  have hsuf : src <:+ file := ⟨header ++ markSe, by rw [← h2]; simp⟩
  obtain ⟨records, g1, g2, g3, g4⟩ := Stripper.readAll_ok (src.length + 1) src (by omega) hne
    (by
      rw [← h2] at hutf
      have : markSe ++ src = 60 :: (ascii "se" ++ src) := by simp [markSe, ascii]
      rw [this] at hutf ⊢
      exact ((validUtf8_split (by decide)).1 hutf).2) (fun h => hend (h.trans hsuf))
  refine ⟨header, records, by simp only [Stripper.readFile, h1, Option.map_some, g1], ?_⟩
  refine { whole := by rw [g2, h2], nonempty := g3, header_events := ?_,
           starts := fun r hr => (g4 r hr).1, once := fun r hr => (g4 r hr).2 }
  intro hc
  apply h3
  refine List.IsInfix.trans hc ?_
  rw [show header ++ markSe = (header ++ ascii "<s") ++ [101] by simp [markSe, ascii], List.dropLast_concat]
  exact (List.prefix_append _ _).isInfix

/-- The hypotheses are met by a file with two events. -/
example : Contains (ascii "<?xml?><Eventrecord><se w=\"1\"><p></p></se><se w=\"2\"></se></Eventrecord>") (ascii "<se") ∧
    validUtf8 (ascii "<?xml?><Eventrecord><se w=\"1\"><p></p></se><se w=\"2\"></se></Eventrecord>") = true ∧
    ¬ ascii "<se" <:+ ascii "<?xml?><Eventrecord><se w=\"1\"><p></p></se><se w=\"2\"></se></Eventrecord>" := by
  unfold Contains
  decide

end Cres

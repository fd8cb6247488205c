import Verif.Proofs.Truncated
import Verif.Props.Crash

/-!
C87: truncated input files.
-/

set_option linter.unusedSectionVars false

namespace Cres

open Spec CombinedIO Program

/-- **C87** as stated: if the first part of a file can be read, it contains the events of the file. -/
def C87_claim : Prop := ∀ (cfg : IOConfig ℚ ℚ) (file part : Bytes) (d d' : EventFile ℚ ℚ), part <+: file →
  IsEventFile cfg file d → IsEventFile cfg part d' → d'.events = d.events

/-- A HepMC2 file. -/
def exWhole : EventFile ℚ ℚ :=
  ⟨⟨.hepmc2, ascii "H\n", [ascii "E 1 2 3 4 5 6 7 8 9 0 0 1 -2\nP 1 21 0 0 0 7 0 1 0 0 0\n",
    ascii "E 1 2 3 4 5 6 7 8 9 0 0 1 65\nP 1 21 0 0 0 9 0 1 0 0 0\n"]⟩,
   [⟨0, [-2], [(21, [7])]⟩, ⟨0, [65], [(21, [9])]⟩]⟩

/-- The same file without the end. -/
def exPart : EventFile ℚ ℚ :=
  ⟨⟨.hepmc2, ascii "H\n", [ascii "E 1 2 3 4 5 6 7 8 9 0 0 1 -2\nP 1 21 0 0 0 7 0 1 0 0 0\n",
    ascii "E 1 2 3 4 5 6 7 8 9 0 0 1 6"]⟩,
   [⟨0, [-2], [(21, [7])]⟩, ⟨0, [6], []⟩]⟩

theorem exWhole_ok (multi : Bool) :
    IsEventFile (exSettings multi).io (exWhole.header ++ exWhole.records.flatten) exWhole := by
  refine ⟨⟨by decide +kernel, ?_, ⟨rfl, by simp [exWhole], by decide +kernel, ?_, ?_, ?_, ?_⟩, ?_⟩, ?_⟩
  · exact fun rest => detectFormat_append _ (b := 72) (h := [10]) (by decide) (Or.inr (by decide)) rest
  · unfold Contains; decide +kernel
  · decide +kernel
  · unfold Contains; decide +kernel
  · decide +kernel
  · decide +kernel
  · refine .cons ?_ (.cons ?_ .nil)
    · show HepMC.parse _ _ = _
      cases multi <;> decide +kernel
    · show HepMC.parse _ _ = _
      cases multi <;> decide +kernel

theorem exPart_ok (multi : Bool) :
    IsEventFile (exSettings multi).io (exPart.header ++ exPart.records.flatten) exPart := by
  refine ⟨⟨by decide +kernel, ?_, ⟨rfl, by simp [exPart], by decide +kernel, ?_, ?_, ?_, ?_⟩, ?_⟩, ?_⟩
  · exact fun rest => detectFormat_append _ (b := 72) (h := [10]) (by decide) (Or.inr (by decide)) rest
  · unfold Contains; decide +kernel
  · decide +kernel
  · unfold Contains; decide +kernel
  · decide +kernel
  · decide +kernel
  · refine .cons ?_ (.cons ?_ .nil)
    · show HepMC.parse _ _ = _
      cases multi <;> decide +kernel
    · show HepMC.parse _ _ = _
      cases multi <;> decide +kernel

/-- **C87 is false** for HepMC2: a file that ends within the weight of an event is accepted. The event has a different weight
(6 instead of 65), and no particles. -/
theorem C87_violated : ¬ C87_claim := by
  intro h
  have := h _ _ _ _ _ (by decide +kernel) (exWhole_ok false) (exPart_ok false)
  revert this
  decide +kernel

/-- **C87** is also false for Les Houches Event Files: a file without the end is accepted, and events are missing. -/
theorem C87_lhef_violated : ∃ (cfg : IOConfig ℚ ℚ) (file part : Bytes) (d d' : EventFile ℚ ℚ), d.kind = .lhef ∧ part <+: file ∧
    IsEventFile cfg file d ∧ IsEventFile cfg part d' ∧ d'.events ≠ d.events := by
  refine ⟨_, _, exProgLhef.header, _, ⟨⟨.lhef, exProgLhef.header, []⟩, []⟩, rfl, ?_, exProgLhef_ok false, ?_, ?_⟩
  · rw [List.append_assoc]
    exact List.prefix_append _ _
  · refine ⟨⟨by decide +kernel, ?_, ⟨⟨[], by simp, ?_⟩, by decide +kernel, ?_, by simp, by simp⟩, by simp⟩, .nil⟩
    · exact fun rest => detectFormat_append _ (b := 60) (h := ascii "LesHouchesEvents>\n</init>") (by decide)
        (Or.inl (by decide)) rest
    · unfold Contains; decide +kernel
    · unfold Contains; decide +kernel
  · decide +kernel

section

variable {K V D P : Type*}

theorem Dropped.faulty [DecidableEq P] {files files' : FS P} {ws : List (Writer P)} (h : Dropped false files ws files') :
    Dropped true files ws files' := by
  induction h with
  | nil => exact .nil
  | cons n _ _ ih => exact .cons n (by simp) ih

theorem Disk.Step.faulty [DecidableEq P] {cap : Nat} {d d' : Disk P} {op : FileOp P} {b : Bool} (h : d.Step cap false op b d') :
    d.Step cap true op b d' := by
  cases h with
  | create => exact .create
  | createFails h => cases h
  | noWriter => exact .noWriter
  | buffered h => exact .buffered h
  | flushFails _ h => cases h
  | flushed h1 h2 => exact .flushed h1 h2
  | direct h1 h2 h3 _ => exact .direct h1 h2 h3 (by simp)
  | dropOld h1 h2 => exact .dropOld h1.faulty h2
  | dropNew h1 h2 => exact .dropNew h1.faulty h2

/-- Without failures is a special case. -/
theorem Disk.Exec.faulty [DecidableEq P] {cap : Nat} {d : Disk P} {ops : List (FileOp P)} {files : FS P} {e : Ending}
    (h : Disk.Exec cap false d ops files e) : Disk.Exec cap true d ops files e := by
  induction h with
  | finished h => exact .finished h.faulty
  | failed h1 h2 => exact .failed h1.faulty h2.faulty
  | interrupted => exact .interrupted
  | interruptedIn h => exact .interruptedIn h
  | interruptedDropping h => exact .interruptedDropping h
  | step h1 _ ih => exact .step h1.faulty ih

/-- **C87**, what holds: the format is recognised as the same, and the events that are read from the first part of a file are
events of the file at the same places, except for the last one. For Les Houches Event Files this holds for all events. -/
theorem C87_truncated_partial [Zero K] [Mul K] [LinearOrder V] {cfg : IOConfig K V} {file part : Bytes} {d d' : EventFile K V}
    (hp : part <+: file) (h : IsEventFile cfg file d) (h' : IsEventFile cfg part d') :
    d'.kind = d.kind ∧ d'.header = d.header ∧ d'.events.length ≤ d.events.length ∧ d'.events.dropLast <+: d.events ∧
      (d.kind = .lhef → d'.events <+: d.events) :=
  isEventFile_part h h' hp

/-- **C87**: what can be read from output files after an interruption, or if the end could not be written: all events except
for the last one are those of the complete output. -/
theorem C87_interrupted_partial [Zero D] [Zero K] [One K] [Add K] [Mul K] [Div K] [NatCast K] [LinearOrder K] [LinearOrder V]
    [DecidableEq P] {p : Program K V D} {files : List (P × P)} (hf : GoodFiles files) {fs fs' files' : FS P}
    {events : Option (List (Event K V))} {ws : Option (List (Weights K))} {res : Outcome (CresError IOError) Unit}
    (h : p.Run files fs events ws res fs') {n : Nat} (hr : p.ReadsAll files fs n) {cap : Nat} {faults : Bool} {e : Ending}
    (he : Disk.Exec cap faults ⟨fs, []⟩ (p.runOps files fs n ws) files' e) {q : P} (hq : files' q ≠ fs q)
    {content part : Bytes} (hc : fs' q = some content) (hpart : files' q = some part) {d d' : EventFile K V}
    (hd : IsEventFile p.io content d) (hd' : IsEventFile p.io part d') :
    d'.kind = d.kind ∧ d'.header = d.header ∧ d'.events.length ≤ d.events.length ∧ d'.events.dropLast <+: d.events ∧
      (d.kind = .lhef → d'.events <+: d.events) := by
  rcases (C84_crash hf h hr he).2 q with h1 | ⟨c, c', h1, h2, h3⟩
  · exact absurd h1 hq
  · rw [hc, Option.some.injEq] at h1
    rw [hpart, Option.some.injEq] at h2
    subst h1 h2
    exact isEventFile_part hd hd' h3

end

/-- The hypotheses of `C87_truncated_partial` are met by the files in `C87_violated`. -/
example : (exPart.header ++ exPart.records.flatten) <+: (exWhole.header ++ exWhole.records.flatten) ∧
    exPart.events.dropLast <+: exWhole.events ∧ exPart.events.dropLast ≠ [] :=
  ⟨by decide +kernel, (C87_truncated_partial (by decide +kernel) (exWhole_ok false) (exPart_ok false)).2.2.2.1, by decide⟩

/-- The first output file of the example run. -/
def exOutFile : EventFile ℚ ℚ :=
  ⟨⟨.hepmc2, ascii "H\n", [ascii "E 1 2 3 4 5 6 7 8 9 0 0 1 2\nP 1 21 0 0 0 7 0 1 0 0 0\n",
    ascii "E 1 2 3 4 5 6 7 8 9 0 0 1 6\nP 1 21 0 0 0 9 0 1 0 0 0\n"]⟩,
   [⟨0, [2], [(21, [7])]⟩, ⟨0, [6], [(21, [9])]⟩]⟩

theorem exOutFile_ok (multi : Bool) : IsEventFile (exSettings multi).io exProgOut exOutFile := by
  refine ⟨⟨by decide +kernel, ?_, ⟨by decide +kernel, by simp [exOutFile], by decide +kernel, ?_, ?_, ?_, ?_⟩, ?_⟩, ?_⟩
  · exact fun rest => detectFormat_append _ (b := 72) (h := [10]) (by decide) (Or.inr (by decide)) rest
  · unfold Contains; decide +kernel
  · decide +kernel
  · unfold Contains; decide +kernel
  · decide +kernel
  · decide +kernel
  · refine .cons ?_ (.cons ?_ .nil)
    · show HepMC.parse _ _ = _
      cases multi <;> decide +kernel
    · show HepMC.parse _ _ = _
      cases multi <;> decide +kernel

/-- The hypotheses of `C87_interrupted_partial` are met in a run with the actual size of the buffer. -/
example (multi : Bool) : ∃ fs' files' e part d', GoodFiles [((0 : ℕ), 10), (1, 11)] ∧
    (exSettings multi).program.Run [((0 : ℕ), 10), (1, 11)] exProgFS (some exProgEvents) (some [[2], [6], [2]]) (.ok ()) fs' ∧
    (exSettings multi).program.ReadsAll [((0 : ℕ), 10), (1, 11)] exProgFS 5 ∧
    Disk.Exec 8192 true ⟨exProgFS, []⟩ ((exSettings multi).program.runOps [((0 : ℕ), 10), (1, 11)] exProgFS 5 (some [[2], [6], [2]]))
      files' e ∧ files' 10 ≠ exProgFS 10 ∧ fs' 10 = some exProgOut ∧ files' 10 = some part ∧
    IsEventFile (exSettings multi).program.io exProgOut exOutFile ∧ IsEventFile (exSettings multi).program.io part d' := by
  obtain ⟨fs', h1, h2, h3⟩ := exProg_output multi
  have h4 := (C85_possible exProgGood h1 (exProg_readsAll multi) 8192).faulty
  exact ⟨fs', fs', _, exProgOut, exOutFile, exProgGood, h1, exProg_readsAll multi, h4, by rw [h2]; simp [exProgFS], h2, h2,
    exOutFile_ok multi, exOutFile_ok multi⟩

end Cres

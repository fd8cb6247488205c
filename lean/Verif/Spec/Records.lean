import Verif.Model.Stripper

/-!
What it means that the weights of an event record are updated.
-/

namespace Cres.Spec

/-- `record'` is `record` with one entry (a text without white space) replaced by `new`. -/
def EntryReplaced (record record' new : Bytes) : Prop :=
  ∃ pre old post, record = pre ++ old ++ post ∧ old ≠ [] ∧ (∀ b ∈ old, isAsciiWs b = false) ∧
    record' = pre ++ new ++ post

/-- `record'` is `record` with one entry replaced by `new`, where only the first of the blanks in front of the entry is
kept. -/
def EntryReplacedBlanks (record record' new : Bytes) : Prop :=
  ∃ pre blanks old post, record = pre ++ blanks ++ old ++ post ∧ blanks ≠ [] ∧ (∀ b ∈ blanks, b = 32 ∨ b = 9) ∧
    old ≠ [] ∧ (∀ b ∈ old, isAsciiWs b = false) ∧ record' = pre ++ blanks.take 1 ++ new ++ post

/-- The weights with selected names, in the order in which they are listed. -/
def selectedWeights {K : Type*} (selection names : List Bytes) (weights : List K) : List K :=
  ((names.zip weights).filter (fun x => decide (x.1 ∈ selection))).map Prod.snd

/-- The HepMC2 record has a line with names that announces `n` names, followed by `entries`. -/
def NamesLine (record : Bytes) (n : Nat) (entries : Bytes) : Prop :=
  ∃ before line, splitAtPattern (ascii "\nN") record = some (before, line) ∧ u32Entry line = some (entries, n)

/-- The name of the first weight in a HepMC2 record is one of `selection`. -/
def FirstNameIn (selection : List Bytes) (record : Bytes) : Prop :=
  ∃ n entries rest, ∃ name ∈ selection, NamesLine record n entries ∧ HepMC.stringEntry entries = some (rest, name)

/-- The cross sections of a channel found in a list of files. -/
def crossSections {K : Type*} (channel : Bytes) (files : List (Option (Stripper.XmlTag K))) : List K :=
  files.filterMap (fun f => match f with
    | some (.normalization n s) => if n = channel then some s else none
    | _ => none)

/-- The total number of events of a channel in a list of files. -/
def totalEvents {K : Type*} (channel : Bytes) (files : List (Option (Stripper.XmlTag K))) : Nat :=
  (files.filterMap (fun f => match f with
    | some (.eventrecord n k _) => if n = channel then some k else none
    | _ => none)).sum

end Cres.Spec

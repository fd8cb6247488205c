import Verif.Model.Main

/-!
Vocabulary for the statements about paths and complete runs.
-/

namespace Cres.Spec

variable {K V P : Type*}

/-- The name of a file: not empty, without slash, and neither `.` nor `..`. -/
def IsName (n : Bytes) : Prop := n ≠ [] ∧ (47 : UInt8) ∉ n ∧ n ≠ ascii "." ∧ n ≠ ascii ".."

/-- The path `f` consists of the path `d` of a directory and of the name `n`. The path of the directory is empty or ends with
a slash. -/
def IsFilePath (f d n : Bytes) : Prop := f = d ++ n ∧ (d = [] ∨ d.getLast? = some 47) ∧ IsName n

/-- The name of the output file of `classify-events` for the input file with name `n` and region `i`: the number of the region
comes before the first dot of the name, or at the end. -/
def IsRegionName (n : Bytes) (i : Nat) (m : Bytes) : Prop :=
  (∃ p s, (46 : UInt8) ∉ p ∧ n = p ++ ascii "." ++ s ∧ m = p ++ ascii "." ++ ascii (toString i) ++ ascii "." ++ s) ∨
  ((46 : UInt8) ∉ n ∧ m = n ++ ascii "." ++ ascii (toString i) ++ ascii ".")

/-- What `cres` looks for in a file before anything else: information from XML files. -/
def HasTag (io : IOConfig K V) (content : Bytes) : Option (Stripper.XmlTag K) → Prop
  | none => ¬ ascii "<?xml" <+: trimAsciiStart (io.firstBuffer content)
  | some t => ascii "<?xml" <+: trimAsciiStart (io.firstBuffer content) ∧ io.xmlInfo content = .ok t

/-- A file with a cross section and without events. -/
def IsNormalization : Option (Stripper.XmlTag K) → Bool
  | some (.normalization _ _) => true
  | _ => false

/-- The scales of channels for the information found in XML files, see C41. -/
def channelScales [Zero K] [One K] [Neg K] [Div K] [NatCast K] (tags : List (Option (Stripper.XmlTag K))) : Bytes → Option K :=
  (Stripper.extractScaling (tags.map fun t => ((), t))).2

/-- The elements of a list that belong to files with events. -/
def eventInputs {α : Type*} (files : List α) (tags : List (Option (Stripper.XmlTag K))) : List α :=
  ((files.zip tags).filter fun x => !IsNormalization x.2).map Prod.fst

end Cres.Spec

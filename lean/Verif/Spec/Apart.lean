import Verif.Model.Main
import Verif.Spec.Choices

/-!
Specification for C100: input of a run, and events that are too far from each other to be in the same cell.
-/

namespace Cres.Spec

open Cres.Path

variable {K V D : Type*}

/-- Input of a run of the command line program: working directory, output directory, names of input files as directory and
file name, tags in the input files (for those that do not contain events), the files and the contents of the input files with
events. -/
structure Sample (K V : Type*) where
  cwd : List Bytes
  outdir : Bytes
  ins : List (Bytes × Bytes)
  tags : List (Option (Stripper.XmlTag K))
  fs : FS (List Bytes)
  files : List (EventFile K V)

/-- All events in the input. -/
def Sample.events (x : Sample K V) : List (Event K V) := allEvents x.files

variable [Zero K] [LinearOrder V]

/-- All events in the input after clustering. -/
def Sample.clustered (x : Sample K V) (s : CresSettings K V D) : List (Event K V) := clusteredEvents s x.files

/-- No cell can contain events from both lists: all distances are greater than the maximum size. Events without particles do
not count. -/
def Apart [LT D] (s : CresSettings K V D) (a b : List (Event K V)) : Prop :=
  ∀ x ∈ a, ∀ y ∈ b, x.outgoingByPid ≠ [] → y.outgoingByPid ≠ [] → s.maxCellSize < s.distance x y

end Cres.Spec

import Mathlib.Logic.Function.Basic
import Verif.Model.Partition
import Verif.Model.Outcome
import Verif.Model.FileReader

/-!
Model of complete runs of `cres-partition` (`src/bin/partition.rs`), from input files to the partition file. How events are read from
records and clustered is a parameter, and so is the text written for a partition. Write errors are not modelled.
-/

namespace Cres.PartitionRun

/-- The errors with which the program can end. -/
inductive Error
  | openInput
  | read (e : ReadError)
  | tooFewEvents
  | createOutput
deriving DecidableEq, Repr

variable {N R E K : Type*}

/-- What is known about reading: opening files (`FileReader::try_new`, `src/io.rs`), the records found in a file, where the last one can be an
error, `try_convert`, whether the weight is negative, and `cluster`. -/
structure Input (N R E : Type*) where
  openFile : N → Option (List (Outcome ReadError R))
  convert : R → Outcome ReadError E
  negative : E → Bool
  cluster : E → Outcome ReadError E

/-- The loop over the records of one file (`src/bin/partition.rs:69-78`). -/
def readRecords (inp : Input N R E) : List (Outcome ReadError R) → List E → Outcome Error (List E)
  | [], events => .ok events
  | .err e :: _, _ => .err (.read e)
  | .panic :: _, _ => .panic
  | .ok r :: rs, events =>
    match inp.convert r with
    | .err e => .err (.read e)
    | .panic => .panic
    | .ok event =>
      if inp.negative event then
        match inp.cluster event with
        | .err e => .err (.read e)
        | .panic => .panic
        | .ok event => readRecords inp rs (events ++ [event])
      else readRecords inp rs events

/-- The loop over the input files (`src/bin/partition.rs:66-79`). -/
def readFiles (inp : Input N R E) : List N → List E → Outcome Error (List E)
  | [], events => .ok events
  | file :: files, events =>
    match inp.openFile file with
    | none => .err .openInput
    | some rs =>
      match readRecords inp rs events with
      | .ok events => readFiles inp files events
      | o => o

/-- `main` after reading the options (`src/bin/partition.rs:65-124`): how the program ends, and the contents of all files. `make` stands for the
construction of the partition from events (`:81-114`), `text` for what is written (`:119-122`) and `canCreate` for whether the
output file can be created (`:117-118`). -/
def run [DecidableEq N] (inp : Input N R E) (make : List E → PartitionResult E K) (text : VPTreePartition E K → Bytes) (canCreate : Bool)
    (infiles : List N) (outfile : N) (dir : N → Option Bytes) : Outcome Error Unit × (N → Option Bytes) :=
  match readFiles inp infiles [] with
  | .err e => (.err e, dir)
  | .panic => (.panic, dir)
  | .ok events =>
    match make events with
    | .tooFewEvents => (.err .tooFewEvents, dir)
    | .panic => (.panic, dir)
    | .ok p => if canCreate then (.ok (), Function.update dir outfile (some (text p))) else (.err .createOutput, dir)

end Cres.PartitionRun

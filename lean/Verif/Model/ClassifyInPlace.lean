import Verif.Model.Classify

/-!
Model of `cres-classify-events` where input files can also be in the output directory, so that they can be overwritten before they are read. Text
files without compression.
-/

namespace Cres.Classify

/-- The contents of all files, given by their directory and their name. -/
abbrev Files (D : Type*) := D × List Char → Option Bytes

/-- Finding the format, the header and the records of a file (`src/bin/classify-events.rs:73-76,120-121`, `src/io.rs`); `none` is an error. -/
abbrev Parse := Bytes → Option (Format × Bytes × List Bytes)

variable {D E K : Type*} [DecidableEq D] [DistNum K]

/-- Creating and writing the output files for one input file (`src/bin/classify-events.rs:122-128,260-270`). -/
def writeTo (out : D) (file : List Char) : Nat → List Bytes → Files D → Files D
  | _, [], files => files
  | i, w :: ws, files => writeTo out file (i + 1) ws (Function.update files (out, outName file i) (some w))

/-- The loop over input files in `main` (`src/bin/classify-events.rs:71-94`); each file is read when it is its turn. -/
def classifyFiles (parse : Parse) (event : Bytes → Outcome ReadError E) (p : VPTreePartition E K) (out : D) :
    List (D × List Char) → Files D → Outcome ReadError Unit × Files D
  | [], files => (.ok (), files)
  | f :: fs, files =>
    match (files f).bind parse with
    | none => (.err (.findEntry "file"), files)
    | some (format, header, records) =>
      let r := classify format event p header records
      let files := writeTo out f.2 0 r.2 files
      match r.1 with
      | .ok () => classifyFiles parse event p out fs files
      | o => (o, files)

end Cres.Classify

import Verif.Model.FileReader
import Verif.Model.Partition

/-!
Model of `src/bin/classify-events.rs` for the text formats: event records are distributed over one output file per region.
-/

namespace Cres.Classify

/-- The text formats of `FileFormat`. -/
inductive Format | hepmc | lhef | stripper
deriving DecidableEq, Repr

/-- `get_footer` (`src/bin/classify-events.rs:227-237`). -/
def footer : Format → Bytes
  | .hepmc => ascii "HepMC::IO_GenEvent-END_EVENT_LISTING"
  | .lhef => ascii "</LesHouchesEvents>"
  | .stripper => ascii "</Eventrecord>"

/-- `trim_end` of the standard library for the reversed text. In UTF-8 the first byte of a character differs from
all others, so the last bytes of a text determine its last character. -/
def trimEndRev : Bytes → Bytes
  | [] => []
  | [b0] => if isWs1 b0 then [] else [b0]
  | [b1, b0] => if isWs1 b1 then trimEndRev [b0] else if isWs2 b0 b1 then [] else [b1, b0]
  | b2 :: b1 :: b0 :: r =>
    if isWs1 b2 then trimEndRev (b1 :: b0 :: r)
    else if isWs2 b1 b2 then trimEndRev (b0 :: r)
    else if isWs3 b0 b1 b2 then trimEndRev r
    else b2 :: b1 :: b0 :: r

/-- `str::trim_end`. -/
def trimEnd (s : Bytes) : Bytes := (trimEndRev s.reverse).reverse

/-- `trim_footer` (`src/bin/classify-events.rs:218-225`). -/
def trimFooter (f : Format) (event : Bytes) : Bytes :=
  let t := trimEnd event
  if footer f <:+ t then t.take (t.length - (footer f).length) else event

/-- The loop over events in `classify_byte_records` (`src/bin/classify-events.rs:136-146`); `event` converts and clusters
a record. The contents of the output files are returned together with the result; a panic is an index out of range.
Output files are written through, without errors of the operating system. -/
def loop {E K : Type*} [DistNum K] (f : Format) (event : Bytes → Outcome ReadError E) (p : VPTreePartition E K) :
    List Bytes → List Bytes → Outcome ReadError Unit × List Bytes
  | [], writers => (.ok (), writers)
  | r :: rs, writers =>
    match event r with
    | .ok e =>
      let region := p.region e
      match writers[region]? with
      | some w => loop f event p rs (writers.set region (w ++ trimFooter f r))
      | none => (.panic, writers)
    | .err e => (.err e, writers)
    | .panic => (.panic, writers)

/-- `classify_byte_records` (`src/bin/classify-events.rs:108-153`) for a file with the given header and records (the reader
is modelled in `Verif/Model/FileReader.lean`): the contents of the output files. `write_footer` is `:210-216`. -/
def classify {E K : Type*} [DistNum K] (f : Format) (event : Bytes → Outcome ReadError E) (p : VPTreePartition E K)
    (header : Bytes) (records : List Bytes) : Outcome ReadError Unit × List Bytes :=
  let writers := (List.replicate p.len []).map (· ++ header)
  let r := loop f event p records writers
  match r.1 with
  | .ok () => (.ok (), r.2.map fun w => w ++ footer f ++ [10])
  | o => (o, r.2)

/-- `split_once('.')` with the default `(file, "")`. -/
def splitName : List Char → List Char × List Char
  | [] => ([], [])
  | c :: cs => if c = '.' then ([], cs) else (c :: (splitName cs).1, (splitName cs).2)

/-- The name of an output file in `make_byte_writers` (`src/bin/classify-events.rs:251-258`). -/
def outName (file : List Char) (i : Nat) : List Char :=
  (splitName file).1 ++ ['.'] ++ (Nat.toDigits 10 i) ++ ['.'] ++ (splitName file).2

/-- The files in the output directory. -/
abbrev Dir := List Char → Option Bytes

/-- Creating and writing the output files for one input file. -/
def writeOutputs (file : List Char) : Nat → List Bytes → Dir → Dir
  | _, [], dir => dir
  | i, w :: ws, dir => writeOutputs file (i + 1) ws (Function.update dir (outName file i) (some w))

/-- An input file: its name (without the directory), format, header and records. -/
structure Input where
  name : List Char
  format : Format
  header : Bytes
  records : List Bytes

/-- The loop over input files in `main` (`src/bin/classify-events.rs:71-94`). It ends with the first error. The input files are
not among the output files. -/
def classifyAll {E K : Type*} [DistNum K] (event : Bytes → Outcome ReadError E) (p : VPTreePartition E K) :
    List Input → Dir → Outcome ReadError Unit × Dir
  | [], dir => (.ok (), dir)
  | i :: is, dir =>
    let r := classify i.format event p i.header i.records
    let dir := writeOutputs i.name 0 r.2 dir
    match r.1 with
    | .ok () => classifyAll event p is dir
    | o => (o, dir)

end Cres.Classify

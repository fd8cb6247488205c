import Verif.Model.Lhef
import Verif.Model.Stripper

/-!
Model of format detection (`src/io.rs`) and of the `FileReader` and `FileIO` objects in `src/hepmc2.rs`, `src/lhef.rs` and
`src/stripper_xml.rs` on a file system.

Simplifications: Files are represented by their content after decompression. Writing to a file is immediate; in the code
there is a buffer which is emptied at the latest when the object is dropped. The only failure of the operating system is
that an input file does not exist. A reader keeps the content that the file had when it was opened; in the code this is
true only for the part in the first buffer if the file is truncated while it is read. ROOT ntuples are not included, see
`Verif/Model/NTuple.lean`.
-/

namespace Cres

variable {K V P : Type*}

/-- `enum CreateError` (`src/io.rs:363-403`), as far as these errors occur in the model. -/
inductive CreateError
  | openInput
  | rootUnsupported
  | xmlUnsupported
  | xml
  | badTag
  | missingScaling (name : Bytes)
deriving DecidableEq, Repr

/-- `enum ErrorKind` (`src/io.rs:349-361`) without errors from writing. -/
inductive IOError
  | create (e : CreateError)
  | read (e : ReadError)
deriving DecidableEq, Repr

/-- `enum FileFormat` (`src/formats.rs`). -/
inductive FileFormat
  | hepmc2
  | lhef
  | ntuple
  | stripperXml
deriving DecidableEq, Repr

/-- The features that select file formats. -/
structure Features where
  lhef : Bool
  ntuple : Bool
  stripperXml : Bool
deriving DecidableEq, Repr

/-- `detect_event_file_format` (`src/io.rs:254-282`), given what is in the first buffer. An error while filling the
buffer is represented by `none`. -/
def detectFormat (feat : Features) : Option Bytes → Outcome CreateError FileFormat
  | none => .ok .hepmc2
  | some bytes =>
    if ascii "root" <+: bytes then (if feat.ntuple then .ok .ntuple else .err .rootUnsupported)
    else if ascii "<?xml" <+: trimAsciiStart bytes then
      (if feat.stripperXml then .ok .stripperXml else .err .xmlUnsupported)
    else if feat.lhef ∧ ascii "<LesHouchesEvents" <+: bytes then .ok .lhef
    else .ok .hepmc2

/-- Everything reading and writing depends on except the files. -/
structure IOConfig (K V : Type*) where
  ctx : ParseCtx K V
  feat : Features
  /-- The part of a file in the first buffer. -/
  firstBuffer : Bytes → Bytes
  /-- `extract_xml_info` (`src/stripper_xml.rs:337-436`). -/
  xmlInfo : Bytes → Outcome CreateError (Stripper.XmlTag K)
  /-- `IOBuilder::scaling`. -/
  scaling : Bytes → Option K

/-- The type of the object inside `FileIO` (`src/io.rs:105`), and `weight_scale` for STRIPPER XML. -/
inductive Kind (K : Type*)
  | hepmc2
  | lhef
  | stripperXml (scale : K)
deriving DecidableEq, Repr

/-- A `FileReader` of one of the modules: the rest of the source, the header, and `rem_subevents` for STRIPPER XML. -/
structure Reader where
  src : Bytes
  header : Bytes
  rem : Option Nat
deriving DecidableEq, Repr

/-- `FileReader::try_new` (`src/hepmc2.rs:34-41`, `src/lhef.rs:40-47`, `src/stripper_xml.rs:46-63`). -/
def Reader.new (cfg : IOConfig K V) (content : Bytes) : FileFormat → Outcome CreateError Reader
  | .hepmc2 => .ok ⟨(HepMC.initSource content).2, (HepMC.initSource content).1, none⟩
  | .lhef => .ok ⟨(Lhef.initSource content).2, (Lhef.initSource content).1, none⟩
  | .stripperXml =>
    (Outcome.ofOption (Stripper.initSource cfg.ctx.debug content)).bind fun (header, src) =>
      (cfg.xmlInfo header).bind fun
        | .eventrecord _ _ nsubevents => .ok ⟨src, header, some nsubevents⟩
        | .normalization _ _ => .err .badTag
  | .ntuple => .err .rootUnsupported

/-- `read_raw`, with the count of records for STRIPPER XML. -/
def Reader.readRaw (debug : Bool) (format : FileFormat) (r : Reader) : Option (Outcome ReadError Bytes) × Reader :=
  match format with
  | .hepmc2 => ((HepMC.readRaw r.src).1, { r with src := (HepMC.readRaw r.src).2 })
  | .lhef => ((Lhef.readRaw r.src).1, { r with src := (Lhef.readRaw r.src).2 })
  | .stripperXml =>
    match (Stripper.readRaw r.src).1 with
    | some (.ok record) =>
      match r.rem with
      | none => (some (.ok record), { r with src := (Stripper.readRaw r.src).2 })
      | some n =>
        match Stripper.decRemaining debug n with
        | some m => (some (.ok record), { r with src := (Stripper.readRaw r.src).2, rem := some m })
        | none => (some .panic, { r with src := (Stripper.readRaw r.src).2 })
    | x => (x, { r with src := (Stripper.readRaw r.src).2 })
  | .ntuple => (none, r)

/-- `rewind` (`src/hepmc2.rs:82-86`, `src/lhef.rs:77-81`, `src/stripper_xml.rs:110-118`): only the source is replaced. -/
def Reader.rewind (debug : Bool) (format : FileFormat) (content : Option Bytes) (r : Reader) : Outcome CreateError Reader :=
  match content with
  | none => .err .openInput
  | some content =>
    match format with
    | .hepmc2 => .ok { r with src := (HepMC.initSource content).2 }
    | .lhef => .ok { r with src := (Lhef.initSource content).2 }
    | .stripperXml =>
      (Outcome.ofOption (Stripper.initSource debug content)).bind fun (_, src) => .ok { r with src := src }
    | .ntuple => .ok r

/-- `size_hint`: the default, except for STRIPPER XML (`src/stripper_xml.rs:127-129`). -/
def Reader.sizeHint (r : Reader) : Nat × Option Nat :=
  match r.rem with
  | none => (0, none)
  | some n => (n, some n)

/-- The content of all files. -/
abbrev FS (P : Type*) := P → Option Bytes

/-- Create or truncate a file and write to it. -/
def FS.create [DecidableEq P] (fs : FS P) (p : P) (content : Bytes) : FS P := Function.update fs p (some content)

/-- Write at the end of an open file. -/
def FS.append [DecidableEq P] (fs : FS P) (p : P) (s : Bytes) : FS P :=
  Function.update fs p (some ((fs p).getD [] ++ s))

/-- A `FileIO` object of one of the modules. -/
structure FileIO (K P : Type*) where
  kind : Kind K
  infile : P
  outfile : P
  reader : Reader
deriving DecidableEq, Repr

/-- The format of the files of an I/O object. -/
def Kind.format : Kind K → FileFormat
  | .hepmc2 => .hepmc2
  | .lhef => .lhef
  | .stripperXml _ => .stripperXml

/-- What is looked up after the header was written: the scale of the channel for STRIPPER XML
(`src/stripper_xml.rs:163-170`). -/
def Kind.find (cfg : IOConfig K V) (header : Bytes) : FileFormat → Outcome CreateError (Kind K)
  | .hepmc2 => .ok .hepmc2
  | .lhef => .ok .lhef
  | .stripperXml =>
    (cfg.xmlInfo header).bind fun
      | .eventrecord name _ _ =>
        match cfg.scaling name with
        | some s => .ok (.stripperXml s)
        | none => .err (.missingScaling name)
      | .normalization _ _ => .err .badTag
  | .ntuple => .err .rootUnsupported

/-- `build_from_files` (`src/io.rs:152-206`) and `FileIO::try_new` (`src/hepmc2.rs:126-147`, `src/lhef.rs:102-124`,
`src/stripper_xml.rs:146-179`): the output file is created and the header is written. -/
def FileIO.new [DecidableEq P] (cfg : IOConfig K V) (infile outfile : P) (fs : FS P) :
    Outcome CreateError (FileIO K P) × FS P :=
  match fs infile with
  | none => (.err .openInput, fs)
  | some content =>
    match detectFormat cfg.feat (some (cfg.firstBuffer content)) with
    | .err e => (.err e, fs)
    | .panic => (.panic, fs)
    | .ok format =>
      match Reader.new cfg content format with
      | .err e => (.err e, fs)
      | .panic => (.panic, fs)
      | .ok reader =>
        ((Kind.find cfg reader.header format).bind fun kind => .ok ⟨kind, infile, outfile, reader⟩,
         fs.create outfile reader.header)

/-- `rewind` (`src/hepmc2.rs:209-216`, `src/lhef.rs:178-185`, `src/stripper_xml.rs:259-266`). -/
def FileIO.rewind (cfg : IOConfig K V) (io : FileIO K P) (fs : FS P) : Outcome IOError (FileIO K P) :=
  ((io.reader.rewind cfg.ctx.debug io.kind.format (fs io.infile)).map fun r => { io with reader := r }).mapErr IOError.create

/-- What `next` makes of a record: STRIPPER XML weights are rescaled (`src/stripper_xml.rs:271-284`). -/
def Kind.present [Mul K] (cfg : IOConfig K V) : Kind K → Bytes → Outcome ReadError Bytes
  | .hepmc2, r => .ok r
  | .lhef, r => .ok r
  | .stripperXml s, r => Stripper.rescale cfg.ctx.float s r

/-- `next` (`src/hepmc2.rs:218-224`, `src/lhef.rs:187-193`, `src/stripper_xml.rs:268-288`). -/
def FileIO.next [Mul K] (cfg : IOConfig K V) (io : FileIO K P) : Option (Outcome IOError Bytes) × FileIO K P :=
  ((io.reader.readRaw cfg.ctx.debug io.kind.format).1.map fun x => (x.bind (io.kind.present cfg)).mapErr IOError.read,
   { io with reader := (io.reader.readRaw cfg.ctx.debug io.kind.format).2 })

/-- The updated record. -/
def Kind.update [Div K] (cfg : IOConfig K V) : Kind K → List K → Bytes → Outcome ReadError Bytes
  | .hepmc2, ws, r => HepMC.update cfg.ctx ws r
  | .lhef, ws, r => Lhef.update cfg.ctx ws r
  | .stripperXml s, ws, r => Stripper.update cfg.ctx s ws r

/-- `update_next_weights` (`src/hepmc2.rs:162-206,242-248`, `src/lhef.rs:140-175,291-297`,
`src/stripper_xml.rs:218-256`). -/
def FileIO.updateNext [Div K] [DecidableEq P] (cfg : IOConfig K V) (ws : List K) (io : FileIO K P) (fs : FS P) :
    Outcome IOError Bool × FileIO K P × FS P :=
  let io' := { io with reader := (io.reader.readRaw cfg.ctx.debug io.kind.format).2 }
  match (io.reader.readRaw cfg.ctx.debug io.kind.format).1 with
  | none => (.ok false, io', fs)
  | some x =>
    match x.bind (io.kind.update cfg ws) with
    | .ok record => (.ok true, io', fs.append io.outfile record)
    | .err e => (.err (.read e), io', fs)
    | .panic => (.panic, io', fs)

/-- What is written at the end. -/
def Kind.footer : Kind K → Bytes
  | .lhef => Lhef.footer
  | _ => []

/-- `finish_weight_update` (`src/lhef.rs:300-304`, default for the other formats). -/
def FileIO.finish [DecidableEq P] (io : FileIO K P) (fs : FS P) : FS P :=
  match io.kind with
  | .lhef => fs.append io.outfile Lhef.footer
  | _ => fs

/-- The loop in `update_all_weights` (`src/hepmc2.rs:229-239`). -/
def FileIO.updateList [Div K] [DecidableEq P] (cfg : IOConfig K V) : Nat → List (List K) → FileIO K P → FS P →
    Outcome IOError (Nat × Bool) × FileIO K P × FS P
  | n, [], io, fs => (.ok (n, true), io, fs)
  | n, w :: ws, io, fs =>
    match io.updateNext cfg w fs with
    | (.ok true, io, fs) => FileIO.updateList cfg (n + 1) ws io fs
    | (.ok false, io, fs) => (.ok (n, false), io, fs)
    | (.err e, io, fs) => (.err e, io, fs)
    | (.panic, io, fs) => (.panic, io, fs)

/-- `update_all_weights` (`src/hepmc2.rs:229-239`, `src/lhef.rs:278-289`, `src/stripper_xml.rs` likewise). For LHEF the
footer is written if the weights were used up. -/
def FileIO.updateAll [Div K] [DecidableEq P] (cfg : IOConfig K V) (ws : List (List K)) (io : FileIO K P) (fs : FS P) :
    Outcome IOError Nat × FileIO K P × FS P :=
  match io.rewind cfg fs with
  | .err e => (.err e, io, fs)
  | .panic => (.panic, io, fs)
  | .ok io =>
    match FileIO.updateList cfg 0 ws io fs with
    | (.ok (n, true), io, fs) => (.ok n, io, io.finish fs)
    | (.ok (n, false), io, fs) => (.ok n, io, fs)
    | (.err e, io, fs) => (.err e, io, fs)
    | (.panic, io, fs) => (.panic, io, fs)

end Cres

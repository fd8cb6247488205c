import Verif.Model.Main

/-!
Model of how output files are written: `BufWriter<File>` of the standard library as used in `FileIO::try_new`
(`src/hepmc2.rs:132-138`, `src/lhef.rs:111-116`, `src/stripper_xml.rs:157-162`) without compression. Writing can fail at any
time, for example because the disk is full, and the program can be interrupted at any time.

The operations on files that a run performs are given as a list (`FileOp`), in the order of the code. The results of
successful operations do not influence what the program does next, because output files are not read.
-/

namespace Cres

variable {K V D P : Type*}

/-- An open `BufWriter<File>`: the file, the position in the file and the bytes in the buffer. -/
structure Writer (P : Type*) where
  path : P
  pos : Nat
  buf : Bytes
deriving DecidableEq, Repr

/-- The content of a file after writing `data` at a position. -/
def writeAt (content : Bytes) (pos : Nat) (data : Bytes) : Bytes :=
  (content ++ List.replicate (pos - content.length) 0).take pos ++ data ++ content.drop (pos + data.length)

/-- Files, and the objects that write to them. The newest one is first. -/
structure Disk (P : Type*) where
  files : FS P
  writers : List (Writer P)

/-- Write the first `n` bytes of `data` to the file of `w`. -/
def Writer.put [DecidableEq P] (files : FS P) (w : Writer P) (data : Bytes) (n : Nat) : FS P × Writer P :=
  if data.take n = [] then (files, w)
  else (Function.update files w.path (some (writeAt ((files w.path).getD []) w.pos (data.take n))),
    { w with pos := w.pos + (data.take n).length })

/-- Write the first `n` bytes in the buffer to the file (`BufWriter::flush_buf`). If this is not the whole buffer, there was
an error. -/
def Writer.flush [DecidableEq P] (files : FS P) (w : Writer P) (n : Nat) : FS P × Writer P :=
  ((w.put files w.buf n).1, { (w.put files w.buf n).2 with buf := w.buf.drop n })

/-- Whether `data` are only copied to the buffer (`BufWriter::write_all`). -/
def Writer.fits (cap : Nat) (w : Writer P) (data : Bytes) : Bool := w.buf.length + data.length ≤ cap && data.length < cap

/-- What is done with files. `create` makes a new writer; the header and records are written to the newest one. `dropOld`
removes older writers, `dropNew` the newest one. -/
inductive FileOp (P : Type*)
  | create (p : P)
  | write (data : Bytes)
  | dropOld
  | dropNew
deriving DecidableEq, Repr

/-- Removing writers. The buffers are written to the files as far as possible; errors are ignored (`BufWriter::drop`). -/
inductive Dropped [DecidableEq P] (faults : Bool) : FS P → List (Writer P) → FS P → Prop
  | nil {files : FS P} : Dropped faults files [] files
  | cons {files files' : FS P} {w : Writer P} {ws : List (Writer P)} (n : Nat) : (faults = false → w.buf.length ≤ n) →
      Dropped faults (w.flush files n).1 ws files' → Dropped faults files (w :: ws) files'

/-- The effect of an operation, and whether it succeeds. `cap` is the size of the buffer. Without `faults` everything can be
written. -/
inductive Disk.Step [DecidableEq P] (cap : Nat) (faults : Bool) : Disk P → FileOp P → Bool → Disk P → Prop
  | create {d : Disk P} {p : P} :
      Disk.Step cap faults d (.create p) true ⟨Function.update d.files p (some []), ⟨p, 0, []⟩ :: d.writers⟩
  | createFails {d : Disk P} {p : P} : faults = true → Disk.Step cap faults d (.create p) false d
  | noWriter {files : FS P} {data : Bytes} : Disk.Step cap faults ⟨files, []⟩ (.write data) false ⟨files, []⟩
  | buffered {files : FS P} {w : Writer P} {ws : List (Writer P)} {data : Bytes} : w.fits cap data = true →
      Disk.Step cap faults ⟨files, w :: ws⟩ (.write data) true ⟨files, { w with buf := w.buf ++ data } :: ws⟩
  | flushFails {files : FS P} {w : Writer P} {ws : List (Writer P)} {data : Bytes} {n : Nat} : w.fits cap data = false →
      faults = true → n < w.buf.length →
      Disk.Step cap faults ⟨files, w :: ws⟩ (.write data) false ⟨(w.flush files n).1, (w.flush files n).2 :: ws⟩
  | flushed {files : FS P} {w : Writer P} {ws : List (Writer P)} {data : Bytes} : w.fits cap data = false → data.length < cap →
      Disk.Step cap faults ⟨files, w :: ws⟩ (.write data) true
        ⟨(w.flush files w.buf.length).1, { (w.flush files w.buf.length).2 with buf := data } :: ws⟩
  | direct {files : FS P} {w : Writer P} {ws : List (Writer P)} {data : Bytes} {n : Nat} : w.fits cap data = false →
      cap ≤ data.length → n ≤ data.length → (faults = false → n = data.length) →
      Disk.Step cap faults ⟨files, w :: ws⟩ (.write data) (decide (n = data.length))
        ⟨((w.flush files w.buf.length).2.put (w.flush files w.buf.length).1 data n).1,
         ((w.flush files w.buf.length).2.put (w.flush files w.buf.length).1 data n).2 :: ws⟩
  | dropOld {files files' : FS P} {ws ws' : List (Writer P)} : Dropped faults files (ws.drop 1) files' →
      ws' = ws.take 1 → Disk.Step cap faults ⟨files, ws⟩ .dropOld true ⟨files', ws'⟩
  | dropNew {files files' : FS P} {ws ws' : List (Writer P)} : Dropped faults files (ws.take 1) files' →
      ws' = ws.drop 1 → Disk.Step cap faults ⟨files, ws⟩ .dropNew true ⟨files', ws'⟩

/-- How an execution ends: after the last operation, with an error, or because the program is interrupted. -/
inductive Ending
  | finished
  | failed
  | interrupted
deriving DecidableEq, Repr

/-- Executions of a list of operations. After an error the program stops, and its writers are removed. If the program is
interrupted, the rest of the buffers is lost. -/
inductive Disk.Exec [DecidableEq P] (cap : Nat) (faults : Bool) : Disk P → List (FileOp P) → FS P → Ending → Prop
  | finished {d : Disk P} {files : FS P} : Dropped faults d.files d.writers files → Disk.Exec cap faults d [] files .finished
  | failed {d d' : Disk P} {op : FileOp P} {ops : List (FileOp P)} {files : FS P} : d.Step cap faults op false d' →
      Dropped faults d'.files d'.writers files → Disk.Exec cap faults d (op :: ops) files .failed
  | interrupted {d : Disk P} {ops : List (FileOp P)} : Disk.Exec cap faults d ops d.files .interrupted
  | interruptedIn {d d' : Disk P} {op : FileOp P} {ops : List (FileOp P)} {b : Bool} : d.Step cap true op b d' →
      Disk.Exec cap faults d (op :: ops) d'.files .interrupted
  | interruptedDropping {d : Disk P} {files : FS P} : Dropped true d.files d.writers files →
      Disk.Exec cap faults d [] files .interrupted
  | step {d d' : Disk P} {op : FileOp P} {ops : List (FileOp P)} {files : FS P} {e : Ending} : d.Step cap faults op true d' →
      Disk.Exec cap faults d' ops files e → Disk.Exec cap faults d (op :: ops) files e

/-! ### the operations in a run -/

/-- The operations in `FileIO::try_new` (`src/hepmc2.rs:126-147`, `src/lhef.rs:102-124`, `src/stripper_xml.rs:146-179`) and in
the assignment to `current` in `open` (`src/io.rs:501-514`), which removes the previous writer after the new one was made. If
the scale of a STRIPPER XML file is not known, the new writer is removed instead. -/
def CombinedIO.openOps (cfg : IOConfig K V) (i : Nat) (s : CombinedIO K P) (fs : FS P) : List (FileOp P) :=
  match s.files[i]? with
  | none => []
  | some (infile, outfile) =>
    match fs infile with
    | none => []
    | some content =>
      match detectFormat cfg.feat (some (cfg.firstBuffer content)) with
      | .ok format =>
        match Reader.new cfg content format with
        | .ok reader =>
          match Kind.find cfg reader.header format with
          | .ok _ => [.create outfile, .write reader.header, .dropOld]
          | _ => [.create outfile, .write reader.header, .dropNew]
        | _ => []
      | _ => []

/-- The operations in the loop in `init` (`src/io.rs:522-528`). -/
def CombinedIO.initOps [DecidableEq P] (cfg : IOConfig K V) : Nat → Nat → CombinedIO K P → FS P → List (FileOp P)
  | 0, _, _, _ => []
  | n + 1, i, s, fs =>
    s.openOps cfg i fs ++
      match s.openFile cfg i fs with
      | (.ok (), s, fs) =>
        match s.current with
        | none => []
        | some io => initOps cfg n (i + 1) { s with hint := combineHints s.hint io.reader.sizeHint } fs
      | _ => []

/-- The operations in `new` and `init` (`src/io.rs:483-497,518-531`). -/
def CombinedIO.newOps [DecidableEq P] (cfg : IOConfig K V) (files : List (P × P)) (fs : FS P) : List (FileOp P) :=
  let s : CombinedIO K P := ⟨files, none, 0, 0, (0, some 0)⟩
  if files = [] then []
  else initOps cfg files.length 0 s fs ++
    match initLoop cfg files.length 0 s fs with
    | (.ok (), s, fs) => s.openOps cfg 0 fs
    | _ => []

/-- The operations in `next` (`src/io.rs:559-581`). -/
def CombinedIO.nextOps [Mul K] [DecidableEq P] (cfg : IOConfig K V) : Nat → CombinedIO K P → FS P → List (FileOp P)
  | 0, _, _ => []
  | fuel + 1, s, fs =>
    match s.current with
    | some io =>
      match io.next cfg with
      | (some _, _) => []
      | (none, io) =>
        let s := { s with current := some io }
        if s.idx + 1 = s.files.length then []
        else s.openOps cfg (s.idx + 1) fs ++
          match s.openFile cfg (s.idx + 1) fs with
          | (.ok (), s, fs) => nextOps cfg fuel s fs
          | _ => []
    | none =>
      if s.files = [] then []
      else s.openOps cfg 0 fs ++
        match s.openFile cfg 0 fs with
        | (.ok (), s, fs) => nextOps cfg fuel s fs
        | _ => []

/-- The operations when reading all records (`src/cres.rs:248-249`). -/
def CombinedIO.recordOps [Mul K] [DecidableEq P] (cfg : IOConfig K V) : Nat → CombinedIO K P → FS P → List (FileOp P)
  | 0, _, _ => []
  | fuel + 1, s, fs =>
    s.nextOps cfg (s.files.length + 2) fs ++
      match s.nextRecord cfg fs with
      | (some (.ok _), s, fs) => recordOps cfg fuel s fs
      | _ => []

/-- The operations in the loop over weights in `update_all_weights` (`src/io.rs:606-612`). -/
def CombinedIO.whileOps [Div K] [DecidableEq P] (cfg : IOConfig K V) : List (List K) → FileIO K P → FS P → List (FileOp P)
  | [], _, _ => []
  | w :: ws, io, fs =>
    match (io.reader.readRaw cfg.ctx.debug io.kind.format).1 with
    | none => []
    | some x =>
      match x.bind (io.kind.update cfg w) with
      | .ok record => .write record :: whileOps cfg ws (io.updateNext cfg w fs).2.1 (io.updateNext cfg w fs).2.2
      | _ => []

/-- The operation in `finish_weight_update` (`src/lhef.rs:300-304`). -/
def FileIO.finishOps (io : FileIO K P) : List (FileOp P) :=
  match io.kind with
  | .lhef => [.write Lhef.footer]
  | _ => []

/-- The operations in the loop over files in `update_all_weights` (`src/io.rs:604-614`). -/
def CombinedIO.filesOps [Div K] [DecidableEq P] (cfg : IOConfig K V) : Nat → Nat → List (List K) → CombinedIO K P → FS P →
    List (FileOp P)
  | 0, _, _, _, _ => []
  | n + 1, i, ws, s, fs =>
    s.openOps cfg i fs ++
      match s.openFile cfg i fs with
      | (.ok (), s, fs) =>
        match s.current with
        | none => []
        | some io => whileOps cfg ws io fs ++
          match updateWhile cfg ws io fs with
          | (.ok ws, io, fs) => io.finishOps ++ filesOps cfg n (i + 1) ws { s with current := some io } (io.finish fs)
          | _ => []
      | _ => []

/-- The operations in `update_all_weights` (`src/io.rs:596-618`). Rewinding removes the writer. -/
def CombinedIO.updateOps [Div K] [DecidableEq P] (cfg : IOConfig K V) (ws : List (List K)) (s : CombinedIO K P) (fs : FS P) :
    List (FileOp P) :=
  .dropNew :: filesOps cfg s.files.length 0 ws s.rewind fs

/-- The operations in a run (`src/io.rs:483-497`, `src/cres.rs:181-227`): the I/O object is created, `n` calls are made to read
records, and if there are new weights, these are written. -/
def Program.runOps [Zero K] [Mul K] [Div K] [DecidableEq P] (p : Program K V D) (files : List (P × P)) (fs : FS P) (n : Nat)
    (ws : Option (List (List K))) : List (FileOp P) :=
  CombinedIO.newOps p.io files fs ++
    match CombinedIO.new p.io files fs with
    | (.ok (), s, fs) => s.recordOps p.io n fs ++
      match ws with
      | some ws => (s.recordItems p.io n fs).2.1.updateOps p.io ws (s.recordItems p.io n fs).2.2
      | none => []
    | _ => []

/-- With `n` calls all records are read, or an error occurs. -/
def Program.ReadsAll [Mul K] [DecidableEq P] (p : Program K V D) (files : List (P × P)) (fs : FS P) (n : Nat) : Prop :=
  ∀ s fs1, CombinedIO.new p.io files fs = (.ok (), s, fs1) → (s.recordItems p.io n fs1).1 ≠ none

/-- The operations on output files in a run of the command line program (`src/bin/main.rs:49-126`): the scales of channels are
only read. -/
def mainOps [Zero D] [DistNum D] [Add K] [Zero K] [One K] [Mul K] [Div K] [NatCast K] [Neg K] [LinearOrder K] [LinearOrder V]
    (s : CresSettings K V D) (cwd : List Bytes) (outdir : Bytes) (infiles : List Bytes) (fs : FS (List Bytes)) (n : Nat)
    (ws : Option (List (Weights K))) : List (FileOp (List Bytes)) :=
  match prepareFiles s.io fs (locatedPairs cwd outdir infiles) with
  | .ok (files, io) => { s with io := io }.program.runOps files fs n ws
  | _ => []

/-- With `n` calls all records are read, or an error occurs. -/
def MainReadsAll [Zero D] [DistNum D] [Add K] [Zero K] [One K] [Mul K] [Div K] [NatCast K] [Neg K] [LinearOrder K] [LinearOrder V]
    (s : CresSettings K V D) (cwd : List Bytes) (outdir : Bytes) (infiles : List Bytes) (fs : FS (List Bytes)) (n : Nat) : Prop :=
  ∀ files io, prepareFiles s.io fs (locatedPairs cwd outdir infiles) = .ok (files, io) →
    { s with io := io }.program.ReadsAll files fs n

end Cres

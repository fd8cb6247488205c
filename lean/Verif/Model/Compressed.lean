import Verif.Model.Disk
import Verif.Model.Options

/-!
Model of compressed input and output files: `compress_writer` (`src/compression.rs:20-47`) and `auto_decompress` of the crate
`audec`. The compression algorithms are parameters.

Compressed data are written through a `BufWriter<File>` (`src/hepmc2.rs:135-137`, `src/lhef.rs:113-115`,
`src/stripper_xml.rs:159-161`). Both may hold back data for some time, so that any part of the available data may have been written
to the file at any time. `Exec` describes runs without failures when writing. In `Faulty`, runs can be interrupted and writing
can fail; then it is not specified what the files contain to which something was being written. (`Verif/Model/Disk.lean` is more
precise, without compression.)
-/

namespace Cres

variable {P : Type*}

/-- An object that compresses what is written to it. The data are written in pieces, on which the result may depend. -/
structure Encoder where
  /-- The bytes that are available after writing the pieces. -/
  out : List Bytes → Bytes
  /-- The complete compressed data after the object was dropped. -/
  complete : List Bytes → Bytes
  /-- Compressed data are not taken back. -/
  grows : ∀ ws w, out ws <+: out (ws ++ [w])
  /-- When the object is dropped data are added. -/
  ends : ∀ ws, out ws <+: complete ws

/-- No compression (`src/compression.rs:46`). -/
def Encoder.plain : Encoder where
  out := List.flatten
  complete := List.flatten
  grows ws w := by simp
  ends ws := List.prefix_rfl

/-- The compression libraries `bzip2`, `flate2`, `lz4`, `zstd`, and `audec`. -/
structure Codec where
  /-- `BzEncoder`, `GzEncoder`, `lz4::Encoder`, `zstd::Encoder` with the given level. (The object for lz4 does not write an end
  mark when dropped. The data are complete without it.) -/
  encoder : Options.Compression → Encoder
  /-- All that can be read from the result of `auto_decompress`. -/
  decompress : Bytes → Bytes
  /-- Whether the data begin with one of the signatures by which `auto_decompress` recognises compressed data. -/
  known : Bytes → Bool
  /-- Other data are not changed. -/
  decompress_plain : ∀ s, known s = false → decompress s = s
  /-- Decompression gives what was written. -/
  decompress_complete : ∀ c ws, decompress ((encoder c).complete ws) = ws.flatten

/-- `compress_writer` (`src/compression.rs:20-47`). -/
def Codec.compressWriter (codec : Codec) : Option Options.Compression → Encoder
  | some c => codec.encoder c
  | none => .plain

/-- The files as the program reads them, through `auto_decompress` (`src/io.rs:261`, `src/hepmc2.rs:103`, `src/lhef.rs:201`,
`src/stripper_xml.rs:304`, `:524`). -/
def Codec.view (codec : Codec) (raw : FS P) : FS P := fun q => (raw q).map codec.decompress

namespace Compressed

/-- An open output file: the position in the file and the pieces that were written to the encoder. -/
structure Writer (P : Type*) where
  path : P
  pos : Nat
  chunks : List Bytes
deriving DecidableEq, Repr

/-- Files, and the objects that write to them. The newest one is first. -/
structure Disk (P : Type*) where
  files : FS P
  writers : List (Writer P)

variable [DecidableEq P]

/-- Write data to the file at the current position. -/
def Writer.put (files : FS P) (w : Writer P) (data : Bytes) : FS P × Writer P :=
  if data = [] then (files, w)
  else (Function.update files w.path (some (writeAt ((files w.path).getD []) w.pos data)), { w with pos := w.pos + data.length })

/-- Write at most `n` bytes of the available compressed data to the file. -/
def Writer.emit (enc : Encoder) (files : FS P) (w : Writer P) (n : Nat) : FS P × Writer P :=
  w.put files (((enc.out w.chunks).drop w.pos).take n)

/-- Dropping the encoder and the `BufWriter`: the rest of the compressed data is written. -/
def Writer.finish (enc : Encoder) (files : FS P) (w : Writer P) : FS P := (w.put files ((enc.complete w.chunks).drop w.pos)).1

/-- Dropping several. -/
def finishAll (enc : Encoder) (files : FS P) (ws : List (Writer P)) : FS P := ws.foldl (fun files w => w.finish enc files) files

/-- Executions of the operations of a run (see `FileOp` in `Verif/Model/Disk.lean`) with compression. -/
inductive Exec (enc : Encoder) : Disk P → List (FileOp P) → FS P → Prop
  | finished {d : Disk P} : Exec enc d [] (finishAll enc d.files d.writers)
  | emit {d : Disk P} {i n : Nat} {w : Writer P} {ops : List (FileOp P)} {files : FS P} : d.writers[i]? = some w →
      Exec enc ⟨(w.emit enc d.files n).1, d.writers.set i (w.emit enc d.files n).2⟩ ops files → Exec enc d ops files
  | create {d : Disk P} {p : P} {ops : List (FileOp P)} {files : FS P} :
      Exec enc ⟨Function.update d.files p (some []), ⟨p, 0, []⟩ :: d.writers⟩ ops files → Exec enc d (.create p :: ops) files
  | write {d : Disk P} {w : Writer P} {ws : List (Writer P)} {data : Bytes} {ops : List (FileOp P)} {files : FS P} :
      d.writers = w :: ws → Exec enc ⟨d.files, { w with chunks := w.chunks ++ [data] } :: ws⟩ ops files →
      Exec enc d (.write data :: ops) files
  | dropOld {d : Disk P} {ops : List (FileOp P)} {files : FS P} :
      Exec enc ⟨finishAll enc d.files (d.writers.drop 1), d.writers.take 1⟩ ops files → Exec enc d (.dropOld :: ops) files
  | dropNew {d : Disk P} {ops : List (FileOp P)} {files : FS P} :
      Exec enc ⟨finishAll enc d.files (d.writers.take 1), d.writers.drop 1⟩ ops files → Exec enc d (.dropNew :: ops) files

/-- Executions that may be interrupted and in which writing may fail. At any time the content of files that are open can
change in any way, in particular if data are written or lost. -/
inductive Faulty : Disk P → List (FileOp P) → FS P → Prop
  | stopped {d : Disk P} {ops : List (FileOp P)} : Faulty d ops d.files
  | disturbed {d : Disk P} {files files' : FS P} {ops : List (FileOp P)} :
      (∀ q, (∀ w ∈ d.writers, w.path ≠ q) → files q = d.files q) → Faulty ⟨files, d.writers⟩ ops files' → Faulty d ops files'
  | create {d : Disk P} {p : P} {ops : List (FileOp P)} {files : FS P} :
      Faulty ⟨Function.update d.files p (some []), ⟨p, 0, []⟩ :: d.writers⟩ ops files → Faulty d (.create p :: ops) files
  | write {d : Disk P} {data : Bytes} {ops : List (FileOp P)} {files : FS P} : Faulty d ops files → Faulty d (.write data :: ops) files
  | dropOld {d : Disk P} {ops : List (FileOp P)} {files : FS P} : Faulty ⟨d.files, d.writers.take 1⟩ ops files →
      Faulty d (.dropOld :: ops) files
  | dropNew {d : Disk P} {ops : List (FileOp P)} {files : FS P} : Faulty ⟨d.files, d.writers.drop 1⟩ ops files →
      Faulty d (.dropNew :: ops) files

end Compressed

end Cres

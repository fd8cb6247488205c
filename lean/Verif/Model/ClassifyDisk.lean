import Verif.Model.Classify
import Verif.Model.Disk

/-!
Model of how `src/bin/classify-events.rs` writes the output files for one text file, without compression: through one
`BufWriter<File>` per region. Writing can fail at any time, for example because the disk is full, and the program can be interrupted
at any time. The output files are new, so that each contains only what was written to it through its buffer.
-/

namespace Cres.Classify

/-- An open output file: its content and the bytes in the buffer. -/
structure Out where
  file : Bytes
  buf : Bytes
deriving DecidableEq, Repr

/-- `BufWriter::write_all`, and whether it succeeds. `cap` is the size of the buffer. Without `faults` everything can be written. -/
inductive Put (cap : Nat) (faults : Bool) : Out → Bytes → Bool → Out → Prop
  | buffered {o : Out} {data : Bytes} : o.buf.length + data.length ≤ cap → data.length < cap →
      Put cap faults o data true ⟨o.file, o.buf ++ data⟩
  | flushFails {o : Out} {data : Bytes} {n : Nat} : cap < o.buf.length + data.length → faults = true → n < o.buf.length →
      Put cap faults o data false ⟨o.file ++ o.buf.take n, o.buf.drop n⟩
  | flushed {o : Out} {data : Bytes} : cap < o.buf.length + data.length → data.length < cap →
      Put cap faults o data true ⟨o.file ++ o.buf, data⟩
  | direct {o : Out} {data : Bytes} {n : Nat} : cap ≤ data.length → n ≤ data.length → (faults = false → n = data.length) →
      Put cap faults o data (decide (n = data.length)) ⟨o.file ++ o.buf ++ data.take n, []⟩

/-- `BufWriter::drop`: the buffer is written as far as possible; errors are ignored. -/
inductive Close (faults : Bool) : Out → Bytes → Prop
  | mk {o : Out} (n : Nat) : (faults = false → o.buf.length ≤ n) → Close faults o (o.file ++ o.buf.take n)

/-- Writing data to the files with the given numbers, up to the first error (`?` in `src/bin/classify-events.rs:127,144`). -/
inductive Writes (cap : Nat) (faults : Bool) : List Out → List (Nat × Bytes) → Ending → List Out → Prop
  | finished {outs : List Out} : Writes cap faults outs [] .finished outs
  | interrupted {outs : List Out} {ops : List (Nat × Bytes)} : Writes cap faults outs ops .interrupted outs
  | interruptedIn {outs : List Out} {i : Nat} {o o' : Out} {data : Bytes} {b : Bool} {ops : List (Nat × Bytes)} : outs[i]? = some o →
      Put cap true o data b o' → Writes cap faults outs ((i, data) :: ops) .interrupted (outs.set i o')
  | failed {outs : List Out} {i : Nat} {o o' : Out} {data : Bytes} {ops : List (Nat × Bytes)} : outs[i]? = some o →
      Put cap faults o data false o' → Writes cap faults outs ((i, data) :: ops) .failed (outs.set i o')
  | step {outs outs' : List Out} {i : Nat} {o o' : Out} {data : Bytes} {ops : List (Nat × Bytes)} {e : Ending} : outs[i]? = some o →
      Put cap faults o data true o' → Writes cap faults (outs.set i o') ops e outs' → Writes cap faults outs ((i, data) :: ops) e outs'

variable {E K : Type*} [DistNum K]

/-- The header is written to each file (`src/bin/classify-events.rs:126-128`). -/
def headerOps (n : Nat) (header : Bytes) : List (Nat × Bytes) := (List.range n).map fun i => (i, header)

/-- What the loop over events writes (`src/bin/classify-events.rs:136-146`). -/
def loopOps (f : Format) (event : Bytes → Outcome ReadError E) (p : VPTreePartition E K) : List Bytes → List (Nat × Bytes)
  | [] => []
  | r :: rs =>
    match event r with
    | .ok e => (p.region e, trimFooter f r) :: loopOps f event p rs
    | _ => []

/-- `write_footer` (`src/bin/classify-events.rs:210-216`) for one file, and removing the writer. Errors are only logged
(`:147-151`). -/
inductive Foot (cap : Nat) (faults : Bool) (f : Format) : Out → Bytes → Prop
  | failed {o o' : Out} {file : Bytes} : Put cap faults o (footer f) false o' → Close faults o' file → Foot cap faults f o file
  | written {o o' o'' : Out} {b : Bool} {file : Bytes} : Put cap faults o (footer f) true o' → Put cap faults o' [10] b o'' →
      Close faults o'' file → Foot cap faults f o file

/-- Executions of `classify_byte_records` (`src/bin/classify-events.rs:108-153`): how it ends and the contents of the output files. -/
inductive ClassifyExec (cap : Nat) (faults : Bool) (f : Format) (event : Bytes → Outcome ReadError E) (p : VPTreePartition E K)
    (header : Bytes) (records : List Bytes) : Ending → List Bytes → Prop
  | finished {outs : List Out} {files : List Bytes} :
      Writes cap faults (List.replicate p.len ⟨[], []⟩) (headerOps p.len header ++ loopOps f event p records) .finished outs →
      (classify f event p header records).1 = .ok () → List.Forall₂ (Foot cap faults f) outs files →
      ClassifyExec cap faults f event p header records .finished files
  | badRecord {outs : List Out} {files : List Bytes} :
      Writes cap faults (List.replicate p.len ⟨[], []⟩) (headerOps p.len header ++ loopOps f event p records) .finished outs →
      (classify f event p header records).1 ≠ .ok () → List.Forall₂ (Close faults) outs files →
      ClassifyExec cap faults f event p header records .failed files
  | failed {outs : List Out} {files : List Bytes} :
      Writes cap faults (List.replicate p.len ⟨[], []⟩) (headerOps p.len header ++ loopOps f event p records) .failed outs →
      List.Forall₂ (Close faults) outs files → ClassifyExec cap faults f event p header records .failed files
  | interrupted {outs : List Out} {files : List Bytes} {e : Ending} :
      Writes cap faults (List.replicate p.len ⟨[], []⟩) (headerOps p.len header ++ loopOps f event p records) e outs →
      (e = .finished → (classify f event p header records).1 ≠ .ok ()) →
      List.Forall₂ (fun o file => file = o.file ∨ Close true o file) outs files →
      ClassifyExec cap faults f event p header records .interrupted files
  | interruptedFooter {outs : List Out} {files : List Bytes} :
      Writes cap faults (List.replicate p.len ⟨[], []⟩) (headerOps p.len header ++ loopOps f event p records) .finished outs →
      (classify f event p header records).1 = .ok () →
      List.Forall₂ (fun o file => file = o.file ∨ Foot cap true f o file) outs files →
      ClassifyExec cap faults f event p header records .interrupted files

end Cres.Classify

import Verif.Model.HepMC

/-!
Model of `src/ntuple.rs`: ROOT ntuple files. The library `ntuple` is represented by a list of records to read from, with
the position of the next one, and a list of written records. Errors while reading and writing are not modelled.
-/

namespace Cres.NTuple

variable {K V : Type*}

/-- `ntuple::Event`. The fields that cres does not look at are collected in `other`. -/
structure Record (K : Type*) where
  weight : K
  weight2 : K
  meWeight : K
  meWeight2 : K
  nparticle : Nat
  pdgCode : List ℤ
  energy : List K
  px : List K
  py : List K
  pz : List K
  other : Bytes
deriving DecidableEq, Repr

/-- One iteration of the loop in `convert_ntuple` (`src/ntuple.rs:176-183`). An index out of range is a panic. -/
def addParticle (c : ParseCtx K V) (r : Record K) (i : Nat) (b : EventBuilder K V) : Outcome ReadError (EventBuilder K V) :=
  (Outcome.ofOption r.pdgCode[i]?).bind fun id =>
  (Outcome.ofOption r.energy[i]?).bind fun e => (c.float.n64 c.debug e).bind fun e =>
  (Outcome.ofOption r.px[i]?).bind fun px => (c.float.n64 c.debug px).bind fun px =>
  (Outcome.ofOption r.py[i]?).bind fun py => (c.float.n64 c.debug py).bind fun py =>
  (Outcome.ofOption r.pz[i]?).bind fun pz => (c.float.n64 c.debug pz).bind fun pz =>
    .ok (b.addOutgoing id (c.momentum e px py pz))

/-- The loop in `convert_ntuple` (`src/ntuple.rs:176-183`), from particle `i` on. -/
def addParticles (c : ParseCtx K V) (r : Record K) : Nat → Nat → EventBuilder K V → Outcome ReadError (EventBuilder K V)
  | 0, _, b => .ok b
  | n + 1, i, b => (addParticle c r i b).bind (addParticles c r n (i + 1))

/-- `if self.weight_names().iter().any(|w| w == name) { event.add_weight(n64(weight)) }` -/
def addIf (c : ParseCtx K V) (name : Bytes) (w : K) (b : EventBuilder K V) : Outcome ReadError (EventBuilder K V) :=
  if name ∈ c.names then (c.float.n64 c.debug w).bind fun w => .ok (b.addWeight c.multi w) else .ok b

/-- `convert_ntuple` (`src/ntuple.rs:156-185`). -/
def convert [Zero K] [LinearOrder V] (c : ParseCtx K V) (r : Record K) : Outcome ReadError (Event K V) :=
  (c.float.n64 c.debug r.weight).bind fun w =>
  let b := (EventBuilder.new c.multi).addWeight c.multi w
  (if c.multi then
    (addIf c (ascii "2") r.weight2 b).bind fun b =>
    (addIf c (ascii "ME") r.meWeight b).bind fun b =>
    addIf c (ascii "ME2") r.meWeight2 b
   else .ok b).bind fun b =>
  (addParticles c r r.nparticle 0 b).bind fun b => .ok b.build

/-- `if self._weight_names.iter().any(|w| w == name) { field = weights.next().unwrap() }`: the new value of the field and the
remaining weights. -/
def nextIf {E : Type*} (names : List Bytes) (name : Bytes) (old : K) (ws : List K) : Outcome E (K × List K) :=
  if name ∈ names then
    match ws with
    | [] => .panic
    | w :: ws => .ok (w, ws)
  else .ok (old, ws)

/-- The changes of a record in `update_next_weights` (`src/ntuple.rs:212-230`). -/
def update {E : Type*} (multi : Bool) (names : List Bytes) (ws : List K) (r : Record K) : Outcome E (Record K) :=
  match ws with
  | [] => .ok r
  | w :: ws =>
    if multi then
      (nextIf names (ascii "2") r.weight2 ws).bind fun (w2, ws) =>
      (nextIf names (ascii "ME") r.meWeight ws).bind fun (me, ws) =>
      (nextIf names (ascii "ME2") r.meWeight2 ws).bind fun (me2, _) =>
        .ok { r with weight := w, weight2 := w2, meWeight := me, meWeight2 := me2 }
    else .ok { r with weight := w }

/-- `struct FileIO` (`src/ntuple.rs:78-83`): the records in the input, the position of the reader, what has been written. -/
structure FileIO (K : Type*) where
  records : List (Record K)
  nevent : Nat
  written : List (Record K)
  names : List Bytes
deriving DecidableEq, Repr

/-- `try_new` (`src/ntuple.rs:87-103`). -/
def FileIO.new (names : List Bytes) (records : List (Record K)) : FileIO K := ⟨records, 0, [], names⟩

/-- `rewind` (`src/ntuple.rs:55-58,123-126`). -/
def FileIO.rewind (io : FileIO K) : FileIO K := { io with nevent := 0 }

/-- `next` (`src/ntuple.rs:64-69,132-134`). -/
def FileIO.next (io : FileIO K) : Option (Record K) × FileIO K :=
  match io.records[io.nevent]? with
  | none => (none, io)
  | some r => (some r, { io with nevent := io.nevent + 1 })

/-- `update_next_weights` (`src/ntuple.rs:203-233`). -/
def FileIO.updateNext {E : Type*} (multi : Bool) (ws : List K) (io : FileIO K) : Outcome E Bool × FileIO K :=
  match io.next with
  | (none, io) => (.ok false, io)
  | (some r, io) =>
    match update (E := E) multi io.names ws r with
    | .ok r => (.ok true, { io with written := io.written ++ [r] })
    | .err e => (.err e, io)
    | .panic => (.panic, io)

/-- The loop in `update_all_weights` (`src/ntuple.rs:197-199`); the list holds `weights[nevent..]`, so `weights[nevent]` is
out of bounds if it is empty. -/
def FileIO.updateLoop {E : Type*} (multi : Bool) : List (List K) → Nat → FileIO K → Outcome E Nat × FileIO K
  | [], _, io => (.panic, io)
  | w :: ws, nevent, io =>
    match io.updateNext (E := E) multi w with
    | (.ok true, io) => FileIO.updateLoop multi ws (nevent + 1) io
    | (.ok false, io) => (.ok nevent, io)
    | (.err e, io) => (.err e, io)
    | (.panic, io) => (.panic, io)

/-- `update_all_weights` (`src/ntuple.rs:191-201`). -/
def FileIO.updateAll {E : Type*} (multi : Bool) (ws : List (List K)) (io : FileIO K) : Outcome E Nat × FileIO K :=
  FileIO.updateLoop multi ws 0 io.rewind

/-- The loop over weights in `CombinedFileIO::update_all_weights` (`src/io.rs:606-612`) for an ntuple file: the remaining
weights. -/
def updateWhile {E : Type*} (multi : Bool) : List (List K) → FileIO K → Outcome E (List (List K)) × FileIO K
  | [], io => (.ok [], io)
  | w :: ws, io =>
    match io.updateNext (E := E) multi w with
    | (.ok true, io) => updateWhile multi ws io
    | (.ok false, io) => (.ok (w :: ws), io)
    | (.err e, io) => (.err e, io)
    | (.panic, io) => (.panic, io)

/-- The loop over files in `CombinedFileIO::update_all_weights` (`src/io.rs:604-614`) for ntuple files, which are opened one
after the other: the remaining weights, and the records written to each file. -/
def updateFiles {E : Type*} (multi : Bool) (names : List Bytes) : List (List (Record K)) → List (List K) →
    Outcome E (List (List K) × List (List (Record K)))
  | [], ws => .ok (ws, [])
  | records :: files, ws =>
    match updateWhile (E := E) multi ws (FileIO.new names records) with
    | (.ok ws, io) => (updateFiles multi names files ws).map fun (ws, out) => (ws, io.written :: out)
    | (.err e, _) => .err e
    | (.panic, _) => .panic

end Cres.NTuple

import Verif.Model.Bytes
import Verif.Model.Outcome

/-!
Model of the readers in `src/hepmc2.rs`, `src/lhef.rs` and `src/stripper_xml.rs` that split a file into a header and event
records. The content of a file is its content after decompression.
-/

namespace Cres

/-- `enum ReadError` (`src/io.rs:416-456`), with the description of an entry but without the excerpts from the record. -/
inductive ReadError
  | findEntry (what : String)
  | findWeight (name : Bytes)
  | invalidEntry (what : String)
  | parseEntry (what : String)
  | unrecognisedEntry (what : String)
  | utf8
  | incompleteTag (tag : String)
  | unclosedTag (tag : String)
deriving DecidableEq, Repr

/-- `"\nE"`. -/
def markE : Bytes := ascii "\nE"
/-- `"\n</init>"`. -/
def markInit : Bytes := ascii "\n</init>"
/-- `"</event>"`. -/
def markEvent : Bytes := ascii "</event>"
/-- `"<se"`. -/
def markSe : Bytes := ascii "<se"

/-- `String::from_utf8(record).unwrap()`. -/
def utf8OrPanic (s : Bytes) : Outcome ReadError Bytes := if validUtf8 s then .ok s else .panic

namespace HepMC

/-- `init_source` (`src/hepmc2.rs:97-114`): header and rest of the file. -/
def initSource (file : Bytes) : Bytes × Bytes :=
  let l := readTo 69 markE [] file
  (l.buf.dropLast, l.rest)

/-- `read_raw` (`src/hepmc2.rs:43-66`): the next record, if any, and the rest. The two assertions hold because the buffer
starts with `E`. -/
def readRaw (src : Bytes) : Option (Outcome ReadError Bytes) × Bytes :=
  let l := readTo 69 markE (ascii "E") src
  if l.eof then
    if l.buf.length > 1 then (some (utf8OrPanic l.buf), l.rest) else (none, l.rest)
  else (some (utf8OrPanic l.buf.dropLast), l.rest)

end HepMC

namespace Lhef

/-- `init_source` (`src/lhef.rs:195-211`). -/
def initSource (file : Bytes) : Bytes × Bytes :=
  let l := readTo 62 markInit [] file
  (l.buf, l.rest)

/-- `read_raw` (`src/lhef.rs:49-61`). -/
def readRaw (src : Bytes) : Option (Outcome ReadError Bytes) × Bytes :=
  let l := readTo 62 markEvent [] src
  if l.eof then (none, l.rest) else (some (utf8OrPanic l.buf), l.rest)

end Lhef

namespace Stripper

/-- `init_source` (`src/stripper_xml.rs:518-535`). `truncate` with a length that underflowed: with overflow checks the
subtraction panics, without them the length is huge and nothing is removed. -/
def initSource (debug : Bool) (file : Bytes) : Option (Bytes × Bytes) :=
  let l := readTo 101 markSe [] file
  if l.buf.length < 3 then (if debug then none else some (l.buf, l.rest))
  else some (l.buf.take (l.buf.length - 3), l.rest)

/-- The loop in `read_raw` (`src/stripper_xml.rs:67-85`). It differs from the other loops in that the buffer is tested
only after something was read, so the `<se` with which it starts is not found. -/
def readRawLoop : Nat → Bytes → Bytes → ReadLoop
  | 0, buf, src => ⟨buf, src, true⟩
  | fuel + 1, buf, src =>
    if src = [] then ⟨buf, [], true⟩
    else
      let buf' := buf ++ (readUntil 101 src).1
      let src' := (readUntil 101 src).2
      if markSe <:+ buf' then ⟨buf'.take (buf'.length - 3), src', false⟩
      else readRawLoop fuel buf' src'

/-- `read_raw` (`src/stripper_xml.rs:65-97`) without the count of remaining records. -/
def readRaw (src : Bytes) : Option (Outcome ReadError Bytes) × Bytes :=
  let l := readRawLoop (src.length + 1) markSe src
  if l.eof && l.buf.length ≤ 3 then (none, l.rest)
  else (some (if validUtf8 l.buf then .ok l.buf else .err .utf8), l.rest)

/-- `rem_subevents -= 1` (`src/stripper_xml.rs:95`); a 64-bit `usize` is assumed. `none` is the panic with overflow
checks. -/
def decRemaining (debug : Bool) (rem : Nat) : Option Nat :=
  if rem = 0 then (if debug then none else some (2 ^ 64 - 1)) else some (rem - 1)

end Stripper

/-- A reader as a state machine: the rest of the file. Calling `next` until it returns `None`
(for example by `collect`): the records, or the first error or panic. -/
def readAllLoop (readRaw : Bytes → Option (Outcome ReadError Bytes) × Bytes) : Nat → Bytes → Outcome ReadError (List Bytes)
  | 0, _ => .ok []
  | fuel + 1, src =>
    match readRaw src with
    | (none, _) => .ok []
    | (some (.ok r), rest) => (readAllLoop readRaw fuel rest).map (r :: ·)
    | (some (.err e), _) => .err e
    | (some .panic, _) => .panic

/-- Create a reader and read all records: header and records. -/
def HepMC.readFile (file : Bytes) : Bytes × Outcome ReadError (List Bytes) :=
  ((HepMC.initSource file).1, readAllLoop HepMC.readRaw ((HepMC.initSource file).2.length + 1) (HepMC.initSource file).2)

/-- Create a reader and read all records: header and records. -/
def Lhef.readFile (file : Bytes) : Bytes × Outcome ReadError (List Bytes) :=
  ((Lhef.initSource file).1, readAllLoop Lhef.readRaw ((Lhef.initSource file).2.length + 1) (Lhef.initSource file).2)

/-- Create a reader and read all records: header and records. The count of records is not part of this, see
`decRemaining`. `none` is a panic. -/
def Stripper.readFile (debug : Bool) (file : Bytes) : Option (Bytes × Outcome ReadError (List Bytes)) :=
  (Stripper.initSource debug file).map fun x => (x.1, readAllLoop Stripper.readRaw (x.2.length + 1) x.2)

end Cres

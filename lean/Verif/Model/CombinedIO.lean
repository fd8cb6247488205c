import Verif.Model.FileIO

/-!
Model of `CombinedFileIO` (`src/io.rs:473-634`).
-/

namespace Cres

variable {K V P : Type*}

/-- `struct CombinedFileIO` (`src/io.rs:473-480`). -/
structure CombinedIO (K P : Type*) where
  /-- Pairs of input and output file. -/
  files : List (P × P)
  current : Option (FileIO K P)
  idx : Nat
  nread : Nat
  hint : Nat × Option Nat
deriving DecidableEq, Repr

namespace CombinedIO

/-- `open` (`src/io.rs:499-516`). An index out of range is a panic. -/
def openFile [DecidableEq P] (cfg : IOConfig K V) (i : Nat) (s : CombinedIO K P) (fs : FS P) :
    Outcome IOError Unit × CombinedIO K P × FS P :=
  match s.files[i]? with
  | none => (.panic, s, fs)
  | some (infile, outfile) =>
    match FileIO.new cfg infile outfile fs with
    | (.ok io, fs) => (.ok (), { s with current := some io, idx := i }, fs)
    | (.err e, fs) => (.err (.create e), s, fs)
    | (.panic, fs) => (.panic, s, fs)

/-- `combine_size_hints` (`src/io.rs:534-544`). -/
def combineHints (h g : Nat × Option Nat) : Nat × Option Nat :=
  (h.1 + g.1,
   match h.2, g.2 with
   | some h, some g => some (h + g)
   | _, _ => none)

/-- The loop in `init` (`src/io.rs:522-528`), from file `i` on. -/
def initLoop [DecidableEq P] (cfg : IOConfig K V) : Nat → Nat → CombinedIO K P → FS P →
    Outcome IOError Unit × CombinedIO K P × FS P
  | 0, _, s, fs => (.ok (), s, fs)
  | n + 1, i, s, fs =>
    match s.openFile cfg i fs with
    | (.ok (), s, fs) =>
      match s.current with
      | none => (.panic, s, fs)
      | some io => initLoop cfg n (i + 1) { s with hint := combineHints s.hint io.reader.sizeHint } fs
    | (.err e, s, fs) => (.err e, s, fs)
    | (.panic, s, fs) => (.panic, s, fs)

/-- `new` and `init` (`src/io.rs:483-497,518-531`). -/
def new [DecidableEq P] (cfg : IOConfig K V) (files : List (P × P)) (fs : FS P) :
    Outcome IOError Unit × CombinedIO K P × FS P :=
  let s : CombinedIO K P := ⟨files, none, 0, 0, (0, some 0)⟩
  if files = [] then (.ok (), s, fs)
  else
    match initLoop cfg files.length 0 s fs with
    | (.ok (), s, fs) => s.openFile cfg 0 fs
    | x => x

/-- `rewind` (`src/io.rs:546-554`). -/
def rewind (s : CombinedIO K P) : CombinedIO K P := { s with current := none, nread := 0 }

/-- `next` (`src/io.rs:559-581`). The recursion opens the next file each time. -/
def nextLoop [Mul K] [DecidableEq P] (cfg : IOConfig K V) : Nat → CombinedIO K P → FS P →
    Option (Outcome IOError Bytes) × CombinedIO K P × FS P
  | 0, s, fs => (none, s, fs)
  | fuel + 1, s, fs =>
    match s.current with
    | some io =>
      match io.next cfg with
      | (some x, io) => (some x, { s with current := some io, nread := s.nread + 1 }, fs)
      | (none, io) =>
        let s := { s with current := some io }
        if s.idx + 1 = s.files.length then (none, s, fs)
        else
          match s.openFile cfg (s.idx + 1) fs with
          | (.ok (), s, fs) => nextLoop cfg fuel s fs
          | (.err e, s, fs) => (some (.err e), s, fs)
          | (.panic, s, fs) => (some .panic, s, fs)
    | none =>
      if s.files = [] then (none, s, fs)
      else
        match s.openFile cfg 0 fs with
        | (.ok (), s, fs) => nextLoop cfg fuel s fs
        | (.err e, s, fs) => (some (.err e), s, fs)
        | (.panic, s, fs) => (some .panic, s, fs)

/-- `next` (`src/io.rs:559-581`). -/
def next [Mul K] [DecidableEq P] (cfg : IOConfig K V) (s : CombinedIO K P) (fs : FS P) :
    Option (Outcome IOError Bytes) × CombinedIO K P × FS P :=
  nextLoop cfg (s.files.length + 2) s fs

/-- `size_hint` (`src/io.rs:583-590`). -/
def sizeHint (s : CombinedIO K P) : Nat × Option Nat := (s.hint.1 - s.nread, s.hint.2.map (· - s.nread))

/-- The loop over weights inside `update_all_weights` (`src/io.rs:606-612`): the remaining weights. -/
def updateWhile [Div K] [DecidableEq P] (cfg : IOConfig K V) : List (List K) → FileIO K P → FS P →
    Outcome IOError (List (List K)) × FileIO K P × FS P
  | [], io, fs => (.ok [], io, fs)
  | w :: ws, io, fs =>
    match io.updateNext cfg w fs with
    | (.ok true, io, fs) => updateWhile cfg ws io fs
    | (.ok false, io, fs) => (.ok (w :: ws), io, fs)
    | (.err e, io, fs) => (.err e, io, fs)
    | (.panic, io, fs) => (.panic, io, fs)

/-- The loop over files in `update_all_weights` (`src/io.rs:604-614`): the remaining weights. -/
def updateFiles [Div K] [DecidableEq P] (cfg : IOConfig K V) : Nat → Nat → List (List K) → CombinedIO K P → FS P →
    Outcome IOError (List (List K)) × CombinedIO K P × FS P
  | 0, _, ws, s, fs => (.ok ws, s, fs)
  | n + 1, i, ws, s, fs =>
    match s.openFile cfg i fs with
    | (.err e, s, fs) => (.err e, s, fs)
    | (.panic, s, fs) => (.panic, s, fs)
    | (.ok (), s, fs) =>
      match s.current with
      | none => (.panic, s, fs)
      | some io =>
        match updateWhile cfg ws io fs with
        | (.ok ws, io, fs) => updateFiles cfg n (i + 1) ws { s with current := some io } (io.finish fs)
        | (.err e, io, fs) => (.err e, { s with current := some io }, fs)
        | (.panic, io, fs) => (.panic, { s with current := some io }, fs)

/-- `update_all_weights` (`src/io.rs:596-618`): the number of records written. -/
def updateAll [Div K] [DecidableEq P] (cfg : IOConfig K V) (ws : List (List K)) (s : CombinedIO K P) (fs : FS P) :
    Outcome IOError Nat × CombinedIO K P × FS P :=
  match updateFiles cfg s.files.length 0 ws s.rewind fs with
  | (.ok rest, s, fs) => (.ok (ws.length - rest.length), s, fs)
  | (.err e, s, fs) => (.err e, s, fs)
  | (.panic, s, fs) => (.panic, s, fs)

/-- `update_next_weights` (`src/io.rs:620-634`). Each iteration opens the next file. -/
def updateNextLoop [Div K] [DecidableEq P] (cfg : IOConfig K V) (ws : List K) : Nat → CombinedIO K P → FS P →
    Outcome IOError Bool × CombinedIO K P × FS P
  | 0, s, fs => (.ok false, s, fs)
  | fuel + 1, s, fs =>
    if s.idx < s.files.length then
      match s.current with
      | none => (.panic, s, fs)
      | some io =>
        match io.updateNext cfg ws fs with
        | (.ok true, io, fs) => (.ok true, { s with current := some io }, fs)
        | (.ok false, io, fs) =>
          match { s with current := some io }.openFile cfg (s.idx + 1) (io.finish fs) with
          | (.ok (), s, fs) => updateNextLoop cfg ws fuel s fs
          | (.err e, s, fs) => (.err e, s, fs)
          | (.panic, s, fs) => (.panic, s, fs)
        | (.err e, io, fs) => (.err e, { s with current := some io }, fs)
        | (.panic, io, fs) => (.panic, { s with current := some io }, fs)
    else (.ok false, s, fs)

/-- `update_next_weights` (`src/io.rs:620-634`). -/
def updateNext [Div K] [DecidableEq P] (cfg : IOConfig K V) (ws : List K) (s : CombinedIO K P) (fs : FS P) :
    Outcome IOError Bool × CombinedIO K P × FS P :=
  updateNextLoop cfg ws (s.files.length + 1) s fs

/-- The calls on a `CombinedFileIO` object. -/
inductive Op (K : Type*)
  | next
  | rewind
  | updateNext (ws : List K)
  | updateAll (ws : List (List K))
deriving Repr

/-- The state after a call. -/
def step [Mul K] [Div K] [DecidableEq P] (cfg : IOConfig K V) (x : CombinedIO K P × FS P) : Op K → CombinedIO K P × FS P
  | .next => ((x.1.next cfg x.2).2.1, (x.1.next cfg x.2).2.2)
  | .rewind => (x.1.rewind, x.2)
  | .updateNext ws => ((x.1.updateNext cfg ws x.2).2.1, (x.1.updateNext cfg ws x.2).2.2)
  | .updateAll ws => ((x.1.updateAll cfg ws x.2).2.1, (x.1.updateAll cfg ws x.2).2.2)

/-- Calling `next` until it returns `None`: the records, or the first error or panic. -/
def collect [Mul K] [DecidableEq P] (cfg : IOConfig K V) : Nat → CombinedIO K P → FS P →
    Option (Outcome IOError (List Bytes)) × CombinedIO K P × FS P
  | 0, s, fs => (none, s, fs)
  | n + 1, s, fs =>
    match s.next cfg fs with
    | (none, s, fs) => (some (.ok []), s, fs)
    | (some (.ok r), s, fs) => ((collect cfg n s fs).1.map (Outcome.map (r :: ·)), (collect cfg n s fs).2)
    | (some (.err e), s, fs) => (some (.err e), s, fs)
    | (some .panic, s, fs) => (some .panic, s, fs)

end CombinedIO

end Cres

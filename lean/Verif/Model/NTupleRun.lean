import Verif.Model.Program
import Verif.Model.NTuple

/-!
Model of a complete run on ROOT ntuples, with the feature `ntuple`: `CombinedFileIO` (`src/io.rs:473-634`) on ntuple files and
`Cres::run` (`src/cres.rs:181-293`).

Simplifications: All input files are ntuples. A file is represented by the records in it. Writing a record is immediate. The
only failure is that an input file does not exist. Size hints are left out; they are used for progress bars and for the
capacity of vectors only.
-/

namespace Cres.NTuple

variable {K V D P : Type*}

/-- The records in all files. -/
abbrev Files (K P : Type*) := P → Option (List (Record K))

/-- `struct CombinedFileIO` (`src/io.rs:473-480`) for ntuples. -/
structure Combined (K P : Type*) where
  /-- Pairs of input and output file. -/
  files : List (P × P)
  current : Option (FileIO K)
  idx : Nat

namespace Combined

/-- `open` (`src/io.rs:499-516`) with `build_from_files` (`src/io.rs:152-206`) and `try_new` (`src/ntuple.rs:87-103`): the output
file is created without records. -/
def openFile [DecidableEq P] (names : List Bytes) (i : Nat) (s : Combined K P) (fs : Files K P) :
    Outcome IOError Unit × Combined K P × Files K P :=
  match s.files[i]? with
  | none => (.panic, s, fs)
  | some (infile, outfile) =>
    match fs infile with
    | none => (.err (.create .openInput), s, fs)
    | some records =>
      (.ok (), { s with current := some (FileIO.new names records), idx := i }, Function.update fs outfile (some []))

/-- The loop in `init` (`src/io.rs:522-528`), from file `i` on. -/
def initLoop [DecidableEq P] (names : List Bytes) : Nat → Nat → Combined K P → Files K P →
    Outcome IOError Unit × Combined K P × Files K P
  | 0, _, s, fs => (.ok (), s, fs)
  | n + 1, i, s, fs =>
    match s.openFile names i fs with
    | (.ok (), s, fs) => initLoop names n (i + 1) s fs
    | x => x

/-- `new` and `init` (`src/io.rs:483-497,518-531`). -/
def new [DecidableEq P] (names : List Bytes) (files : List (P × P)) (fs : Files K P) :
    Outcome IOError Unit × Combined K P × Files K P :=
  if files = [] then (.ok (), ⟨files, none, 0⟩, fs)
  else
    match initLoop names files.length 0 ⟨files, none, 0⟩ fs with
    | (.ok (), s, fs) => s.openFile names 0 fs
    | x => x

/-- `next` (`src/io.rs:559-581`). The recursion opens the next file each time. -/
def nextLoop [DecidableEq P] (names : List Bytes) : Nat → Combined K P → Files K P →
    Option (Outcome IOError (Record K)) × Combined K P × Files K P
  | 0, s, fs => (none, s, fs)
  | fuel + 1, s, fs =>
    match s.current with
    | some io =>
      match io.next with
      | (some r, io) => (some (.ok r), { s with current := some io }, fs)
      | (none, io) =>
        let s := { s with current := some io }
        if s.idx + 1 = s.files.length then (none, s, fs)
        else
          match s.openFile names (s.idx + 1) fs with
          | (.ok (), s, fs) => nextLoop names fuel s fs
          | (.err e, s, fs) => (some (.err e), s, fs)
          | (.panic, s, fs) => (some .panic, s, fs)
    | none =>
      if s.files = [] then (none, s, fs)
      else
        match s.openFile names 0 fs with
        | (.ok (), s, fs) => nextLoop names fuel s fs
        | (.err e, s, fs) => (some (.err e), s, fs)
        | (.panic, s, fs) => (some .panic, s, fs)

/-- `next` (`src/io.rs:559-581`). -/
def next [DecidableEq P] (names : List Bytes) (s : Combined K P) (fs : Files K P) :
    Option (Outcome IOError (Record K)) × Combined K P × Files K P :=
  nextLoop names (s.files.length + 2) s fs

/-- The items that the loop in `read_events` (`src/cres.rs:248-249`) obtains from the reader, up to the end or to the first
error. The number of calls is bounded by `fuel`; the result is `none` if this is not sufficient. -/
def items [DecidableEq P] (names : List Bytes) : Nat → Combined K P → Files K P →
    Option (Outcome Empty (List (Except IOError (Record K)))) × Combined K P × Files K P
  | 0, s, fs => (none, s, fs)
  | fuel + 1, s, fs =>
    match s.next names fs with
    | (none, s, fs) => (some (.ok []), s, fs)
    | (some .panic, s, fs) => (some .panic, s, fs)
    | (some (.err e), s, fs) => (some (.ok [.error e]), s, fs)
    | (some (.ok r), s, fs) =>
      let x := items names fuel s fs
      (x.1.map (Outcome.map (.ok r :: ·)), x.2)

/-- The loop over weights inside `update_all_weights` (`src/io.rs:606-612`): the remaining weights. Each record is written to
the output file (`src/ntuple.rs:231`). -/
def updateLoop [DecidableEq P] (multi : Bool) (outfile : P) : List (List K) → FileIO K → Files K P →
    Outcome IOError (List (List K)) × FileIO K × Files K P
  | [], io, fs => (.ok [], io, fs)
  | w :: ws, io, fs =>
    match io.updateNext multi w with
    | (.ok true, io) => updateLoop multi outfile ws io (Function.update fs outfile (some io.written))
    | (.ok false, io) => (.ok (w :: ws), io, fs)
    | (.err e, io) => (.err e, io, fs)
    | (.panic, io) => (.panic, io, fs)

/-- The loop over files in `update_all_weights` (`src/io.rs:604-614`): the remaining weights. Nothing is done at the end of a
file (`src/traits.rs:26-28`). -/
def updateFiles [DecidableEq P] (multi : Bool) (names : List Bytes) : Nat → Nat → List (List K) → Combined K P → Files K P →
    Outcome IOError (List (List K)) × Combined K P × Files K P
  | 0, _, ws, s, fs => (.ok ws, s, fs)
  | n + 1, i, ws, s, fs =>
    match s.openFile names i fs with
    | (.err e, s, fs) => (.err e, s, fs)
    | (.panic, s, fs) => (.panic, s, fs)
    | (.ok (), s, fs) =>
      match s.current, s.files[i]? with
      | some io, some (_, outfile) =>
        match updateLoop multi outfile ws io fs with
        | (.ok ws, io, fs) => updateFiles multi names n (i + 1) ws { s with current := some io } fs
        | (.err e, io, fs) => (.err e, { s with current := some io }, fs)
        | (.panic, io, fs) => (.panic, { s with current := some io }, fs)
      | _, _ => (.panic, s, fs)

/-- `update_all_weights` (`src/io.rs:596-618`), which begins with `rewind` (`src/io.rs:546-554`): the number of records
written. -/
def updateAll [DecidableEq P] (multi : Bool) (names : List Bytes) (ws : List (List K)) (s : Combined K P) (fs : Files K P) :
    Outcome IOError Nat × Combined K P × Files K P :=
  match updateFiles multi names s.files.length 0 ws { s with current := none } fs with
  | (.ok rest, s, fs) => (.ok (ws.length - rest.length), s, fs)
  | (.err e, s, fs) => (.err e, s, fs)
  | (.panic, s, fs) => (.panic, s, fs)

end Combined

/-- `Converter::try_convert` (`src/io.rs:738-753`) for an ntuple record. -/
def tryConvert [Zero K] [LinearOrder V] (ctx : ParseCtx K V) (r : Record K) : Outcome IOError (Event K V) :=
  (convert ctx r).mapErr .read

/-- Possible outcomes of `read_events` (`src/cres.rs:229-292`): ntuple records are converted on the main thread
(`src/cres.rs:251-267`). -/
inductive ReadsEvents [Zero K] [LinearOrder V] [DecidableEq P] (p : Program K V D) (s : Combined K P)
    (fs : Files K P) : Outcome (CresError IOError) (List (Event K V)) → Combined K P × Files K P → Prop
  | panic {n : Nat} {x : Combined K P × Files K P} : s.items p.io.ctx.names n fs = (some .panic, x) → ReadsEvents p s fs .panic x
  | done {n : Nat} {items : List (Except IOError (Record K))} {x : Combined K P × Files K P}
      {r : ReadState IOError (Record K) K V} : s.items p.io.ctx.names n fs = (some (.ok items), x) →
      ReadReachable (tryConvert p.io.ctx) p.cluster (fun _ => true) items r → r.Finished →
      ReadsEvents p s fs r.result x

/-- Possible outcomes of creating the I/O object (`src/io.rs:483-497`) and of `Cres::run` (`src/cres.rs:181-227`) with pairs of
ntuple files: the events, the weights passed to `update_all_weights` as far as the run got, the result and the files in the
end. -/
inductive Run [Zero D] [Add K] [Zero K] [One K] [Mul K] [Div K] [NatCast K] [LinearOrder K] [LinearOrder V]
    [DecidableEq P] (p : Program K V D) (files : List (P × P)) (fs : Files K P) :
    Option (List (Event K V)) → Option (List (Weights K)) → Outcome (CresError IOError) Unit → Files K P → Prop
  | createErr {e s fs'} : Combined.new p.io.ctx.names files fs = (.err e, s, fs') → Run p files fs none none (.err (.io e)) fs'
  | createPanic {s fs'} : Combined.new p.io.ctx.names files fs = (.panic, s, fs') → Run p files fs none none .panic fs'
  | readErr {s fs1 e x} : Combined.new p.io.ctx.names files fs = (.ok (), s, fs1) → ReadsEvents p s fs1 (.err e) x →
      Run p files fs none none (.err e) x.2
  | readPanic {s fs1 x} : Combined.new p.io.ctx.names files fs = (.ok (), s, fs1) → ReadsEvents p s fs1 .panic x →
      Run p files fs none none .panic x.2
  | weightsErr {s fs1 events e x} : Combined.new p.io.ctx.names files fs = (.ok (), s, fs1) →
      ReadsEvents p s fs1 (.ok events) x → p.ComputesWeights events (.err e) → Run p files fs (some events) none (.err e) x.2
  | weightsPanic {s fs1 events x} : Combined.new p.io.ctx.names files fs = (.ok (), s, fs1) →
      ReadsEvents p s fs1 (.ok events) x → p.ComputesWeights events .panic → Run p files fs (some events) none .panic x.2
  | update {s fs1 events ws x} : Combined.new p.io.ctx.names files fs = (.ok (), s, fs1) →
      ReadsEvents p s fs1 (.ok events) x → p.ComputesWeights events (.ok ws) →
      Run p files fs (some events) (some ws)
        (((x.1.updateAll p.io.ctx.multi p.io.ctx.names ws x.2).1.mapErr CresError.io).map fun _ => ())
        (x.1.updateAll p.io.ctx.multi p.io.ctx.names ws x.2).2.2

end Cres.NTuple

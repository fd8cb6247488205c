import Verif.Model.NTupleRun

/-!
Model of a complete run on text files and ROOT ntuples together, with the feature `ntuple`: `FileIO` (`src/io.rs:105`), which
holds an object of one of the modules, `CombinedFileIO` (`src/io.rs:473-634`) on any files and `Cres::run`
(`src/cres.rs:181-293`).

Simplifications: The library `ntuple` is represented by a function that finds the records in a file and one that gives the
content of a file with the given records. Writing a record is immediate. The only failure of the operating system is that an
input file does not exist. Size hints are left out; they are used for progress bars and for the capacity of vectors only.
-/

namespace Cres.Mixed

variable {K V D P : Type*}

/-- The library `ntuple`: reading and writing ROOT files. -/
structure RootLib (K : Type*) where
  /-- `ntuple::Reader::new` with the records that it will return. -/
  read : Bytes → Outcome CreateError (List (NTuple.Record K))
  /-- The content of a file after `ntuple::Writer::new` and `write` for each of the records. -/
  write : List (NTuple.Record K) → Bytes

/-- `enum EventRecord` (`src/io.rs:673-686`): text or an ntuple event. -/
abbrev AnyRecord (K : Type*) := EventRecord ⊕ NTuple.Record K

/-- `struct FileIO(Box<dyn EventFileIO>)` (`src/io.rs:105`): an object of `src/hepmc2.rs`, `src/lhef.rs` or
`src/stripper_xml.rs`, or one of `src/ntuple.rs` with the name of the output file. -/
inductive AnyIO (K P : Type*)
  | text (io : FileIO K P)
  | ntuple (io : NTuple.FileIO K) (outfile : P)

namespace AnyIO

/-- `build_from_files` (`src/io.rs:152-206`). For ntuples `try_new` (`src/ntuple.rs:87-103`) opens the input file and creates an
output file without records. -/
def new [DecidableEq P] (cfg : IOConfig K V) (lib : RootLib K) (infile outfile : P) (fs : FS P) :
    Outcome CreateError (AnyIO K P) × FS P :=
  match fs infile with
  | none => (.err .openInput, fs)
  | some content =>
    match detectFormat cfg.feat (some (cfg.firstBuffer content)) with
    | .ok .ntuple =>
      match lib.read content with
      | .ok records => (.ok (.ntuple (NTuple.FileIO.new cfg.ctx.names records) outfile), fs.create outfile (lib.write []))
      | .err e => (.err e, fs)
      | .panic => (.panic, fs)
    | _ => ((FileIO.new cfg infile outfile fs).1.map .text, (FileIO.new cfg infile outfile fs).2)

/-- `next` (`src/io.rs:115-125` with `src/hepmc2.rs:218-224`, `src/lhef.rs:187-193`, `src/stripper_xml.rs:268-288`,
`src/ntuple.rs:64-69,132-134`). -/
def next [Mul K] (cfg : IOConfig K V) : AnyIO K P → Option (Outcome IOError (AnyRecord K)) × AnyIO K P
  | .text io => ((io.next cfg).1.map fun x => x.map fun r => .inl (io.kind.format, r), .text (io.next cfg).2)
  | .ntuple io outfile => (io.next.1.map fun r => .ok (.inr r), .ntuple io.next.2 outfile)

/-- `update_next_weights` (`src/hepmc2.rs:242-248`, `src/lhef.rs:291-297`, `src/stripper_xml.rs:218-256`,
`src/ntuple.rs:203-233`). -/
def updateNext [Div K] [DecidableEq P] (cfg : IOConfig K V) (lib : RootLib K) (ws : List K) : AnyIO K P → FS P →
    Outcome IOError Bool × AnyIO K P × FS P
  | .text io, fs => ((io.updateNext cfg ws fs).1, .text (io.updateNext cfg ws fs).2.1, (io.updateNext cfg ws fs).2.2)
  | .ntuple io outfile, fs =>
    match io.updateNext cfg.ctx.multi ws with
    | (.ok true, io) => (.ok true, .ntuple io outfile, fs.create outfile (lib.write io.written))
    | (x, io) => (x, .ntuple io outfile, fs)

/-- `finish_weight_update` (`src/lhef.rs:300-304`, default for the other formats). -/
def finish [DecidableEq P] : AnyIO K P → FS P → FS P
  | .text io, fs => io.finish fs
  | .ntuple _ _, fs => fs

end AnyIO

/-- `struct CombinedFileIO` (`src/io.rs:473-480`). -/
structure Combined (K P : Type*) where
  /-- Pairs of input and output file. -/
  files : List (P × P)
  current : Option (AnyIO K P)
  idx : Nat

namespace Combined

/-- `open` (`src/io.rs:499-516`). An index out of range is a panic. -/
def openFile [DecidableEq P] (cfg : IOConfig K V) (lib : RootLib K) (i : Nat) (s : Combined K P) (fs : FS P) :
    Outcome IOError Unit × Combined K P × FS P :=
  match s.files[i]? with
  | none => (.panic, s, fs)
  | some (infile, outfile) =>
    match AnyIO.new cfg lib infile outfile fs with
    | (.ok io, fs) => (.ok (), { s with current := some io, idx := i }, fs)
    | (.err e, fs) => (.err (.create e), s, fs)
    | (.panic, fs) => (.panic, s, fs)

/-- The loop in `init` (`src/io.rs:522-528`), from file `i` on. -/
def initLoop [DecidableEq P] (cfg : IOConfig K V) (lib : RootLib K) : Nat → Nat → Combined K P → FS P →
    Outcome IOError Unit × Combined K P × FS P
  | 0, _, s, fs => (.ok (), s, fs)
  | n + 1, i, s, fs =>
    match s.openFile cfg lib i fs with
    | (.ok (), s, fs) => initLoop cfg lib n (i + 1) s fs
    | x => x

/-- `new` and `init` (`src/io.rs:483-497,518-531`). -/
def new [DecidableEq P] (cfg : IOConfig K V) (lib : RootLib K) (files : List (P × P)) (fs : FS P) :
    Outcome IOError Unit × Combined K P × FS P :=
  if files = [] then (.ok (), ⟨files, none, 0⟩, fs)
  else
    match initLoop cfg lib files.length 0 ⟨files, none, 0⟩ fs with
    | (.ok (), s, fs) => s.openFile cfg lib 0 fs
    | x => x

/-- `next` (`src/io.rs:559-581`). The recursion opens the next file each time. -/
def nextLoop [Mul K] [DecidableEq P] (cfg : IOConfig K V) (lib : RootLib K) : Nat → Combined K P → FS P →
    Option (Outcome IOError (AnyRecord K)) × Combined K P × FS P
  | 0, s, fs => (none, s, fs)
  | fuel + 1, s, fs =>
    match s.current with
    | some io =>
      match io.next cfg with
      | (some x, io) => (some x, { s with current := some io }, fs)
      | (none, io) =>
        let s := { s with current := some io }
        if s.idx + 1 = s.files.length then (none, s, fs)
        else
          match s.openFile cfg lib (s.idx + 1) fs with
          | (.ok (), s, fs) => nextLoop cfg lib fuel s fs
          | (.err e, s, fs) => (some (.err e), s, fs)
          | (.panic, s, fs) => (some .panic, s, fs)
    | none =>
      if s.files = [] then (none, s, fs)
      else
        match s.openFile cfg lib 0 fs with
        | (.ok (), s, fs) => nextLoop cfg lib fuel s fs
        | (.err e, s, fs) => (some (.err e), s, fs)
        | (.panic, s, fs) => (some .panic, s, fs)

/-- `next` (`src/io.rs:559-581`). -/
def next [Mul K] [DecidableEq P] (cfg : IOConfig K V) (lib : RootLib K) (s : Combined K P) (fs : FS P) :
    Option (Outcome IOError (AnyRecord K)) × Combined K P × FS P :=
  nextLoop cfg lib (s.files.length + 2) s fs

/-- The items that the loop in `read_events` (`src/cres.rs:248-249`) obtains from the reader, up to the end or to the first
error. The number of calls is bounded by `fuel`; the result is `none` if this is not sufficient. -/
def items [Mul K] [DecidableEq P] (cfg : IOConfig K V) (lib : RootLib K) : Nat → Combined K P → FS P →
    Option (Outcome Empty (List (Except IOError (AnyRecord K)))) × Combined K P × FS P
  | 0, s, fs => (none, s, fs)
  | fuel + 1, s, fs =>
    match s.next cfg lib fs with
    | (none, s, fs) => (some (.ok []), s, fs)
    | (some .panic, s, fs) => (some .panic, s, fs)
    | (some (.err e), s, fs) => (some (.ok [.error e]), s, fs)
    | (some (.ok r), s, fs) =>
      let x := items cfg lib fuel s fs
      (x.1.map (Outcome.map (.ok r :: ·)), x.2)

/-- The loop over weights inside `update_all_weights` (`src/io.rs:606-612`): the remaining weights. -/
def updateWhile [Div K] [DecidableEq P] (cfg : IOConfig K V) (lib : RootLib K) : List (List K) → AnyIO K P → FS P →
    Outcome IOError (List (List K)) × AnyIO K P × FS P
  | [], io, fs => (.ok [], io, fs)
  | w :: ws, io, fs =>
    match io.updateNext cfg lib w fs with
    | (.ok true, io, fs) => updateWhile cfg lib ws io fs
    | (.ok false, io, fs) => (.ok (w :: ws), io, fs)
    | (.err e, io, fs) => (.err e, io, fs)
    | (.panic, io, fs) => (.panic, io, fs)

/-- The loop over files in `update_all_weights` (`src/io.rs:604-614`): the remaining weights. -/
def updateFiles [Div K] [DecidableEq P] (cfg : IOConfig K V) (lib : RootLib K) : Nat → Nat → List (List K) → Combined K P → FS P →
    Outcome IOError (List (List K)) × Combined K P × FS P
  | 0, _, ws, s, fs => (.ok ws, s, fs)
  | n + 1, i, ws, s, fs =>
    match s.openFile cfg lib i fs with
    | (.err e, s, fs) => (.err e, s, fs)
    | (.panic, s, fs) => (.panic, s, fs)
    | (.ok (), s, fs) =>
      match s.current with
      | none => (.panic, s, fs)
      | some io =>
        match updateWhile cfg lib ws io fs with
        | (.ok ws, io, fs) => updateFiles cfg lib n (i + 1) ws { s with current := some io } (io.finish fs)
        | (.err e, io, fs) => (.err e, { s with current := some io }, fs)
        | (.panic, io, fs) => (.panic, { s with current := some io }, fs)

/-- `update_all_weights` (`src/io.rs:596-618`), which begins with `rewind` (`src/io.rs:546-554`): the number of records
written. -/
def updateAll [Div K] [DecidableEq P] (cfg : IOConfig K V) (lib : RootLib K) (ws : List (List K)) (s : Combined K P) (fs : FS P) :
    Outcome IOError Nat × Combined K P × FS P :=
  match updateFiles cfg lib s.files.length 0 ws { s with current := none } fs with
  | (.ok rest, s, fs) => (.ok (ws.length - rest.length), s, fs)
  | (.err e, s, fs) => (.err e, s, fs)
  | (.panic, s, fs) => (.panic, s, fs)

end Combined

/-- `Converter::try_convert` (`src/io.rs:738-753`). -/
def anyConvert [Zero K] [LinearOrder V] (ctx : ParseCtx K V) : AnyRecord K → Outcome IOError (Event K V)
  | .inl r => Cres.tryConvert ctx r
  | .inr r => NTuple.tryConvert ctx r

/-- Possible outcomes of `read_events` (`src/cres.rs:229-292`): ntuple records are converted on the main thread
(`src/cres.rs:251-267`), all others by tasks in a thread pool. -/
inductive ReadsEvents [Zero K] [Mul K] [LinearOrder V] [DecidableEq P] (p : Program K V D) (lib : RootLib K) (s : Combined K P)
    (fs : FS P) : Outcome (CresError IOError) (List (Event K V)) → Combined K P × FS P → Prop
  | panic {n : Nat} {x : Combined K P × FS P} : s.items p.io lib n fs = (some .panic, x) → ReadsEvents p lib s fs .panic x
  | done {n : Nat} {items : List (Except IOError (AnyRecord K))} {x : Combined K P × FS P}
      {r : ReadState IOError (AnyRecord K) K V} : s.items p.io lib n fs = (some (.ok items), x) →
      ReadReachable (anyConvert p.io.ctx) p.cluster Sum.isRight items r → r.Finished → ReadsEvents p lib s fs r.result x

/-- Possible outcomes of creating the I/O object (`src/io.rs:483-497`) and of `Cres::run` (`src/cres.rs:181-227`) with pairs of
files of any format: the events, the weights passed to `update_all_weights` as far as the run got, the result and the files in
the end. -/
inductive Run [Zero D] [Add K] [Zero K] [One K] [Mul K] [Div K] [NatCast K] [LinearOrder K] [LinearOrder V]
    [DecidableEq P] (p : Program K V D) (lib : RootLib K) (files : List (P × P)) (fs : FS P) :
    Option (List (Event K V)) → Option (List (Weights K)) → Outcome (CresError IOError) Unit → FS P → Prop
  | createErr {e s fs'} : Combined.new p.io lib files fs = (.err e, s, fs') → Run p lib files fs none none (.err (.io e)) fs'
  | createPanic {s fs'} : Combined.new p.io lib files fs = (.panic, s, fs') → Run p lib files fs none none .panic fs'
  | readErr {s fs1 e x} : Combined.new p.io lib files fs = (.ok (), s, fs1) → ReadsEvents p lib s fs1 (.err e) x →
      Run p lib files fs none none (.err e) x.2
  | readPanic {s fs1 x} : Combined.new p.io lib files fs = (.ok (), s, fs1) → ReadsEvents p lib s fs1 .panic x →
      Run p lib files fs none none .panic x.2
  | weightsErr {s fs1 events e x} : Combined.new p.io lib files fs = (.ok (), s, fs1) →
      ReadsEvents p lib s fs1 (.ok events) x → p.ComputesWeights events (.err e) →
      Run p lib files fs (some events) none (.err e) x.2
  | weightsPanic {s fs1 events x} : Combined.new p.io lib files fs = (.ok (), s, fs1) →
      ReadsEvents p lib s fs1 (.ok events) x → p.ComputesWeights events .panic → Run p lib files fs (some events) none .panic x.2
  | update {s fs1 events ws x} : Combined.new p.io lib files fs = (.ok (), s, fs1) →
      ReadsEvents p lib s fs1 (.ok events) x → p.ComputesWeights events (.ok ws) →
      Run p lib files fs (some events) (some ws)
        (((x.1.updateAll p.io lib ws x.2).1.mapErr CresError.io).map fun _ => ()) (x.1.updateAll p.io lib ws x.2).2.2

end Cres.Mixed

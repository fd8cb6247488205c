import Verif.Model.Main

/-!
Model of several runs of the program at the same time, for example one for each part of a partition of the events, as
recommended in `Readme.md` ("Scaling to huge samples"). The runs only share the file system.

A run is a `Proc`: a computation that accesses the file system from time to time. The accesses of all runs are interleaved
in any order. Each access is opening an input file for reading, creating an output file, or writing a header, a record or a
footer. Between accesses a run only uses its own memory.

Simplification: as in `Verif/Model/FileIO.lean` the content of an input file is known after opening it and writing is
immediate.
-/

namespace Cres

variable {K V D P : Type*}

/-- A computation with result in `A` that accesses a shared state: the access changes the state, and the rest of the
computation may depend on the state before. -/
inductive Proc (S A : Type*)
  | done (a : A)
  | access (update : S → S) (cont : S → Proc S A)

/-- One computation after the other. -/
def Proc.bind {S A B : Type*} : Proc S A → (A → Proc S B) → Proc S B
  | .done a, f => f a
  | .access u k, f => .access u fun s => (k s).bind f

/-- `open` (`src/io.rs:499-516`) with `build_from_files` (`src/io.rs:152-206`) and `FileIO::try_new`
(`src/hepmc2.rs:126-147`, `src/lhef.rs:102-124`, `src/stripper_xml.rs:146-179`): the input file is opened, the output file is
created, the header is written. -/
def CombinedIO.openProc [DecidableEq P] (cfg : IOConfig K V) (i : Nat) (s : CombinedIO K P) :
    Proc (FS P) (Outcome IOError Unit × CombinedIO K P) :=
  match s.files[i]? with
  | none => .done (.panic, s)
  | some (infile, outfile) =>
    .access id fun fs =>
      match fs infile with
      | none => .done (.err (.create .openInput), s)
      | some content =>
        match detectFormat cfg.feat (some (cfg.firstBuffer content)) with
        | .err e => .done (.err (.create e), s)
        | .panic => .done (.panic, s)
        | .ok format =>
          match Reader.new cfg content format with
          | .err e => .done (.err (.create e), s)
          | .panic => .done (.panic, s)
          | .ok reader =>
            .access (fun fs => fs.create outfile []) fun _ =>
              .access (fun fs => fs.append outfile reader.header) fun _ =>
                match Kind.find cfg reader.header format with
                | .err e => .done (.err (.create e), s)
                | .panic => .done (.panic, s)
                | .ok kind => .done (.ok (), { s with current := some ⟨kind, infile, outfile, reader⟩, idx := i })

/-- The loop in `init` (`src/io.rs:522-528`), from file `i` on. -/
def CombinedIO.initProc [DecidableEq P] (cfg : IOConfig K V) : Nat → Nat → CombinedIO K P →
    Proc (FS P) (Outcome IOError Unit × CombinedIO K P)
  | 0, _, s => .done (.ok (), s)
  | n + 1, i, s => (s.openProc cfg i).bind fun
    | (.ok (), s) =>
      match s.current with
      | none => .done (.panic, s)
      | some io => initProc cfg n (i + 1) { s with hint := combineHints s.hint io.reader.sizeHint }
    | x => .done x

/-- `new` and `init` (`src/io.rs:483-497,518-531`). -/
def CombinedIO.newProc [DecidableEq P] (cfg : IOConfig K V) (files : List (P × P)) :
    Proc (FS P) (Outcome IOError Unit × CombinedIO K P) :=
  let s : CombinedIO K P := ⟨files, none, 0, 0, (0, some 0)⟩
  if files = [] then .done (.ok (), s)
  else (initProc cfg files.length 0 s).bind fun
    | (.ok (), s) => s.openProc cfg 0
    | x => .done x

/-- `next` (`src/io.rs:559-581`). -/
def CombinedIO.nextProc [Mul K] [DecidableEq P] (cfg : IOConfig K V) : Nat → CombinedIO K P →
    Proc (FS P) (Option (Outcome IOError Bytes) × CombinedIO K P)
  | 0, s => .done (none, s)
  | fuel + 1, s =>
    match s.current with
    | some io =>
      match io.next cfg with
      | (some x, io) => .done (some x, { s with current := some io, nread := s.nread + 1 })
      | (none, io) =>
        let s := { s with current := some io }
        if s.idx + 1 = s.files.length then .done (none, s)
        else (s.openProc cfg (s.idx + 1)).bind fun
          | (.ok (), s) => nextProc cfg fuel s
          | (.err e, s) => .done (some (.err e), s)
          | (.panic, s) => .done (some .panic, s)
    | none =>
      if s.files = [] then .done (none, s)
      else (s.openProc cfg 0).bind fun
        | (.ok (), s) => nextProc cfg fuel s
        | (.err e, s) => .done (some (.err e), s)
        | (.panic, s) => .done (some .panic, s)

/-- The loop in `read_events` (`src/cres.rs:248-249`) as in `CombinedIO.recordItems`: the items obtained from the reader. The
result is `none` if `fuel` calls are not sufficient. -/
def CombinedIO.recordProc [Mul K] [DecidableEq P] (cfg : IOConfig K V) : Nat → CombinedIO K P →
    Proc (FS P) (Option (Outcome Empty (List (Except IOError EventRecord))) × CombinedIO K P)
  | 0, s => .done (none, s)
  | fuel + 1, s => (s.nextProc cfg (s.files.length + 2)).bind fun
    | (none, s) => .done (some (.ok []), s)
    | (some .panic, s) => .done (some .panic, s)
    | (some (.err e), s) => .done (some (.ok [.error e]), s)
    | (some (.ok r), s) =>
      match s.current with
      | none => .done (some .panic, s)
      | some io => (recordProc cfg fuel s).bind fun x => .done (x.1.map (Outcome.map (.ok (io.kind.format, r) :: ·)), x.2)

/-- `update_next_weights` (`src/hepmc2.rs:162-206,242-248`, `src/lhef.rs:140-175,291-297`, `src/stripper_xml.rs:218-256`). -/
def FileIO.updateProc [Div K] [DecidableEq P] (cfg : IOConfig K V) (ws : List K) (io : FileIO K P) :
    Proc (FS P) (Outcome IOError Bool × FileIO K P) :=
  let io' := { io with reader := (io.reader.readRaw cfg.ctx.debug io.kind.format).2 }
  match (io.reader.readRaw cfg.ctx.debug io.kind.format).1 with
  | none => .done (.ok false, io')
  | some x =>
    match x.bind (io.kind.update cfg ws) with
    | .ok record => .access (fun fs => fs.append io.outfile record) fun _ => .done (.ok true, io')
    | .err e => .done (.err (.read e), io')
    | .panic => .done (.panic, io')

/-- `finish_weight_update` (`src/lhef.rs:300-304`). -/
def FileIO.finishProc [DecidableEq P] (io : FileIO K P) : Proc (FS P) Unit :=
  match io.kind with
  | .lhef => .access (fun fs => fs.append io.outfile Lhef.footer) fun _ => .done ()
  | _ => .done ()

/-- The loop over weights inside `update_all_weights` (`src/io.rs:606-612`). -/
def CombinedIO.whileProc [Div K] [DecidableEq P] (cfg : IOConfig K V) : List (List K) → FileIO K P →
    Proc (FS P) (Outcome IOError (List (List K)) × FileIO K P)
  | [], io => .done (.ok [], io)
  | w :: ws, io => (io.updateProc cfg w).bind fun
    | (.ok true, io) => whileProc cfg ws io
    | (.ok false, io) => .done (.ok (w :: ws), io)
    | (.err e, io) => .done (.err e, io)
    | (.panic, io) => .done (.panic, io)

/-- The loop over files in `update_all_weights` (`src/io.rs:604-614`). -/
def CombinedIO.filesProc [Div K] [DecidableEq P] (cfg : IOConfig K V) : Nat → Nat → List (List K) → CombinedIO K P →
    Proc (FS P) (Outcome IOError (List (List K)))
  | 0, _, ws, _ => .done (.ok ws)
  | n + 1, i, ws, s => (s.openProc cfg i).bind fun
    | (.err e, _) => .done (.err e)
    | (.panic, _) => .done .panic
    | (.ok (), s) =>
      match s.current with
      | none => .done .panic
      | some io => (whileProc cfg ws io).bind fun
        | (.ok ws, io) => io.finishProc.bind fun _ => filesProc cfg n (i + 1) ws { s with current := some io }
        | (.err e, _) => .done (.err e)
        | (.panic, _) => .done .panic

/-- `update_all_weights` (`src/io.rs:596-618`): only the errors are used afterwards (`src/cres.rs:224-226`). -/
def CombinedIO.updateProc [Div K] [DecidableEq P] (cfg : IOConfig K V) (ws : List (List K)) (s : CombinedIO K P) :
    Proc (FS P) (Outcome IOError Unit) :=
  (filesProc cfg s.files.length 0 ws s.rewind).bind fun x => .done (x.map fun _ => ())

/-- What a run computes between reading and writing. Because of parallelism this is not determined; the functions give a
possible result for some items or events. -/
structure Program.Choice [Zero D] [Add K] [Zero K] [One K] [Mul K] [Div K] [NatCast K] [LinearOrder K] [LinearOrder V]
    (p : Program K V D) where
  read : List (Except IOError EventRecord) → Option (Outcome (CresError IOError) (List (Event K V)))
  weights : List (Event K V) → Option (Outcome (CresError IOError) (List (Weights K)))
  read_possible : ∀ items o, read items = some o →
    ∃ r, ReadReachable (tryConvert p.io.ctx) p.cluster (fun r => r.1 == .ntuple) items r ∧ r.Finished ∧ o = r.result
  weights_possible : ∀ events o, weights events = some o → p.ComputesWeights events o

/-- Creating the I/O object (`src/io.rs:483-497`) and `Cres::run` (`src/cres.rs:181-227`), with at most `n` calls to read
records: the weights passed to `update_all_weights` and the result. There is no result if there are more records or if
the functions for computations do not give anything. -/
def Program.proc [Zero D] [Add K] [Zero K] [One K] [Mul K] [Div K] [NatCast K] [LinearOrder K] [LinearOrder V] [DecidableEq P]
    (p : Program K V D) (files : List (P × P)) (n : Nat) (c : p.Choice) :
    Proc (FS P) (Option (Option (List (Weights K)) × Outcome (CresError IOError) Unit)) :=
  (CombinedIO.newProc p.io files).bind fun
    | (.err e, _) => .done (some (none, .err (.io e)))
    | (.panic, _) => .done (some (none, .panic))
    | (.ok (), s) => (s.recordProc p.io n).bind fun
      | (none, _) => .done none
      | (some .panic, _) => .done (some (none, .panic))
      | (some (.ok items), s) =>
        match c.read items with
        | none => .done none
        | some (.err e) => .done (some (none, .err e))
        | some .panic => .done (some (none, .panic))
        | some (.ok events) =>
          match c.weights events with
          | none => .done none
          | some (.err e) => .done (some (none, .err e))
          | some .panic => .done (some (none, .panic))
          | some (.ok ws) => (s.updateProc p.io ws).bind fun x => .done (some (some ws, x.mapErr .io))

/-- The loop in `extract_scaling` (`src/stripper_xml.rs:301-329`). -/
def scanProc (cfg : IOConfig K V) : List (Option (P × P)) →
    Proc (FS P) (Outcome CreateError (List ((P × P) × Option (Stripper.XmlTag K))))
  | [] => .done (.ok [])
  | none :: _ => .done .panic
  | some f :: files =>
    .access id fun fs =>
      match fs f.1 with
      | none => .done (.err .openInput)
      | some content =>
        match (if ascii "<?xml" <+: trimAsciiStart (cfg.firstBuffer content) then (cfg.xmlInfo content).map some else .ok none) with
        | .err e => .done (.err e)
        | .panic => .done .panic
        | .ok tag => (scanProc cfg files).bind fun x => .done (x.map ((f, tag) :: ·))

/-- `build_from_files_iter` (`src/io.rs:210-230,241-245`) up to the creation of the I/O object. -/
def prepareProc [Zero K] [One K] [Neg K] [Div K] [NatCast K] (cfg : IOConfig K V) (files : List (Option (P × P))) :
    Proc (FS P) (Outcome CreateError (List (P × P) × IOConfig K V)) :=
  if cfg.feat.stripperXml then
    (scanProc cfg files).bind fun x =>
      .done (x.map fun l => ((Stripper.extractScaling l).1, { cfg with scaling := (Stripper.extractScaling l).2 }))
  else if files.all Option.isSome then .done (.ok (files.filterMap id, { cfg with scaling := fun _ => none }))
  else .done .panic

/-- What a run of the command line program is started with. -/
structure Job (K V D : Type*) where
  settings : CresSettings K V D
  cwd : List Bytes
  outdir : Bytes
  infiles : List Bytes

/-- The results of computations in a run, for each possible table with scales of channels. -/
def Job.Choice [Zero D] [DistNum D] [Add K] [Zero K] [One K] [Mul K] [Div K] [NatCast K] [Neg K] [LinearOrder K] [LinearOrder V]
    (j : Job K V D) := ∀ io : IOConfig K V, ({ j.settings with io := io } : CresSettings K V D).program.Choice

/-- `cres_with_search` (`src/bin/main.rs:49-126`) as in `MainRun`. -/
def Job.proc [Zero D] [DistNum D] [Add K] [Zero K] [One K] [Mul K] [Div K] [NatCast K] [Neg K] [LinearOrder K] [LinearOrder V]
    (j : Job K V D) (n : Nat) (c : j.Choice) :
    Proc (FS (List Bytes)) (Option (Option (List (Weights K)) × Outcome MainError Unit)) :=
  (prepareProc j.settings.io (locatedPairs j.cwd j.outdir j.infiles)).bind fun
    | .err e => .done (some (none, .err (.scaling e)))
    | .panic => .done (some (none, .panic))
    | .ok (files, io) =>
      (({ j.settings with io := io } : CresSettings K V D).program.proc files n (c io)).bind fun x =>
        .done (x.map fun x => (x.1, x.2.mapErr .cres))

/-- The interleaving of computations with a common state. `sched` says which computation made each access. -/
inductive Together {ι S A : Type*} [DecidableEq ι] : (ι → Proc S A) → S → List ι → (ι → Proc S A) → S → Prop
  | nil {ps : ι → Proc S A} {s : S} : Together ps s [] ps s
  | step {ps ps' : ι → Proc S A} {s s' : S} {i : ι} {sched : List ι} {u : S → S} {k : S → Proc S A} : ps i = .access u k →
      Together (Function.update ps i (k s)) (u s) sched ps' s' → Together ps s (i :: sched) ps' s'

end Cres

import Verif.Model.CombinedIO
import Verif.Model.Cluster
import Verif.Model.Run
import Verif.Model.NaiveSearch

/-!
Model of the whole program: `CombinedFileIO` as event reader and writer, `Converter`, a clustering, the `Resampler` and an
unweighter put together in `Cres::run` (`src/cres.rs:181-227`).

Events in ROOT ntuples are not included, so that all records are converted in parallel.
-/

namespace Cres

variable {K V D P : Type*}

/-- `enum EventRecord` (`src/io.rs:673-686`) without ntuple events: the variant and the text. -/
abbrev EventRecord := FileFormat × Bytes

/-- `Converter::try_convert` (`src/io.rs:738-753`). There are no records with the tag of ntuples in this model. -/
def tryConvert [Zero K] [LinearOrder V] (ctx : ParseCtx K V) : EventRecord → Outcome IOError (Event K V)
  | (.hepmc2, r) => (HepMC.parse ctx r).mapErr .read
  | (.lhef, r) => (Lhef.parse ctx r).mapErr .read
  | (.stripperXml, r) => (Stripper.parse ctx r).mapErr .read
  | (.ntuple, _) => .panic

/-- `next` (`src/io.rs:559-581`) together with the variant of the record, which is the one for the type of the file that
the record is from (`src/hepmc2.rs:218-224`, `src/lhef.rs:187-193`, `src/stripper_xml.rs:268-288`). This file is the
current one. -/
def CombinedIO.nextRecord [Mul K] [DecidableEq P] (cfg : IOConfig K V) (s : CombinedIO K P) (fs : FS P) :
    Option (Outcome IOError EventRecord) × CombinedIO K P × FS P :=
  match s.next cfg fs with
  | (some (.ok r), s, fs) =>
    match s.current with
    | some io => (some (.ok (io.kind.format, r)), s, fs)
    | none => (some .panic, s, fs)
  | (some (.err e), s, fs) => (some (.err e), s, fs)
  | (some .panic, s, fs) => (some .panic, s, fs)
  | (none, s, fs) => (none, s, fs)

/-- The items that the loop in `read_events` (`src/cres.rs:248-249`) obtains from the reader: up to the end or to the first
error, after which the reader is not used again. The tasks do not use the reader. The number of calls is bounded by `fuel`;
the result is `none` if this is not sufficient. -/
def CombinedIO.recordItems [Mul K] [DecidableEq P] (cfg : IOConfig K V) : Nat → CombinedIO K P → FS P →
    Option (Outcome Empty (List (Except IOError EventRecord))) × CombinedIO K P × FS P
  | 0, s, fs => (none, s, fs)
  | fuel + 1, s, fs =>
    match s.nextRecord cfg fs with
    | (none, s, fs) => (some (.ok []), s, fs)
    | (some .panic, s, fs) => (some .panic, s, fs)
    | (some (.err e), s, fs) => (some (.ok [.error e]), s, fs)
    | (some (.ok r), s, fs) =>
      let x := CombinedIO.recordItems cfg fuel s fs
      (x.1.map (Outcome.map (.ok r :: ·)), x.2)

/-- The settings: what is needed for files, the clustering, the order in which the neighbour search returns the neighbours
of a seed and the seeds, both for a given list of events, the unweighter and whether messages at level `info` are shown. -/
structure Program (K V D : Type*) where
  io : IOConfig K V
  cluster : Event K V → Outcome IOError (Event K V)
  nearest : List (Event K V) → Nat → List (Nat × D)
  seeds : List (Event K V) → List Nat
  unweight : List (Event K V) → Outcome IOError (List (Event K V))
  infoLog : Bool

/-- The build configuration that matters for weights. -/
def Program.cfg (p : Program K V D) : Cfg := ⟨p.io.ctx.multi, p.io.ctx.debug⟩

/-- Possible outcomes of `Resampler::resample` (`src/resampler.rs:72-114`) on `events`. It first computes and logs the sums
of weights. A panic of a task is passed on. -/
inductive Program.Resamples [Zero D] [Add K] [Zero K] [One K] [Mul K] [Div K] [NatCast K] [LinearOrder K]
    (p : Program K V D) (events : List (Event K V)) :
    Outcome IOError (List (Event K V)) → Prop
  | log : logSumsPanics p.cfg p.infoLog events = true → Resamples p events .panic
  | task {s : State D K} {t : Nat} : logSumsPanics p.cfg p.infoLog events = false →
      Reachable p.cfg events.length (p.nearest events) (p.seeds events) (memOf events) s → s.tasks t = .panicked →
      Resamples p events .panic
  | ok {events' : List (Event K V)} : logSumsPanics p.cfg p.infoLog events = false →
      ResampledTo p.cfg (p.nearest events) (p.seeds events) events events' → Resamples p events (.ok events')

/-- Possible outcomes of `read_events` (`src/cres.rs:229-292`) for a reader in the given state: the result and the state of
the reader and the files afterwards. -/
inductive Program.ReadsEvents [Zero K] [Mul K] [LinearOrder V] [DecidableEq P] (p : Program K V D) (s : CombinedIO K P)
    (fs : FS P) : Outcome (CresError IOError) (List (Event K V)) → CombinedIO K P × FS P → Prop
  | panic {n : Nat} {x : CombinedIO K P × FS P} : s.recordItems p.io n fs = (some .panic, x) → ReadsEvents p s fs .panic x
  | done {n : Nat} {items : List (Except IOError EventRecord)} {x : CombinedIO K P × FS P}
      {r : ReadState IOError EventRecord K V} : s.recordItems p.io n fs = (some (.ok items), x) →
      ReadReachable (tryConvert p.io.ctx) p.cluster (fun r => r.1 == .ntuple) items r → r.Finished →
      ReadsEvents p s fs r.result x

/-- Possible weights that are passed to `update_all_weights` (`src/cres.rs:181-224`) for `events`. -/
inductive Program.ComputesWeights [Zero D] [Add K] [Zero K] [One K] [Mul K] [Div K] [NatCast K] [LinearOrder K]
    (p : Program K V D) (events : List (Event K V)) :
    Outcome (CresError IOError) (List (Weights K)) → Prop
  | mk {resampled : Outcome IOError (List (Event K V))} :
      p.Resamples (events.filter fun e => !e.outgoingByPid.isEmpty) resampled →
      ComputesWeights p events (runWeights p.cfg p.infoLog (fun _ => resampled) p.unweight events)

/-- Possible outcomes of creating the I/O object (`src/io.rs:483-497`) and of `Cres::run` (`src/cres.rs:181-227`) with the
given pairs of files: the events, the weights passed to `update_all_weights` as far as the run got, the result and the
files in the end. -/
inductive Program.Run [Zero D] [Add K] [Zero K] [One K] [Mul K] [Div K] [NatCast K] [LinearOrder K] [LinearOrder V]
    [DecidableEq P] (p : Program K V D) (files : List (P × P)) (fs : FS P) :
    Option (List (Event K V)) → Option (List (Weights K)) → Outcome (CresError IOError) Unit → FS P → Prop
  | createErr {e s fs'} : CombinedIO.new p.io files fs = (.err e, s, fs') → Run p files fs none none (.err (.io e)) fs'
  | createPanic {s fs'} : CombinedIO.new p.io files fs = (.panic, s, fs') → Run p files fs none none .panic fs'
  | readErr {s fs1 e x} : CombinedIO.new p.io files fs = (.ok (), s, fs1) → p.ReadsEvents s fs1 (.err e) x →
      Run p files fs none none (.err e) x.2
  | readPanic {s fs1 x} : CombinedIO.new p.io files fs = (.ok (), s, fs1) → p.ReadsEvents s fs1 .panic x →
      Run p files fs none none .panic x.2
  | weightsErr {s fs1 events e x} : CombinedIO.new p.io files fs = (.ok (), s, fs1) → p.ReadsEvents s fs1 (.ok events) x →
      p.ComputesWeights events (.err e) → Run p files fs (some events) none (.err e) x.2
  | weightsPanic {s fs1 events x} : CombinedIO.new p.io files fs = (.ok (), s, fs1) → p.ReadsEvents s fs1 (.ok events) x →
      p.ComputesWeights events .panic → Run p files fs (some events) none .panic x.2
  | update {s fs1 events ws x} : CombinedIO.new p.io files fs = (.ok (), s, fs1) → p.ReadsEvents s fs1 (.ok events) x →
      p.ComputesWeights events (.ok ws) →
      Run p files fs (some events) (some ws) (((x.1.updateAll p.io ws x.2).1.mapErr CresError.io).map fun _ => ())
        (x.1.updateAll p.io ws x.2).2.2

/-! ### the command line program -/

/-- The choice of the neighbour search (`src/bin/main.rs:40-47`) with what is not determined in each of them: the order of
elements with the same distance. -/
inductive SearchAlgo (D : Type*)
  | naive (minPos : MinOracle D)
  | tree (psort sort : SortOracle Nat D) (cornerPt : Nat) (f64Max : D)

/-- `DistWrapper::distance` (`src/distance.rs:194-199`). The indices are those of events. -/
def distWrapper [Zero D] (dist : Event K V → Event K V → D) (events : List (Event K V)) (i j : Nat) : D :=
  match events[i]?, events[j]? with
  | some e, some e' => dist e e'
  | _, _ => 0

/-- `N::new_with_dist` and `nearest` as used in `Resampler::resample` (`src/resampler.rs:80-101`). -/
def SearchAlgo.nearest [Zero D] [DistNum D] (algo : SearchAlgo D) (dist : Event K V → Event K V → D) (maxDist : D)
    (events : List (Event K V)) : Nat → List (Nat × D) :=
  match algo with
  | .naive minPos => naiveNearest minPos events.length (distWrapper dist events) maxDist
  | .tree psort sort cornerPt f64Max => treeNearest psort sort cornerPt f64Max events.length (distWrapper dist events) maxDist

/-- The settings of the command line program (`src/bin/main.rs:49-126`) with what is not determined by them: random numbers
and the order of seeds with the same weight. -/
structure CresSettings (K V D : Type*) where
  io : IOConfig K V
  particles : Cluster.Particles
  clustering : Cluster.Settings V
  search : SearchAlgo D
  distance : Event K V → Event K V → D
  maxCellSize : D
  strategy : Strategy
  sortSeeds : (Nat → K) → List Nat → List Nat
  minWeight : K
  rng : Nat → K
  infoLog : Bool

/-- `CresBuilder { event_io, converter, clustering, resampler, unweighter }.build()` (`src/bin/main.rs:85-122`) with
`DefaultResampler::resample` (`src/resampler.rs:243-272`). The selection of seeds cannot panic after the sums of weights
have been computed without panic. -/
def CresSettings.program [Zero D] [DistNum D] [Add K] [Zero K] [Mul K] [Div K] [Neg K] [LinearOrder K]
    [LinearOrder V] (s : CresSettings K V D) :
    Program K V D where
  io := s.io
  cluster ev := .ok (Cluster.cluster s.io.ctx.multi s.particles s.clustering ev)
  nearest := s.search.nearest s.distance s.maxCellSize
  seeds events := (selectSeeds s.sortSeeds s.strategy events.length (memOf events)).getD []
  unweight := unweightStep s.io.ctx.debug s.minWeight s.rng
  infoLog := s.infoLog

end Cres

import Verif.Model.Program
import Verif.Model.Paths
import Verif.Model.CApi

/-!
Model of a run of the command line program (`src/bin/main.rs:49-126`) and of `cres_run` in the C interface
(`src/c_api/cres.rs:121-217`), starting from the names of the input files and of the output directory.

Files are identified by their location in a file system without symbolic links. A slash at the end of a path is ignored.
Creating the output directory is not included.
-/

namespace Cres

variable {K V D P : Type*}

/-- The loop in `extract_scaling` (`src/stripper_xml.rs:301-329`): what is found in each file. An item `none` stands for a
panic when the iterator is advanced. -/
def scanFiles (cfg : IOConfig K V) (fs : FS P) :
    List (Option (P × P)) → Outcome CreateError (List ((P × P) × Option (Stripper.XmlTag K)))
  | [] => .ok []
  | none :: _ => .panic
  | some f :: files =>
    match fs f.1 with
    | none => .err .openInput
    | some content =>
      (if ascii "<?xml" <+: trimAsciiStart (cfg.firstBuffer content) then (cfg.xmlInfo content).map some else .ok none).bind
        fun tag => (scanFiles cfg fs files).map ((f, tag) :: ·)

/-- `build_from_files_iter` (`src/io.rs:210-230,241-245`) up to the creation of the I/O object: the pairs of files with
events and the settings with the scales of channels. -/
def prepareFiles [Zero K] [One K] [Neg K] [Div K] [NatCast K] (cfg : IOConfig K V) (fs : FS P)
    (files : List (Option (P × P))) : Outcome CreateError (List (P × P) × IOConfig K V) :=
  if cfg.feat.stripperXml then
    (scanFiles cfg fs files).map fun l => ((Stripper.extractScaling l).1, { cfg with scaling := (Stripper.extractScaling l).2 })
  else if files.all Option.isSome then .ok (files.filterMap id, { cfg with scaling := fun _ => none })
  else .panic

/-- The pairs of files (`src/bin/main.rs:75-81`), with their locations. -/
def locatedPairs (cwd : List Bytes) (outdir : Bytes) (infiles : List Bytes) : List (Option (List Bytes × List Bytes)) :=
  infiles.map fun f => (Path.filePair outdir f).map fun x => (Path.locate cwd x.1, Path.locate cwd x.2)

/-- The errors of `cres_with_search`: `CombinedBuildError::WeightScaling` (`src/io.rs:312-318`) and those in the model of
the main part. -/
inductive MainError
  | scaling (e : CreateError)
  | cres (e : CresError IOError)
deriving DecidableEq, Repr

/-- `cres_with_search` (`src/bin/main.rs:49-126`) and `cres_run_with` (`src/c_api/cres.rs:158-217`) for the given output
directory and input files: the weights passed to `update_all_weights` as far as the run got, the result and the files
in the end. -/
inductive MainRun [Zero D] [DistNum D] [Add K] [Zero K] [One K] [Mul K] [Div K] [NatCast K] [Neg K] [LinearOrder K]
    [LinearOrder V] (s : CresSettings K V D)
    (cwd : List Bytes) (outdir : Bytes) (infiles : List Bytes) (fs : FS (List Bytes)) :
    Option (List (Weights K)) → Outcome MainError Unit → FS (List Bytes) → Prop
  | scalingErr {e} : prepareFiles s.io fs (locatedPairs cwd outdir infiles) = .err e →
      MainRun s cwd outdir infiles fs none (.err (.scaling e)) fs
  | scalingPanic : prepareFiles s.io fs (locatedPairs cwd outdir infiles) = .panic →
      MainRun s cwd outdir infiles fs none .panic fs
  | run {files io events ws res fs'} : prepareFiles s.io fs (locatedPairs cwd outdir infiles) = .ok (files, io) →
      { s with io := io }.program.Run files fs events ws res fs' →
      MainRun s cwd outdir infiles fs ws (res.mapErr .cres) fs'

namespace CApi

/-- `struct Opt` (`src/c_api/cres.rs:27-55`) together with what a run depends on in addition: build settings, file formats,
`cluster(_, &jet_def)` (`src/cluster.rs:264-279`) and the order of elements with the same distance or weight. `customDistance` is `None` for a null
pointer, `builtinDistance` is `EuclWithScaledPt::new(n64(ptweight))` and no result stands for a panic of `n64`. -/
structure Opt (K V D : Type*) where
  infiles : List Bytes
  outdir : Bytes
  customDistance : Option (Event K V → Event K V → D)
  builtinDistance : Option (Event K V → Event K V → D)
  jets : List V → List V
  particles : Cluster.Particles
  search : SearchAlgo D
  maxCellSize : D
  io : IOConfig K V
  sortSeeds : (Nat → K) → List Nat → List Nat
  infoLog : Bool

/-- `cres_run_internal` (`src/c_api/cres.rs:136-145`): the distance. -/
def Opt.distance (o : Opt K V D) : Option (Event K V → Event K V → D) :=
  match o.customDistance with
  | none => o.builtinDistance
  | some d => some d

/-- The settings in `cres_run_with` (`src/c_api/cres.rs:186-211`). There are no weight names, no unweighting, no definitions
for leptons and photons, and neutrinos are left out (`src/cluster.rs:31-38`). Seeds are selected with the default strategy
(`src/seeds.rs:33-37`). -/
def Opt.settings [Zero K] (o : Opt K V D) (distance : Event K V → Event K V → D) : CresSettings K V D where
  io := { o.io with ctx := { o.io.ctx with names := [] } }
  particles := o.particles
  clustering := ⟨o.jets, none, fun _ _ => false, false⟩
  search := o.search
  distance := distance
  maxCellSize := o.maxCellSize
  strategy := .mostNegative
  sortSeeds := o.sortSeeds
  minWeight := 0
  rng _ := 0
  infoLog := o.infoLog

/-- `Result<(), Error>` or a panic, with the message of the error. -/
def RunResult.of (message : MainError → List UInt8) : Outcome MainError Unit → RunResult
  | .ok () => .ok
  | .err e => .err (message e)
  | .panic => .panic

/-- `cres_run` (`src/c_api/cres.rs:121-134`) with `cres_run_internal` (`:136-145`) and `cres_run_with_dist` (`:147-155`): the
error of the thread before, and the weights passed to `update_all_weights`, the error afterwards, the return value and the
files. -/
inductive CRun [Zero D] [DistNum D] [Add K] [Zero K] [One K] [Mul K] [Div K] [NatCast K] [Neg K] [LinearOrder K]
    [LinearOrder V] (message : MainError → List UInt8)
    (o : Opt K V D) (cwd : List Bytes) (fs : FS (List Bytes)) (lastError : Option (List UInt8)) :
    Option (List (Weights K)) → Option (List UInt8) × Int → FS (List Bytes) → Prop
  | distance : o.distance = none → CRun message o cwd fs lastError none (cresRun .panic lastError) fs
  | run {dist ws res fs'} : o.distance = some dist → MainRun (o.settings dist) cwd o.outdir o.infiles fs ws res fs' →
      CRun message o cwd fs lastError ws (cresRun (RunResult.of message res) lastError) fs'

end CApi

end Cres

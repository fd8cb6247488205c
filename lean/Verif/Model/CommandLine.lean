import Verif.Model.Main
import Verif.Model.Options

/-!
Model of the options of `cres` (`src/bin/opt_cres.rs`, `src/bin/opt_common.rs`) and of their meaning (`src/bin/main.rs`), and of the
corresponding options in the C interface (`src/c_api/cres.rs`).

The options `compression` and `threads` are left out: compression is the subject of `Verif/Model/Compressed.lean`, and the number of
threads only restricts the order of steps in `Verif/Model/Concurrent.lean`.
-/

namespace Cres.Options

/-- `parse_strategy` (`src/bin/opt_cres.rs:12-20`) without the error message. -/
def parseStrategy (s : List Char) : Option Strategy :=
  if s = "Any".toList ∨ s = "any".toList then some .next
  else if s = "MostNegative".toList ∨ s = "most_negative".toList then some .mostNegative
  else if s = "LeastNegative".toList ∨ s = "least_negative".toList then some .leastNegative
  else none

/-- `from_str` for `JetAlgorithm` (`src/cluster.rs:194-205`) without the error message. -/
def parseJetAlgorithm (s : List Char) : Option JetAlgorithm :=
  if s = "anti_kt".toList ∨ s = "antikt".toList ∨ s = "anti-kt".toList then some .antiKt
  else if s = "kt".toList then some .kt
  else if s = "Cambridge/Aachen".toList ∨ s = "Cambridge-Aachen".toList ∨ s = "Cambridge_Aachen".toList ∨
      s = "cambridge/aachen".toList ∨ s = "cambridge-aachen".toList ∨ s = "cambridge_aachen".toList then some .cambridgeAachen
  else none

/-- `enum Search` (`src/bin/opt_cres.rs:34-38`, `src/c_api/cres.rs:71-76`). -/
inductive Search | tree | naive
deriving DecidableEq, Repr

/-- `struct Opt` (`src/bin/opt_cres.rs:54-151`), and `infoLog` if messages of level `info` are shown according to `loglevel`. -/
structure CresOpt (F : Type) (K : Type*) where
  outdir : Bytes
  jetDef : JetDefinition F
  objects : Opt F
  includeNeutrinos : Bool
  minweight : K
  seed : Nat
  ptweight : F
  infoLog : Bool
  search : Search
  strategy : Strategy
  maxCellSize : Option F
  weights : List Bytes
  infiles : List Bytes

/-- What a run depends on besides the options: build settings and file formats (`io`), libraries and the order of elements with
the same distance or weight. `distance` is `EuclWithScaledPt::new(n64(ptweight))` and `size` is `n64`; options that are not numbers are
left out. `random` is what the random number generator with the given seed yields. -/
structure Libraries (F : Type) (K V D : Type*) where
  io : IOConfig K V
  particles : Cluster.Particles
  jets : JetDefinition F → List V → List V
  isolated : PhotonDefinition F → V → List (ℤ × List V) → Bool
  distance : F → Event K V → Event K V → D
  size : F → D
  f64Max : D
  psort : SortOracle Nat D
  sort : SortOracle Nat D
  cornerPt : Nat
  minPos : MinOracle D
  sortSeeds : (Nat → K) → List Nat → List Nat
  random : Nat → Nat → K

variable {F : Type} {K V D : Type*}

/-- The neighbour search (`src/bin/main.rs:40-44`, `src/c_api/cres.rs:151-154`). -/
def Libraries.searchAlgo (l : Libraries F K V D) : Search → SearchAlgo D
  | .tree => .tree l.psort l.sort l.cornerPt l.f64Max
  | .naive => .naive l.minPos

/-- The settings in `cres_with_search` (`src/bin/main.rs:68-122`) and in `DefaultResampler::resample` (`src/resampler.rs:259-265`);
`none` is a panic. The maximum size of cells is `src/resampler.rs:81`. -/
def CresOpt.settings (o : CresOpt F K) (l : Libraries F K V D) : Option (CresSettings K V D) :=
  o.objects.clustering.map fun (lepton, photon) => {
    io := { l.io with ctx := { l.io.ctx with names := if l.io.ctx.multi then o.weights else [] } }
    particles := l.particles
    clustering := {
      jets := l.jets o.jetDef
      leptons := lepton.map l.jets
      isolated := match photon with
        | none => fun _ _ => false
        | some d => l.isolated d
      includeNeutrinos := o.includeNeutrinos }
    search := l.searchAlgo o.search
    distance := l.distance o.ptweight
    maxCellSize := (o.maxCellSize.map l.size).getD l.f64Max
    strategy := o.strategy
    sortSeeds := l.sortSeeds
    minWeight := o.minweight
    rng := l.random o.seed
    infoLog := o.infoLog }

/-- The errors of the program. -/
inductive CliError
  | validation (e : ValidationError)
  | main (e : MainError)
deriving DecidableEq, Repr

/-- `main` (`src/bin/main.rs:29-38`) after `Opt::parse_from`, and `cres` (`:40-47`): the weights passed to `update_all_weights` as far as the
run got, the result and the files in the end. -/
inductive CliRun [Zero D] [DistNum D] [Add K] [Zero K] [One K] [Mul K] [Div K] [NatCast K] [Neg K] [LinearOrder K]
    [LinearOrder V] (l : Libraries F K V D) (o : CresOpt F K) (cwd : List Bytes) (fs : FS (List Bytes)) :
    Option (List (Weights K)) → Outcome CliError Unit → FS (List Bytes) → Prop
  | invalid {e} : validate o.objects = .error e → CliRun l o cwd fs none (.err (.validation e)) fs
  | panic {objects} : validate o.objects = .ok objects → { o with objects := objects }.settings l = none →
      CliRun l o cwd fs none .panic fs
  | run {objects s ws res fs'} : validate o.objects = .ok objects → { o with objects := objects }.settings l = some s →
      MainRun s cwd o.outdir o.infiles fs ws res fs' → CliRun l o cwd fs ws (res.mapErr .main) fs'

/-- `struct Opt` (`src/c_api/cres.rs:27-55`). -/
structure COpt (F : Type) (K V D : Type*) where
  infiles : List Bytes
  outdir : Bytes
  distance : Option (Event K V → Event K V → D)
  ptweight : F
  jetDef : JetDefinition F
  neighbourSearch : Search
  maxCellSize : F

/-- What `cres_run_with` (`src/c_api/cres.rs:158-217`) makes of the options, in the form used in `Verif/Model/Main.lean`. `infoLog`: messages of level
`info` are shown. -/
def COpt.opt (o : COpt F K V D) (l : Libraries F K V D) (infoLog : Bool) : CApi.Opt K V D where
  infiles := o.infiles
  outdir := o.outdir
  customDistance := o.distance
  builtinDistance := some (l.distance o.ptweight)
  jets := l.jets o.jetDef
  particles := l.particles
  search := l.searchAlgo o.neighbourSearch
  maxCellSize := l.size o.maxCellSize
  io := l.io
  sortSeeds := l.sortSeeds
  infoLog := infoLog

end Cres.Options

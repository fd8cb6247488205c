import Verif.Model.CommandLine

/-!
Model of the objects with which the resampler is configured (`src/resampler.rs:113-351`) and of their use in the programs
(`src/bin/main.rs:90-96`, `src/c_api/cres.rs:199-203`).

A type parameter for the neighbour search is a field of type `Search`. The observer is `none` for `NoObserver`, `some c` for an observer
with the cell collector `c`. Numbers that are not allowed in `n64` are left out.
-/

namespace Cres.Builders

open Options

variable {F C Dist : Type*}

/-- `struct Resampler` (`src/resampler.rs:29-35`). The seeds are selected by `StrategicSelector` with the given strategy. -/
structure Resampler (F C Dist : Type*) where
  seeds : Strategy
  distance : Dist
  search : Search
  observer : Option (Option C)
  maxCellSize : Option F

/-- `struct ResamplerBuilder` (`src/resampler.rs:116-122`). -/
structure ResamplerBuilder (F C Dist : Type*) where
  seeds : Strategy
  distance : Dist
  search : Search
  observer : Option (Option C)
  maxCellSize : Option F

namespace ResamplerBuilder

/-- `default` (`src/resampler.rs:205-222`). The distance is the one for vanishing `ptweight` (`src/distance.rs:26-30`), and the strategy the
default (`src/seeds.rs:33-37`). -/
def default [Zero F] (eucl : F → Dist) : ResamplerBuilder F C Dist := ⟨.mostNegative, eucl 0, .tree, none, none⟩

/-- `seeds` (`src/resampler.rs:138-150`). -/
def setSeeds (v : Strategy) (b : ResamplerBuilder F C Dist) : ResamplerBuilder F C Dist :=
  ⟨v, b.distance, b.search, b.observer, b.maxCellSize⟩

/-- `distance` (`src/resampler.rs:153-164`). -/
def setDistance (v : Dist) (b : ResamplerBuilder F C Dist) : ResamplerBuilder F C Dist :=
  ⟨b.seeds, v, b.search, b.observer, b.maxCellSize⟩

/-- `observer` (`src/resampler.rs:167-178`). -/
def setObserver (v : Option (Option C)) (b : ResamplerBuilder F C Dist) : ResamplerBuilder F C Dist :=
  ⟨b.seeds, b.distance, b.search, v, b.maxCellSize⟩

/-- `neighbour_search` (`src/resampler.rs:181-189`). -/
def setSearch (v : Search) (b : ResamplerBuilder F C Dist) : ResamplerBuilder F C Dist :=
  ⟨b.seeds, b.distance, v, b.observer, b.maxCellSize⟩

/-- `max_cell_size` (`src/resampler.rs:194-202`). -/
def setMaxCellSize (v : Option F) (b : ResamplerBuilder F C Dist) : ResamplerBuilder F C Dist := { b with maxCellSize := v }

/-- `build` (`src/resampler.rs:127-135`). -/
def build (b : ResamplerBuilder F C Dist) : Resampler F C Dist := ⟨b.seeds, b.distance, b.search, b.observer, b.maxCellSize⟩

end ResamplerBuilder

/-- `struct DefaultResampler` (`src/resampler.rs:225-231`). -/
structure DefaultResampler (F C : Type*) where
  ptweight : F
  strategy : Strategy
  maxCellSize : Option F
  collector : Option C
  search : Search

/-- `struct DefaultResamplerBuilder` (`src/resampler.rs:283-289`). -/
structure DefaultResamplerBuilder (F C : Type*) where
  ptweight : F
  strategy : Strategy
  maxCellSize : Option F
  collector : Option C
  search : Search

namespace DefaultResamplerBuilder

/-- `default` (`src/resampler.rs:291-301`). -/
def default [Zero F] : DefaultResamplerBuilder F C := ⟨0, .mostNegative, none, none, .tree⟩

/-- `ptweight` (`src/resampler.rs:305-308`). -/
def setPtweight (v : F) (b : DefaultResamplerBuilder F C) : DefaultResamplerBuilder F C := { b with ptweight := v }

/-- `strategy` (`src/resampler.rs:311-314`). -/
def setStrategy (v : Strategy) (b : DefaultResamplerBuilder F C) : DefaultResamplerBuilder F C := { b with strategy := v }

/-- `max_cell_size` (`src/resampler.rs:317-320`). -/
def setMaxCellSize (v : Option F) (b : DefaultResamplerBuilder F C) : DefaultResamplerBuilder F C := { b with maxCellSize := v }

/-- `cell_collector` (`src/resampler.rs:323-329`). -/
def setCollector (v : Option C) (b : DefaultResamplerBuilder F C) : DefaultResamplerBuilder F C := { b with collector := v }

/-- `neighbour_search` (`src/resampler.rs:332-340`). -/
def setSearch (v : Search) (b : DefaultResamplerBuilder F C) : DefaultResamplerBuilder F C :=
  ⟨b.ptweight, b.strategy, b.maxCellSize, b.collector, v⟩

/-- `build` (`src/resampler.rs:343-351`). -/
def build (b : DefaultResamplerBuilder F C) : DefaultResampler F C := ⟨b.ptweight, b.strategy, b.maxCellSize, b.collector, b.search⟩

end DefaultResamplerBuilder

/-- The resampler in `DefaultResampler::resample` (`src/resampler.rs:243-265`). `eucl` is `EuclWithScaledPt::new`. -/
def DefaultResampler.resampler [Zero F] (eucl : F → Dist) (r : DefaultResampler F C) : Resampler F C Dist :=
  ((((ResamplerBuilder.default eucl |>.setSeeds r.strategy).setDistance (eucl r.ptweight)).setMaxCellSize r.maxCellSize).setObserver
    (some r.collector)).setSearch r.search |>.build

/-- The resampler of the command line program (`src/bin/main.rs:84-96`). -/
def cliResampler {F : Type} {K : Type*} [Zero F] (o : CresOpt F K) : DefaultResampler F C :=
  (((((DefaultResamplerBuilder.default (F := F) (C := C)).setMaxCellSize o.maxCellSize).setPtweight o.ptweight).setStrategy o.strategy).setCollector
    none).setSearch o.search |>.build

/-- The resampler of the C interface (`src/c_api/cres.rs:199-203`). -/
def cResampler [Zero F] (eucl : F → Dist) (maxCellSize : F) (distance : Dist) (search : Search) : Resampler F C Dist :=
  (((ResamplerBuilder.default eucl).setMaxCellSize (some maxCellSize)).setDistance distance).setSearch search |>.build

/-- `self.max_cell_size.unwrap_or(f64::MAX)` (`src/resampler.rs:81`), for a conversion of numbers to distances. -/
def Resampler.limit {D : Type*} (size : F → D) (f64Max : D) (r : Resampler F C Dist) : D := (r.maxCellSize.map size).getD f64Max

end Cres.Builders

/-!
Model of `src/progress_bar.rs`: the effect of progress bars on the global log level.
-/

namespace Cres.Progress

/-- `log::LevelFilter`. -/
inductive Level | off | error | warn | info | debug | trace
deriving DecidableEq, Repr

/-- `struct ProgressBar` (`src/progress_bar.rs:38-41`) without the indicator. -/
structure Bar where
  loggingDisabled : Bool
deriving DecidableEq, Repr

/-- `ProgressBar::new` (`src/progress_bar.rs:68-76`, `indicatif` `:78-92`, `logbar` `:94-104`): both kinds of bars disable
logging. -/
def Bar.new (level : Level) : Bar × Level := if level ≠ .info then (⟨false⟩, level) else (⟨true⟩, .off)

/-- `finish` (`src/progress_bar.rs:57-63`). -/
def Bar.finish (b : Bar) (level : Level) : Level := if b.loggingDisabled then .info else level

/-- What a program does with progress bars; bars are numbered in the order in which they are created. -/
inductive Op
  | create
  | finish (bar : Nat)
deriving DecidableEq, Repr

/-- The log level after a sequence of operations. -/
def run : List Op → List Bar → Level → Level
  | [], _, level => level
  | .create :: ops, bars, level => run ops (bars ++ [(Bar.new level).1]) (Bar.new level).2
  | .finish i :: ops, bars, level =>
    match bars[i]? with
    | some b => run ops bars (b.finish level)
    | none => run ops bars level

/-- `read_events` (`src/cres.rs:229-292`): the log level afterwards. There is only a bar if the number of events is `known`. The
bar is not finished after an error. -/
def readEvents (known ok : Bool) (level : Level) : Level :=
  let bl := if known then Bar.new level else (⟨false⟩, level)
  if ok then bl.1.finish bl.2 else bl.2

/-- `DefaultResampler::resample` (`src/resampler.rs:91-106`). -/
def resample (level : Level) : Level :=
  let bl := Bar.new level
  bl.1.finish bl.2

/-- `CombinedFileIO::update_all_weights` (`src/io.rs:596-618`): the bar is not finished after an error. -/
def updateAllWeights (ok : Bool) (level : Level) : Level :=
  let bl := Bar.new level
  if ok then bl.1.finish bl.2 else bl.2

/-- How a run ends. -/
inductive Outcome | readErr | unweightErr | updateErr | ok
deriving DecidableEq, Repr

/-- `Cres::run` (`src/cres.rs:181-227`): the log level afterwards. -/
def cresRun (known : Bool) (o : Outcome) (level : Level) : Level :=
  match o with
  | .readErr => readEvents known false level
  | .unweightErr => resample (readEvents known true level)
  | .updateErr => updateAllWeights false (resample (readEvents known true level))
  | .ok => updateAllWeights true (resample (readEvents known true level))

/-- `classify_byte_records` and `classify_ntuple_records` (`src/bin/classify-events.rs:126-151`, `:192-211`): the bar is never
finished. -/
def classify (known : Bool) (level : Level) : Level := (if known then Bar.new level else (⟨false⟩, level)).2

end Cres.Progress

import Verif.Model.Program

/-!
Model of resampling with distances that depend on weights, or on anything else that changes during the run.

`Distance::distance` (`src/distance.rs:14-27`) is given the events, including their weights. `DistanceFn::distance`
(`src/c_api/distance.rs:39-65`) passes pointers to the weights and to data of the user. Tasks look for neighbours
(`src/resampler.rs:94-105`) while other tasks change weights, so the value of the distance between two events depends on the
time of the evaluation.

For each seed the distance to another event is evaluated at most once: the naive search evaluates all distances at the start
(`src/neighbour_search.rs:95-103`), the tree search keeps them in a cache (`src/vptree.rs:359-361`). The tree is built before
weights change (`src/resampler.rs:80-87`).
-/

namespace Cres

variable {K V D P : Type*}

/-- The neighbours of a seed if the distance to event `i` is evaluated to `d i` (`src/neighbour_search.rs:95-103`,
`src/vptree.rs:345-416`). The tree is built with the distance `dist` for the weights in the input. -/
def SearchAlgo.nearestFor [Zero D] [DistNum D] (algo : SearchAlgo D) (dist : Event K V → Event K V → D) (maxDist : D)
    (events : List (Event K V)) (d : Nat → D) (seed : Nat) : List (Nat × D) :=
  match algo with
  | .naive minPos => naiveNearest minPos events.length (fun i _ => d i) maxDist seed
  | .tree psort sort cornerPt f64Max =>
    VPTree.nearest { (VPTree.parNew psort sort cornerPt f64Max (List.range events.length) (distWrapper dist events)).withMaxDist
      maxDist with dist := fun _ i => d i } seed

/-- State of parallel resampling, and for each seed the distances that were evaluated so far. For tasks that look for neighbours
(`Task.growing`) the list of neighbours that are found but not yet used is empty. -/
structure VState (D K : Type*) where
  core : State D K
  cache : Nat → Nat → Option D

/-- The values `d` of the distance agree with those that were evaluated (`src/vptree.rs:359-361`). -/
def Extends (cache : Nat → Option D) (d : Nat → D) : Prop := ∀ i v, cache i = some v → d i = v

/-- Initial state: nothing was evaluated (`src/vptree.rs:304-314`). -/
def VState.init (mem : Mem K) : VState D K := ⟨State.init mem, fun _ _ => none⟩

/-- Steps: the loop of `Cell::new` (`src/cell.rs:40-51`) takes the next neighbour when it is needed, and the search evaluates distances
for this (`src/neighbour_search.rs:98-104`, `src/vptree.rs:359-361`). Simplification: distances can be evaluated at any time, also if
they are not needed, which allows more interleavings than the code. All other steps are as in `step`. -/
inductive VStep [Zero D] [Add K] [Zero K] [One K] [Mul K] [Div K] [NatCast K] [LinearOrder K]
    (cfg : Cfg) (n : Nat) (search : (Nat → D) → Nat → List (Nat × D)) (seeds : List Nat) : VState D K → VState D K → Prop
  /-- A task evaluates a distance, with any result. -/
  | evaluate {s : VState D K} {seed i : Nat} {v : D} : s.cache seed i = none →
      VStep cfg n search seeds s ⟨s.core, Function.update s.cache seed (Function.update (s.cache seed) i (some v))⟩
  /-- A step that has nothing to do with neighbours. -/
  | other {s : VState D K} {core : State D K} {tid seed : Nat} : seeds[tid]? = some seed →
      (∀ c rest, s.core.tasks tid ≠ .growing c rest) → step cfg n (fun _ => []) seed s.core tid = some core →
      VStep cfg n search seeds s ⟨core, s.cache⟩
  /-- The next neighbour is found: the distances that were evaluated suffice to determine it. -/
  | next {s : VState D K} {core : State D K} {tid seed : Nat} {c : Cell D K} {x : Nat × D} : seeds[tid]? = some seed →
      s.core.tasks tid = .growing c [] →
      (∀ d, Extends (s.cache seed) d → (search d seed)[c.members.length - 1]? = some x) →
      step cfg n (fun _ => []) seed { s.core with tasks := Function.update s.core.tasks tid (.growing c [x]) } tid = some core →
      VStep cfg n search seeds s ⟨core, s.cache⟩
  /-- The distances that were evaluated suffice to determine that there are no more neighbours. -/
  | last {s : VState D K} {core : State D K} {tid seed : Nat} {c : Cell D K} : seeds[tid]? = some seed →
      s.core.tasks tid = .growing c [] →
      (∀ d, Extends (s.cache seed) d → (search d seed)[c.members.length - 1]? = none) →
      step cfg n (fun _ => []) seed s.core tid = some core →
      VStep cfg n search seeds s ⟨core, s.cache⟩

/-- The states that can be reached by any interleaving (`src/resampler.rs:94-105`). -/
inductive VReachable [Zero D] [Add K] [Zero K] [One K] [Mul K] [Div K] [NatCast K] [LinearOrder K]
    (cfg : Cfg) (n : Nat) (search : (Nat → D) → Nat → List (Nat × D)) (seeds : List Nat) (mem : Mem K) : VState D K → Prop
  | init : VReachable cfg n search seeds mem (VState.init mem)
  | step {s s' : VState D K} : VReachable cfg n search seeds mem s → VStep cfg n search seeds s s' →
      VReachable cfg n search seeds mem s'

namespace Varying

/-- Possible outcomes of `Resampler::resample` (`src/resampler.rs:72-114`). -/
inductive Resamples [Zero D] [Add K] [Zero K] [One K] [Mul K] [Div K] [NatCast K] [LinearOrder K] (p : Program K V D)
    (search : List (Event K V) → (Nat → D) → Nat → List (Nat × D)) (events : List (Event K V)) :
    Outcome IOError (List (Event K V)) → Prop
  | log : logSumsPanics p.cfg p.infoLog events = true → Resamples p search events .panic
  | task {s : VState D K} {t : Nat} : logSumsPanics p.cfg p.infoLog events = false →
      VReachable p.cfg events.length (search events) (p.seeds events) (memOf events) s → s.core.tasks t = .panicked →
      Resamples p search events .panic
  | ok {s : VState D K} : logSumsPanics p.cfg p.infoLog events = false →
      VReachable p.cfg events.length (search events) (p.seeds events) (memOf events) s → s.core.Finished (p.seeds events) →
      Resamples p search events (.ok (withWeights events s.core.mem))

/-- Possible weights that are passed to `update_all_weights` (`src/cres.rs:181-224`). -/
inductive ComputesWeights [Zero D] [Add K] [Zero K] [One K] [Mul K] [Div K] [NatCast K] [LinearOrder K] (p : Program K V D)
    (search : List (Event K V) → (Nat → D) → Nat → List (Nat × D)) (events : List (Event K V)) :
    Outcome (CresError IOError) (List (Weights K)) → Prop
  | mk {resampled : Outcome IOError (List (Event K V))} :
      Resamples p search (events.filter fun e => !e.outgoingByPid.isEmpty) resampled →
      ComputesWeights p search events (runWeights p.cfg p.infoLog (fun _ => resampled) p.unweight events)

/-- Possible outcomes of a run: like `Program.Run` (`src/io.rs:483-497`, `src/cres.rs:181-227`). -/
inductive Run [Zero D] [Add K] [Zero K] [One K] [Mul K] [Div K] [NatCast K] [LinearOrder K] [LinearOrder V] [DecidableEq P]
    (p : Program K V D) (search : List (Event K V) → (Nat → D) → Nat → List (Nat × D)) (files : List (P × P)) (fs : FS P) :
    Option (List (Event K V)) → Option (List (Weights K)) → Outcome (CresError IOError) Unit → FS P → Prop
  | createErr {e s fs'} : CombinedIO.new p.io files fs = (.err e, s, fs') → Run p search files fs none none (.err (.io e)) fs'
  | createPanic {s fs'} : CombinedIO.new p.io files fs = (.panic, s, fs') → Run p search files fs none none .panic fs'
  | readErr {s fs1 e x} : CombinedIO.new p.io files fs = (.ok (), s, fs1) → p.ReadsEvents s fs1 (.err e) x →
      Run p search files fs none none (.err e) x.2
  | readPanic {s fs1 x} : CombinedIO.new p.io files fs = (.ok (), s, fs1) → p.ReadsEvents s fs1 .panic x →
      Run p search files fs none none .panic x.2
  | weightsErr {s fs1 events e x} : CombinedIO.new p.io files fs = (.ok (), s, fs1) → p.ReadsEvents s fs1 (.ok events) x →
      ComputesWeights p search events (.err e) → Run p search files fs (some events) none (.err e) x.2
  | weightsPanic {s fs1 events x} : CombinedIO.new p.io files fs = (.ok (), s, fs1) → p.ReadsEvents s fs1 (.ok events) x →
      ComputesWeights p search events .panic → Run p search files fs (some events) none .panic x.2
  | update {s fs1 events ws x} : CombinedIO.new p.io files fs = (.ok (), s, fs1) → p.ReadsEvents s fs1 (.ok events) x →
      ComputesWeights p search events (.ok ws) →
      Run p search files fs (some events) (some ws) (((x.1.updateAll p.io ws x.2).1.mapErr CresError.io).map fun _ => ())
        (x.1.updateAll p.io ws x.2).2.2

end Varying

end Cres

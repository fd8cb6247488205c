import Verif.Model.Outcome
import Verif.Model.Unweight
import Verif.Model.Concurrent

/-!
Model of `Cres::run` (`src/cres.rs:181-293`): reading, resampling, unweighting and passing on the new weights.

The components are parameters, as in the code: `convert` is the `TryConvert`, `cluster` the `Clustering`, `resample` the
`Resample` and `unweight` the `Unweight` implementation. Any of them may fail or panic.
-/

namespace Cres

variable {E R K V : Type*}

/-- `enum CresError` (`src/cres.rs:126-146`). -/
inductive CresError (E : Type*)
  | io (e : E)
  | conversion (e : E)
  | cluster (e : E)
  | id (n : Nat)
  | resampling (e : E)
  | unweight (e : E)
deriving DecidableEq, Repr

/-! ### reading -/

/-- Conversion, clustering and setting the id (`src/cres.rs:257-266`, `:271-284`). -/
def convertRecord (convert : R → Outcome E (Event K V)) (cluster : Event K V → Outcome E (Event K V)) (id : Nat)
    (record : R) : Outcome (CresError E) (Event K V) :=
  ((convert record).mapErr .conversion).bind fun ev =>
    ((cluster ev).mapErr .cluster).bind fun ev =>
      if ev.id ≠ 0 then .err (.id ev.id) else .ok { ev with id := id }

/-- State of `read_events` (`src/cres.rs:229-292`): number of items taken from the event reader, tasks that were spawned
and have not finished, the vector `events`, whether and with which error the loop on the main thread has ended, and
whether anything has panicked. -/
structure ReadState (E R K V : Type*) where
  next : Nat
  pending : List (Nat × R)
  pushed : List (Except (CresError E) (Event K V))
  stopped : Option (Option (CresError E))
  panicked : Bool

def ReadState.init : ReadState E R K V := ⟨0, [], [], none, false⟩

/-- What happens next: the main thread continues its loop, or the spawned task at the given position among those not
finished runs. -/
inductive ReadAction
  | main
  | task (k : Nat)
deriving DecidableEq, Repr

/-- One step of reading. `items` is what the reader yields. `sequential` tells which records are converted on the main
thread (ntuple events). A task works on its own record only, so that it is a single step; `push` is protected by a
mutex. The steps of tasks can come in any order relative to each other and to the main thread. -/
def readStep (convert : R → Outcome E (Event K V)) (cluster : Event K V → Outcome E (Event K V)) (sequential : R → Bool)
    (items : List (Except E R)) (s : ReadState E R K V) : ReadAction → Option (ReadState E R K V)
  | .main =>
    match s.stopped with
    | some _ => none
    | none =>
      match items[s.next]? with
      | none => some { s with stopped := some none }
      | some (.error e) => some { s with stopped := some (some (.io e)) }
      | some (.ok record) =>
        if sequential record then
          match convertRecord convert cluster s.next record with
          | .ok ev => some { s with next := s.next + 1, pushed := s.pushed ++ [.ok ev] }
          | .err e => some { s with stopped := some (some e) }
          | .panic => some { s with stopped := some none, panicked := true }
        else some { s with next := s.next + 1, pending := s.pending ++ [(s.next, record)] }
  | .task k =>
    match s.pending[k]? with
    | none => none
    | some (id, record) =>
      match convertRecord convert cluster id record with
      | .ok ev => some { s with pending := s.pending.eraseIdx k, pushed := s.pushed ++ [.ok ev] }
      | .err e => some { s with pending := s.pending.eraseIdx k, pushed := s.pushed ++ [.error e] }
      | .panic => some { s with pending := s.pending.eraseIdx k, panicked := true }

/-- States that reading can reach. -/
inductive ReadReachable (convert : R → Outcome E (Event K V)) (cluster : Event K V → Outcome E (Event K V))
    (sequential : R → Bool) (items : List (Except E R)) : ReadState E R K V → Prop
  | init : ReadReachable convert cluster sequential items .init
  | step {s s' : ReadState E R K V} {a : ReadAction} : ReadReachable convert cluster sequential items s →
      readStep convert cluster sequential items s a = some s' → ReadReachable convert cluster sequential items s'

/-- The scope (`src/cres.rs:247`) ends when the loop has ended and all tasks have finished. -/
def ReadState.Finished (s : ReadState E R K V) : Prop := s.stopped.isSome = true ∧ s.pending = []

/-- `into_iter().collect()` (`src/cres.rs:292`) for `Result`: the first error, or all events. -/
def collectEvents : List (Except (CresError E) (Event K V)) → Outcome (CresError E) (List (Event K V))
  | [] => .ok []
  | .error e :: _ => .err e
  | .ok ev :: rest => (collectEvents rest).map (ev :: ·)

/-- What `read_events` returns in the end: a panic is passed on by the scope, an error of the loop is returned at
`src/cres.rs:289`, otherwise the events are collected. -/
def ReadState.result (s : ReadState E R K V) : Outcome (CresError E) (List (Event K V)) :=
  if s.panicked then .panic
  else
    match s.stopped with
    | some (some e) => .err e
    | _ => collectEvents s.pushed

/-! ### running -/

/-- `Weights::default()` (`src/event.rs:192-221`, derived): no weights with `multiweight`, weight zero without. -/
def defaultWeights [Zero K] (cfg : Cfg) : Weights K := if cfg.multi then [] else [0]

/-- Order of events (`src/event.rs:119-131`, derived): by id, then by outgoing particles. `par_sort_unstable`
(`src/cres.rs:201`) is modelled by a sort by id; events with equal ids do not occur. -/
def sortById (events : List (Event K V)) : List (Event K V) := events.insertionSort (fun a b => a.id ≤ b.id)

/-- The loop `weights[event.id] = event.weights.into_inner()` (`src/cres.rs:221-223`); `none` is the panic of an index out
of range. -/
def setWeights : List (Event K V) → List (Weights K) → Option (List (Weights K))
  | [], ws => some ws
  | e :: es, ws => if e.id < ws.length then setWeights es (ws.set e.id e.weights) else none

/-- Computing and logging the sums of weights (`src/cres.rs:203-218`, `src/resampler.rs:39-53`) panics if an event has no
weights. If messages at level `info` are shown the fraction of negative weights is computed, which is `0 / 0` if the
absolute weights `sum - 2 * negative sum` are zero; in debug builds this panics. (With rounding the result can depend on the
order of the parallel sums.) -/
def logSumsPanics [Add K] [Zero K] [LinearOrder K] (cfg : Cfg) (infoLog : Bool) (events : List (Event K V)) : Bool :=
  match events.mapM Event.weight with
  | none => true
  | some ws => cfg.debug && infoLog && decide (ws.sum = (ws.filter (· < 0)).sum + (ws.filter (· < 0)).sum)

/-- `Cres::run` from line 186 on (`src/cres.rs:186-224`), up to the call of `update_all_weights`: the weights that are
passed to it. -/
def runWeights [Add K] [Zero K] [LinearOrder K] (cfg : Cfg) (infoLog : Bool)
    (resample unweight : List (Event K V) → Outcome E (List (Event K V))) (events : List (Event K V)) :
    Outcome (CresError E) (List (Weights K)) :=
  let nevents := events.length
  let events := events.filter (fun e => !e.outgoingByPid.isEmpty)
  ((resample events).mapErr .resampling).bind fun events =>
    ((unweight events).mapErr .unweight).bind fun events =>
      let events := sortById events
      if logSumsPanics cfg infoLog events then .panic
      else .ofOption (setWeights events (List.replicate nevents (defaultWeights cfg)))

/-- `Cres::run` (`src/cres.rs:181-227`) after reading; `update` is `update_all_weights`. -/
def runAfterRead [Add K] [Zero K] [LinearOrder K] (cfg : Cfg) (infoLog : Bool)
    (resample unweight : List (Event K V) → Outcome E (List (Event K V)))
    (update : List (Weights K) → Outcome E Nat) (events : List (Event K V)) : Outcome (CresError E) Unit :=
  (runWeights cfg infoLog resample unweight events).bind fun ws => ((update ws).mapErr .io).map (fun _ => ())

/-! ### the default components -/

/-- The weights of the events of a sample, by index. -/
def memOf (events : List (Event K V)) : Mem K := fun i => (events[i]?.map Event.weights).getD []

/-- Events with new weights. -/
def withWeights (events : List (Event K V)) (mem : Mem K) : List (Event K V) :=
  events.mapIdx (fun i e => { e with weights := mem i })

/-- Possible results of `Resampler::resample` (`src/resampler.rs:72-114`): the seeds are processed concurrently, in any
interleaving. -/
def ResampledTo {D : Type*} [Zero D] [Add K] [Zero K] [One K] [Mul K] [Div K] [NatCast K] [LinearOrder K]
    (cfg : Cfg) (nearest : Nat → List (Nat × D))
    (seeds : List Nat) (events events' : List (Event K V)) : Prop :=
  ∃ s : State D K, Reachable cfg events.length nearest seeds (memOf events) s ∧ s.Finished seeds ∧
    events' = withWeights events s.mem

/-- `Unweighter::unweight` in the form expected by `run`. Weights that are not finite are not covered by the model of
`run`; this case is treated as panic. -/
def unweightStep [Add K] [Zero K] [Mul K] [Div K] [Neg K] [LinearOrder K] (debug : Bool) (minWt : K) (rng : Nat → K) (events : List (Event K V)) :
    Outcome E (List (Event K V)) :=
  match unweight debug minWt rng events with
  | .ok evs => .ok evs
  | .panic => .panic
  | .nonFinite _ => .panic

end Cres

import Verif.Model.Resample
import Mathlib.Logic.Function.Basic

/-!
Model of parallel resampling (`src/resampler.rs:94-105`, `src/cell.rs`, locks in `src/event.rs`): one task per seed, and the
tasks take their steps in any order. rayon distributes the tasks over its worker threads; each worker executes one task
at a time. As nothing is assumed about the order of steps, this includes all schedules for any number of threads.

A step is a single read of a weight, the acquisition of one lock, a single write or the release of one lock. Every event
has its own `parking_lot::RwLock` (`src/event.rs:128`). A read takes the lock for reading, copies the value and releases
it; it is possible only while nobody holds the lock for writing. A write lock is acquired only while nobody holds it; a
task waiting for a lock it holds itself waits forever. Memory is sequentially consistent (the locks order all accesses).

A task that panics stops without releasing its locks; it is shown that this does not happen for valid input.
-/

namespace Cres

variable {D K : Type*}

/-- State of the task for one seed. -/
inductive Task (D K : Type*)
  /-- before the check `events[seed].weight() > 0.` (`src/resampler.rs:96`) -/
  | waiting
  /-- the check was passed; before `events[seed_idx].weight()` in `Cell::new` (`src/cell.rs:32`) -/
  | checked
  /-- in the loop of `Cell::new` (`src/cell.rs:40-51`): the cell so far and the neighbours not yet considered -/
  | growing (c : Cell D K) (rest : List (Nat × D))
  /-- in `write_lock_weights` (`src/cell.rs:141-146`): locks held and locks still to acquire, in this order -/
  | locking (c : Cell D K) (held todo : List Nat)
  /-- computing the sum of weights (`src/cell.rs:73-82`, `:103-105`): sum so far and members still to read -/
  | reading (c : Cell D K) (acc : Option (Weights K)) (todo : List Nat)
  /-- writing the average (`src/cell.rs:83-86`, `:106-108`): members still to write, in this order -/
  | writing (c : Cell D K) (avg : Weights K) (todo : List Nat)
  /-- dropping the guards at the end of `Cell::resample` (`src/cell.rs:87`): locks still to release -/
  | releasing (c : Cell D K) (todo : List Nat)
  /-- finished, with the cell if one was made -/
  | done (c : Option (Cell D K))
  | panicked
deriving DecidableEq

/-- State of parallel resampling. `log` is not part of the program state; it records the cells in the order in which they
finished acquiring their locks. -/
structure State (D K : Type*) where
  mem : Mem K
  owner : Nat → Option Nat
  tasks : Nat → Task D K
  log : List (Cell D K)

/-- Initial state: no locks held, no task started. -/
def State.init (mem : Mem K) : State D K := ⟨mem, fun _ => none, fun _ => .waiting, []⟩

section

variable [Zero D] [Add K] [Zero K] [One K] [Mul K] [Div K] [NatCast K] [LinearOrder K]

/-- Adding the weights of one more member (`src/cell.rs:75-78`; `src/cell.rs:103-104`). -/
def accumulate (cfg : Cfg) (acc : Option (Weights K)) (w : Weights K) : Option (Weights K) :=
  if cfg.multi then
    match acc with
    | none => some w
    | some a => a.addAssign w
  else
    match w.central with
    | none => none
    | some x =>
      match acc with
      | none => some [0 + x]
      | some a => some (a.map (· + x))

/-- Normalisation of the sum (`src/cell.rs:79-82`; `src/cell.rs:105`). -/
def normalise (cfg : Cfg) (nmembers : Nat) (s : Weights K) : Weights K :=
  if cfg.multi then s.map (· * (1 / (nmembers : K))) else s.map (· / (nmembers : K))

/-- The order of writing: with `multiweight` the first member comes last (`src/cell.rs:83-86`), otherwise in order
(`src/cell.rs:106-108`). -/
def writeOrder (cfg : Cfg) (members : List Nat) : List Nat :=
  if cfg.multi then members.tail ++ members.take 1 else members

/-- Start of `Cell::resample`: sort the members, then acquire locks (`src/cell.rs:71-72`, `:100-101`). -/
def startResample (c : Cell D K) : Task D K := .locking c.sortMembers [] c.sortMembers.members

/-- A step of task `tid` for the seed `seed`; `none` if the task has to wait or has ended. -/
def step (cfg : Cfg) (n : Nat) (nearest : Nat → List (Nat × D)) (seed : Nat) (s : State D K) (tid : Nat) :
    Option (State D K) :=
  let upd (t : Task D K) : State D K := { s with tasks := Function.update s.tasks tid t }
  match s.tasks tid with
  | .waiting =>
    if (s.owner seed).isSome then none else
    match weightAt n s.mem seed with
    | none => some (upd .panicked)
    | some w => if 0 < w then some (upd (.done none)) else some (upd .checked)
  | .checked =>
    if (s.owner seed).isSome then none else
    match weightAt n s.mem seed with
    | none => some (upd .panicked)
    | some w =>
      if cfg.debug ∧ ¬ w < 0 then some (upd .panicked)
      else some (upd (.growing ⟨[seed], 0, w⟩ (nearest seed)))
  | .growing c [] => some (upd (startResample c))
  | .growing c ((i, d) :: rest) =>
    if (s.owner i).isSome then none else
    match weightAt n s.mem i with
    | none => some (upd .panicked)
    | some w =>
      let c' : Cell D K := ⟨c.members ++ [i], d, c.weightSum + w⟩
      if 0 ≤ c'.weightSum then some (upd (startResample c')) else some (upd (.growing c' rest))
  | .locking _ _ [] => some (upd .panicked)
  | .locking c held (e :: todo) =>
    if (s.owner e).isSome then none
    else if todo.isEmpty then
      some { s with
        owner := Function.update s.owner e (some tid)
        tasks := Function.update s.tasks tid (.reading c none c.members)
        log := s.log ++ [c] }
    else
      some { s with
        owner := Function.update s.owner e (some tid)
        tasks := Function.update s.tasks tid (.locking c (held ++ [e]) todo) }
  | .reading _ _ [] => some (upd .panicked)
  | .reading c acc (e :: todo) =>
    match accumulate cfg acc (s.mem e) with
    | none => some (upd .panicked)
    | some a =>
      let t := if todo.isEmpty then Task.writing c (normalise cfg c.members.length a) (writeOrder cfg c.members)
        else Task.reading c (some a) todo
      -- `std::mem::take(first.deref_mut())` (`src/cell.rs:75`)
      let mem := if cfg.multi ∧ acc = none then Function.update s.mem e [] else s.mem
      some { s with mem := mem, tasks := Function.update s.tasks tid t }
  | .writing _ _ [] => some (upd .panicked)
  | .writing c avg (e :: todo) =>
    if cfg.multi then
      -- `copy_from_slice` panics for different lengths; the first member is assigned instead
      if e ∈ c.members.tail ∧ (s.mem e).length ≠ avg.length then some (upd .panicked)
      else
        let t := if todo.isEmpty then Task.releasing c c.members else Task.writing c avg todo
        some { s with mem := Function.update s.mem e avg, tasks := Function.update s.tasks tid t }
    else
      -- the guard is dropped at the end of each iteration
      let t := if todo.isEmpty then Task.done (some c) else Task.writing c avg todo
      some { s with
        mem := Function.update s.mem e avg
        owner := Function.update s.owner e none
        tasks := Function.update s.tasks tid t }
  | .releasing c [] => some (upd (.done (some c)))
  | .releasing c (e :: todo) =>
    let t := if todo.isEmpty then Task.done (some c) else Task.releasing c todo
    some { s with owner := Function.update s.owner e none, tasks := Function.update s.tasks tid t }
  | .done _ => none
  | .panicked => none

/-- The events whose lock a task holds: the guards collected in `write_lock_weights` live until the end of
`Cell::resample` with `multiweight` (`src/cell.rs:72-87`), and until the weight has been written otherwise
(`src/cell.rs:106-108`, the loop consumes the guards). -/
def heldBy (cfg : Cfg) : Task D K → List Nat
  | .locking _ held _ => held
  | .reading c _ _ => c.members
  | .writing c _ todo => if cfg.multi then c.members else todo
  | .releasing _ todo => todo
  | _ => []

/-- The event whose weight a task reads in its next step without holding its lock for writing
(`src/resampler.rs:96`, `src/cell.rs:32`, `src/cell.rs:45`). -/
def Task.readsNext (seed : Nat) : Task D K → Option Nat
  | .waiting => some seed
  | .checked => some seed
  | .growing _ ((i, _) :: _) => some i
  | _ => none

/-- The task has begun and not yet ended. -/
def Task.Running : Task D K → Prop
  | .waiting => False
  | .done _ => False
  | .panicked => False
  | _ => True

/-- A step of the whole resampler: task `tid` belongs to the seed at position `tid` of the list of seeds. -/
def stepAll (cfg : Cfg) (n : Nat) (nearest : Nat → List (Nat × D)) (seeds : List Nat) (s : State D K) (tid : Nat) :
    Option (State D K) :=
  match seeds[tid]? with
  | none => none
  | some seed => step cfg n nearest seed s tid

/-- The states that can be reached from the initial state by any interleaving of steps. -/
inductive Reachable (cfg : Cfg) (n : Nat) (nearest : Nat → List (Nat × D)) (seeds : List Nat) (mem : Mem K) :
    State D K → Prop
  | init : Reachable cfg n nearest seeds mem (State.init mem)
  | step {s s' : State D K} {tid : Nat} : Reachable cfg n nearest seeds mem s →
      stepAll cfg n nearest seeds s tid = some s' → Reachable cfg n nearest seeds mem s'

/-- Execution of a schedule; `none` if a scheduled task cannot take a step. -/
def runSchedule (cfg : Cfg) (n : Nat) (nearest : Nat → List (Nat × D)) (seeds : List Nat) :
    List Nat → State D K → Option (State D K)
  | [], s => some s
  | tid :: sched, s =>
    match stepAll cfg n nearest seeds s tid with
    | none => none
    | some s' => runSchedule cfg n nearest seeds sched s'

/-- The schedule of a single thread, which processes the seeds one after the other (`src/resampler.rs:94` in a thread pool of
one thread): task `t` takes `ks[0]` steps, then task `t + 1` takes `ks[1]` steps, and so on. -/
def serialSchedule : Nat → List Nat → List Nat
  | _, [] => []
  | t, k :: ks => List.replicate k t ++ serialSchedule (t + 1) ks

/-- All tasks have ended. -/
def State.Finished (seeds : List Nat) (s : State D K) : Prop := ∀ tid < seeds.length, ∃ c, s.tasks tid = .done c

end

end Cres

import Verif.Model.CApi

/-!
Calls of the C interface in a process with any number of threads (`src/c_api/error.rs`, `src/c_api/log.rs`, `src/c_api/cres.rs`).

Simplifications: a call of `cres_run` is one step, as it accesses the common state only at its end. The panic message of Rust on standard error
and the log itself are not modelled. `LAST_ERROR` is borrowed only for the duration of a copy or an assignment, so borrowing never
fails. `cres_get_last_err` and `cres_print_last_err` cannot panic then.
-/

namespace Cres.CApi

/-- A call of the C interface. -/
inductive Call
  /-- `cres_run` and how it ends -/
  | run (r : RunResult)
  /-- `cres_logger_from_env` with the bytes of the C string -/
  | logger (name : List UInt8)
  /-- `cres_get_last_err`, the memory at the buffer before the call and the length -/
  | getLastErr (mem : Buf) (buflen : Nat)
  /-- `cres_print_last_err` -/
  | printLastErr

/-- What the caller learns: the return value (0 if there is none), the memory at the buffer and what is printed on standard error. -/
structure Answer where
  ret : Int
  buf : Option Buf
  printed : List UInt8

/-- The state: `LAST_ERROR` of each thread (`src/c_api/error.rs:6-10`, it is thread local) and whether a logger has been set, which is common
to all threads. -/
structure Process where
  lastError : Nat → Option (List UInt8)
  logger : Bool

/-- The start of a process in which no other code sets a logger. -/
def Process.init : Process := ⟨fun _ => none, false⟩

/-- `OsStr::to_str().is_some()`. -/
def isUtf8 (name : List UInt8) : Bool := (ByteArray.mk name.toArray).validateUTF8

/-- `cres_logger_from_env` (`src/c_api/log.rs:24-42`). `unwrap` panics for names that are not utf8, and `env_logger::init_from_env` panics if a logger
has been set before. -/
def loggerFromEnv (p : Process) (t : Nat) (name : List UInt8) : Process × Int :=
  if isUtf8 name && !p.logger then
    ({ p with logger := true }, 0)
  else
    ({ p with lastError := Function.update p.lastError t (some panicMsg) }, -1)

/-- A call in thread `t`. `cres_print_last_err` is `src/c_api/error.rs:18-26`, `cres_get_last_err` is `:38-47`, `cres_run` is
`src/c_api/cres.rs:121-134`. -/
def Process.call (p : Process) (t : Nat) : Call → Process × Answer
  | .run r =>
    let (e, ret) := cresRun r (p.lastError t)
    ({ p with lastError := Function.update p.lastError t e }, ⟨ret, none, []⟩)
  | .logger name =>
    let (p, ret) := loggerFromEnv p t name
    (p, ⟨ret, none, []⟩)
  | .getLastErr mem buflen =>
    let (buf, ret) := lastErr (p.lastError t) mem buflen
    (p, ⟨ret, some buf, []⟩)
  | .printLastErr =>
    (p, ⟨0, none, match p.lastError t with | some msg => msg ++ [10] | none => []⟩)

/-- A sequence of calls in the given threads: the process afterwards and the history with all return values. -/
def Process.calls (p : Process) : List (Nat × Call) → Process × List (Nat × Call × Int)
  | [] => (p, [])
  | (t, c) :: cs =>
    let (p', a) := p.call t c
    let (p'', h) := p'.calls cs
    (p'', (t, c, a.ret) :: h)

end Cres.CApi

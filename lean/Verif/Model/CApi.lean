import Mathlib.Data.Int.Order.Basic
import Verif.Model.Event

/-!
Model of the C interface: error messages (`src/c_api/error.rs`), results of `cres_run` (`src/c_api/cres.rs`) and the view into
events that is passed to distance functions (`src/c_api/event.rs`, `src/c_api/distance.rs`).
-/

namespace Cres.CApi

/-! ### Error messages -/

/-- The conversion `as i32`. -/
def asI32 (n : Nat) : Int := Int.bmod n (2 ^ 32)

/-- The memory at the buffer: the byte at each offset. -/
abbrev Buf := Nat → UInt8

/-- `copy_nonoverlapping` of the first `len` bytes of a message to the start of the buffer. -/
def copyTo (msg : List UInt8) (len : Nat) (mem : Buf) : Buf := fun k => if k < len then msg.getD k 0 else mem k

/-- `cres_last_err_internal` (`src/c_api/error.rs:49-76`); the memory after the call and the return value. -/
def lastErr (err : Option (List UInt8)) (mem : Buf) (buflen : Nat) : Buf × Int :=
  match err with
  | some msg =>
    if buflen = 0 then (mem, asI32 (1 + msg.length))
    else
      let len := min msg.length (buflen - 1)
      let mem := Function.update (copyTo msg len mem) len 0
      if buflen ≤ msg.length then (mem, asI32 (1 + msg.length)) else (mem, 0)
  | none => (mem, 0)

/-- How a call of `cres_run_internal` ends. -/
inductive RunResult
  | ok
  | err (msg : List UInt8)
  | panic
deriving DecidableEq, Repr

/-- The message for a panic: `{:?}` of the payload, which is a `Box<dyn Any + Send>`. -/
def panicMsg : List UInt8 := "panic: Any { .. }".toUTF8.toList

/-- `cres_run` (`src/c_api/cres.rs:121-134`): the new value of `LAST_ERROR` of the thread and the return value. -/
def cresRun (r : RunResult) (lastError : Option (List UInt8)) : Option (List UInt8) × Int :=
  match r with
  | .ok => (lastError, 0)
  | .err msg => (some msg, 1)
  | .panic => (some panicMsg, -1)

/-! ### Views of events -/

/-- Memory in units of 64-bit words. -/
abbrev Words := Nat → Nat

/-- `struct TypeSetView` (`src/c_api/event.rs:28-43`) and `TypeSet`: the pointer and the length are those of a vector, they are
modelled by the list of elements. -/
structure TypeSetView (V : Type*) where
  pid : ℤ
  momenta : List V
deriving DecidableEq, Repr

/-- `struct EventView` (`src/c_api/event.rs:9-25`). `weights` is an address, `type_sets` and `n_type_sets` are the pointer
and the length of a vector and modelled by the list of elements. -/
structure EventView (V : Type*) where
  id : Nat
  weights : Nat
  nWeights : Nat
  typeSets : List (TypeSetView V)
deriving DecidableEq, Repr

/-- How the `Weights` (`src/event.rs:191-221`) of an event are stored, `addr` is the address of the object itself. With
`multiweight` it is a `Box<[N64]>`, i.e. the address and the number of weights which are stored on the heap. Otherwise it
is the weight. `bits` is the binary representation of a number. -/
def Stored {K : Type*} (bits : K → Nat) (multi : Bool) (mem : Words) (addr : Nat) (weights : List K) : Prop :=
  if multi then
    mem (addr + 1) = weights.length ∧ ∀ i w, weights[i]? = some w → mem (mem addr + i) = bits w
  else
    ∃ w, weights = [w] ∧ mem addr = bits w

/-- The view that is created in `DistanceFn::distance` (`src/c_api/distance.rs:39-65`, `extract_typesets` `:67-79`) for an
event whose `Weights` are stored at `addr`: `data_ptr()` of the lock is the address of the object. -/
def viewEvent {K V : Type*} (addr : Nat) (e : Event K V) : EventView V :=
  ⟨e.id, addr, e.nWeights, e.outgoingByPid.map fun x => ⟨x.1, x.2⟩⟩

/-- `view->weights[i]` in C; `value` is the number with the given binary representation. -/
def EventView.weight {K V : Type*} (value : Nat → K) (mem : Words) (v : EventView V) (i : Nat) : K := value (mem (v.weights + i))

/-- `From<EventView> for Event` (`src/c_api/event.rs:79-114`). -/
def EventView.toEvent {K V : Type*} [Zero K] [LinearOrder V] (multi : Bool) (value : Nat → K) (mem : Words) (v : EventView V) : Event K V :=
  let b : EventBuilder K V := (List.range v.nWeights).foldl (fun b i => b.addWeight multi (v.weight value mem i)) (EventBuilder.new multi)
  let b := v.typeSets.foldl (fun b t => t.momenta.foldl (fun b p => b.addOutgoing t.pid p) b) b
  { b.build with id := v.id }

end Cres.CApi

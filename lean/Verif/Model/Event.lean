import Mathlib.Data.List.Sort
import Mathlib.Data.Int.Order.Basic
import Mathlib.Data.Prod.Lex
import Verif.Model.Resample

/-!
Model of `src/event.rs`: building events and access to outgoing particles. Momenta are elements of a linearly ordered
type `V`, particle ids are integers.
-/

namespace Cres

variable {K V : Type*}

/-- `struct EventBuilder` (`src/event.rs:23-27`). Without `multiweight` the weight is a list with one entry. -/
structure EventBuilder (K V : Type*) where
  weights : List K
  outgoingByPid : List (ℤ × V)
deriving DecidableEq, Repr

/-- `EventBuilder::new` (`src/event.rs:32-37`), also `with_capacity`. The default weights are empty with `multiweight`,
zero without. -/
def EventBuilder.new [Zero K] (multi : Bool) : EventBuilder K V := ⟨if multi then [] else [0], []⟩

/-- `add_outgoing` (`src/event.rs:50-57`). -/
def EventBuilder.addOutgoing (b : EventBuilder K V) (pid : ℤ) (p : V) : EventBuilder K V :=
  { b with outgoingByPid := b.outgoingByPid ++ [(pid, p)] }

/-- `add_weight` (`src/event.rs:62-70`). -/
def EventBuilder.addWeight (multi : Bool) (b : EventBuilder K V) (w : K) : EventBuilder K V :=
  { b with weights := if multi then b.weights ++ [w] else [w] }

/-- `rescale_energies` (`src/event.rs:73-78`); `mul` multiplies the components of a momentum. -/
def EventBuilder.rescaleEnergies (mul : V → V) (b : EventBuilder K V) : EventBuilder K V :=
  { b with outgoingByPid := b.outgoingByPid.map (fun x => (x.1, mul x.2)) }

/-- `struct Event` (`src/event.rs:120-131`). -/
structure Event (K V : Type*) where
  id : Nat
  weights : List K
  outgoingByPid : List (ℤ × List V)
deriving DecidableEq, Repr

/-- One iteration of the loop in `compress_outgoing` (`src/event.rs:105-110`): append to the last group or start a new
one. -/
def compressStep (groups : List (ℤ × List V)) (x : ℤ × V) : List (ℤ × List V) :=
  match groups.getLast? with
  | some (pid, v) => if pid = x.1 then groups.dropLast ++ [(pid, v ++ [x.2])] else groups ++ [(x.1, [x.2])]
  | none => [(x.1, [x.2])]

/-- Comparison of `(ParticleID, FourVector)` tuples, lexicographic. -/
def tupleLE [LinearOrder V] (a b : ℤ × V) : Prop := a.1 < b.1 ∨ (a.1 = b.1 ∧ a.2 ≤ b.2)

instance [LinearOrder V] : DecidableRel (tupleLE (V := V)) := fun a b => by unfold tupleLE; infer_instance

/-- `compress_outgoing` (`src/event.rs:100-117`): sort descending, then group. The order is total, so the result of the
(unstable) sort does not depend on the algorithm. -/
def compressOutgoing [LinearOrder V] (out : List (ℤ × V)) : List (ℤ × List V) :=
  (out.insertionSort (fun a b => tupleLE b a)).foldl compressStep []

/-- `EventBuilder::build` (`src/event.rs:81-91`). -/
def EventBuilder.build [LinearOrder V] (b : EventBuilder K V) : Event K V :=
  ⟨0, b.weights, compressOutgoing b.outgoingByPid⟩

/-- The loop of `[T]::binary_search_by` of the standard library; `left` and `right` bound the range that is left. -/
def binarySearchLoop {α : Type*} (f : α → Ordering) (l : List α) : Nat → Nat → Nat → Option Nat
  | 0, _, _ => none
  | fuel + 1, left, right =>
    if left < right then
      let mid := left + (right - left) / 2
      match l[mid]? with
      | none => none
      | some x =>
        match f x with
        | .lt => binarySearchLoop f l fuel (mid + 1) right
        | .gt => binarySearchLoop f l fuel left mid
        | .eq => some mid
    else none

/-- `[T]::binary_search_by`, the index if found. -/
def binarySearchBy {α : Type*} (f : α → Ordering) (l : List α) : Option Nat := binarySearchLoop f l (l.length + 1) 0 l.length

/-- `outgoing_with_pid` (`src/event.rs:158-167`). -/
def Event.outgoingWithPid (e : Event K V) (pid : ℤ) : List V :=
  match binarySearchBy (fun probe => compare pid probe.1) e.outgoingByPid with
  | some idx => (e.outgoingByPid[idx]?.map Prod.snd).getD []
  | none => []

/-- `weight` (`src/event.rs:170-172`). -/
def Event.weight (e : Event K V) : Option K := Weights.central e.weights

/-- `n_weights` (`src/event.rs:180-182`). -/
def Event.nWeights (e : Event K V) : Nat := e.weights.length

/-- `rescale_weights` (`src/event.rs:185-189`). -/
def Event.rescaleWeights [Mul K] (e : Event K V) (scale : K) : Event K V :=
  { e with weights := e.weights.map (· * scale) }

end Cres

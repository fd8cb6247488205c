import Verif.Model.Event

/-!
Model of the comparisons between events that `#[derivative(PartialEq, Eq, Ord)]` generates (`src/event.rs:120-137`).
-/

namespace Cres

variable {K V : Type*}

/-- `Ord::cmp` for slices: lexicographic, a proper prefix is less (used by `src/event.rs:120-131` through the derived `Ord`). -/
def sliceCmp {α : Type*} (f : α → α → Ordering) : List α → List α → Ordering
  | [], [] => .eq
  | [], _ :: _ => .lt
  | _ :: _, [] => .gt
  | a :: l, b :: m => (f a b).then (sliceCmp f l m)

/-- `Ord::cmp` for one type of particles with its momenta, a pair (`src/event.rs:130`, `src/event.rs:13-14`). -/
def groupCmp [LinearOrder V] (a b : ℤ × List V) : Ordering := (compare a.1 b.1).then (sliceCmp compare a.2 b.2)

/-- `Ord::cmp` for events (`src/event.rs:120-131`): the fields in the order of their declaration, without the weights. -/
def Event.cmp [LinearOrder V] (a b : Event K V) : Ordering :=
  (compare a.id b.id).then (sliceCmp groupCmp a.outgoingByPid b.outgoingByPid)

/-- `PartialOrd::partial_cmp` for events (`src/event.rs:133-137`). -/
def Event.partialCmp [LinearOrder V] (a b : Event K V) : Option Ordering := some (a.cmp b)

/-- `PartialEq::eq` for events (`src/event.rs:120-131`): the weights are ignored. -/
def Event.equal [LinearOrder V] (a b : Event K V) : Bool := a.id == b.id && a.outgoingByPid == b.outgoingByPid

end Cres

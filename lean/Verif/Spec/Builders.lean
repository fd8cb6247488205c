import Verif.Model.Builders

/-!
Specification for C116: calls of the methods for options, and the value of an option after them.
-/

namespace Cres.Spec

open Builders Options

variable {F C Dist α β : Type*}

/-- The last value that was set, if any, and the default otherwise. -/
def lastValue (default : α) (set : β → Option α) (calls : List β) : α := (calls.filterMap set).getLast?.getD default

/-- Calls of methods of `DefaultResamplerBuilder`. -/
inductive DefaultCall (F C : Type*)
  | ptweight (v : F)
  | strategy (v : Strategy)
  | maxCellSize (v : Option F)
  | collector (v : Option C)
  | search (v : Search)

namespace DefaultCall

/-- What is done in a call. -/
def apply : DefaultCall F C → DefaultResamplerBuilder F C → DefaultResamplerBuilder F C
  | ptweight v => .setPtweight v
  | strategy v => .setStrategy v
  | maxCellSize v => .setMaxCellSize v
  | collector v => .setCollector v
  | search v => .setSearch v

/-- The value for `ptweight` in a call. -/
def asPtweight : DefaultCall F C → Option F
  | ptweight v => some v
  | _ => none

/-- The strategy in a call. -/
def asStrategy : DefaultCall F C → Option Strategy
  | strategy v => some v
  | _ => none

/-- The maximum cell size in a call. -/
def asMaxCellSize : DefaultCall F C → Option (Option F)
  | maxCellSize v => some v
  | _ => none

/-- The cell collector in a call. -/
def asCollector : DefaultCall F C → Option (Option C)
  | collector v => some v
  | _ => none

/-- The neighbour search in a call. -/
def asSearch : DefaultCall F C → Option Search
  | search v => some v
  | _ => none

end DefaultCall

/-- Calls of methods of `ResamplerBuilder`. -/
inductive BuilderCall (F C Dist : Type*)
  | seeds (v : Strategy)
  | distance (v : Dist)
  | observer (v : Option (Option C))
  | search (v : Search)
  | maxCellSize (v : Option F)

namespace BuilderCall

/-- What is done in a call. -/
def apply : BuilderCall F C Dist → ResamplerBuilder F C Dist → ResamplerBuilder F C Dist
  | seeds v => .setSeeds v
  | distance v => .setDistance v
  | observer v => .setObserver v
  | search v => .setSearch v
  | maxCellSize v => .setMaxCellSize v

/-- The strategy in a call. -/
def asSeeds : BuilderCall F C Dist → Option Strategy
  | seeds v => some v
  | _ => none

/-- The distance in a call. -/
def asDistance : BuilderCall F C Dist → Option Dist
  | distance v => some v
  | _ => none

/-- The observer in a call. -/
def asObserver : BuilderCall F C Dist → Option (Option (Option C))
  | observer v => some v
  | _ => none

/-- The neighbour search in a call. -/
def asSearch : BuilderCall F C Dist → Option Search
  | search v => some v
  | _ => none

/-- The maximum cell size in a call. -/
def asMaxCellSize : BuilderCall F C Dist → Option (Option F)
  | maxCellSize v => some v
  | _ => none

end BuilderCall

end Cres.Spec

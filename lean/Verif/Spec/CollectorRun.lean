import Mathlib.Data.List.Sort
import Mathlib.Data.Nat.Basic

/-!
What it means for a selection of numbered cells to be taken from a list of cells, independently of how it is stored.
-/

namespace Cres.Spec

variable {α : Type*}

/-- `kept` are `limit` different elements of `cells` with their positions, or all elements if there are fewer. -/
structure Selection (limit : Nat) (cells : List α) (kept : List (Nat × α)) : Prop where
  known : ∀ e ∈ kept, cells[e.1]? = some e.2
  distinct : (kept.map Prod.fst).Nodup
  number : kept.length = min limit cells.length

/-- `kept` are the first `limit` elements of `cells` with their positions. -/
def FirstOf (limit : Nat) (cells : List α) (kept : List (Nat × α)) : Prop :=
  kept.map Prod.fst = List.range (min limit cells.length) ∧ ∀ e ∈ kept, cells[e.1]? = some e.2

end Cres.Spec

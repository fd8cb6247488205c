import Verif.Model.CellInfo

/-!
Specification for C115: what it means for a message on a cell to be true.
-/

namespace Cres.Spec

variable {D K : Type*}

/-- The message is true for a list of cells, which are numbered from 0 on. -/
def CellInfoTrue (cells : List (Cell D K)) : CellInfo D K → Prop
  | .order number events | .members number events | .random number events =>
    ∃ c, cells[number]? = some c ∧ c.members.length = events
  | .radius number events r => ∃ c, cells[number]? = some c ∧ c.members.length = events ∧ c.radius = r
  | .weight number events w => ∃ c, cells[number]? = some c ∧ c.members.length = events ∧ c.weightSum = w

/-- Which heading a message belongs to. -/
def heading : CellInfo D K → Nat
  | .order _ _ => 0
  | .radius _ _ _ => 1
  | .members _ _ => 2
  | .weight _ _ _ => 3
  | .random _ _ => 4

/-- The number of the cell in a message. -/
def cellNumber : CellInfo D K → Nat
  | .order n _ | .radius n _ _ | .members n _ | .weight n _ _ | .random n _ => n

/-- The number of events in a message. -/
def eventNumber : CellInfo D K → Nat
  | .order _ n | .radius _ n _ | .members _ n | .weight _ n _ | .random _ n => n

/-- The order of two messages, of which the first comes before the second one: by headings, and then by decreasing size if the
heading says so. -/
def InOrder [LE D] [LE K] : CellInfo D K → CellInfo D K → Prop
  | .radius _ _ r, .radius _ _ r' => r' ≤ r
  | .members _ n, .members _ n' => n' ≤ n
  | .weight _ _ w, .weight _ _ w' => w' ≤ w
  | m, m' => heading m ≤ heading m'

end Cres.Spec

import Verif.Model.Categories
import Verif.Spec.Program

/-!
Vocabulary for the statements about messages on event categories.
-/

namespace Cres.Spec

variable {K V D : Type*}

/-- How many particles with which id the event has after clustering. -/
def categoryOf (p : Program K V D) (ev : Event K V) : Category :=
  match p.cluster ev with
  | .ok ev' => ev'.outgoingByPid.map fun x => toLex (x.1, x.2.length)
  | _ => []

/-- The number of events in a category. -/
def eventsIn (p : Program K V D) (c : Category) (events : List (Event K V)) : ℕ := events.countP fun ev => categoryOf p ev = c

/-- All categories with particles in which there are events, with the number of events. Categories with more events come
first. -/
structure IsCategoryTable (p : Program K V D) (events : List (Event K V)) (t : List (Category × ℕ)) : Prop where
  mem : ∀ c n, (c, n) ∈ t ↔ c ≠ [] ∧ 0 < n ∧ n = eventsIn p c events
  sorted : t.Pairwise fun a b => b.2 < a.2 ∨ (b.2 = a.2 ∧ a.1 < b.1)

end Cres.Spec

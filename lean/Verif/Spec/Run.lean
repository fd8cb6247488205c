import Verif.Model.Outcome
import Verif.Model.Event

/-!
Vocabulary for the statements about a complete run.
-/

namespace Cres.Spec

variable {E R K V : Type*}

/-- The item at position `i` of the input is readable and becomes the event `ev`: it is a record that can be converted to
an event without id; the event after clustering gets the position as its id. -/
def ReadsAs (convert : R → Outcome E (Event K V)) (cluster : Event K V → Outcome E (Event K V)) (i : Nat)
    (item : Except E R) (ev : Event K V) : Prop :=
  ∃ r ev0 ev1, item = .ok r ∧ convert r = .ok ev0 ∧ cluster ev0 = .ok ev1 ∧ ev1.id = 0 ∧ ev = { ev1 with id := i }

/-- `out` is a sub-collection of `events`: the same events or a part of them, in any order, with arbitrary weights. -/
def IsSubCollection (events out : List (Event K V)) : Prop :=
  (out.map Event.id).Subperm (events.map Event.id)

/-- A file format, seen as operations on records: the central weight in a record, and what is written for a record given
new weights. With empty weights a record is written as it is; otherwise it is written with the new central weight. -/
structure RecordFormat (R K : Type*) where
  weightOf : R → K
  update : List K → R → R
  update_nil : ∀ r, update [] r = r
  update_cons : ∀ w ws r, weightOf (update (w :: ws) r) = w

/-- The output for the given records and weights. -/
def RecordFormat.output (F : RecordFormat R K) (weights : List (List K)) (records : List R) : List R :=
  List.zipWith F.update weights records

end Cres.Spec

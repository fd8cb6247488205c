import Mathlib.Data.List.Basic

/-!
What a Rust function that returns a `Result` can end with.
-/

namespace Cres

/-- `Ok`, `Err` or a panic. -/
inductive Outcome (E α : Type*)
  | ok (a : α)
  | err (e : E)
  | panic
deriving DecidableEq, Repr

namespace Outcome

variable {E F α β γ : Type*}

/-- The operator `?`. -/
def bind : Outcome E α → (α → Outcome E β) → Outcome E β
  | .ok a, f => f a
  | .err e, _ => .err e
  | .panic, _ => .panic

/-- `Result::map`. -/
def map (f : α → β) : Outcome E α → Outcome E β
  | .ok a => .ok (f a)
  | .err e => .err e
  | .panic => .panic

/-- `Result::map_err`. -/
def mapErr (f : E → F) : Outcome E α → Outcome F α
  | .ok a => .ok a
  | .err e => .err (f e)
  | .panic => .panic

/-- A function that panics (`none`) or returns. -/
def ofOption : Option α → Outcome E α
  | some a => .ok a
  | none => .panic

@[simp] theorem bind_ok (a : α) (f : α → Outcome E β) : (Outcome.ok a : Outcome E α).bind f = f a := rfl
@[simp] theorem bind_err (e : E) (f : α → Outcome E β) : (Outcome.err e : Outcome E α).bind f = .err e := rfl
@[simp] theorem bind_panic (f : α → Outcome E β) : (Outcome.panic : Outcome E α).bind f = .panic := rfl
@[simp] theorem map_ok (f : α → β) (a : α) : (Outcome.ok a : Outcome E α).map f = .ok (f a) := rfl
@[simp] theorem map_err (f : α → β) (e : E) : (Outcome.err e : Outcome E α).map f = .err e := rfl
@[simp] theorem map_panic (f : α → β) : (Outcome.panic : Outcome E α).map f = .panic := rfl
@[simp] theorem mapErr_ok (f : E → F) (a : α) : (Outcome.ok a : Outcome E α).mapErr f = .ok a := rfl
@[simp] theorem mapErr_err (f : E → F) (e : E) : (Outcome.err e : Outcome E α).mapErr f = .err (f e) := rfl
@[simp] theorem mapErr_panic (f : E → F) : (Outcome.panic : Outcome E α).mapErr f = .panic := rfl
@[simp] theorem ofOption_some (a : α) : (ofOption (some a) : Outcome E α) = .ok a := rfl
@[simp] theorem ofOption_none : (ofOption none : Outcome E α) = .panic := rfl

theorem bind_eq_ok {x : Outcome E α} {f : α → Outcome E β} {b : β} :
    x.bind f = .ok b ↔ ∃ a, x = .ok a ∧ f a = .ok b := by
  cases x <;> simp

theorem mapErr_eq_ok {x : Outcome E α} {f : E → F} {a : α} : x.mapErr f = .ok a ↔ x = .ok a := by
  cases x <;> simp

theorem map_eq_ok {x : Outcome E α} {f : α → β} {b : β} : x.map f = .ok b ↔ ∃ a, x = .ok a ∧ f a = b := by
  cases x <;> simp

theorem ofOption_eq_ok {x : Option α} {a : α} : (ofOption x : Outcome E α) = .ok a ↔ x = some a := by
  cases x <;> simp

end Outcome

end Cres

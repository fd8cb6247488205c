import Verif.Model.CErrors

/-!
Which error should be reported to a thread, from the calls so far and their return values.
-/

namespace Cres.Spec

open CApi

/-- The history of a process: thread, call and return value. -/
abbrev History := List (Nat × Call × Int)

/-- The calls that can fail: all except for those that ask for errors. -/
def CanFail : Call → Prop
  | .run _ | .logger _ => True
  | _ => False

/-- The message for a call that fails. -/
def failureMessage : Call → List UInt8
  | .run (.err msg) => msg
  | _ => "panic: Any { .. }".toUTF8.toList

/-- No call in this thread has failed. -/
def NoFailure (h : History) (t : Nat) : Prop := ∀ x ∈ h, x.1 = t → CanFail x.2.1 → x.2.2 = 0

/-- The last call in this thread that has failed has this message. -/
def LastFailure (h : History) (t : Nat) (msg : List UInt8) : Prop :=
  ∃ before c r after, h = before ++ (t, c, r) :: after ∧ CanFail c ∧ r ≠ 0 ∧ msg = failureMessage c ∧ NoFailure after t

end Cres.Spec

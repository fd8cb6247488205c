import Verif.Model.Event
import Mathlib.Algebra.Order.Field.Basic
import Mathlib.Algebra.Order.AbsoluteValue.Basic

/-!
Model of `src/unweight.rs` for any arithmetic on weights. With rounding the parallel sums could depend on the order of
summation; the theorems about unweighting are about exact arithmetic. The random number generator is an
infinite sequence of the numbers that `distr.sample` returns.
-/

namespace Cres

variable {K V : Type*} [Add K] [Zero K] [Mul K] [Div K] [Neg K] [LinearOrder K]

/-- `abs()` of a weight. -/
def absWeight (x : K) : K := max x (-x)

/-- What `unweight` can end with: a list of events, a panic, or events with weights that are not finite because the factor
`orig_wt_sum / final_wt_sum` is infinite or not a number. In the last case the events before multiplication with this
factor are given. -/
inductive UnweightResult (K V : Type*)
  | ok (events : List (Event K V))
  | panic
  | nonFinite (events : List (Event K V))
deriving DecidableEq, Repr

/-- The closure `keep` (`src/unweight.rs:45-53`) for an event with absolute weight `awt`, if the random number is `u`. -/
def keepEvent (minWt awt u : K) : Bool := if awt > minWt then true else u < awt

/-- `events.retain(keep)` (`src/unweight.rs:54`). A random number is taken only for events with `awt <= min_wt`; `n`
counts those that have been taken. `none` is the panic for an event without weights. -/
def retainEvents (minWt : K) (rng : Nat → K) : Nat → List (Event K V) → Option (List (Event K V))
  | _, [] => some []
  | n, e :: es =>
    match e.weight with
    | none => none
    | some wt =>
      let awt := absWeight wt
      let n' := if awt > minWt then n else n + 1
      (retainEvents minWt rng n' es).map (fun rest => if keepEvent minWt awt (rng n) then e :: rest else rest)

/-- The closure in `src/unweight.rs:57-63`: small weights are brought to `min_wt`. -/
def raiseWeight (minWt : K) (e : Event K V) : Option (Event K V) :=
  match e.weight with
  | none => none
  | some wt =>
    let awt := absWeight wt
    if awt < minWt then some (e.rescaleWeights (minWt / awt)) else some e

/-- The sum of central weights (`src/unweight.rs:42`, `:66`). The parallel sum is exact, so that its order does not matter. -/
def weightSum (events : List (Event K V)) : Option K := (events.mapM Event.weight).map List.sum

/-- `Unweighter::unweight` (`src/unweight.rs:34-72`). `Uniform::try_from` fails for negative `min_wt`. The division
`orig_wt_sum / final_wt_sum` by zero gives an infinite number or `NaN` (which panics in debug builds); this has no effect
on the result if there are no events left. -/
def unweight (debug : Bool) (minWt : K) (rng : Nat → K) (events : List (Event K V)) : UnweightResult K V :=
  if minWt = 0 ∨ events.isEmpty then .ok events
  else
    match weightSum events with
    | none => .panic
    | some origWtSum =>
      if minWt < 0 then .panic
      else
        match retainEvents minWt rng 0 events with
        | none => .panic
        | some kept =>
          match kept.mapM (raiseWeight minWt) with
          | none => .panic
          | some raised =>
            match weightSum raised with
            | none => .panic
            | some finalWtSum =>
              if finalWtSum = 0 then
                if debug ∧ origWtSum = 0 then .panic
                else if raised.isEmpty then .ok [] else .nonFinite raised
              else .ok (raised.map (fun e => e.rescaleWeights (origWtSum / finalWtSum)))

/-- `NoUnweighter::unweight` (`src/unweight.rs:77-84`). -/
def noUnweight (events : List (Event K V)) : UnweightResult K V := .ok events

end Cres

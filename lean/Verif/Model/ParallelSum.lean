import Verif.Model.Unweight

/-!
Parallel sums (`par_iter().map(..).sum()` of the crate `rayon`), as in `src/unweight.rs:42` and `:66`. The items are split
into consecutive pieces, the items of each piece are added up one after the other, starting from 0, and the
sums of the pieces are added in pairs. With rounding the result depends on the pieces.
-/

namespace Cres

variable {K V : Type*}

/-- `x` can be the result of adding up the numbers in the list with the given number of additions, in any grouping. -/
inductive SumsTo [Zero K] [Add K] : List K → Nat → K → Prop
  | zero : SumsTo [] 0 0
  | single (x : K) : SumsTo [x] 0 x
  | add {l l' : List K} {m m' : Nat} {x x' : K} : SumsTo l m x → SumsTo l' m' x' → SumsTo (l ++ l') (m + m' + 1) (x + x')

/-- `par_iter().sum()` in rayon: pieces that are not empty are added up starting from 0, then results are added in pairs. Without
items the result is 0. -/
inductive RayonSum [Zero K] [Add K] : List K → K → Prop
  | empty : RayonSum [] 0
  | piece (x : K) (l : List K) : RayonSum (x :: l) ((x :: l).foldl (· + ·) 0)
  | join {l l' : List K} {x x' : K} : l ≠ [] → l' ≠ [] → RayonSum l x → RayonSum l' x' → RayonSum (l ++ l') (x + x')

/-- `Unweighter::unweight` (`src/unweight.rs:34-72`) as in `unweight`, with any way to compute the two sums. -/
def unweightWith [Add K] [Zero K] [Mul K] [Div K] [Neg K] [LinearOrder K] (sumBefore sumAfter : List K → K) (debug : Bool)
    (minWt : K) (rng : Nat → K) (events : List (Event K V)) : UnweightResult K V :=
  if minWt = 0 ∨ events.isEmpty then .ok events
  else
    match (events.mapM Event.weight).map sumBefore with
    | none => .panic
    | some origWtSum =>
      if minWt < 0 then .panic
      else
        match retainEvents minWt rng 0 events with
        | none => .panic
        | some kept =>
          match kept.mapM (raiseWeight minWt) with
          | none => .panic
          | some raised =>
            match (raised.mapM Event.weight).map sumAfter with
            | none => .panic
            | some finalWtSum =>
              if finalWtSum = 0 then
                if debug ∧ origWtSum = 0 then .panic
                else if raised.isEmpty then .ok [] else .nonFinite raised
              else .ok (raised.map (fun e => e.rescaleWeights (origWtSum / finalWtSum)))

end Cres

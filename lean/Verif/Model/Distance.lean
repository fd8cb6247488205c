import Verif.Model.Event
import Verif.Model.FourVector
import Mathlib.Data.Nat.Sqrt

/-!
Model of `src/distance.rs`. The algorithm is the same for all types of momenta `V` with a pair distance `ptDist` and a
norm `ptNorm`; it is instantiated with `FourVector` at the end.
-/

namespace Cres

section

variable {V K : Type*} [LinearOrder V] [AddCommGroup K] [LinearOrder K]

/-- Swap the first element with the last element of the (weakly decreasing) list that is larger: the new first element
and the list with the replaced element. -/
def swapPivot (a : V) : List V → Option (V × List V)
  | [] => none
  | b :: t =>
    match swapPivot a t with
    | some (c, t') => some (c, b :: t')
    | none => if a < b then some (b, a :: t) else none

/-- `LexicalPermutation::next_permutation` of the crate permutohedron: if the tail has a next permutation, take it.
Otherwise the tail is weakly decreasing; swap the first element with the last one in the tail that is larger and reverse
the tail. `none` stands for the result `false`. -/
def nextPermutation : List V → Option (List V)
  | [] => none
  | a :: t =>
    match nextPermutation t with
    | some t' => some (a :: t')
    | none => (swapPivot a t).map (fun x => x.1 :: x.2.reverse)

variable (ptDist : V → V → K) (ptNorm : V → K) (zero : V)

/-- `paired_distance` (`src/distance.rs:154-160`). -/
def pairedDistance (p1 p2 : List V) : K := (List.zipWith ptDist p1 p2).sum

/-- The loop in `min_paired_distance_naive` (`src/distance.rs:135-137`); the first argument bounds the number of
iterations, a slice of length `n` has at most `n!` permutations. -/
def naiveLoop (p2 : List V) : Nat → List V → K → K
  | 0, _, minDist => minDist
  | fuel + 1, p1, minDist =>
    match nextPermutation p1 with
    | none => minDist
    | some p1' => naiveLoop p2 fuel p1' (min minDist (pairedDistance ptDist p1' p2))

/-- `min_paired_distance_naive` (`src/distance.rs:129-139`). -/
def minPairedDistanceNaive (p1 p2 : List V) : K :=
  naiveLoop ptDist p2 p1.length.factorial p1 (pairedDistance ptDist p1 p2)

/-- `struct SquareMatrix` (`src/distance.rs:202-205`). -/
structure SquareMatrix (K : Type*) where
  entries : List K
  rows : Nat

/-- `FromIterator<N64> for SquareMatrix` (`src/distance.rs:257-267`). The square root is computed with `f64`, which is
exact for squares below 2^53; `none` is the panic for other lengths. -/
def SquareMatrix.ofList (entries : List K) : Option (SquareMatrix K) :=
  let rows := Nat.sqrt entries.length
  if rows * rows = entries.length then some ⟨entries, rows⟩ else none

/-- `SquareMatrix::at` and `index` (`src/distance.rs:207-214`, `:232-234`). -/
def SquareMatrix.at [Zero K] (m : SquareMatrix K) (row col : Nat) : K := m.entries.getD (row * m.rows + col) 0

/-- `SquareMatrix::neg` (`src/distance.rs:236-242`). -/
def SquareMatrix.neg (m : SquareMatrix K) : SquareMatrix K := ⟨m.entries.map (fun e => -e), m.rows⟩

/-- The total weight returned by `kuhn_munkres_min` of the crate pathfinding: the negated result of `kuhn_munkres`
(`kuhnMunkres`, the maximum total weight of an assignment) for the negated matrix. -/
def kuhnMunkresMin (kuhnMunkres : SquareMatrix K → K) (m : SquareMatrix K) : K := -(kuhnMunkres m.neg)

/-- `min_paired_distance_hungarian` (`src/distance.rs:141-152`). -/
def minPairedDistanceHungarian (kuhnMunkres : SquareMatrix K → K) (p1 p2 : List V) : Option K :=
  (SquareMatrix.ofList (p1.flatMap (fun p => p2.map (fun q => ptDist p q)))).map (kuhnMunkresMin kuhnMunkres)

/-- `resize_with` and `sort_unstable` on the copy of the smaller set (`src/distance.rs:114-116`). -/
def padAndSort (p1 : List V) (n : Nat) : List V :=
  (p1 ++ List.replicate (n - p1.length) zero).insertionSort (· ≤ ·)

/-- `min_paired_distance` (`src/distance.rs:108-127`) for `p1.len() <= p2.len()`. -/
def minPairedDistanceLE (kuhnMunkres : SquareMatrix K → K) (p1 p2 : List V) : Option K :=
  let p1 := padAndSort zero p1 p2.length
  match p1, p2 with
  | [], _ => some 0
  | [a], b :: _ => some (ptDist a b)
  | p1, p2 =>
    if p1.length ≤ 3 then some (minPairedDistanceNaive ptDist p1 p2)
    else minPairedDistanceHungarian ptDist kuhnMunkres p1 p2

/-- `min_paired_distance` (`src/distance.rs:108-127`), also `set_distance` (`:104-106`). -/
def minPairedDistance (kuhnMunkres : SquareMatrix K → K) (p1 p2 : List V) : Option K :=
  if p1.length > p2.length then minPairedDistanceLE ptDist zero kuhnMunkres p2 p1
  else minPairedDistanceLE ptDist zero kuhnMunkres p1 p2

/-- `EuclWithScaledPt::pt_norm` (`src/distance.rs:100-102`). -/
def ptNormSum (p : List V) : K := (p.map ptNorm).sum

/-- `EuclWithScaledPt::distance` (`src/distance.rs:48-88`) for the remaining particles and the distance so far. `none`
stands for a panic. -/
def distanceLoop (kuhnMunkres : SquareMatrix K → K) : List (ℤ × List V) → List (ℤ × List V) → K → Option K
  | [], out2, dist => some (dist + (out2.map (fun x => ptNormSum ptNorm x.2)).sum)
  | out1, [], dist => some (dist + (out1.map (fun x => ptNormSum ptNorm x.2)).sum)
  | (t1, p1) :: out1, (t2, p2) :: out2, dist =>
    match compare t1 t2 with
    | .gt => distanceLoop kuhnMunkres out1 ((t2, p2) :: out2) (dist + ptNormSum ptNorm p1)
    | .lt => distanceLoop kuhnMunkres ((t1, p1) :: out1) out2 (dist + ptNormSum ptNorm p2)
    | .eq =>
      match minPairedDistance ptDist zero kuhnMunkres p1 p2 with
      | none => none
      | some d => distanceLoop kuhnMunkres out1 out2 (dist + d)
  termination_by o1 o2 => o1.length + o2.length

/-- `EuclWithScaledPt::distance` (`src/distance.rs:48-88`). -/
def eventDistance {W : Type*} (kuhnMunkres : SquareMatrix K → K) (ev1 ev2 : Event W V) : Option K :=
  distanceLoop ptDist ptNorm zero kuhnMunkres ev1.outgoingByPid ev2.outgoingByPid 0

end

/-! ### four-momenta -/

/-- `pt_norm_sq` (`src/distance.rs:167-170`). -/
def ptNormSq (p : FourVector) (ptWeight : ℝ) : ℝ :=
  let pt := ptWeight * p.pt
  p.spatialNormSq + pt * pt

/-- `pt_norm` (`src/distance.rs:163-165`). -/
noncomputable def ptNorm (p : FourVector) (ptWeight : ℝ) : ℝ := Real.sqrt (ptNormSq p ptWeight)

/-- `pt_dist_sq` (`src/distance.rs:176-179`). -/
noncomputable def ptDistSq (p q : FourVector) (ptWeight : ℝ) : ℝ :=
  let dpt := ptWeight * (p.pt - q.pt)
  (p - q).spatialNormSq + dpt * dpt

/-- `pt_dist` (`src/distance.rs:172-174`). -/
noncomputable def ptDist (p q : FourVector) (ptWeight : ℝ) : ℝ := Real.sqrt (ptDistSq p q ptWeight)

/-- `EuclWithScaledPt { pt_weight }.distance(ev1, ev2)` (`src/distance.rs:42-88`). -/
noncomputable def euclWithScaledPt {W : Type*} (kuhnMunkres : SquareMatrix ℝ → ℝ) (ptWeight : ℝ)
    (ev1 ev2 : Event W FourVector) : Option ℝ :=
  eventDistance (fun p q => ptDist p q ptWeight) (fun p => ptNorm p ptWeight) FourVector.new kuhnMunkres ev1 ev2

/-- The distance of the command line program (`src/resampler.rs:261`). In place of a panic the distance is zero; there are no
panics for events with particles in canonical form (C77). -/
noncomputable def euclDistance {W : Type*} (kuhnMunkres : SquareMatrix ℝ → ℝ) (ptWeight : ℝ) (ev1 ev2 : Event W FourVector) : ℝ :=
  (euclWithScaledPt kuhnMunkres ptWeight ev1 ev2).getD 0

end Cres

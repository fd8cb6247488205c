import Verif.Spec.Program
import Verif.Spec.Rounding
import Verif.Model.Rounding

/-!
Vocabulary for the statements about runs with `f64` weights. Sums are exact: they are what one would get if the weights in the
files were added up without rounding.
-/

namespace Cres.Spec

variable {V : Type*}

/-- The exact sum of the weights with number `k`. -/
def exactSum (k : Nat) (events : List (Event N64 V)) : ℚ := (events.map fun e => (weightNo k e).val).sum

/-- The exact sum of the absolute values of the weights with number `k`. -/
def exactAbsSum (k : Nat) (events : List (Event N64 V)) : ℚ := (events.map fun e => |(weightNo k e).val|).sum

/-- Number of events with negative central weight. -/
def negativeCount (events : List (Event N64 V)) : Nat := (events.filter fun e => (weightNo 0 e).val < 0).length

/-- At most this many operations are performed for a weight: for each event with negative central weight, there is one cell,
and for each cell there is one addition for each member and one division. -/
def maxOperations (events : List (Event N64 V)) : Nat := negativeCount events * (events.length + 1)

/-- The error bound for the sum of weights with number `k`. For each operation there is a relative error of `2⁻⁵²`. The second
contribution is from numbers close to 0. -/
def f64Error (k : Nat) (events : List (Event N64 V)) : ℚ :=
  maxOperations events * (2 ^ (-52 : ℤ) * exactAbsSum k events + 6 * 2 ^ (-1075 : ℤ))

/-- Events with finite weights such that sums are far from overflow, and not too many events. `s` is the part that is
resampled. -/
structure F64Range (events s : List (Event N64 V)) : Prop where
  finite : ∀ ev ∈ events, ∀ w ∈ ev.weights, IsF64 w.val
  sums : ∀ k, exactAbsSum k s ≤ 2 ^ (1021 : ℤ)
  length : s.length < 2 ^ 53
  operations : maxOperations s ≤ 2 ^ 53

/-- The file is in STRIPPER XML format. -/
def IsXmlFile {K : Type*} (d : EventFile K V) : Prop := ∃ scale, d.kind = .stripperXml scale

/-- The range of scales for which weights can be divided by a scale and multiplied again without overflow or large errors. There
is no restriction for other formats. -/
def ScaleRange (ds : List (EventFile N64 V)) : Prop :=
  ∀ d ∈ ds, ∀ scale : N64, d.kind = .stripperXml scale →
    2 ^ (-500 : ℤ) ≤ |scale.val| ∧ |scale.val| ≤ 2 ^ (500 : ℤ) ∧ ∀ k, exactAbsSum k (allEvents ds) ≤ 2 ^ (500 : ℤ)

open Classical in
/-- Weights in STRIPPER XML files are divided by a scale when they are written, and multiplied by the scale when they are read.
There are rounding errors in both steps. -/
noncomputable def scaleError (k : Nat) (ds : List (EventFile N64 V)) : ℚ :=
  if ∃ d ∈ ds, IsXmlFile d then
    2 ^ (-49 : ℤ) * exactAbsSum k (allEvents ds) + ((allEvents ds).length + 1) * 2 ^ (-573 : ℤ)
  else 0

end Cres.Spec

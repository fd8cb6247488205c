import Verif.Model.Unweight
import Verif.Spec.Observable
import Mathlib.MeasureTheory.Constructions.Pi
import Mathlib.MeasureTheory.Measure.Lebesgue.Basic

/-!
Specification for C124: expected predictions after unweighting.
-/

namespace Cres.Spec

open MeasureTheory

variable {V : Type*}

/-- The uniform distribution on the numbers from 0 to `m`. -/
noncomputable def uniform (m : ℝ) : Measure ℝ := (ENNReal.ofReal m)⁻¹ • volume.restrict (Set.Ico 0 m)

/-- `n` independent random numbers. -/
noncomputable def uniforms (n : Nat) (m : ℝ) : Measure (Fin n → ℝ) := Measure.pi fun _ => uniform m

/-- A generator that returns given numbers, one after the other. -/
def numbers {n : Nat} (u : Fin n → ℝ) (i : Nat) : ℝ := if h : i < n then u ⟨i, h⟩ else 0

/-- The prediction for an observable after unweighting, 0 if there is none. -/
noncomputable def predicted (minWt : ℝ) (f : Event ℝ V → ℝ) (events : List (Event ℝ V)) {n : Nat} (u : Fin n → ℝ) : ℝ :=
  match unweight false minWt (numbers u) events with
  | .ok out => prediction 0 f out
  | _ => 0

/-- 1 if there are events with finite weights after unweighting, otherwise 0. -/
noncomputable def anyLeft (minWt : ℝ) (events : List (Event ℝ V)) {n : Nat} (u : Fin n → ℝ) : ℝ :=
  match unweight false minWt (numbers u) events with
  | .ok (_ :: _) => 1
  | _ => 0

/-- The number of events after unweighting. -/
noncomputable def numberLeft (minWt : ℝ) (events : List (Event ℝ V)) {n : Nat} (u : Fin n → ℝ) : ℝ :=
  match unweight false minWt (numbers u) events with
  | .ok out => out.length
  | .nonFinite out => out.length
  | .panic => 0

end Cres.Spec

import Mathlib.Analysis.SpecialFunctions.Sqrt
import Mathlib.Data.Prod.Lex

/-!
Model of `src/four_vector.rs`. Components are real numbers (no rounding).
-/

namespace Cres

/-- `struct FourVector` (`src/four_vector.rs:21-24`): the cached transverse momentum and the components `p[0..4]`. -/
@[ext] structure FourVector where
  pt : ℝ
  p0 : ℝ
  p1 : ℝ
  p2 : ℝ
  p3 : ℝ

namespace FourVector

/-- The fields in the order of comparison: the derived `Ord` (`src/four_vector.rs:9-20`) is lexicographic. -/
def key (v : FourVector) : ℝ ×ₗ ℝ ×ₗ ℝ ×ₗ ℝ ×ₗ ℝ :=
  toLex (v.pt, toLex (v.p0, toLex (v.p1, toLex (v.p2, v.p3))))

theorem key_injective : Function.Injective key := by
  intro a b h
  unfold key at h
  simp only [EmbeddingLike.apply_eq_iff_eq, Prod.mk.injEq] at h
  exact FourVector.ext h.1 h.2.1 h.2.2.1 h.2.2.2.1 h.2.2.2.2

/-- The derived `Ord` (`src/four_vector.rs:9-20`). -/
noncomputable instance : LinearOrder FourVector := LinearOrder.lift' key key_injective

/-- `FourVector::new` (`src/four_vector.rs:28-30`): all fields zero. -/
def new : FourVector := ⟨0, 0, 0, 0, 0⟩

/-- `euclid_norm_sq` (`src/four_vector.rs:37-39`). -/
def euclidNormSq (v : FourVector) : ℝ := v.p0 * v.p0 + v.p1 * v.p1 + v.p2 * v.p2 + v.p3 * v.p3

/-- `euclid_norm` (`src/four_vector.rs:33-35`). -/
noncomputable def euclidNorm (v : FourVector) : ℝ := Real.sqrt v.euclidNormSq

/-- `spatial_norm_sq` (`src/four_vector.rs:47-49`). -/
def spatialNormSq (v : FourVector) : ℝ := v.p1 * v.p1 + v.p2 * v.p2 + v.p3 * v.p3

/-- `spatial_norm` (`src/four_vector.rs:42-44`). -/
noncomputable def spatialNorm (v : FourVector) : ℝ := Real.sqrt v.spatialNormSq

/-- `update_pt` (`src/four_vector.rs:60-62`). -/
noncomputable def updatePt (v : FourVector) : FourVector := { v with pt := Real.sqrt (v.p1 * v.p1 + v.p2 * v.p2) }

/-- `From<[N64; 4]>` (`src/four_vector.rs:65-74`). -/
noncomputable def ofComponents (p0 p1 p2 p3 : ℝ) : FourVector := updatePt ⟨0, p0, p1, p2, p3⟩

/-- `AddAssign` (`src/four_vector.rs:84-91`). -/
noncomputable def addAssign (a b : FourVector) : FourVector :=
  updatePt ⟨a.pt, a.p0 + b.p0, a.p1 + b.p1, a.p2 + b.p2, a.p3 + b.p3⟩

/-- `SubAssign` (`src/four_vector.rs:93-100`). -/
noncomputable def subAssign (a b : FourVector) : FourVector :=
  updatePt ⟨a.pt, a.p0 - b.p0, a.p1 - b.p1, a.p2 - b.p2, a.p3 - b.p3⟩

/-- `Add` (`src/four_vector.rs:102-109`). -/
noncomputable instance : Add FourVector := ⟨addAssign⟩

/-- `Sub` (`src/four_vector.rs:111-118`). -/
noncomputable instance : Sub FourVector := ⟨subAssign⟩

/-- The conversions from and to `PseudoJet` (`src/four_vector.rs:120-137`) keep the components; a `PseudoJet` is
represented by them. -/
noncomputable def ofPseudoJet (j : ℝ × ℝ × ℝ × ℝ) : FourVector := ofComponents j.1 j.2.1 j.2.2.1 j.2.2.2

/-- See `ofPseudoJet`. -/
def toPseudoJet (v : FourVector) : ℝ × ℝ × ℝ × ℝ := (v.p0, v.p1, v.p2, v.p3)

end FourVector

end Cres

import Verif.Model.FourVector

/-!
How users of the library obtain four-vectors, and which components they should have.
-/

namespace Cres.Spec

/-- `Computes v c`: the four-vector `v` is obtained through the constructors, conversions and arithmetic operations of the
library, and the same operations on the components give `c` (in the order energy, px, py, pz). -/
inductive Computes : FourVector → ℝ × ℝ × ℝ × ℝ → Prop
  | new : Computes FourVector.new 0
  | ofComponents (c : ℝ × ℝ × ℝ × ℝ) : Computes (FourVector.ofComponents c.1 c.2.1 c.2.2.1 c.2.2.2) c
  | ofPseudoJet (c : ℝ × ℝ × ℝ × ℝ) : Computes (FourVector.ofPseudoJet c) c
  | throughPseudoJet {v c} : Computes v c → Computes (FourVector.ofPseudoJet v.toPseudoJet) c
  | add {v w c e} : Computes v c → Computes w e → Computes (v + w) (c + e)
  | sub {v w c e} : Computes v c → Computes w e → Computes (v - w) (c - e)
  | addAssign {v w c e} : Computes v c → Computes w e → Computes (v.addAssign w) (c + e)
  | subAssign {v w c e} : Computes v c → Computes w e → Computes (v.subAssign w) (c - e)

end Cres.Spec

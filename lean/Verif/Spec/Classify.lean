import Verif.Model.Bytes

/-!
Specification of records without the footer of a file.
-/

namespace Cres.Spec

/-- The UTF-8 encoding of a white space character. -/
def IsBlank (c : Bytes) : Prop :=
  (∃ b, c = [b] ∧ isWs1 b = true) ∨ (∃ b0 b1, c = [b0, b1] ∧ isWs2 b0 b1 = true) ∨
    (∃ b0 b1 b2, c = [b0, b1, b2] ∧ isWs3 b0 b1 b2 = true)

/-- White space. -/
def Blank (ws : Bytes) : Prop := ∃ cs : List Bytes, ws = cs.flatten ∧ ∀ c ∈ cs, IsBlank c

/-- `r'` is the record `r` without the footer: if `r` ends with the footer and white space, both are removed, otherwise `r'` is
`r`. -/
def WithoutFooter (foot r r' : Bytes) : Prop :=
  (∃ ws, Blank ws ∧ r = r' ++ foot ++ ws) ∨ (r' = r ∧ ¬ ∃ a ws, Blank ws ∧ r = a ++ foot ++ ws)

end Cres.Spec

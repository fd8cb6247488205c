import Verif.Model.Bytes

/-!
Peculiarities of event records.
-/

namespace Cres.Spec

/-- The text contains "nan", with small or capital letters. -/
def HasNan (s : Bytes) : Prop :=
  ∃ pre x y z post, s = pre ++ [x, y, z] ++ post ∧ (x = 78 ∨ x = 110) ∧ (y = 65 ∨ y = 97) ∧ (z = 78 ∨ z = 110)

/-- Somewhere in the text the end of a tag with an attribute is not followed by an ASCII character. -/
def BadTagEnd (s : Bytes) : Prop :=
  ∃ pre post, s = pre ++ [34, 62] ++ post ∧ ∀ b, post.head? = some b → 128 ≤ b

end Cres.Spec

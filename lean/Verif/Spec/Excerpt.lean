import Verif.Model.Bytes

/-!
Specification for C123. In UTF-8 every character starts with a byte that is not one of 0x80, …, 0xBF, and all further bytes of the
character are.
-/

namespace Cres.Spec

/-- Number of characters of a text. -/
def charCount (s : Bytes) : Nat := s.countP fun b => b < 0x80 ∨ 0xC0 ≤ b

/-- `e` is the beginning of the text `s` that consists of complete characters, `n` of them, or all if there are fewer. -/
structure IsExcerpt (n : Nat) (s e : Bytes) : Prop where
  start : e <+: s
  valid : validUtf8 e = true
  count : charCount e = min n (charCount s)

end Cres.Spec

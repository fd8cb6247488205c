import Verif.Model.Bytes

/-!
Model of `take_chars` (`src/util.rs:11-13`): the start of a text that is quoted in error messages.
-/

namespace Cres

/-- The number of bytes of a character, given by its first byte, as in the iterator `str::chars` of the standard library. -/
def charWidth (b : UInt8) : Nat := if b < 0x80 then 1 else if b < 0xE0 then 2 else if b < 0xF0 then 3 else 4

/-- `take_chars` (`src/util.rs:11-13`): `s.chars().take(n).collect()`. Collecting writes each character again as it was read. -/
def takeChars : Nat → Bytes → Bytes
  | 0, _ => []
  | _ + 1, [] => []
  | n + 1, b :: s => (b :: s).take (charWidth b) ++ takeChars n ((b :: s).drop (charWidth b))

/-- The texts quoted in errors about records (`src/hepmc2.rs:171,298,336,343,376,390,399,413,442,447,480`,
`src/lhef.rs:149,230`, `src/stripper_xml.rs:199,227,553,571,584,596,602`). -/
def excerpt (record : Bytes) : Bytes := takeChars 100 record

end Cres

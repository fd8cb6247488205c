import Verif.Model.FileIO

/-!
What the content of an event file says about its format.
-/

namespace Cres.Spec

/-- ASCII white space: space, tab, line feed, form feed, carriage return. -/
def White (b : UInt8) : Prop := b = 32 ∨ b = 9 ∨ b = 10 ∨ b = 12 ∨ b = 13

/-- Starts with the four letters "root". -/
def IsRoot (s : Bytes) : Prop := ∃ r, s = [114, 111, 111, 116] ++ r

/-- Starts with "<?xml", possibly after white space. -/
def IsXml (s : Bytes) : Prop := ∃ ws r, s = ws ++ [60, 63, 120, 109, 108] ++ r ∧ ∀ b ∈ ws, White b

/-- Starts with "<LesHouchesEvents". -/
def IsLhef (s : Bytes) : Prop := ∃ r, s = ascii "<LesHouchesEvents" ++ r

/-- The format of a file with this content; the tests are made in this order. -/
def FormatOf (s : Bytes) : FileFormat → Prop
  | .ntuple => IsRoot s
  | .stripperXml => ¬ IsRoot s ∧ IsXml s
  | .lhef => ¬ IsRoot s ∧ ¬ IsXml s ∧ IsLhef s
  | .hepmc2 => ¬ IsRoot s ∧ ¬ IsXml s ∧ ¬ IsLhef s

/-- Whether support for a format is compiled in. -/
def Enabled (feat : Features) : FileFormat → Prop
  | .ntuple => feat.ntuple = true
  | .stripperXml => feat.stripperXml = true
  | .lhef => feat.lhef = true
  | .hepmc2 => True

end Cres.Spec

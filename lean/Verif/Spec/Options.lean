import Verif.Model.Options

/-!
What the options mean. From the model only the types of options and settings are used.
-/

namespace Cres.Spec

open Cres.Options (Compression Opt)

/-- Either all or none of three options are set. -/
def AllOrNone {α β γ : Type} (a : Option α) (b : Option β) (c : Option γ) : Prop :=
  (a ≠ none ∧ b ≠ none ∧ c ≠ none) ∨ (a = none ∧ b = none ∧ c = none)

/-- The text consists of decimal digits, possibly with leading zeros, and stands for the number `n`. -/
def Numeral (s : List Char) (n : Nat) : Prop :=
  s ≠ [] ∧ (∀ c ∈ s, '0' ≤ c ∧ c ≤ '9') ∧ s.foldl (fun n c => 10 * n + (c.toNat - '0'.toNat)) 0 = n

/-- The text is one of the names, up to the case of letters. -/
def Named (name : List Char) (names : List String) : Prop := ∃ s ∈ names, name.map Char.toLower = s.toList

/-- The text is one of the names, optionally followed by an underscore and a level that is not too large; `level` is this level
or the default. -/
def NamedWithLevel (s : List Char) (names : List String) (maxLevel default level : Nat) : Prop :=
  (Named s names ∧ level = default) ∨
    ∃ name lvl, s = name ++ '_' :: lvl ∧ Named name names ∧ Numeral lvl level ∧ level ≤ maxLevel

/-- The documented settings for the compression. -/
def ValidCompression (s : List Char) : Compression → Prop
  | .bzip2 => Named s ["bzip2", "bz2"]
  | .gzip level => NamedWithLevel s ["gzip", "gz"] 9 6 level
  | .lz4 level => NamedWithLevel s ["lz4"] 16 0 level
  | .zstd level => NamedWithLevel s ["zstd", "zstandard"] 19 0 level

end Cres.Spec

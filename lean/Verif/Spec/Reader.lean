import Verif.Model.Bytes

/-!
What it means that a file is split into a header and records, for the three text formats.
-/

namespace Cres.Spec

/-- `s` contains `t`. -/
def Contains (s t : Bytes) : Prop := t <:+: s

/-- HepMC2: header and records together are the file. The header ends at the end of a line and has no event line. Each
record starts with an event line and has no other one. All records but the last end at the end of a line. -/
structure HepMCSplit (file header : Bytes) (records : List Bytes) : Prop where
  whole : header ++ records.flatten = file
  nonempty : records ≠ []
  header_end : header.getLast? = some 10
  header_events : ¬ Contains header (ascii "\nE")
  starts : ∀ r ∈ records, ascii "E" <+: r
  one : ∀ r ∈ records, ¬ Contains r (ascii "\nE")
  ends : ∀ r ∈ records.dropLast, r.getLast? = some 10

/-- LHEF: header and records are the beginning of the file. The header ends with the first `</init>` at the beginning of a
line. Each record ends with `</event>` and contains it once. What follows the last record does not contain it. -/
structure LhefSplit (file header : Bytes) (records : List Bytes) : Prop where
  beginning : ∃ remainder, header ++ records.flatten ++ remainder = file ∧ ¬ Contains remainder (ascii "</event>")
  header_end : ascii "\n</init>" <:+ header
  header_once : ¬ Contains header.dropLast (ascii "\n</init>")
  ends : ∀ r ∈ records, ascii "</event>" <:+ r
  once : ∀ r ∈ records, ¬ Contains r.dropLast (ascii "</event>")

/-- STRIPPER XML: header and records together are the file. The header does not contain `<se`. Each record starts with
`<se` and does not contain it again. -/
structure StripperSplit (file header : Bytes) (records : List Bytes) : Prop where
  whole : header ++ records.flatten = file
  nonempty : records ≠ []
  header_events : ¬ Contains header (ascii "<se")
  starts : ∀ r ∈ records, ascii "<se" <+: r
  once : ∀ r ∈ records, ¬ Contains r.tail (ascii "<se")

end Cres.Spec

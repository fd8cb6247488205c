import Verif.Spec.Classify
import Verif.Spec.Reread
import Verif.Model.Classify

/-!
Specification for C94: files of `cres-classify-events` as input files of cres.
-/

namespace Cres.Spec

variable {K V E : Type*}

/-- The format in `cres-classify-events` for a kind of file. -/
def classifyFormat : Kind K → Classify.Format
  | .hepmc2 => .hepmc
  | .lhef => .lhef
  | .stripperXml _ => .stripper

/-- The end of a record is regular. Without the footer, a HepMC2 record ends with a line that is not blank, and a STRIPPER XML
record contains a complete tag. -/
def RegularEnd (kind : Kind K) (r : Bytes) : Prop :=
  match kind with
  | .hepmc2 => ∀ t, WithoutFooter (Classify.footer .hepmc) r t → ∃ s, t = s ++ ascii "\n" ∧ ¬ ∃ a ws, Blank ws ∧ s = a ++ ascii "\n" ++ ws
  | .lhef => True
  | .stripperXml _ => ∀ t, WithoutFooter (Classify.footer .stripper) r t → ∃ a b, t = a ++ ascii ">" ++ b

/-- The part of an event file in a region. -/
structure RegionPart (reg : Event K V → Nat) (i : Nat) (d d' : EventFile K V) : Prop where
  kind : d'.kind = d.kind
  header : d'.header = d.header
  events : d'.events = d.events.filter (fun ev => reg ev = i)

end Cres.Spec

import Verif.Spec.Scaled
import Verif.Spec.Named

/-!
Specification for C101: some of the weights of events.
-/

namespace Cres.Spec

variable {K V : Type*}

/-- The weights at the given positions. -/
def onlyWeights (I : List Nat) (w : List K) : List K := I.filterMap (w[·]?)

/-- The event with the weights at the given positions only. -/
def keepingWeights (I : List Nat) (e : Event K V) : Event K V := { e with weights := onlyWeights I e.weights }

/-- Settings with other selected names. -/
def CresSettings.selecting {D : Type*} (s : CresSettings K V D) (names : List Bytes) : CresSettings K V D :=
  { s with io := Spec.selecting s.io names }

/-- For each of the names: if files are read with only this name selected, the events are the same. These have the central weight
and the weight with this name. -/
def SameForNames [Zero K] [Mul K] [Div K] [LinearOrder V] {P : Type*} (io : IOConfig K V) (names : List Bytes) (paths : List P) (fs fs' : FS P) : Prop :=
  ∀ n ∈ names, ∃ dn dn', EventFiles (selecting io [n]) fs paths dn ∧ EventFiles (selecting io [n]) fs' paths dn' ∧
    allEvents dn' = allEvents dn

end Cres.Spec

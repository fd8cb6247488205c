import Verif.Spec.Program
import Verif.Spec.Records

/-!
HepMC2 files with named weights.
-/

namespace Cres.Spec

variable {K V P : Type*}

/-- The names in the line with names of a HepMC2 record. -/
def RecordNames (record : Bytes) (names : List Bytes) : Prop :=
  ∃ n entries rest, NamesLine record n entries ∧ count HepMC.stringEntry n entries = some (rest, names)

/-- Reading and writing with other selected names. -/
def selecting (io : IOConfig K V) (names : List Bytes) : IOConfig K V := { io with ctx := { io.ctx with names := names } }

/-- HepMC2 files in which all records have the selected names in the same order. -/
structure NamedFiles (io : IOConfig K V) (ds : List (EventFile K V)) : Prop where
  multi : io.ctx.multi = true
  nonempty : io.ctx.names ≠ []
  nodup : io.ctx.names.Nodup
  hepmc : ∀ d ∈ ds, d.kind = .hepmc2
  /-- All records have one line with names. -/
  weights : ∀ ev ∈ allEvents ds, ev.weights.length = io.ctx.names.length + 1
  /-- Each selected name occurs once, always in the same order. -/
  names : ∃ order, order.Perm io.ctx.names ∧ ∀ d ∈ ds, ∀ r ∈ d.records, ∃ names, RecordNames r names ∧
    names.filter (fun n => decide (n ∈ io.ctx.names)) = order
  /-- The name of the first weight is selected in all records or in none. -/
  first : (∀ d ∈ ds, ∀ r ∈ d.records, FirstNameIn io.ctx.names r) ∨ (∀ d ∈ ds, ∀ r ∈ d.records, ¬ FirstNameIn io.ctx.names r)

/-- Only central weights are used, or names in HepMC2 files are selected. There is no `NaN` for which a debug build panics. -/
def WeightsSupported (io : IOConfig K V) (ds : List (EventFile K V)) : Prop :=
  (io.ctx.multi = true → io.ctx.names = []) ∨
  (NamedFiles io ds ∧ (io.ctx.debug = true → ∀ w, io.ctx.float.isNaN w = false))

/-- The weights with a name, read from input files and from output files. For selected names their sum is the same. For
other names, except for the name of the first weight, each of these weights is the same. -/
def NamedWeightsKept [Field K] [LinearOrder V] (io : IOConfig K V) (fs : FS P) (inputs : List P) (fs' : FS P) (outputs : List P)
    (ds : List (EventFile K V)) : Prop :=
  ∀ n dn, EventFiles (selecting io [n]) fs inputs dn →
    (n ∈ io.ctx.names → ∃ dn', EventFiles (selecting io [n]) fs' outputs dn' ∧ List.Forall₂ SameExceptWeights dn dn' ∧
      weightSumNo 1 (allEvents dn') = weightSumNo 1 (allEvents dn)) ∧
    (n ∉ io.ctx.names → (∀ d ∈ ds, ∀ r ∈ d.records, ¬ FirstNameIn [n] r) →
      ∃ dn', EventFiles (selecting io [n]) fs' outputs dn' ∧ List.Forall₂ SameExceptWeights dn dn' ∧
        (allEvents dn').map (fun e => e.weights.tail) = (allEvents dn).map fun e => e.weights.tail)

end Cres.Spec

import Verif.Model.MixedRun

/-!
Specification for C113.
-/

namespace Cres.Spec

variable {K V D P : Type*}

/-- The content does not begin like a ROOT file. -/
def NotRoot (cfg : IOConfig K V) (content : Bytes) : Prop := ¬ ascii "root" <+: cfg.firstBuffer content

/-- No input file is also an output file, and none of them begins like a ROOT file. Anything else is allowed. -/
structure TextInputs (cfg : IOConfig K V) (files : List (P × P)) (fs : FS P) : Prop where
  apart : ∀ x ∈ files, x.1 ∉ files.map Prod.snd
  text : ∀ x ∈ files, ∀ c, fs x.1 = some c → NotRoot cfg c

/-- The same configuration with or without the feature `ntuple`. -/
def setNTuple (b : Bool) (cfg : IOConfig K V) : IOConfig K V := { cfg with feat := { cfg.feat with ntuple := b } }

/-- The same program built with or without the feature `ntuple`. -/
def buildNTuple (b : Bool) (p : Program K V D) : Program K V D := { p with io := setNTuple b p.io }

end Cres.Spec

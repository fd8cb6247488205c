import Verif.Model.CommandLine

/-!
Specification for C102: names in options, and options of the program that correspond to those of the C interface.
-/

namespace Cres.Spec

open Cres.Options

/-- The documented name of a strategy, without underscores. -/
def strategyName : Strategy → List Char
  | .leastNegative => "leastnegative".toList
  | .mostNegative => "mostnegative".toList
  | .next => "any".toList

/-- The documented name of a jet algorithm, in lower case and without separators. -/
def algorithmName : JetAlgorithm → List Char
  | .antiKt => "antikt".toList
  | .kt => "kt".toList
  | .cambridgeAachen => "cambridgeaachen".toList

/-- The options of the program that correspond to options in the C interface: everything that cannot be set there has its default
value. -/
def correspondingOptions {F : Type} {K V D : Type*} [Zero K] (c : COpt F K V D) (seed : Nat) (infoLog : Bool) : CresOpt F K where
  outdir := c.outdir
  jetDef := c.jetDef
  objects := ⟨none, none, none, none, none, none⟩
  includeNeutrinos := false
  minweight := 0
  seed := seed
  ptweight := c.ptweight
  infoLog := infoLog
  search := c.neighbourSearch
  strategy := .mostNegative
  maxCellSize := some c.maxCellSize
  weights := []
  infiles := c.infiles

end Cres.Spec

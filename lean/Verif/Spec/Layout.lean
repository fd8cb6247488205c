import Verif.Spec.Program

/-!
Specification for C88 and C89: the same settings for different files.
-/

namespace Cres.Spec

variable {K V D : Type*}

/-- The same settings, except for those that concern the kinds of files. -/
structure SameSettings (p q : Program K V D) : Prop where
  ctx : q.io.ctx = p.io.ctx
  cluster : q.cluster = p.cluster
  nearest : q.nearest = p.nearest
  seeds : q.seeds = p.seeds
  unweight : q.unweight = p.unweight
  infoLog : q.infoLog = p.infoLog

/-- A distance that does not depend on the positions of events in the input. -/
def IgnoresIds (dist : Event K V → Event K V → D) : Prop :=
  ∀ e e' i j, dist { e with id := i } { e' with id := j } = dist e e'

/-- Sums do not depend on the order of the numbers. -/
def SumsCommute (K : Type*) [Zero K] [Add K] : Prop := ∀ l l' : List K, l.Perm l' → l.sum = l'.sum

end Cres.Spec

import Verif.Model.Together

/-!
Specification for several runs at the same time.
-/

namespace Cres.Spec

variable {ι K V D : Type*}

/-- No output file of a run is an input or output file of another run. -/
def Separate (jobs : ι → Job K V D) : Prop :=
  ∀ i j, i ≠ j → ∀ f g, some f ∈ locatedPairs (jobs i).cwd (jobs i).outdir (jobs i).infiles →
    some g ∈ locatedPairs (jobs j).cwd (jobs j).outdir (jobs j).infiles → f.2 ≠ g.1 ∧ f.2 ≠ g.2

/-- An input file of a run. -/
def IsInput (j : Job K V D) (q : List Bytes) : Prop := ∃ out, some (q, out) ∈ locatedPairs j.cwd j.outdir j.infiles

/-- An output file of a run. -/
def IsOutput (j : Job K V D) (q : List Bytes) : Prop := ∃ inn, some (inn, q) ∈ locatedPairs j.cwd j.outdir j.infiles

variable [Zero D] [DistNum D] [Add K] [Zero K] [One K] [Mul K] [Div K] [NatCast K] [Neg K] [LinearOrder K] [LinearOrder V]

/-- Runs one after the other, with the given weights and results. -/
inductive InTurn (jobs : ι → Job K V D) (ws : ι → Option (List (Weights K))) (res : ι → Outcome MainError Unit) :
    List ι → FS (List Bytes) → FS (List Bytes) → Prop
  | nil {fs : FS (List Bytes)} : InTurn jobs ws res [] fs fs
  | cons {i : ι} {l : List ι} {fs fs1 fs2 : FS (List Bytes)} :
      MainRun (jobs i).settings (jobs i).cwd (jobs i).outdir (jobs i).infiles fs (ws i) (res i) fs1 →
      InTurn jobs ws res l fs1 fs2 → InTurn jobs ws res (i :: l) fs fs2

end Cres.Spec

import Verif.Model.NTupleRun
import Verif.Spec.NTuple
import Verif.Spec.Negative

/-!
Vocabulary for complete runs on ntuples.
-/

namespace Cres.NTuple

variable {K P : Type*}

/-- The input files exist and have these records. -/
def Inputs (fs : Files K P) (files : List (P × P)) (ins : List (List (Record K))) : Prop :=
  List.Forall₂ (fun f rs => fs f.1 = some rs) files ins

/-- Only output files differ. -/
def OnlyOutputs (files : List (P × P)) (fs fs' : Files K P) : Prop := ∀ p ∉ files.map Prod.snd, fs' p = fs p

/-- The output files exist and have these records. -/
def Outputs (fs : Files K P) (files : List (P × P)) (outs : List (List (Record K))) : Prop :=
  List.Forall₂ (fun f rs => fs f.2 = some rs) files outs

end Cres.NTuple

namespace Cres.Spec

variable {K V D : Type*}

/-- `r'` is `r` except for the central weight and the selected weights. -/
structure NTupleSame (multi : Bool) (names : List Bytes) (r r' : NTuple.Record K) : Prop where
  weight2 : (multi = true → ascii "2" ∉ names) → r'.weight2 = r.weight2
  meWeight : (multi = true → ascii "ME" ∉ names) → r'.meWeight = r.meWeight
  meWeight2 : (multi = true → ascii "ME2" ∉ names) → r'.meWeight2 = r.meWeight2
  rest : (r'.nparticle, r'.pdgCode, r'.energy, r'.px, r'.py, r'.pz, r'.other) =
    (r.nparticle, r.pdgCode, r.energy, r.px, r.py, r.pz, r.other)

/-- The four weights in a record. -/
def ntupleFields : List (NTuple.Record K → K) :=
  [NTuple.Record.weight, NTuple.Record.weight2, NTuple.Record.meWeight, NTuple.Record.meWeight2]

/-- The sum of `f` over the records in files. -/
def ntupleSum [AddMonoid K] (f : NTuple.Record K → K) (files : List (List (NTuple.Record K))) : K := (files.flatten.map f).sum

/-- The event of the record has particles after clustering. -/
def RecordHasParticles [Zero K] [LinearOrder V] (p : Program K V D) (r : NTuple.Record K) : Bool :=
  match NTuple.convert p.io.ctx r with
  | .ok ev => HasParticles p ev
  | _ => false

end Cres.Spec

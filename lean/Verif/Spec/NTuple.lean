import Verif.Model.NTuple

/-!
What updating ntuple records should do.
-/

namespace Cres.Spec

variable {K : Type*}

/-- The weights of a record that belong to an event: the central weight and the requested ones, in the order "2", "ME",
"ME2". -/
def ntupleWeights (multi : Bool) (names : List Bytes) (r : NTuple.Record K) : List K :=
  r.weight ::
    (if multi then
      (if ascii "2" ∈ names then [r.weight2] else []) ++ (if ascii "ME" ∈ names then [r.meWeight] else []) ++
        (if ascii "ME2" ∈ names then [r.meWeight2] else [])
     else [])

/-- `r'` is `r` with new weights: the weights of an event become `ws`, nothing else changes. For an empty list the record
remains as it is. -/
structure NTupleUpdate (multi : Bool) (names : List Bytes) (ws : List K) (r r' : NTuple.Record K) : Prop where
  weights : ws ≠ [] → ntupleWeights multi names r' = ws
  unchanged : ws = [] → r' = r
  weight2 : (multi = true → ascii "2" ∉ names) → r'.weight2 = r.weight2
  meWeight : (multi = true → ascii "ME" ∉ names) → r'.meWeight = r.meWeight
  meWeight2 : (multi = true → ascii "ME2" ∉ names) → r'.meWeight2 = r.meWeight2
  rest : (r'.nparticle, r'.pdgCode, r'.energy, r'.px, r'.py, r'.pz, r'.other) =
    (r.nparticle, r.pdgCode, r.energy, r.px, r.py, r.pz, r.other)

/-- The number of weights is right: none, or one for each weight of an event. -/
def GoodWeights (multi : Bool) (names : List Bytes) (ws : List K) : Prop :=
  ws = [] ∨ ∀ r : NTuple.Record K, ws.length = (ntupleWeights multi names r).length

/-- The given number of records has been read. -/
def reads : Nat → NTuple.FileIO K → NTuple.FileIO K
  | 0, io => io
  | n + 1, io => (reads n io).next.2

/-- A particle in a record: its type, energy and momentum. -/
structure NTupleParticle (K : Type*) where
  id : ℤ
  (e px py pz : K)

/-- The particles of a record are the given ones. The arrays in a record may be longer. -/
structure NTupleParticles (ps : List (NTupleParticle K)) (r : NTuple.Record K) : Prop where
  count : r.nparticle = ps.length
  id : ps.map NTupleParticle.id <+: r.pdgCode
  e : ps.map NTupleParticle.e <+: r.energy
  px : ps.map NTupleParticle.px <+: r.px
  py : ps.map NTupleParticle.py <+: r.py
  pz : ps.map NTupleParticle.pz <+: r.pz

end Cres.Spec

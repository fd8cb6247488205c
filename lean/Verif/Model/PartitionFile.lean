import Verif.Model.Compressed
import Verif.Model.Event
import Verif.Model.Partition

/-!
Model of the file that `cres-partition` writes (`src/bin/partition.rs:117-122`) and `cres-classify-events` reads
(`src/bin/classify-events.rs:49-57`): conversion to and from values of the data model of the library `serde`, as derived for the
types in it, and the file itself.

Simplifications: integers are unbounded; structs are not read from sequences; strings are not read as numbers. `N64` refuses NaN, which is
not among the numbers here.
-/

namespace Cres.PartitionFile

open Options

/-- Values that occur in YAML files. -/
inductive Value (F : Type)
  | null
  | bool (b : Bool)
  | int (i : ℤ)
  | float (x : F)
  | str (s : String)
  | seq (l : List (Value F))
  | map (l : List (String × Value F))

/-- `struct FourVector` (`src/four_vector.rs:21-24`). -/
structure StoredVector (F : Type) where
  pt : F
  p0 : F
  p1 : F
  p2 : F
  p3 : F
deriving DecidableEq, Repr

/-- `struct DefaultClustering` (`src/cluster.rs:23-28`). -/
structure StoredClustering (F : Type) where
  jetDef : JetDefinition F
  leptonDef : Option (JetDefinition F)
  photonDef : Option (PhotonDefinition F)
  includeNeutrinos : Bool
deriving DecidableEq, Repr

/-- The type `PartInfo` (`src/bin/classify-events.rs:52-53`): the clustering, the bisections (`src/partition.rs:21-24`) and the parameter of
the distance (`src/distance.rs:43-45`). -/
structure PartInfo (F : Type) where
  clustering : StoredClustering F
  vp : List (VPBisection (Event F (StoredVector F)) F)
  ptWeight : F

variable {F : Type}

/-! Serialisation, as derived by `serde` -/

/-- `enum JetAlgorithm` (`src/cluster.rs:208-216`): the name of the variant. -/
def serAlgorithm : JetAlgorithm → Value F
  | .antiKt => .str "AntiKt"
  | .cambridgeAachen => .str "CambridgeAachen"
  | .kt => .str "Kt"

/-- `struct JetDefinition` (`src/cluster.rs:219-227`). -/
def serJetDef (d : JetDefinition F) : Value F :=
  .map [("algorithm", serAlgorithm d.algorithm), ("radius", .float d.radius), ("min_pt", .float d.minPt)]

/-- `struct PhotonDefinition` (`src/cluster.rs:230-238`). -/
def serPhotonDef (d : PhotonDefinition F) : Value F :=
  .map [("min_e_fraction", .float d.minEFraction), ("radius", .float d.radius), ("min_pt", .float d.minPt)]

/-- `Option<T>`. -/
def serOption {T : Type} (ser : T → Value F) : Option T → Value F
  | none => .null
  | some x => ser x

/-- `struct DefaultClustering` (`src/cluster.rs:22-28`). -/
def serClustering (c : StoredClustering F) : Value F :=
  .map [("jet_def", serJetDef c.jetDef), ("lepton_def", serOption serJetDef c.leptonDef), ("photon_def", serOption serPhotonDef c.photonDef),
    ("include_neutrinos", .bool c.includeNeutrinos)]

/-- `struct FourVector` (`src/four_vector.rs:9-24`). -/
def serVector (v : StoredVector F) : Value F :=
  .map [("pt", .float v.pt), ("p", .seq [.float v.p0, .float v.p1, .float v.p2, .float v.p3])]

/-- `struct Weights` (`src/event.rs:193-222`): a list of weights with the feature `multiweight` and a single number otherwise.
`RwLock` is transparent. -/
def serWeights (multi : Bool) (w : List F) : Value F :=
  if multi then .seq (w.map .float) else
  match w with
  | x :: _ => .float x
  | [] => .null

/-- `struct Event` (`src/event.rs:120-131`). -/
def serEvent (multi : Bool) (e : Event F (StoredVector F)) : Value F :=
  .map [("id", .int e.id), ("weights", serWeights multi e.weights),
    ("outgoing_by_pid", .seq (e.outgoingByPid.map fun g => .seq [.int g.1, .seq (g.2.map serVector)]))]

/-- `struct VPBisection<P>` (`src/partition.rs:77-95`). -/
def serBisection (multi : Bool) (b : VPBisection (Event F (StoredVector F)) F) : Value F :=
  .map [("pt", serEvent multi b.pt), ("r", .float b.r)]

/-- The pair `(clustering, partition)` (`src/bin/partition.rs:122`), with `struct VPTreePartition<P, DF>` (`src/partition.rs:9-24`) and
`struct EuclWithScaledPt` (`src/distance.rs:30-45`). -/
def serInfo (multi : Bool) (x : PartInfo F) : Value F :=
  .seq [serClustering x.clustering,
    .map [("vp", .seq (x.vp.map (serBisection multi))), ("dist", .map [("pt_weight", .float x.ptWeight)])]]

/-! Deserialisation, as derived by `serde` -/

/-- The fields of a struct; unknown fields are ignored. -/
def fields : Value F → Option (List (String × Value F))
  | .map l => some l
  | _ => none

/-- The value of a field, which must not be there more than once. -/
def field (l : List (String × Value F)) (name : String) : Option (Value F) :=
  match l.filter fun kv => kv.1 == name with
  | [kv] => some kv.2
  | _ => none

/-- `f64` and `N64`: integers are accepted, too. -/
def deFloat [IntCast F] : Value F → Option F
  | .float x => some x
  | .int i => some (i : F)
  | _ => none

/-- Integers. -/
def deInt : Value F → Option ℤ
  | .int i => some i
  | _ => none

/-- `usize`. -/
def deNat (v : Value F) : Option Nat := (deInt v).bind fun i => if 0 ≤ i then some i.toNat else none

/-- `bool`. -/
def deBool : Value F → Option Bool
  | .bool b => some b
  | _ => none

/-- Sequences. -/
def deSeq {T : Type} (de : Value F → Option T) : Value F → Option (List T)
  | .seq l => l.mapM de
  | _ => none

/-- `Option<T>`; `T` is not read from `null` here. -/
def deOption {T : Type} (de : Value F → Option T) : Value F → Option (Option T)
  | .null => some none
  | v => (de v).map some

/-- A field of type `Option<T>`, which may be missing. -/
def optionField {T : Type} (de : Value F → Option T) (l : List (String × Value F)) (name : String) : Option (Option T) :=
  if l.any fun kv => kv.1 == name then (field l name).bind (deOption de) else some none

/-- `enum JetAlgorithm` (`src/cluster.rs:208-216`). -/
def deAlgorithm : Value F → Option JetAlgorithm
  | .str s => if s = "AntiKt" then some .antiKt else if s = "CambridgeAachen" then some .cambridgeAachen else if s = "Kt" then some .kt else none
  | _ => none

/-- `struct JetDefinition` (`src/cluster.rs:219-227`). -/
def deJetDef [IntCast F] (v : Value F) : Option (JetDefinition F) := do
  let l ← fields v
  return ⟨← (← field l "algorithm") |> deAlgorithm, ← (← field l "radius") |> deFloat, ← (← field l "min_pt") |> deFloat⟩

/-- `struct PhotonDefinition` (`src/cluster.rs:230-238`). -/
def dePhotonDef [IntCast F] (v : Value F) : Option (PhotonDefinition F) := do
  let l ← fields v
  return ⟨← (← field l "min_e_fraction") |> deFloat, ← (← field l "radius") |> deFloat, ← (← field l "min_pt") |> deFloat⟩

/-- `struct DefaultClustering` (`src/cluster.rs:22-28`). -/
def deClustering [IntCast F] (v : Value F) : Option (StoredClustering F) := do
  let l ← fields v
  return ⟨← (← field l "jet_def") |> deJetDef, ← optionField deJetDef l "lepton_def", ← optionField dePhotonDef l "photon_def",
    ← (← field l "include_neutrinos") |> deBool⟩

/-- `struct FourVector` (`src/four_vector.rs:9-24`). -/
def deVector [IntCast F] (v : Value F) : Option (StoredVector F) := do
  let l ← fields v
  let pt ← (← field l "pt") |> deFloat
  match ← (← field l "p") |> deSeq deFloat with
  | [p0, p1, p2, p3] => return ⟨pt, p0, p1, p2, p3⟩
  | _ => none

/-- `struct Weights` (`src/event.rs:193-222`). -/
def deWeights [IntCast F] (multi : Bool) (v : Value F) : Option (List F) :=
  if multi then deSeq deFloat v else (deFloat v).map fun x => [x]

/-- A pair of a particle id and momenta. -/
def deGroup [IntCast F] : Value F → Option (ℤ × List (StoredVector F))
  | .seq [i, ps] => do return (← deInt i, ← deSeq deVector ps)
  | _ => none

/-- `struct Event` (`src/event.rs:120-131`). -/
def deEvent [IntCast F] (multi : Bool) (v : Value F) : Option (Event F (StoredVector F)) := do
  let l ← fields v
  return ⟨← (← field l "id") |> deNat, ← (← field l "weights") |> deWeights multi, ← (← field l "outgoing_by_pid") |> deSeq deGroup⟩

/-- `struct VPBisection<P>` (`src/partition.rs:77-95`). -/
def deBisection [IntCast F] (multi : Bool) (v : Value F) : Option (VPBisection (Event F (StoredVector F)) F) := do
  let l ← fields v
  return ⟨← (← field l "pt") |> deEvent multi, ← (← field l "r") |> deFloat⟩

/-- The type `PartInfo` (`src/bin/classify-events.rs:52-53`). That the number of bisections is a power of two minus one is not checked. -/
def deInfo [IntCast F] (multi : Bool) : Value F → Option (PartInfo F)
  | .seq [c, p] => do
    let l ← fields p
    let d ← fields (← field l "dist")
    return ⟨← deClustering c, ← (← field l "vp") |> deSeq (deBisection multi), ← (← field d "pt_weight") |> deFloat⟩
  | _ => none

/-! Files -/

/-- Text the YAML library accepts at most: UTF-8 without control characters. -/
def yamlText (s : Bytes) : Bool := validUtf8 s && s.all fun b => b == 9 || b == 10 || b == 13 || (32 ≤ b && b != 127)

/-- The library `serde_yaml`. -/
structure Yaml (F : Type) where
  /-- The pieces that are written for a value. -/
  write : Value F → List Bytes
  /-- The value of a text, if it is valid. -/
  read : Bytes → Option (Value F)
  /-- Other data than text are refused. -/
  rejects : ∀ s, yamlText s = false → read s = none

/-- The content of the partition file (`src/bin/partition.rs:118-122`). -/
def writeFile (codec : Codec) (compression : Option Compression) (yaml : Yaml F) (multi : Bool) (x : PartInfo F) : Bytes :=
  (codec.compressWriter compression).complete (yaml.write (serInfo multi x))

/-- Reading the partition file (`src/bin/classify-events.rs:50-57`); `none` is an error. The file is not decompressed. -/
def readFile [IntCast F] (yaml : Yaml F) (multi : Bool) (s : Bytes) : Option (PartInfo F) := (yaml.read s).bind (deInfo multi)

end Cres.PartitionFile

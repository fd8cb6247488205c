import Verif.Spec.FileIO
import Verif.Spec.Reader

/-!
Event files: texts that consist of a header and records with events.
-/

namespace Cres.Spec

variable {K V P : Type*}

/-- The weight of a STRIPPER XML record is a number in quotes. -/
def Quoted (F : FloatFormat K) (record : Bytes) : Prop :=
  ∀ r w rest, Stripper.weightStart record = some r → F.double r = some (rest, w) → ascii "\"" <+: rest

/-- A text file in UTF-8 that consists of a header and records. The format can be recognised from the header alone. -/
def TextFile (cfg : IOConfig K V) (content : Bytes) (d : FileData K) : Prop :=
  validUtf8 content = true ∧
  (∀ rest, detectFormat cfg.feat (some (cfg.firstBuffer (d.header ++ rest))) = .ok d.kind.format) ∧
  match d.kind with
  | .hepmc2 =>
    -- the file does not end within the first line of an event
    HepMCSplit content d.header d.records ∧ ¬ ascii "\nE" <:+ content
  | .lhef =>
    -- there is white space before the closing tag of each event
    LhefSplit content d.header d.records ∧ ∀ r ∈ d.records, ∃ b, isAsciiWs b = true ∧ b :: ascii "</event>" <:+ r
  | .stripperXml s =>
    -- the file does not end within the tag of an event, the weights are quoted, and the header announces the events
    StripperSplit content d.header d.records ∧ ¬ ascii "<se" <:+ content ∧ (∀ r ∈ d.records, Quoted cfg.ctx.float r) ∧
    ∃ name n m, cfg.xmlInfo d.header = .ok (.eventrecord name n m) ∧ cfg.scaling name = some s ∧
      (cfg.ctx.debug = true → d.records.length ≤ m)

/-- The event in a record. The weight in STRIPPER XML files is to be multiplied by the scale of the channel. -/
def RecordEvent [Zero K] [Mul K] [LinearOrder V] (cfg : IOConfig K V) (kind : Kind K) (record : Bytes) (ev : Event K V) : Prop :=
  match kind with
  | .hepmc2 => HepMC.parse cfg.ctx record = .ok ev
  | .lhef => Lhef.parse cfg.ctx record = .ok ev
  | .stripperXml s => ∃ ev0 w, Stripper.parse cfg.ctx record = .ok ev0 ∧ ev0.weights = [w] ∧
      cfg.ctx.float.finite (s * w) = true ∧ ev = { ev0 with weights := [s * w] }

/-- The content of an event file, with the events in the records. -/
structure EventFile (K V : Type*) extends FileData K where
  events : List (Event K V)

/-- A text with this content. -/
def IsEventFile [Zero K] [Mul K] [LinearOrder V] (cfg : IOConfig K V) (content : Bytes) (d : EventFile K V) : Prop :=
  TextFile cfg content d.toFileData ∧ List.Forall₂ (RecordEvent cfg d.kind) d.records d.events

/-- The files exist and have this content. -/
def EventFiles [Zero K] [Mul K] [LinearOrder V] (cfg : IOConfig K V) (fs : FS P) (paths : List P) (ds : List (EventFile K V)) : Prop :=
  List.Forall₂ (fun p d => ∃ content, fs p = some content ∧ IsEventFile cfg content d) paths ds

/-- A weight that can be written to a file. STRIPPER XML files contain the weight divided by the scale. With
rounding the weight that is read, `s * (w / s)`, is not always the same. -/
def Writable [Zero K] [Mul K] [Div K] (cfg : IOConfig K V) (kind : Kind K) (w : K) : Prop :=
  cfg.ctx.float.finite w = true ∧
  match kind with
  | .stripperXml s => s ≠ 0 ∧ s * (w / s) = w ∧ cfg.ctx.float.finite (w / s) = true
  | _ => True

/-- The weight that is read after the weight `w` was written. -/
def stored [Mul K] [Div K] (kind : Kind K) (w : K) : K :=
  match kind with
  | .stripperXml s => s * (w / s)
  | _ => w

/-- Like `Writable`, but with rounding the weight that is read can be a different one (`stored`). -/
def Storable [Mul K] [Div K] (cfg : IOConfig K V) (kind : Kind K) (w : K) : Prop :=
  match kind with
  | .stripperXml s => cfg.ctx.float.finite (w / s) = true ∧ cfg.ctx.float.finite (s * (w / s)) = true
  | _ => cfg.ctx.float.finite w = true

/-- An event with new weights; no weights mean no change. -/
def reweighted (ws : List K) (ev : Event K V) : Event K V := if ws = [] then ev else { ev with weights := ws }

/-- Weights for the records of the files `ds`, file by file. -/
def splitWeights : List (EventFile K V) → List (List K) → List (List (List K))
  | [], _ => []
  | d :: ds, ws => ws.take d.records.length :: splitWeights ds (ws.drop d.records.length)

/-- An event file with new weights. -/
def EventFile.reweight [Div K] (cfg : IOConfig K V) (d : EventFile K V) (ws : List (List K)) : EventFile K V :=
  ⟨⟨d.kind, d.header, List.zipWith (updated cfg d.kind) ws d.records⟩, List.zipWith reweighted ws d.events⟩

/-- An event file with new weights that are rounded when they are written and read. -/
def EventFile.store [Mul K] [Div K] (cfg : IOConfig K V) (d : EventFile K V) (ws : List (List K)) : EventFile K V :=
  ⟨⟨d.kind, d.header, List.zipWith (updated cfg d.kind) ws d.records⟩,
    List.zipWith (fun w => reweighted (w.map (stored d.kind))) ws d.events⟩

/-- The weights that are read after the weights `ws` were written to the files `ds`. -/
def storedWeights [Mul K] [Div K] : List (EventFile K V) → List (List K) → List (List K)
  | [], _ => []
  | d :: ds, ws => (ws.take d.records.length).map (List.map (stored d.kind)) ++ storedWeights ds (ws.drop d.records.length)

end Cres.Spec

import Mathlib.Data.List.Forall2
import Verif.Model.CombinedIO

/-!
What files contain and what is to be written.
-/

namespace Cres.Spec

variable {K V P : Type*}

/-- A reader in the state `r` returns these records and then the end of the file. -/
inductive Reads (debug : Bool) (format : FileFormat) : Reader → List Bytes → Prop
  | done {r} : (r.readRaw debug format).1 = none → Reads debug format r []
  | more {r r' record records} : r.readRaw debug format = (some (.ok record), r') → Reads debug format r' records →
      Reads debug format r (record :: records)

/-- What is found in an input file: how it is handled, the header and the records. -/
structure FileData (K : Type*) where
  kind : Kind K
  header : Bytes
  records : List Bytes

/-- A file with the given content can be opened, and all records can be read. -/
def Readable (cfg : IOConfig K V) (content : Bytes) (d : FileData K) : Prop :=
  detectFormat cfg.feat (some (cfg.firstBuffer content)) = .ok d.kind.format ∧
  ∃ r, Reader.new cfg content d.kind.format = .ok r ∧ r.header = d.header ∧
    Kind.find cfg d.header d.kind.format = .ok d.kind ∧ Reads cfg.ctx.debug d.kind.format r d.records

/-- The input file exists and can be read. -/
def Input (cfg : IOConfig K V) (fs : FS P) (infile : P) (d : FileData K) : Prop :=
  ∃ content, fs infile = some content ∧ Readable cfg content d

/-- All input files exist and can be read. -/
def Inputs (cfg : IOConfig K V) (fs : FS P) (files : List (P × P)) (ds : List (FileData K)) : Prop :=
  List.Forall₂ (fun f d => Input cfg fs f.1 d) files ds

/-- A record with new weights, if the weights can be replaced. -/
def updated [Div K] (cfg : IOConfig K V) (kind : Kind K) (weights : List K) (record : Bytes) : Bytes :=
  match kind.update cfg weights record with
  | .ok record' => record'
  | _ => record

/-- The content of an output file if `weights` are the new weights for the records of this file and the following ones. -/
def output [Div K] (cfg : IOConfig K V) (d : FileData K) (weights : List (List K)) : Bytes :=
  d.header ++ (List.zipWith (updated cfg d.kind) weights d.records).flatten ++ d.kind.footer

/-- The number of records in files. -/
def total (ds : List (FileData K)) : Nat := (ds.map (·.records.length)).sum

/-- The number of records that a file declares. Only STRIPPER XML files do. -/
def declared (cfg : IOConfig K V) (d : FileData K) : Option Nat :=
  match d.kind with
  | .stripperXml _ =>
    match cfg.xmlInfo d.header with
    | .ok (.eventrecord _ _ n) => some n
    | _ => none
  | _ => none

/-- All records in files together with how they are handled, one file after the other. -/
def items (ds : List (FileData K)) : List (Kind K × Bytes) := ds.flatMap fun d => d.records.map (d.kind, ·)

/-- Calling `update_next_weights` several times: the results and the final state. -/
def calls [Div K] [DecidableEq P] (cfg : IOConfig K V) : List (List K) → CombinedIO K P → FS P →
    List (Outcome IOError Bool) × CombinedIO K P × FS P
  | [], s, fs => ([], s, fs)
  | w :: ws, s, fs =>
    let x := s.updateNext cfg w fs
    ((x.1 :: (calls cfg ws x.2.1 x.2.2).1), (calls cfg ws x.2.1 x.2.2).2)

/-- A record as it is handed to the user. -/
def presented [Mul K] (cfg : IOConfig K V) (kind : Kind K) (record : Bytes) : Bytes :=
  match kind.present cfg record with
  | .ok record' => record'
  | _ => record

/-- All records in files, one file after the other, as handed to the user. -/
def allRecords [Mul K] (cfg : IOConfig K V) (ds : List (FileData K)) : List Bytes :=
  ds.flatMap fun d => d.records.map (presented cfg d.kind)

end Cres.Spec

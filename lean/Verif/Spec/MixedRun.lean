import Verif.Model.MixedRun
import Verif.Spec.NTupleRun

/-!
Vocabulary for complete runs on text files and ntuples together.
-/

namespace Cres.Spec

open Mixed

variable {K V D P : Type*}

/-- What is in a file: the content of a text file, or the records of an ntuple with the events in them. -/
inductive AnyFile (K V : Type*)
  | text (d : EventFile K V)
  | ntuple (records : List (NTuple.Record K)) (events : List (Event K V))

/-- The events in a file. -/
def AnyFile.events : AnyFile K V → List (Event K V)
  | .text d => d.events
  | .ntuple _ events => events

/-- A file with this content. The format of ntuples is recognised. -/
def IsAnyFile [Zero K] [Mul K] [LinearOrder V] (cfg : IOConfig K V) (lib : RootLib K) (content : Bytes) : AnyFile K V → Prop
  | .text d => IsEventFile cfg content d
  | .ntuple records events =>
    detectFormat cfg.feat (some (cfg.firstBuffer content)) = .ok .ntuple ∧ lib.read content = .ok records ∧
      List.Forall₂ (fun r ev => NTuple.convert cfg.ctx r = .ok ev) records events

/-- The files exist and have this content. -/
def AnyFiles [Zero K] [Mul K] [LinearOrder V] (cfg : IOConfig K V) (lib : RootLib K) (fs : FS P) (paths : List P)
    (ds : List (AnyFile K V)) : Prop :=
  List.Forall₂ (fun p d => ∃ content, fs p = some content ∧ IsAnyFile cfg lib content d) paths ds

/-- All events in files, one file after the other. -/
def anyEvents (ds : List (AnyFile K V)) : List (Event K V) := ds.flatMap AnyFile.events

/-- The files are both text files or both ntuples and differ only in the weights. -/
def AnySame (multi : Bool) (names : List Bytes) : AnyFile K V → AnyFile K V → Prop
  | .text d, .text d' => SameExceptWeights d d'
  | .ntuple rs evs, .ntuple rs' evs' => List.Forall₂ (NTupleSame multi names) rs rs' ∧
      List.Forall₂ (fun e e' => e'.outgoingByPid = e.outgoingByPid) evs evs'
  | _, _ => False

/-- A weight that can be written to the file. -/
def AnyWritable [Zero K] [Mul K] [Div K] (cfg : IOConfig K V) : AnyFile K V → K → Prop
  | .text d, w => Writable cfg d.kind w
  | .ntuple _ _, w => cfg.ctx.float.finite w = true

/-- What the library for ROOT files should do: what was written can be read, and the beginning of files that were written is
recognised. -/
structure GoodRootLib (cfg : IOConfig K V) (lib : RootLib K) : Prop where
  read_write : ∀ rs, lib.read (lib.write rs) = .ok rs
  detect : ∀ rs, detectFormat cfg.feat (some (cfg.firstBuffer (lib.write rs))) = .ok .ntuple

end Cres.Spec

import Verif.Model.Parsing
import Verif.Model.Event

/-!
Model of parsing and updating HepMC2 event records (`src/hepmc2.rs`).
-/

namespace Cres

variable {K V : Type*}

/-- What parsing depends on: features, build mode, the names of the requested weights and arithmetic. -/
structure ParseCtx (K V : Type*) where
  float : FloatFormat K
  /-- Feature `multiweight`. -/
  multi : Bool
  /-- Debug assertions and overflow checks. -/
  debug : Bool
  /-- `Converter::weight_names`, only with `multiweight`. -/
  names : List Bytes
  /-- The four-vector with the given energy and momentum components (`[e, px, py, pz].into()`). -/
  momentum : K → K → K → K → V
  /-- Multiplication with 0.001. -/
  milli : V → V

namespace HepMC

/-- `enum EnergyUnit` (`src/hepmc2.rs:259-264`). -/
inductive EnergyUnit
  | MeV | GeV
deriving DecidableEq, Repr

/-- `non_weight_entries` (`src/hepmc2.rs:511-520`), the rest only. -/
def nonWeightEntries (line : Bytes) : Option Bytes :=
  match count anyEntry 10 (line.drop 1) with
  | none => none
  | some (r, _) =>
    match u32Entry r with
    | none => none
    | some (r, n) =>
      match count anyEntry n r with
      | none => none
      | some (r, _) => some r

/-- `extract_weights` (`src/hepmc2.rs:438-467`): the central weight, all weights with `multiweight`, the rest. -/
def extractWeights (c : ParseCtx K V) (record : Bytes) : Outcome ReadError (K × List K × Bytes) :=
  if ¬ [69] <+: record then .err (.unrecognisedEntry "start of record")
  else
    match nonWeightEntries record with
    | none => .err (.parseEntry "entries before weight")
    | some rest =>
      (orParseErr "number of weights entry" (u32Entry rest)).bind fun (rest, nweights) =>
        if c.multi then
          (orParseErr "event weight entries" (count c.float.doubleEntry nweights rest)).bind fun (rest, weights) =>
            match weights with
            | [] => .panic
            | w :: ws => .ok (w, w :: ws, rest)
        else
          (orParseErr "event weight entry" (c.float.doubleEntry rest)).bind fun (rest, weight) => .ok (weight, [], rest)

/-- `string` (`src/hepmc2.rs:528-534`). -/
def string (s : Bytes) : PResult Bytes :=
  match s with
  | 34 :: r =>
    match splitAtPattern [34] r with
    | some (name, rest) => some (rest, name)
    | none => none
  | _ => none

/-- `string_entry` (`src/hepmc2.rs:522-526`). -/
def stringEntry (s : Bytes) : PResult Bytes :=
  match space1 s with
  | some r => string r
  | none => none

/-- The loop in `parse_weight_names_line` (`src/hepmc2.rs:489-497`): for each weight read a name; keep the weight if the
name is requested. Returns the rest of the record, the builder and the names that were seen. -/
def namesLoop (c : ParseCtx K V) : List K → Bytes → EventBuilder K V → List Bytes →
    Outcome ReadError (Bytes × EventBuilder K V × List Bytes)
  | [], record, b, seen => .ok (record, b, seen)
  | w :: ws, record, b, seen =>
    (orParseErr "weight name entry" (stringEntry record)).bind fun (record, name) =>
      if name ∈ c.names then
        (c.float.n64 c.debug w).bind fun w => namesLoop c ws record (b.addWeight c.multi w) (name :: seen)
      else namesLoop c ws record b seen

/-- `parse_weight_names_line` (`src/hepmc2.rs:470-509`). Which of several missing names is reported depends on the order in
a hash map, here it is the first one. -/
def parseNamesLine (c : ParseCtx K V) (record : Bytes) (weights : List K) (b : EventBuilder K V) :
    Outcome ReadError (Bytes × EventBuilder K V) :=
  if c.names = [] then .ok (record, b)
  else
    (orParseErr "number of weight names entry" (u32Entry (record.drop 1))).bind fun (names, nnames) =>
      (namesLoop c (weights.take nnames) names b []).bind fun (rest, b, seen) =>
        match c.names.find? (fun n => n ∉ seen) with
        | some missing => .err (.findWeight missing)
        | none => .ok (rest, b)

/-- `parse_units_line` (`src/hepmc2.rs:385-404`). -/
def parseUnitsLine (record : Bytes) : Outcome ReadError (EnergyUnit × Bytes) :=
  (orParseErr "energy unit entry" (anyEntry (record.drop 1))).bind fun (rest, energy) =>
    if energy = ascii "GEV" then .ok (.GeV, rest)
    else if energy = ascii "MEV" then .ok (.MeV, rest)
    else .err (.invalidEntry "energy unit entry")

/-- `parse_particle_line` (`src/hepmc2.rs:406-436`). -/
def parseParticleLine (c : ParseCtx K V) (record : Bytes) (b : EventBuilder K V) :
    Outcome ReadError (Bytes × EventBuilder K V) :=
  (orParseErr "barcode entry" (anyEntry (record.drop 1))).bind fun (rest, _) =>
  (orParseErr "particle id entry" (i32Entry rest)).bind fun (rest, id) =>
  (orParseErr "px entry" (c.float.doubleEntry rest)).bind fun (rest, px) =>
  (orParseErr "py entry" (c.float.doubleEntry rest)).bind fun (rest, py) =>
  (orParseErr "pz entry" (c.float.doubleEntry rest)).bind fun (rest, pz) =>
  (orParseErr "energy entry" (c.float.doubleEntry rest)).bind fun (rest, e) =>
  (orParseErr "mass entry" (anyEntry rest)).bind fun (rest, _) =>
  (orParseErr "particle status entry" (i32Entry rest)).bind fun (rest, status) =>
    if status ≠ 1 then .ok (rest, b)
    else
      (c.float.n64 c.debug e).bind fun e =>
      (c.float.n64 c.debug px).bind fun px =>
      (c.float.n64 c.debug py).bind fun py =>
      (c.float.n64 c.debug pz).bind fun pz =>
        .ok (rest, b.addOutgoing id (c.momentum e px py pz))

/-- One line in the loop of `parse_hepmc` (`src/hepmc2.rs:280-303`). -/
def parseLine (c : ParseCtx K V) (weights : List K) (b : EventBuilder K V) (unit : EnergyUnit) (record : Bytes) :
    Outcome ReadError (Bytes × EventBuilder K V × EnergyUnit) :=
  match record.head? with
  | some 86 | some 70 | some 72 | some 67 => .ok (record, b, unit)
  | some 78 =>
    if c.multi then (parseNamesLine c record weights b).map fun (record, b) => (record, b, unit)
    else .ok (record, b, unit)
  | some 80 => (parseParticleLine c record b).map fun (record, b) => (record, b, unit)
  | some 85 => (parseUnitsLine record).map fun (unit, record) => (record, b, unit)
  | _ => if trimStart record ≠ [] then .err (.unrecognisedEntry "start") else .ok (record, b, unit)

/-- The loop of `parse_hepmc` (`src/hepmc2.rs:279-304`). Each iteration removes at least a line break. -/
def parseLoop (c : ParseCtx K V) (weights : List K) : Nat → EventBuilder K V → EnergyUnit → Bytes →
    Outcome ReadError (EventBuilder K V × EnergyUnit)
  | 0, b, unit, _ => .ok (b, unit)
  | fuel + 1, b, unit, record =>
    match afterByte 10 record with
    | none => .ok (b, unit)
    | some record =>
      (parseLine c weights b unit record).bind fun (record, b, unit) => parseLoop c weights fuel b unit record

/-- `parse_hepmc` (`src/hepmc2.rs:270-311`). -/
def parse [Zero K] [LinearOrder V] (c : ParseCtx K V) (record : Bytes) : Outcome ReadError (Event K V) :=
  (extractWeights c record).bind fun (weight, weights, rest) =>
  (c.float.n64 c.debug weight).bind fun w =>
  (parseLoop c weights (rest.length + 1) ((EventBuilder.new c.multi).addWeight c.multi w) .GeV rest).bind fun (b, unit) =>
    if unit ≠ .GeV then .ok (b.rescaleEnergies c.milli).build
    else .ok b.build

end HepMC

/-- `update_central_weight` (`src/hepmc2.rs:368-383`), given the record before and after the start of the entry. -/
def updateCentralWeight (F : FloatFormat K) (pre entry : Bytes) (weight : K) : Outcome ReadError Bytes :=
  match anyEntry entry with
  | none => .err (.parseEntry "central weight entry")
  | some (after, _) => .ok (pre ++ entry.take 1 ++ F.display weight ++ after)

namespace HepMC

/-- The first loop in `update_named_weights` (`src/hepmc2.rs:338-346`): the positions of the requested names. -/
def weightPositions (names : List Bytes) : Nat → Nat → Bytes → Outcome ReadError (List Nat)
  | 0, _, _ => .ok []
  | n + 1, nentry, rest =>
    (orParseErr "weight name entry" (stringEntry rest)).bind fun (rest, name) =>
      (weightPositions names n (nentry + 1) rest).map fun pos => if name ∈ names then nentry :: pos else pos

/-- The second loop in `update_named_weights` (`src/hepmc2.rs:354-356`). -/
def replaceEntries (F : FloatFormat K) : List (Nat × K) → List Bytes → Option (List Bytes)
  | [], entries => some entries
  | (idx, w) :: rest, entries =>
    if idx < entries.length then replaceEntries F rest (entries.set idx (F.display w)) else none

/-- `update_named_weights` (`src/hepmc2.rs:314-366`), given the record before and after the start of the weights. -/
def updateNamedWeights (F : FloatFormat K) (names : List Bytes) (pre entries : Bytes) (nweights : Nat) (weights : List K) :
    Outcome ReadError Bytes :=
  if weights.length ≠ names.length + 1 then .panic
  else if names = [] then .ok (pre ++ entries)
  else
    match splitAtPattern (ascii "\nN") (pre ++ entries) with
    | none => .err (.findEntry "weight name entry (line starting with 'N')")
    | some (_, nline) =>
      (orParseErr "number of weight names entry" (u32Entry nline)).bind fun (rest, nnames) =>
      (weightPositions names nnames 0 rest).bind fun pos =>
        match replaceEntries F (pos.zip weights.tail) ((splitAsciiWs entries).take nweights) with
        | none => .panic
        | some words =>
          match splitAtPattern [10] (entries.drop 1) with
          | none => .panic
          | some (_, after) => .ok (pre ++ entries.take 1 ++ joinWith [32] words ++ 10 :: after)

/-- What `update_next_weights_helper` (`src/hepmc2.rs:162-206`) writes for a record. -/
def update (c : ParseCtx K V) (weights : List K) (record : Bytes) : Outcome ReadError Bytes :=
  match weights with
  | [] => .ok record
  | w :: _ =>
    match nonWeightEntries record with
    | none => .err (.parseEntry "entries before weight")
    | some rest =>
      (orParseErr "number of weights entry" (u32Entry rest)).bind fun (rest, nweights) =>
        let pre := record.take (record.length - rest.length)
        (updateCentralWeight c.float pre rest w).bind fun record =>
          if c.multi then updateNamedWeights c.float c.names pre (record.drop pre.length) nweights weights
          else .ok record

end HepMC

end Cres

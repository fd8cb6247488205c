import Mathlib.Algebra.Field.Defs
import Verif.Model.HepMC

/-!
Model of parsing, rescaling and updating STRIPPER XML records (`src/stripper_xml.rs`). The XML library and the
deserialisation of normalisation files are not modelled, see `XmlTag`.
-/

namespace Cres.Stripper

variable {K V : Type*}

/-- `weight_start` (`src/stripper_xml.rs:612-616`), the rest only. -/
def weightStart (line : Bytes) : Option Bytes :=
  match tag (ascii "<se") line with
  | none => none
  | some r =>
    match space1 r with
    | none => none
    | some r => tag (ascii "w=\"") r

/-- `particle_start` (`src/stripper_xml.rs:618-620`), the rest only. -/
def particleStart (line : Bytes) : Option Bytes := tag (ascii "<p") (multispace0 line)

/-- `particle_status` (`src/stripper_xml.rs:622-625`). -/
def particleStatus (line : Bytes) : PResult ℤ :=
  match tag (ascii "id=\"") (space0 line) with
  | none => none
  | some r => parseI32 r

/-- `particle_id` (`src/stripper_xml.rs:627-630`). -/
def particleId (line : Bytes) : PResult ℤ :=
  match tag (ascii ",") line with
  | none => none
  | some r => parseI32 r

/-- A number after a comma. -/
def commaDouble (F : FloatFormat K) (s : Bytes) : PResult K :=
  match tag (ascii ",") s with
  | none => none
  | some r => F.double r

/-- `particle_momentum` (`src/stripper_xml.rs:632-646`). -/
def particleMomentum (F : FloatFormat K) (line : Bytes) : PResult (K × K × K × K) :=
  match F.double (space0 line) with
  | none => none
  | some (r, p0) =>
    match commaDouble F r with
    | none => none
    | some (r, p1) =>
      match commaDouble F r with
      | none => none
      | some (r, p2) =>
        match commaDouble F r with
        | none => none
        | some (r, p3) => some (space0 r, (p0, p1, p2, p3))

/-- `&r[1..]`: panics at the end of the text and inside a character of several bytes. -/
def skipOne {E : Type*} : Bytes → Outcome E Bytes
  | [] => .panic
  | b :: r => if b < 128 then .ok r else .panic

/-- One iteration of the loop in `parse_stripper_xml` (`src/stripper_xml.rs:574-604`), after `<p`. -/
def parseParticle (c : ParseCtx K V) (b : EventBuilder K V) (r : Bytes) : Outcome ReadError (Bytes × EventBuilder K V) :=
  (orParseErr "particle status entry" (particleStatus r)).bind fun (r, status) =>
    if status ≠ 0 then
      match splitAtPattern (ascii "</p>") r with
      | none => .err (.unclosedTag "<p")
      | some (_, rest) => .ok (rest, b)
    else
      (orParseErr "particle id entry" (particleId r)).bind fun (r, pid) =>
        match tag (ascii "\">") r with
        | none => .err (.incompleteTag "<p>")
        | some r =>
          (skipOne r).bind fun r =>
          (orParseErr "particle momentum entry" (particleMomentum c.float r)).bind fun (r, p) =>
          (c.float.n64 c.debug p.1).bind fun e =>
          (c.float.n64 c.debug p.2.1).bind fun px =>
          (c.float.n64 c.debug p.2.2.1).bind fun py =>
          (c.float.n64 c.debug p.2.2.2).bind fun pz =>
            match tag (ascii "</p>") r with
            | none => .err (.unclosedTag "<p")
            | some rest => .ok (rest, b.addOutgoing pid (c.momentum e px py pz))

/-- The loop in `parse_stripper_xml` (`src/stripper_xml.rs:574-604`). -/
def parseLoop (c : ParseCtx K V) : Nat → EventBuilder K V → Bytes → Outcome ReadError (EventBuilder K V)
  | 0, b, _ => .ok b
  | fuel + 1, b, rest =>
    match particleStart rest with
    | none => .ok b
    | some r => (parseParticle c b r).bind fun (rest, b) => parseLoop c fuel b rest

/-- `parse_stripper_xml` (`src/stripper_xml.rs:549-609`). -/
def parse [Zero K] [LinearOrder V] (c : ParseCtx K V) (record : Bytes) : Outcome ReadError (Event K V) :=
  match weightStart record with
  | none => .err (.parseEntry "start of event record")
  | some rest =>
    (orParseErr "weight entry" (c.float.double rest)).bind fun (rest, weight) =>
    (c.float.n64 c.debug weight).bind fun w =>
      match afterByte 62 rest with
      | none => .err (.incompleteTag "<se>")
      | some rest =>
        (parseLoop c (rest.length + 1) ((EventBuilder.new c.multi).addWeight c.multi w) rest).bind fun b => .ok b.build

/-- Replace the weight entry of a record: the common part of `rescale_weight` (`src/stripper_xml.rs:195-216`) and
`update_next_weights_helper` (`src/stripper_xml.rs:218-256`). -/
def replaceWeight (F : FloatFormat K) (new : K → K) (record : Bytes) : Outcome ReadError Bytes :=
  match weightStart record with
  | none => .err (.parseEntry "start of event record")
  | some r =>
    (orParseErr "weight entry" (F.double r)).bind fun (rest, weight) =>
      .ok (record.take (record.length - r.length) ++ F.display (new weight) ++ rest)

/-- `rescale_weight` (`src/stripper_xml.rs:195-216`). -/
def rescale [Mul K] (F : FloatFormat K) (scale : K) (record : Bytes) : Outcome ReadError Bytes :=
  replaceWeight F (scale * ·) record

/-- What `update_next_weights_helper` (`src/stripper_xml.rs:218-256`) writes for a record. The result of dividing by a
vanishing scale is not modelled. -/
def update [Div K] (c : ParseCtx K V) (scale : K) (weights : List K) (record : Bytes) : Outcome ReadError Bytes :=
  match weights with
  | [] => .ok record
  | w :: ws =>
    (c.float.n64 c.debug (w / scale)).bind fun weight =>
    (replaceWeight c.float (fun _ => weight) record).bind fun record =>
      if c.multi ∧ ws ≠ [] then .panic else .ok record

/-- `enum XMLTag` (`src/stripper_xml.rs:442-454`): what `extract_xml_info` (`src/stripper_xml.rs:337-436`) obtains from
the beginning of an XML file with the help of the XML library. -/
inductive XmlTag (K : Type*)
  | normalization (name : Bytes) (scale : K)
  | eventrecord (name : Bytes) (nevents nsubevents : Nat)
deriving DecidableEq, Repr

/-- An entry `(scale, nevents)` of the map `rescale` in `extract_scaling` (`src/stripper_xml.rs:300`). -/
abbrev ScalingMap (K : Type*) := List (Bytes × K × Nat)

/-- Look up a channel. -/
def ScalingMap.get (m : ScalingMap K) (name : Bytes) : Option (K × Nat) := m.lookup name

/-- Insert or replace. -/
def ScalingMap.insert (m : ScalingMap K) (name : Bytes) (v : K × Nat) : ScalingMap K :=
  (name, v) :: m.filter (fun x => x.1 ≠ name)

/-- What one file contributes in the loop of `extract_scaling` (`src/stripper_xml.rs:301-329`). `none` is a file that is
not XML or cannot be read. -/
def scalingStep [Zero K] [One K] [Neg K] (m : ScalingMap K) : Option (XmlTag K) → ScalingMap K
  | none => m
  | some (.normalization name scale) => m.insert name (scale, ((m.get name).getD (0, 0)).2)
  | some (.eventrecord name nevents _) =>
    m.insert name (((m.get name).getD (-1, 0)).1, ((m.get name).getD (-1, 0)).2 + nevents)

/-- Whether a file remains in the list of event files (`src/stripper_xml.rs:311-328`). -/
def isEventFile : Option (XmlTag K) → Bool
  | some (.normalization _ _) => false
  | _ => true

/-- `extract_scaling` (`src/stripper_xml.rs:289-335`) for files for which the XML information could be extracted: the
files with events and the scale of each channel. `nevents as f64` is the number itself. -/
def extractScaling {α : Type*} [Zero K] [One K] [Neg K] [Div K] [NatCast K] (files : List (α × Option (XmlTag K))) :
    List α × (Bytes → Option K) :=
  ((files.filter (fun f => isEventFile f.2)).map Prod.fst,
   fun name => (((files.map Prod.snd).foldl scalingStep []).get name).map fun x => x.1 / (x.2 : K))

end Cres.Stripper

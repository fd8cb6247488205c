import Verif.Model.HepMC

/-!
Model of parsing and updating records in the Les Houches Event Format (`src/lhef.rs`).
-/

namespace Cres.Lhef

variable {K V : Type*}

/-- `u32_entry0` (`src/lhef.rs:317-319`). -/
def u32Entry0 (s : Bytes) : PResult Nat := parseU32 (space0 s)

/-- `i32_entry0` (`src/lhef.rs:321-323`). -/
def i32Entry0 (s : Bytes) : PResult ℤ := parseI32 (space0 s)

/-- One line in the loop of `parse_lhef` (`src/lhef.rs:247-268`). -/
def parseParticle (c : ParseCtx K V) (b : EventBuilder K V) (line : Bytes) : Outcome ReadError (EventBuilder K V) :=
  (orParseErr "IDUP entry" (i32Entry0 line)).bind fun (rest, id) =>
  (orParseErr "ISTUP entry" (i32Entry rest)).bind fun (rest, status) =>
    if status ≠ 1 then .ok b
    else
      (orParseErr "entries before particle momentum" (count anyEntry 4 rest)).bind fun (rest, _) =>
      (orParseErr "px entry" (c.float.doubleEntry rest)).bind fun (rest, px) =>
      (orParseErr "py entry" (c.float.doubleEntry rest)).bind fun (rest, py) =>
      (orParseErr "py entry" (c.float.doubleEntry rest)).bind fun (rest, pz) =>
      (orParseErr "energy entry" (c.float.doubleEntry rest)).bind fun (_, e) =>
      (c.float.n64 c.debug e).bind fun e =>
      (c.float.n64 c.debug px).bind fun px =>
      (c.float.n64 c.debug py).bind fun py =>
      (c.float.n64 c.debug pz).bind fun pz =>
        .ok (b.addOutgoing id (c.momentum e px py pz))

/-- The loop of `parse_lhef` (`src/lhef.rs:247-268`). -/
def parseParticles (c : ParseCtx K V) : List Bytes → EventBuilder K V → Outcome ReadError (EventBuilder K V)
  | [], b => .ok b
  | line :: lines, b => (parseParticle c b line).bind (parseParticles c lines)

/-- `parse_lhef` (`src/lhef.rs:225-272`). `nparticles - 2` for less than two particles: with overflow checks the
subtraction panics, without them reserving the space does. -/
def parse [Zero K] [LinearOrder V] (c : ParseCtx K V) (record : Bytes) : Outcome ReadError (Event K V) :=
  match afterByte 10 (trimStart record) with
  | none => .err (.findEntry "line break")
  | some record =>
    (orParseErr "NUP entry" (u32Entry0 record)).bind fun (rest, nparticles) =>
      if nparticles < 2 then .panic
      else
        (orParseErr "IDRUP entry" (anyEntry rest)).bind fun (rest, _) =>
        (orParseErr "XWGTUP entry" (c.float.doubleEntry rest)).bind fun (rest, wt) =>
        (c.float.n64 c.debug wt).bind fun wt =>
        (parseParticles c (((lines rest).drop 1).take nparticles) ((EventBuilder.new c.multi).addWeight c.multi wt)).bind
          fun b => .ok b.build

/-- `non_weight_entries` (`src/lhef.rs:307-315`), the rest only. Without a line break it panics. -/
def nonWeightEntries (record : Bytes) : Outcome ReadError (Option Bytes) :=
  match afterByte 10 (trimStart record) with
  | none => .panic
  | some rest =>
    match nonSpace (space0 rest) with
    | none => .ok none
    | some (rest, _) =>
      match anyEntry rest with
      | none => .ok none
      | some (rest, _) => .ok (some rest)

/-- What `update_next_weights_helper` (`src/lhef.rs:140-175`) writes for a record. More than one weight is not
implemented. -/
def update (c : ParseCtx K V) (weights : List K) (record : Bytes) : Outcome ReadError Bytes :=
  match weights with
  | [] => .ok record
  | w :: ws =>
    (nonWeightEntries record).bind fun rest =>
      match rest with
      | none => .err (.parseEntry "entries before weight")
      | some rest =>
        (updateCentralWeight c.float (record.take (record.length - rest.length)) rest w).bind fun record =>
          if c.multi ∧ ws ≠ [] then .panic else .ok record

/-- What `finish_weight_update` (`src/lhef.rs:300-304`) writes. -/
def footer : Bytes := ascii "\n</LesHouchesEvents>\n"

end Cres.Lhef

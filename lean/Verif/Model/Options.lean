import Mathlib.Data.Nat.Bitwise

/-!
Model of the command-line options: `src/bin/opt_common.rs`, `src/bin/opt_cres_validate.rs`, `src/bin/opt_partition.rs` and the
parts of `src/bin/main.rs` and `src/bin/partition.rs` that use them. Strings are lists of characters, floating-point options
are values of any type. The parsing of the command line by `clap` is not modelled.
-/

namespace Cres.Options

/-! ### Lepton and photon definitions -/

/-- `enum JetAlgorithm` (`src/cluster.rs:209-216`). -/
inductive JetAlgorithm | antiKt | cambridgeAachen | kt
deriving DecidableEq, Repr

/-- `cres::cluster::JetDefinition` (`src/cluster.rs:220-227`). -/
structure JetDefinition (F : Type) where
  algorithm : JetAlgorithm
  radius : F
  minPt : F
deriving DecidableEq, Repr

/-- `cres::cluster::PhotonDefinition` (`src/cluster.rs:231-238`). -/
structure PhotonDefinition (F : Type) where
  minEFraction : F
  radius : F
  minPt : F
deriving DecidableEq, Repr

/-- `LeptonDefinition` and `PhotonDefinition` as options (`src/bin/opt_common.rs:110-124`, `:136-147`). -/
structure Opt (F : Type) where
  leptonalgorithm : Option JetAlgorithm
  leptonradius : Option F
  leptonpt : Option F
  photonefrac : Option F
  photonradius : Option F
  photonpt : Option F
deriving DecidableEq, Repr

/-- `enum ValidationError` (`src/bin/opt_cres_validate.rs:8-14`). -/
inductive ValidationError | badLeptonOpt | badPhotonOpt
deriving DecidableEq, Repr

/-- `validate` (`src/bin/opt_cres_validate.rs:16-38`). -/
def validate {F : Type} (opt : Opt F) : Except ValidationError (Opt F) :=
  match opt.leptonalgorithm, opt.leptonpt, opt.leptonradius with
  | some _, some _, some _ | none, none, none =>
    match opt.photonefrac, opt.photonradius, opt.photonpt with
    | some _, some _, some _ | none, none, none => .ok opt
    | _, _, _ => .error .badPhotonOpt
  | _, _, _ => .error .badLeptonOpt

/-- `From<LeptonDefinition> for cres::cluster::JetDefinition` (`src/bin/opt_common.rs:126-134`); `none` is a panic. -/
def Opt.leptonDef {F : Type} (opt : Opt F) : Option (JetDefinition F) := do
  return ⟨← opt.leptonalgorithm, ← opt.leptonradius, ← opt.leptonpt⟩

/-- `From<PhotonDefinition> for cres::cluster::PhotonDefinition` (`src/bin/opt_common.rs:149-157`); `none` is a panic. -/
def Opt.photonDef {F : Type} (opt : Opt F) : Option (PhotonDefinition F) := do
  return ⟨← opt.photonefrac, ← opt.photonradius, ← opt.photonpt⟩

/-- The lepton and photon definitions of the clustering (`src/bin/main.rs:106-113`, `src/bin/partition.rs:56-63`); the outer
`none` is a panic. -/
def Opt.clustering {F : Type} (opt : Opt F) : Option (Option (JetDefinition F) × Option (PhotonDefinition F)) := do
  let lepton ← if opt.leptonalgorithm.isSome then opt.leptonDef.map some else some none
  let photon ← if opt.photonradius.isSome then opt.photonDef.map some else some none
  return (lepton, photon)

/-- The start of `cres` (`src/bin/main.rs:36`): validate, then build the clustering. -/
def cresClustering {F : Type} (opt : Opt F) :
    Except ValidationError (Option (Option (JetDefinition F) × Option (PhotonDefinition F))) :=
  match validate opt with
  | .error e => .error e
  | .ok opt => .ok opt.clustering

/-- The start of `cres-make-partition` (`src/bin/partition.rs:34-35`): there is no validation. -/
def partitionClustering {F : Type} (opt : Opt F) : Option (Option (JetDefinition F) × Option (PhotonDefinition F)) :=
  opt.clustering

/-! ### Numbers -/

/-- `char::to_digit(10)`. -/
def digit (c : Char) : Option Nat := if '0' ≤ c ∧ c ≤ '9' then some (c.toNat - '0'.toNat) else none

/-- The loop of `from_str` for an unsigned integer type with the given largest value. -/
def parseDigits (max : Nat) : List Char → Nat → Option Nat
  | [], n => some n
  | c :: cs, n =>
    match digit c with
    | none => none
    | some d => if 10 * n + d ≤ max then parseDigits max cs (10 * n + d) else none

/-- `from_str` of the standard library for an unsigned integer type with the given largest value: a sign `+` is accepted. -/
def parseUint (max : Nat) (s : List Char) : Option Nat :=
  match s with
  | [] => none
  | '+' :: cs => if cs.isEmpty then none else parseDigits max cs 0
  | _ => parseDigits max s 0

/-! ### Compression -/

/-- `enum Compression` (`src/compression.rs:8-17`). -/
inductive Compression
  | bzip2
  | gzip (level : Nat)
  | lz4 (level : Nat)
  | zstd (level : Nat)
deriving DecidableEq, Repr

/-- `enum ParseCompressionErr` (`src/bin/opt_common.rs:159-165`). -/
inductive ParseCompressionErr
  | unknownAlgorithm (s : List Char)
  | unsupportedLevel (algo lvl : List Char)
deriving DecidableEq, Repr

/-- `to_ascii_lowercase`. -/
def asciiLower (c : Char) : Char := if 'A' ≤ c ∧ c ≤ 'Z' then Char.ofNat (c.toNat + 32) else c

/-- The regular expression class `[[:alnum:]]`. -/
def isAlnum (c : Char) : Bool := ('0' ≤ c && c ≤ '9') || ('A' ≤ c && c ≤ 'Z') || ('a' ≤ c && c ≤ 'z')

/-- `COMPRESSION_RE.captures` (`src/bin/opt_common.rs:15-17`): the groups `algo` and `lvl` (with the underscore). The regular
expression matches in at most one way, because an underscore is not in `[[:alnum:]]`. `decimal` is the class `\d`, which
contains all decimal digits of Unicode. -/
def captures (decimal : Char → Bool) (s : List Char) : Option (List Char × Option (List Char)) :=
  let algo := s.takeWhile isAlnum
  let rest := s.dropWhile isAlnum
  if algo.isEmpty then none
  else
    match rest with
    | [] => some (algo, none)
    | c :: ds => if c = '_' ∧ !ds.isEmpty ∧ ds.all decimal then some (algo, some (c :: ds)) else none

/-- The branch for an algorithm with levels (`src/bin/opt_common.rs:40-52`, `:53-65`, `:66-78`). -/
def withLevel (algo : List Char) (lvl : Option (List Char)) (maxLevel default : Nat) (compr : Nat → Compression) :
    Except ParseCompressionErr Compression :=
  match lvl with
  | some lvl =>
    match parseUint 255 lvl.tail with
    | some l => if l ≤ maxLevel then .ok (compr l) else .error (.unsupportedLevel algo lvl)
    | none => .error (.unsupportedLevel algo lvl)
  | none => .ok (compr default)

/-- `parse_compr` (`src/bin/opt_common.rs:19-81`). -/
def parseCompr (decimal : Char → Bool) (s : List Char) : Except ParseCompressionErr Compression :=
  match captures decimal (s.map asciiLower) with
  | none => .error (.unknownAlgorithm s)
  | some (algo, lvl) =>
    if algo = "bzip2".toList ∨ algo = "bz2".toList then
      match lvl with
      | some lvl => .error (.unsupportedLevel algo lvl)
      | none => .ok .bzip2
    else if algo = "gzip".toList ∨ algo = "gz".toList then withLevel algo lvl 9 6 .gzip
    else if algo = "lz4".toList then withLevel algo lvl 16 0 .lz4
    else if algo = "zstd".toList ∨ algo = "zstandard".toList then withLevel algo lvl 19 0 .zstd
    else .error (.unknownAlgorithm s)

/-! ### Number of regions -/

/-- `u32::count_ones`. -/
def countOnes (n : Nat) : Nat := (List.range 32).countP fun i => n.testBit i

/-- `u32::leading_zeros`. -/
def leadingZeros (n : Nat) : Nat := ((List.range 32).reverse.takeWhile fun i => !n.testBit i).length

/-- `parse_nregions` (`src/bin/opt_partition.rs:72-85`) without the error message; `is_power_of_two` is `count_ones() == 1`. -/
def parseNregions (s : List Char) : Option Nat :=
  match parseUint (2 ^ 32 - 1) s with
  | some n => if countOnes n = 1 then some n else none
  | none => none

/-- `log2` (`src/bin/partition.rs:127-130`, `src/resampler.rs:455-458`) for a 32-bit number; `none` is a panic (overflow
in debug mode). -/
def log2 (n : Nat) : Option Nat := if leadingZeros n + 1 ≤ 32 then some (32 - leadingZeros n - 1) else none

end Cres.Options

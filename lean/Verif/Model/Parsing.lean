import Mathlib.Data.Int.Order.Basic
import Verif.Model.Bytes
import Verif.Model.FileReader

/-!
Model of `src/parsing.rs` and of the parsers of the library `nom` (version 8) that cres uses. A parser returns the rest of
the input and a result, or `none` for an error.
-/

namespace Cres

/-- `IResult<&str, α>`. -/
abbrev PResult (α : Type*) := Option (Bytes × α)

/-- Space or tab, as in `nom`'s `space0` and `space1`. -/
def isBlank (b : UInt8) : Bool := b = 32 || b = 9

/-- ASCII digits. -/
def isDigit (b : UInt8) : Bool := 48 ≤ b && b ≤ 57

/-- `nom::character::complete::space0`, the rest only. -/
def space0 (s : Bytes) : Bytes := s.dropWhile isBlank

/-- `nom::character::complete::space1`, the rest only. -/
def space1 : Bytes → Option Bytes
  | [] => none
  | b :: r => if isBlank b then some (r.dropWhile isBlank) else none

/-- `nom::character::complete::multispace0`, the rest only. -/
def multispace0 (s : Bytes) : Bytes := s.dropWhile (fun b => b = 32 || b = 9 || b = 13 || b = 10)

/-- `nom::bytes::complete::tag`, the rest only. -/
def tag (t s : Bytes) : Option Bytes := if t <+: s then some (s.drop t.length) else none

/-- `non_space` (`src/parsing.rs:25-27`). -/
def nonSpace (s : Bytes) : PResult Bytes :=
  match s.span (fun b => !isAsciiWs b) with
  | ([], _) => none
  | (t, r) => some (r, t)

/-- The number written in decimal digits. -/
def digitsValue (ds : Bytes) : Nat := ds.foldl (fun n d => 10 * n + (d.toNat - 48)) 0

/-- `nom::character::complete::u32`. The library stops with an error at the digit with which the value leaves the range,
here the whole number is tested. -/
def parseU32 (s : Bytes) : PResult Nat :=
  match s.span isDigit with
  | ([], _) => none
  | (ds, r) => if digitsValue ds < 2 ^ 32 then some (r, digitsValue ds) else none

/-- A sign `+` or `-`, if there is one, and the rest. -/
def optSign : Bytes → Bytes × Bytes
  | [] => ([], [])
  | b :: r => if b = 43 || b = 45 then ([b], r) else ([], b :: r)

/-- `nom::character::complete::i32`. -/
def parseI32 (s : Bytes) : PResult ℤ :=
  match (optSign s).2.span isDigit with
  | ([], _) => none
  | (ds, r) =>
    let v : ℤ := if (optSign s).1 = [45] then -(digitsValue ds : ℤ) else digitsValue ds
    if -(2 ^ 31) ≤ v ∧ v < 2 ^ 31 then some (r, v) else none

/-- Mantissa of a number: digits with an optional point and optional further digits, or a point with digits. -/
def mantissa (s : Bytes) : PResult Bytes :=
  match s.span isDigit with
  | ([], _) =>
    match s with
    | 46 :: r =>
      match r.span isDigit with
      | ([], _) => none
      | (f, r') => some (r', 46 :: f)
    | _ => none
  | (d, 46 :: r) => some ((r.span isDigit).2, d ++ 46 :: (r.span isDigit).1)
  | (d, r) => some (r, d)

/-- Exponent of a number. After `e` there must be digits. -/
def exponent : Bytes → PResult Bytes
  | [] => some ([], [])
  | b :: r =>
    if b = 101 || b = 69 then
      match (optSign r).2.span isDigit with
      | ([], _) => none
      | (ds, r') => some (r', b :: (optSign r).1 ++ ds)
    else some (b :: r, [])

/-- Comparison of a lower-case letter with a letter of either case. -/
def eqNoCase (lower b : UInt8) : Bool := b = lower || b = lower - 32

/-- `nom::bytes::complete::tag_no_case` for a tag in lower case. -/
def tagNoCase : Bytes → Bytes → PResult Bytes
  | [], s => some (s, [])
  | _ :: _, [] => none
  | t :: ts, b :: s =>
    if eqNoCase t b then
      match tagNoCase ts s with
      | some (r, m) => some (r, b :: m)
      | none => none
    else none

/-- The text of a number at the beginning: `recognize_float_or_exceptions` of `nom`. -/
def recognizeFloat (s : Bytes) : PResult Bytes :=
  match mantissa (optSign s).2 with
  | some (r, m) =>
    match exponent r with
    | some (r', e) => some (r', (optSign s).1 ++ m ++ e)
    | none => none
  | none =>
    match tagNoCase (ascii "nan") s with
    | some x => some x
    | none =>
      match tagNoCase (ascii "infinity") s with
      | some x => some x
      | none => tagNoCase (ascii "inf") s

/-- Double-precision numbers as far as reading and writing them as text is concerned. -/
structure FloatFormat (K : Type*) where
  /-- The number for a text accepted by `recognizeFloat` (`str::parse::<f64>`, which accepts all of these). -/
  value : Bytes → K
  /-- Not a number. -/
  isNaN : K → Bool
  /-- Neither infinite nor NaN. -/
  finite : K → Bool
  /-- `to_string`. -/
  display : K → Bytes
  /-- Finite numbers are written in decimal notation without exponent, with digits before the point. -/
  display_form : ∀ w, finite w = true → ∃ (neg : Bool) (d f : Bytes), d ≠ [] ∧ (∀ b ∈ d, isDigit b) ∧ (∀ b ∈ f, isDigit b) ∧
    display w = (if neg then [45] else []) ++ d ++ (if f = [] then [] else 46 :: f)
  /-- Reading what was written gives the same number. -/
  value_display : ∀ w, finite w = true → value (display w) = w
  /-- A finite number is a number. -/
  finite_not_nan : ∀ w, finite w = true → isNaN w = false

variable {K : Type*}

/-- `nom::number::complete::double`. -/
def FloatFormat.double (F : FloatFormat K) (s : Bytes) : PResult K :=
  match recognizeFloat s with
  | some (r, t) => some (r, F.value t)
  | none => none

/-- `n64`: with debug assertions NaN leads to a panic. -/
def FloatFormat.n64 {E : Type*} (F : FloatFormat K) (debug : Bool) (x : K) : Outcome E K :=
  if debug && F.isNaN x then .panic else .ok x

/-- `double_entry` (`src/parsing.rs:9-11`). -/
def FloatFormat.doubleEntry (F : FloatFormat K) (s : Bytes) : PResult K :=
  match space1 s with
  | some r => F.double r
  | none => none

/-- `any_entry` (`src/parsing.rs:13-15`). -/
def anyEntry (s : Bytes) : PResult Bytes :=
  match space1 s with
  | some r => nonSpace r
  | none => none

/-- `u32_entry` (`src/parsing.rs:17-19`). -/
def u32Entry (s : Bytes) : PResult Nat :=
  match space1 s with
  | some r => parseU32 r
  | none => none

/-- `i32_entry` (`src/parsing.rs:21-23`). -/
def i32Entry (s : Bytes) : PResult ℤ :=
  match space1 s with
  | some r => parseI32 r
  | none => none

/-- `nom::multi::count`. -/
def count {α : Type*} (p : Bytes → PResult α) : Nat → Bytes → PResult (List α)
  | 0, s => some (s, [])
  | n + 1, s =>
    match p s with
    | none => none
    | some (r, a) =>
      match count p n r with
      | none => none
      | some (r', as) => some (r', a :: as)

/-- `.map_err(|_| ParseEntry(what, ..))`. -/
def orParseErr {α : Type*} (what : String) : PResult α → Outcome ReadError (Bytes × α)
  | some x => .ok x
  | none => .err (.parseEntry what)

end Cres

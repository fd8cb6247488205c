import Mathlib.Data.List.Basic

/-!
Byte strings and the parts of Rust's `str`, `String`, `Vec<u8>` and `BufRead` that cres uses on them.

Text is a list of bytes throughout. cres searches text only for ASCII characters and strings. In UTF-8 an ASCII byte never
occurs inside another character, so searching bytes and searching characters give the same result.
-/

namespace Cres

/-- The content of a file, or a text. -/
abbrev Bytes := List UInt8

/-- The bytes of an ASCII string literal. -/
def ascii (s : String) : Bytes := s.toList.map (fun c => UInt8.ofNat c.toNat)

/-! ### White space -/

/-- `is_ascii_whitespace` of the standard library: space, tab, line feed, form feed, carriage return. -/
def isAsciiWs (b : UInt8) : Bool := b = 32 || b = 9 || b = 10 || b = 12 || b = 13

/-- A character of one byte for which `char::is_whitespace` holds. -/
def isWs1 (b : UInt8) : Bool := b = 32 || (9 ≤ b && b ≤ 13)

/-- A character of two bytes for which `char::is_whitespace` holds: U+0085, U+00A0. -/
def isWs2 (b0 b1 : UInt8) : Bool := b0 = 0xC2 && (b1 = 0x85 || b1 = 0xA0)

/-- A character of three bytes for which `char::is_whitespace` holds: U+1680, U+2000 to U+200A, U+2028, U+2029, U+202F,
U+205F, U+3000. -/
def isWs3 (b0 b1 b2 : UInt8) : Bool :=
  (b0 = 0xE1 && b1 = 0x9A && b2 = 0x80) ||
  (b0 = 0xE2 && b1 = 0x80 && ((0x80 ≤ b2 && b2 ≤ 0x8A) || b2 = 0xA8 || b2 = 0xA9 || b2 = 0xAF)) ||
  (b0 = 0xE2 && b1 = 0x81 && b2 = 0x9F) ||
  (b0 = 0xE3 && b1 = 0x80 && b2 = 0x80)

/-- `str::trim_start`. -/
def trimStart : Bytes → Bytes
  | [] => []
  | [b0] => if isWs1 b0 then [] else [b0]
  | [b0, b1] => if isWs1 b0 then trimStart [b1] else if isWs2 b0 b1 then [] else [b0, b1]
  | b0 :: b1 :: b2 :: r =>
    if isWs1 b0 then trimStart (b1 :: b2 :: r)
    else if isWs2 b0 b1 then trimStart (b2 :: r)
    else if isWs3 b0 b1 b2 then trimStart r
    else b0 :: b1 :: b2 :: r

/-- `trim_ascii_start` (`src/util.rs:3-9`). -/
def trimAsciiStart (s : Bytes) : Bytes := s.dropWhile isAsciiWs

/-! ### Validity of UTF-8 -/

/-- How far a character has been read: nothing missing; one, two or three more bytes missing; after the lead bytes for
which the second byte is restricted; not UTF-8. -/
inductive Utf8State
  | start | tail1 | tail2 | tail3 | afterE0 | afterED | afterF0 | afterF4 | bad
deriving DecidableEq, Repr

/-- Reading one more byte. -/
def Utf8State.step (s : Utf8State) (b : UInt8) : Utf8State :=
  match s with
  | .start =>
    if b < 0x80 then .start
    else if b < 0xC2 then .bad
    else if b < 0xE0 then .tail1
    else if b = 0xE0 then .afterE0
    else if b = 0xED then .afterED
    else if b < 0xF0 then .tail2
    else if b = 0xF0 then .afterF0
    else if b < 0xF4 then .tail3
    else if b = 0xF4 then .afterF4
    else .bad
  | .tail1 => if 0x80 ≤ b ∧ b < 0xC0 then .start else .bad
  | .tail2 => if 0x80 ≤ b ∧ b < 0xC0 then .tail1 else .bad
  | .tail3 => if 0x80 ≤ b ∧ b < 0xC0 then .tail2 else .bad
  | .afterE0 => if 0xA0 ≤ b ∧ b < 0xC0 then .tail1 else .bad
  | .afterED => if 0x80 ≤ b ∧ b < 0xA0 then .tail1 else .bad
  | .afterF0 => if 0x90 ≤ b ∧ b < 0xC0 then .tail2 else .bad
  | .afterF4 => if 0x80 ≤ b ∧ b < 0x90 then .tail2 else .bad
  | .bad => .bad

/-- Whether `String::from_utf8` succeeds. -/
def validUtf8 (s : Bytes) : Bool := s.foldl Utf8State.step .start = .start

/-! ### Searching -/

/-- What follows the first occurrence of a byte: `s.find(c).map(|pos| &s[(pos + 1)..])`. -/
def afterByte (c : UInt8) : Bytes → Option Bytes
  | [] => none
  | b :: r => if b = c then some r else afterByte c r

/-- What precedes and what follows the first occurrence of a string: `s.find(pat)` for the two slices. -/
def splitAtPattern (pat : Bytes) : Bytes → Option (Bytes × Bytes)
  | [] => if pat = [] then some ([], []) else none
  | b :: r =>
    if pat <+: b :: r then some ([], (b :: r).drop pat.length)
    else match splitAtPattern pat r with
      | some (pre, post) => some (b :: pre, post)
      | none => none

/-- The lines of a text without line ends: `str::lines`; `acc` holds the current line. -/
def linesLoop (acc : Bytes) : Bytes → List Bytes
  | [] => if acc = [] then [] else [acc]
  | b :: r =>
    if b = 10 then (if acc.getLast? = some 13 then acc.dropLast else acc) :: linesLoop [] r
    else linesLoop (acc ++ [b]) r

/-- `str::lines`. -/
def lines (s : Bytes) : List Bytes := linesLoop [] s

/-- `str::split_ascii_whitespace`; `acc` holds the current word. -/
def splitWsLoop (acc : Bytes) : Bytes → List Bytes
  | [] => if acc = [] then [] else [acc]
  | b :: r =>
    if isAsciiWs b then (if acc = [] then splitWsLoop [] r else acc :: splitWsLoop [] r)
    else splitWsLoop (acc ++ [b]) r

/-- `str::split_ascii_whitespace`. -/
def splitAsciiWs (s : Bytes) : List Bytes := splitWsLoop [] s

/-- Joining with a separator: `[String]::join`. -/
def joinWith (sep : Bytes) : List Bytes → Bytes
  | [] => []
  | [w] => w
  | w :: ws => w ++ sep ++ joinWith sep ws

/-! ### Reading -/

/-- `BufRead::read_until`: the bytes that are read, up to and including the delimiter or up to the end, and the rest. -/
def readUntil (d : UInt8) : Bytes → Bytes × Bytes
  | [] => ([], [])
  | b :: r => if b = d then ([b], r) else ((b :: (readUntil d r).1), (readUntil d r).2)

/-- What a loop that reads up to a marker ends with. -/
structure ReadLoop where
  buf : Bytes
  rest : Bytes
  /-- The loop ended because nothing was left, not because the marker was found. -/
  eof : Bool
deriving DecidableEq, Repr

/-- `while !buf.ends_with(marker) { if source.read_until(d, &mut buf) == 0 { break; } }`, as in
`src/hepmc2.rs:45-61`, `src/lhef.rs:51-57`, `src/hepmc2.rs:106-111`, `src/lhef.rs:205-209`,
`src/stripper_xml.rs:528-532`. Each iteration but the last consumes at least one byte, so `source.length + 1` steps of fuel
suffice. Errors of the operating system while reading are not modelled. -/
def readLoop (d : UInt8) (marker : Bytes) : Nat → Bytes → Bytes → ReadLoop
  | 0, buf, src => ⟨buf, src, true⟩
  | fuel + 1, buf, src =>
    if marker <:+ buf then ⟨buf, src, false⟩
    else if src = [] then ⟨buf, [], true⟩
    else readLoop d marker fuel (buf ++ (readUntil d src).1) (readUntil d src).2

/-- The loop with enough fuel. -/
def readTo (d : UInt8) (marker buf src : Bytes) : ReadLoop := readLoop d marker (src.length + 1) buf src

end Cres

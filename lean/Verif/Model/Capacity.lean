import Verif.Model.CombinedIO
import Verif.Model.VPTree

/-!
Preparations for reading events: the expected number of events is obtained from the headers of files, and memory for this number is
allocated (`src/cres.rs:234-241`). In the model of complete runs this step is left out.

A 64-bit `usize` is assumed.
-/

namespace Cres

/-- `a + b` for `usize`; `none` is the panic with overflow checks. -/
def usizeAdd (debug : Bool) (a b : Nat) : Option Nat :=
  if a + b ≤ usizeMax then some (a + b) else if debug then none else some ((a + b) % (usizeMax + 1))

/-- `combine_size_hints` (`src/io.rs:534-544`) with 64-bit numbers. -/
def combineHints64 (debug : Bool) (h g : Nat × Option Nat) : Option (Nat × Option Nat) :=
  (usizeAdd debug h.1 g.1).bind fun min =>
    match h.2, g.2 with
    | some h, some g => (usizeAdd debug h g).map fun max => (min, some max)
    | _, _ => some (min, none)

/-- `total_size_hint` after `init` (`src/io.rs:493,522-528`), from the size hints of the single files. -/
def totalHint64 (debug : Bool) (hints : List (Nat × Option Nat)) : Option (Nat × Option Nat) :=
  hints.foldlM (combineHints64 debug) (0, some 0)

/-- How an attempt to allocate memory ends. -/
inductive Allocated
  | ok
  | panic
  | abort
deriving DecidableEq, Repr

/-- The largest `isize`. -/
def isizeMax : Nat := 9223372036854775807

/-- `Vec::with_capacity` of the standard library for `n` elements of `size` bytes: a panic if the number of bytes is not an `isize`, and the end
of the process if the operating system does not provide the memory. `free` is what it provides. -/
def withCapacity (size free n : Nat) : Allocated :=
  if isizeMax < n * size then .panic else if free < n * size then .abort else .ok

/-- The start of `read_events` (`src/cres.rs:234-241`) for new I/O objects: `nevents_read` is 0, so `size_hint` (`src/io.rs:583-590`) is
`total_size_hint`. The progress bar only needs the number. -/
def startReading (debug : Bool) (size free : Nat) (hints : List (Nat × Option Nat)) : Allocated :=
  match totalHint64 debug hints with
  | none => .panic
  | some h => withCapacity size free h.1

end Cres

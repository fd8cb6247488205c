import Verif.Model.Program
import Mathlib.Data.Prod.Lex
import Mathlib.Data.List.Lex

/-!
Model of the messages on event categories in the log (`src/cres.rs:185-196,295-327`).

Simplifications: The messages are not formatted, and names of particles are left out (`src/cres.rs:329-342`). The level of
the logger is at least `info`, so that all messages appear.
-/

namespace Cres

variable {K V : Type*}

/-- Particle ids with the number of such particles (`src/cres.rs:300-302`). Lists of pairs are compared lexicographically, as in
Rust. -/
abbrev Category := List (ℤ ×ₗ ℕ)

/-- `out_multiplicities` (`src/cres.rs:300-302`). -/
def Event.category (e : Event K V) : Category := e.outgoingByPid.map fun x => toLex (x.1, x.2.length)

/-- `*multiplicities.entry(out_multiplicities).or_default() += 1` (`src/cres.rs:303`). The hash map is a list of
keys and values without order. -/
def countCategory (c : Category) : List (Category × ℕ) → List (Category × ℕ)
  | [] => [(c, 1)]
  | (c', n) :: t => if c' = c then (c', n + 1) :: t else (c', n) :: countCategory c t

/-- The hash map after the loop over events (`src/cres.rs:298-304`). -/
def countCategories (events : List (Event K V)) : List (Category × ℕ) :=
  events.foldl (fun t e => countCategory e.category t) []

/-- A message. -/
inductive LogMessage
  /-- "Read n events" (`src/cres.rs:187`) -/
  | read (n : ℕ)
  /-- "Ignoring n events without identified particles" (`src/cres.rs:191-194`) -/
  | ignoring (n : ℕ)
  /-- "n events without identified particles" (`src/cres.rs:309`) -/
  | withoutParticles (n : ℕ)
  /-- "n events with ..." (`src/cres.rs:311-317`) -/
  | category (n : ℕ) (c : Category)
  /-- "Found more than 1000 event categories (n)" (`src/cres.rs:321-324`) -/
  | manyCategories (n : ℕ)
deriving DecidableEq

/-- The number of categories that are shown (`src/cres.rs:296`). -/
def maxMultShown : ℕ := 1000

/-- `(b.1, &a.0).cmp(&(a.1, &b.0))` is not `Greater` (`src/cres.rs:306`). -/
def CategoryLE (a b : Category × ℕ) : Prop := b.2 < a.2 ∨ (b.2 = a.2 ∧ a.1 ≤ b.1)

/-- The messages for sorted categories (`src/cres.rs:307-325`). -/
def categoryMessages (sorted : List (Category × ℕ)) : List LogMessage :=
  ((sorted.take maxMultShown).map fun x =>
    if x.1.isEmpty then LogMessage.withoutParticles x.2 else LogMessage.category x.2 x.1) ++
  (if maxMultShown < sorted.length then [.manyCategories sorted.length] else [])

/-- Possible messages of `log_multiplicities` (`src/cres.rs:295-327`). `order` is the order of iteration over the hash map, and
`sorted` is the result of `sort_unstable_by`. -/
inductive LogsMultiplicities (events : List (Event K V)) : List LogMessage → Prop
  | mk {order sorted : List (Category × ℕ)} : order.Perm (countCategories events) → sorted.Perm order →
      sorted.Pairwise CategoryLE → LogsMultiplicities events (categoryMessages sorted)

/-- Possible messages in a run between reading of `events` and resampling (`src/cres.rs:186-196`). -/
inductive LogsEvents (events : List (Event K V)) : List LogMessage → Prop
  | mk {retained : List (Event K V)} {ms : List LogMessage} : retained = events.filter (fun e => !e.outgoingByPid.isEmpty) →
      LogsMultiplicities retained ms →
      LogsEvents events (.read events.length ::
        (if retained.length < events.length then [.ignoring (events.length - retained.length)] else []) ++ ms)

end Cres

import Verif.Model.PartitionRun
import Verif.Props.Partition

/-!
Property C129: which events determine the partition made by `cres-partition`, and what happens if it fails.
-/

namespace Cres

open PartitionRun

namespace Spec

variable {N R E : Type*}

/-- The events a record of an input file contributes to the partition. -/
inductive Contributes (inp : Input N R E) : Outcome ReadError R → List E → Prop
  | positive {r : R} {e : E} : inp.convert r = .ok e → inp.negative e = false → Contributes inp (.ok r) []
  | negative {r : R} {e c : E} : inp.convert r = .ok e → inp.negative e = true → inp.cluster e = .ok c → Contributes inp (.ok r) [c]

/-- All input files can be read, and these are the clustered events with negative weight, in the order of the input. -/
def NegativeEvents (inp : Input N R E) (infiles : List N) (events : List E) : Prop :=
  ∃ (records : List (List (Outcome ReadError R))) (parts : List (List E)),
    List.Forall₂ (fun file rs => inp.openFile file = some rs) infiles records ∧
      List.Forall₂ (Contributes inp) records.flatten parts ∧ events = parts.flatten

end Spec

open Spec

variable {N R E K : Type*}

theorem forall₂_appendLeft {A B : Type*} {r : A → B → Prop} : ∀ {a b : List A} {c : List B},
    List.Forall₂ r (a ++ b) c ↔ ∃ c1 c2, List.Forall₂ r a c1 ∧ List.Forall₂ r b c2 ∧ c = c1 ++ c2 := by
  intro a b c
  constructor
  · intro h
    have h1 := List.forall₂_take a.length h
    have h2 := List.forall₂_drop a.length h
    rw [List.take_left] at h1
    rw [List.drop_left] at h2
    exact ⟨c.take a.length, c.drop a.length, h1, h2, (List.take_append_drop _ _).symm⟩
  · rintro ⟨c1, c2, h1, h2, rfl⟩
    exact List.rel_append h1 h2

theorem readRecords_iff (inp : Input N R E) : ∀ (rs : List (Outcome ReadError R)) (es es' : List E),
    readRecords inp rs es = .ok es' ↔ ∃ parts, List.Forall₂ (Contributes inp) rs parts ∧ es' = es ++ parts.flatten := by
  intro rs
  induction rs with
  | nil =>
    intro es es'
    rw [readRecords]
    constructor
    · intro h
      rw [Outcome.ok.injEq] at h
      exact ⟨[], .nil, by simp [h]⟩
    · rintro ⟨parts, h, rfl⟩
      cases h
      simp
  | cons x rs ih =>
    intro es es'
    cases x with
    | err e => simp only [readRecords, reduceCtorEq, false_iff]; rintro ⟨parts, h, -⟩; cases h with | cons h _ => cases h
    | panic => simp only [readRecords, reduceCtorEq, false_iff]; rintro ⟨parts, h, -⟩; cases h with | cons h _ => cases h
    | ok r =>
      rw [readRecords]
      cases hc : inp.convert r with
      | err e =>
        simp only [reduceCtorEq, false_iff]
        rintro ⟨parts, h, -⟩
        cases h with
        | cons h _ => cases h with
          | positive h => rw [hc] at h; simp at h
          | negative h => rw [hc] at h; simp at h
      | panic =>
        simp only [reduceCtorEq, false_iff]
        rintro ⟨parts, h, -⟩
        cases h with
        | cons h _ => cases h with
          | positive h => rw [hc] at h; simp at h
          | negative h => rw [hc] at h; simp at h
      | ok e =>
        simp only
        by_cases hn : inp.negative e = true
        · rw [if_pos hn]
          cases hk : inp.cluster e with
          | ok c =>
            simp only
            rw [ih]
            constructor
            · rintro ⟨parts, h1, h2⟩
              exact ⟨[c] :: parts, .cons (.negative hc hn hk) h1, by rw [h2]; simp⟩
            · rintro ⟨parts, h1, h2⟩
              cases h1 with
              | cons g1 g2 => cases g1 with
                | positive a b =>
                  rw [hc, Outcome.ok.injEq] at a
                  rw [← a, hn] at b
                  simp at b
                | negative a b c' =>
                  rw [hc, Outcome.ok.injEq] at a
                  rw [← a, hk, Outcome.ok.injEq] at c'
                  exact ⟨_, g2, by rw [h2, c']; simp⟩
          | err _ =>
            simp only [reduceCtorEq, false_iff]
            rintro ⟨parts, h1, h2⟩
            cases h1 with
            | cons g1 g2 => cases g1 with
              | positive a b =>
                rw [hc, Outcome.ok.injEq] at a
                rw [← a, hn] at b
                simp at b
              | negative a b c' =>
                rw [hc, Outcome.ok.injEq] at a
                rw [← a, hk] at c'
                simp at c'
          | panic =>
            simp only [reduceCtorEq, false_iff]
            rintro ⟨parts, h1, h2⟩
            cases h1 with
            | cons g1 g2 => cases g1 with
              | positive a b =>
                rw [hc, Outcome.ok.injEq] at a
                rw [← a, hn] at b
                simp at b
              | negative a b c' =>
                rw [hc, Outcome.ok.injEq] at a
                rw [← a, hk] at c'
                simp at c'
        · rw [if_neg hn, ih]
          constructor
          · rintro ⟨parts, h1, h2⟩
            exact ⟨[] :: parts, .cons (.positive hc (by simpa using hn)) h1, by rw [h2]; simp⟩
          · rintro ⟨parts, h1, h2⟩
            cases h1 with
            | cons g1 g2 => cases g1 with
              | positive a b => exact ⟨_, g2, by rw [h2]; simp⟩
              | negative a b c' =>
                rw [hc, Outcome.ok.injEq] at a
                rw [← a] at b
                exact absurd b hn

theorem readFiles_iff (inp : Input N R E) : ∀ (infiles : List N) (es es' : List E),
    readFiles inp infiles es = .ok es' ↔ ∃ events, NegativeEvents inp infiles events ∧ es' = es ++ events := by
  intro infiles
  induction infiles with
  | nil =>
    intro es es'
    rw [readFiles, Outcome.ok.injEq]
    constructor
    · rintro rfl
      exact ⟨[], ⟨[], [], .nil, .nil, rfl⟩, by simp⟩
    · rintro ⟨events, ⟨records, parts, h1, h2, rfl⟩, rfl⟩
      cases h1
      cases h2
      simp
  | cons file files ih =>
    intro es es'
    rw [readFiles]
    cases ho : inp.openFile file with
    | none =>
      simp only [reduceCtorEq, false_iff]
      rintro ⟨events, ⟨records, parts, h1, -⟩, -⟩
      cases h1 with
      | cons a _ => rw [ho] at a; simp at a
    | some rs =>
      simp only
      have key : ∀ es1, readRecords inp rs es = .ok es1 → (readFiles inp files es1 = .ok es' ↔
          ∃ events, NegativeEvents inp (file :: files) events ∧ es' = es ++ events) := by
        intro es1 hr
        obtain ⟨parts1, p1, rfl⟩ := (readRecords_iff inp rs es es1).1 hr
        rw [ih]
        constructor
        · rintro ⟨events, ⟨records, parts, h1, h2, rfl⟩, rfl⟩
          refine ⟨parts1.flatten ++ parts.flatten, ⟨rs :: records, parts1 ++ parts, .cons ho h1, ?_, by simp⟩, by simp⟩
          rw [List.flatten_cons]
          exact List.rel_append p1 h2
        · rintro ⟨events, ⟨records, parts, h1, h2, rfl⟩, rfl⟩
          cases h1 with
          | @cons _ rs' _ records' a h1 =>
            rw [ho, Option.some.injEq] at a
            subst a
            rw [List.flatten_cons, forall₂_appendLeft] at h2
            obtain ⟨q1, q2, hq1, hq2, rfl⟩ := h2
            refine ⟨q2.flatten, ⟨records', q2, h1, hq2, rfl⟩, ?_⟩
            have := (readRecords_iff inp rs es (es ++ q1.flatten)).2 ⟨q1, hq1, rfl⟩
            rw [hr, Outcome.ok.injEq] at this
            rw [this]
            simp
      cases hr : readRecords inp rs es with
      | ok es1 => exact key es1 hr
      | err e =>
        simp only [reduceCtorEq, false_iff]
        rintro ⟨events, ⟨records, parts, h1, h2, rfl⟩, rfl⟩
        cases h1 with
        | cons a h1 =>
          rw [ho, Option.some.injEq] at a
          subst a
          rw [List.flatten_cons, forall₂_appendLeft] at h2
          obtain ⟨q1, q2, hq1, -, -⟩ := h2
          have := (readRecords_iff inp rs es (es ++ q1.flatten)).2 ⟨q1, hq1, rfl⟩
          rw [hr] at this
          simp at this
      | panic =>
        simp only [reduceCtorEq, false_iff]
        rintro ⟨events, ⟨records, parts, h1, h2, rfl⟩, rfl⟩
        cases h1 with
        | cons a h1 =>
          rw [ho, Option.some.injEq] at a
          subst a
          rw [List.flatten_cons, forall₂_appendLeft] at h2
          obtain ⟨q1, q2, hq1, -, -⟩ := h2
          have := (readRecords_iff inp rs es (es ++ q1.flatten)).2 ⟨q1, hq1, rfl⟩
          rw [hr] at this
          simp at this

variable [DecidableEq N]

/-- **C129**: the program succeeds exactly if all input files can be read, all events with negative weight can be clustered, a partition can be
made from exactly these, and the output file can be created. Then the output file contains this partition, and no other file is changed. -/
theorem C129_success (inp : Input N R E) (make : List E → PartitionResult E K) (text : VPTreePartition E K → Bytes) (canCreate : Bool)
    (infiles : List N) (outfile : N) (dir dir' : N → Option Bytes) :
    PartitionRun.run inp make text canCreate infiles outfile dir = (.ok (), dir') ↔
      canCreate = true ∧ ∃ events p, NegativeEvents inp infiles events ∧ make events = .ok p ∧ dir' outfile = some (text p) ∧
        ∀ file, file ≠ outfile → dir' file = dir file := by
  have hf := readFiles_iff inp infiles []
  have hupd : ∀ p : VPTreePartition E K, Function.update dir outfile (some (text p)) = dir' ↔
      dir' outfile = some (text p) ∧ ∀ file, file ≠ outfile → dir' file = dir file := by
    intro p
    constructor
    · rintro rfl
      exact ⟨by simp, fun file h => by simp [h]⟩
    · rintro ⟨h1, h2⟩
      funext file
      by_cases h : file = outfile
      · subst h; rw [h1]; simp
      · rw [h2 file h]; simp [h]
  unfold PartitionRun.run
  cases hr : readFiles inp infiles [] with
  | err e =>
    simp only [Prod.mk.injEq, reduceCtorEq, false_and, false_iff]
    rintro ⟨-, events, p, h1, -⟩
    have := (hf events).2 ⟨events, h1, rfl⟩
    rw [hr] at this
    simp at this
  | panic =>
    simp only [Prod.mk.injEq, reduceCtorEq, false_and, false_iff]
    rintro ⟨-, events, p, h1, -⟩
    have := (hf events).2 ⟨events, h1, rfl⟩
    rw [hr] at this
    simp at this
  | ok es =>
    have h0 : NegativeEvents inp infiles es := by
      obtain ⟨events, h1, h2⟩ := (hf es).1 hr
      rw [h2]
      exact h1
    have huniq : ∀ events, NegativeEvents inp infiles events → events = es := by
      intro events h
      have := (hf events).2 ⟨events, h, rfl⟩
      rw [hr, Outcome.ok.injEq] at this
      exact this.symm
    simp only
    cases hm : make es with
    | tooFewEvents =>
      simp only [Prod.mk.injEq, reduceCtorEq, false_and, false_iff]
      rintro ⟨-, events, p, h1, h2, -⟩
      rw [huniq _ h1, hm] at h2
      simp at h2
    | panic =>
      simp only [Prod.mk.injEq, reduceCtorEq, false_and, false_iff]
      rintro ⟨-, events, p, h1, h2, -⟩
      rw [huniq _ h1, hm] at h2
      simp at h2
    | ok p =>
      simp only
      split_ifs with hcan
      · rw [Prod.mk.injEq, hupd]
        constructor
        · rintro ⟨-, h1, h2⟩
          exact ⟨hcan, es, p, h0, hm, h1, h2⟩
        · rintro ⟨-, events, p', h1, h2, h3, h4⟩
          rw [huniq _ h1, hm, PartitionResult.ok.injEq] at h2
          subst h2
          exact ⟨rfl, h3, h4⟩
      · simp only [Prod.mk.injEq, reduceCtorEq, false_and, false_iff]
        rintro ⟨h, -⟩
        exact hcan h

/-- **C129**: if the program does not succeed, then no file is changed. An older partition file is still there. -/
theorem C129_failure (inp : Input N R E) (make : List E → PartitionResult E K) (text : VPTreePartition E K → Bytes) (canCreate : Bool)
    (infiles : List N) (outfile : N) (dir : N → Option Bytes)
    (h : (PartitionRun.run inp make text canCreate infiles outfile dir).1 ≠ .ok ()) :
    (PartitionRun.run inp make text canCreate infiles outfile dir).2 = dir := by
  revert h
  unfold PartitionRun.run
  cases readFiles inp infiles [] with
  | err e => exact fun _ => rfl
  | panic => exact fun _ => rfl
  | ok es =>
    simp only
    cases make es with
    | tooFewEvents => exact fun _ => rfl
    | panic => exact fun _ => rfl
    | ok p =>
      simp only
      split_ifs
      · intro h; exact absurd rfl h
      · exact fun _ => rfl

/-- Whether a record describes an event with negative weight. -/
def isNegative (inp : Input N R E) : Outcome ReadError R → Bool
  | .ok r => match inp.convert r with
    | .ok e => inp.negative e
    | _ => false
  | _ => false

omit [DecidableEq N] in
theorem contributions_filter {inp : Input N R E} {rs : List (Outcome ReadError R)} {parts : List (List E)}
    (h : List.Forall₂ (Contributes inp) rs parts) :
    ∃ parts', List.Forall₂ (Contributes inp) (rs.filter (isNegative inp)) parts' ∧ parts'.flatten = parts.flatten := by
  induction h with
  | nil => exact ⟨[], .nil, rfl⟩
  | cons a _ ih =>
    obtain ⟨parts', h1, h2⟩ := ih
    cases a with
    | positive b c =>
      rw [List.filter_cons, if_neg (by simp [isNegative, b, c])]
      exact ⟨parts', h1, by simpa using h2⟩
    | negative b c d =>
      rw [List.filter_cons, if_pos (by simp [isNegative, b, c])]
      exact ⟨_ :: parts', .cons (.negative b c d) h1, by simp [h2]⟩

omit [DecidableEq N] in
theorem contributions_unique {inp : Input N R E} {rs : List (Outcome ReadError R)} {parts parts' : List (List E)}
    (h : List.Forall₂ (Contributes inp) rs parts) (h' : List.Forall₂ (Contributes inp) rs parts') : parts = parts' := by
  induction h generalizing parts' with
  | nil => cases h'; rfl
  | cons a _ ih =>
    cases h' with
    | cons b hb =>
      rw [ih hb]
      congr 1
      cases a with
      | positive a1 a2 => cases b with
        | positive b1 b2 => rfl
        | negative b1 b2 b3 =>
          rw [a1, Outcome.ok.injEq] at b1
          rw [← b1, a2] at b2
          simp at b2
      | negative a1 a2 a3 => cases b with
        | positive b1 b2 =>
          rw [a1, Outcome.ok.injEq] at b1
          rw [← b1, a2] at b2
          simp at b2
        | negative b1 b2 b3 =>
          rw [a1, Outcome.ok.injEq] at b1
          rw [← b1, a3, Outcome.ok.injEq] at b3
          rw [b3]

/-- **C129**: only events with negative weight matter, and not how they are distributed over files. If the records with negative weights are the same in the
same order, and all input files can be read, then the results are the same. -/
theorem C129_only_negative (inp : Input N R E) (make : List E → PartitionResult E K) (text : VPTreePartition E K → Bytes) (canCreate : Bool)
    (infiles infiles' : List N) (outfile : N) (dir : N → Option Bytes) {records records' : List (List (Outcome ReadError R))}
    {parts parts' : List (List E)}
    (ho : List.Forall₂ (fun file rs => inp.openFile file = some rs) infiles records)
    (ho' : List.Forall₂ (fun file rs => inp.openFile file = some rs) infiles' records')
    (hc : List.Forall₂ (Contributes inp) records.flatten parts) (hc' : List.Forall₂ (Contributes inp) records'.flatten parts')
    (hneg : records.flatten.filter (isNegative inp) = records'.flatten.filter (isNegative inp)) :
    PartitionRun.run inp make text canCreate infiles outfile dir = PartitionRun.run inp make text canCreate infiles' outfile dir := by
  obtain ⟨q, q1, q2⟩ := contributions_filter hc
  obtain ⟨q', q1', q2'⟩ := contributions_filter hc'
  rw [← hneg] at q1'
  have heq := contributions_unique q1 q1'
  subst heq
  have h1 := (readFiles_iff inp infiles [] parts.flatten).2 ⟨_, ⟨records, parts, ho, hc, rfl⟩, rfl⟩
  have h2 := (readFiles_iff inp infiles' [] parts.flatten).2 ⟨_, ⟨records', parts', ho', hc', rfl⟩, by rw [← q2, q2']; rfl⟩
  unfold PartitionRun.run
  rw [h1, h2]

/-- **C129** with the construction of the partition: with enough events with negative weight (`C22_enough_events_partial`), the output file contains a
partition with the requested number of regions whose bisections are at events with negative weight. -/
theorem C129_regions [Inhabited E] [LinearOrder K] [Zero K] {psort sort : SortOracle Nat K} (h1 : SortsByDistance psort) (h2 : SortsByDistance sort)
    (cornerPt : Nat) (f64Max : K) (distance : E → E → K) (k : Nat) (inp : Input N R E) (text : VPTreePartition E K → Bytes)
    (infiles : List N) (outfile : N) (dir : N → Option Bytes) {events : List E} (he : NegativeEvents inp infiles events)
    (hn : 2 ^ k ≤ events.length) (hn' : k ≤ 1 ∨ 3 * 2 ^ (k - 1) ≤ events.length + 1) :
    ∃ p dir', PartitionRun.run inp (makePartition psort sort cornerPt f64Max distance (2 ^ k)) text true infiles outfile dir = (.ok (), dir') ∧
      dir' outfile = some (text p) ∧ (∀ file, file ≠ outfile → dir' file = dir file) ∧ p.len = 2 ^ k ∧ p.dist = distance ∧
      ∀ b ∈ p.vp, b.pt ∈ events := by
  obtain ⟨p, g1, g2, g3, idxs, -, -, g6⟩ := C22_enough_events_partial h1 h2 cornerPt f64Max distance k events hn hn'
  refine ⟨p, Function.update dir outfile (some (text p)), ?_, by simp, fun file h => by simp [h], g2, g3, fun b hb => ?_⟩
  · rw [C129_success]
    exact ⟨rfl, events, p, he, g1, by simp, fun file h => by simp [h]⟩
  · have : some b.pt ∈ p.vp.map (fun b => some b.pt) := List.mem_map.2 ⟨b, hb, rfl⟩
    rw [g6] at this
    obtain ⟨i, -, hi⟩ := List.mem_map.1 this
    exact List.mem_of_getElem? hi

/-- Input files with numbers as records, events and file names; the number is the weight, 100 cannot be converted and 0 is the missing file.
Clustering multiplies by 10. -/
def exampleInput : Input Nat ℤ ℤ where
  openFile n := if n = 0 then none else if n = 1 then some [.ok 5, .ok (-2), .ok 7] else if n = 2 then some [.ok (-8), .ok 3, .ok (-1)] else
    if n = 3 then some [.ok (-2), .ok (-8)] else if n = 4 then some [.ok 1, .ok (-1)] else some [.ok (-3), .ok 100]
  convert r := if r = 100 then .err .utf8 else .ok r
  negative e := e < 0
  cluster e := .ok (10 * e)

/-- The hypotheses of `C129_only_negative` for files 1 and 2, compared to 3 and 4, and of `C129_regions` with two regions. -/
example : NegativeEvents exampleInput [1, 2] [-20, -80, -10] ∧ NegativeEvents exampleInput [3, 4] [-20, -80, -10] ∧ 2 ^ 1 ≤ [-20, -80, -10].length ∧
    [.ok 5, .ok (-2), .ok 7, .ok (-8), .ok 3, .ok (-1)].filter (isNegative exampleInput) =
      [.ok (-2), .ok (-8), .ok 1, .ok (-1)].filter (isNegative exampleInput) := by
  refine ⟨⟨[[.ok 5, .ok (-2), .ok 7], [.ok (-8), .ok 3, .ok (-1)]], [[], [-20], [], [-80], [], [-10]], ?_, ?_, rfl⟩,
    ⟨[[.ok (-2), .ok (-8)], [.ok 1, .ok (-1)]], [[-20], [-80], [], [-10]], ?_, ?_, rfl⟩, by decide, by decide +kernel⟩
  · exact .cons (by decide) (.cons (by decide) .nil)
  · exact .cons (.positive (e := 5) (by decide) (by decide)) (.cons (.negative (e := -2) (by decide) (by decide) (by decide))
      (.cons (.positive (e := 7) (by decide) (by decide)) (.cons (.negative (e := -8) (by decide) (by decide) (by decide))
      (.cons (.positive (e := 3) (by decide) (by decide)) (.cons (.negative (e := -1) (by decide) (by decide) (by decide)) .nil)))))
  · exact .cons (by decide) (.cons (by decide) .nil)
  · exact .cons (.negative (e := -2) (by decide) (by decide) (by decide)) (.cons (.negative (e := -8) (by decide) (by decide) (by decide))
      (.cons (.positive (e := 1) (by decide) (by decide)) (.cons (.negative (e := -1) (by decide) (by decide) (by decide)) .nil)))

/-- Runs that fail: a missing file, a record that cannot be converted after an event with negative weight, an output file that cannot be created. -/
example : let make : List ℤ → PartitionResult ℤ ℤ := fun _ => .ok ⟨[], fun x y => |x - y|⟩
    (PartitionRun.run exampleInput make (fun _ => [1]) true [1, 0] 9 (fun _ => none)).1 = .err .openInput ∧
      (PartitionRun.run exampleInput make (fun _ => [1]) true [1, 5] 9 (fun _ => none)).1 = .err (.read .utf8) ∧
      (PartitionRun.run exampleInput make (fun _ => [1]) false [1] 9 (fun _ => none)).1 = .err .createOutput ∧
      (PartitionRun.run exampleInput make (fun _ => [1]) true [1] 9 (fun _ => none)).2 9 = some [1] := by
  decide +kernel

end Cres

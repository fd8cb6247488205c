import Verif.Proofs.RunTrace
import Verif.Proofs.Again
import Verif.Props.Program

/-!
C84, C85 and C86: interrupted runs and errors when writing.
-/

set_option linter.unusedSectionVars false

namespace Cres

open Spec CombinedIO Program

section

variable {K V D P : Type*} [Zero D] [Zero K] [One K] [Add K] [Mul K] [Div K] [NatCast K] [LinearOrder K] [LinearOrder V]
  [DecidableEq P]

theorem follows_start {cap : Nat} {faults : Bool} {outs : List P} (fs : FS P) :
    Follows cap faults fs outs ⟨fs, none, []⟩ ⟨fs, []⟩ :=
  ⟨⟨fun _ _ => ⟨rfl, rfl⟩, fun _ h => absurd h (by simp), fun _ h => absurd h (by simp)⟩, fun _ => rfl, fun _ _ h => by cases h⟩

/-- **C84**: a run may be interrupted at any time, or writing may fail at any time. Compared to the same run without
interruption or failure, which leaves the files `fs'`, no other files than the output files are changed. Each output file is
as it was before the run or contains a first part of what it contains after the complete run. -/
theorem C84_crash {p : Program K V D} {files : List (P × P)} (hf : GoodFiles files) {fs fs' files' : FS P}
    {events : Option (List (Event K V))} {ws : Option (List (Weights K))} {res : Outcome (CresError IOError) Unit}
    (h : p.Run files fs events ws res fs') {n : Nat} (hr : p.ReadsAll files fs n) {cap : Nat} {faults : Bool} {e : Ending}
    (he : Disk.Exec cap faults ⟨fs, []⟩ (p.runOps files fs n ws) files' e) :
    (∀ q, q ∉ files.map Prod.snd → files' q = fs q) ∧
    ∀ q, files' q = fs q ∨ ∃ content part, fs' q = some content ∧ files' q = some part ∧ part <+: content := by
  obtain ⟨h1, -⟩ := ends_exec (run_trace h hf.nodup hf.disjoint hr).exist (follows_start fs) he
  have h2 : ∀ q, files' q = fs q ∨ q ∈ files.map Prod.snd ∧
      ∃ content part, fs' q = some content ∧ files' q = some part ∧ part <+: content := by
    intro q
    rcases h1.content q with h1 | ⟨h1, L, -, h2⟩
    · exact Or.inl h1
    · obtain ⟨h3, h4⟩ := List.mem_filter.1 h1
      obtain ⟨c, hc⟩ := Option.isSome_iff_exists.1 h4
      simp only [hc, Option.getD_some] at h2
      exact Or.inr ⟨h3, c, _, hc, h2, List.take_prefix _ _⟩
  refine ⟨fun q hq => ?_, fun q => ?_⟩
  · rcases h2 q with h2 | ⟨h2, -⟩
    · exact h2
    · exact absurd h2 hq
  · exact (h2 q).imp_right And.right

/-- **C85**: if there are no failures when writing, a run that is not interrupted leaves the files that it should, although
files are written through a buffer and the first output file is open twice at the same time for a moment. -/
theorem C85_no_failure {p : Program K V D} {files : List (P × P)} (hf : GoodFiles files) {fs fs' files' : FS P}
    {events : Option (List (Event K V))} {ws : Option (List (Weights K))} {res : Outcome (CresError IOError) Unit}
    (h : p.Run files fs events ws res fs') {n : Nat} (hr : p.ReadsAll files fs n) {cap : Nat} {e : Ending}
    (he : Disk.Exec cap false ⟨fs, []⟩ (p.runOps files fs n ws) files' e) (hi : e ≠ .interrupted) :
    e = .finished ∧ files' = fs' := by
  obtain ⟨-, h2, h3⟩ := ends_exec (run_trace h hf.nodup hf.disjoint hr) (follows_start fs) he
  have hfin : e = .finished := by
    cases e with
    | finished => rfl
    | failed => exact absurd rfl (h3 rfl)
    | interrupted => exact absurd rfl hi
  refine ⟨hfin, ?_⟩
  obtain ⟨touched, h4⟩ := h2 hfin
  funext q
  by_cases hq : q ∈ touched
  · obtain ⟨-, c, L, g1, g2, -, -, g5⟩ := h4.content q hq
    rcases g5 rfl with g5 | ⟨w, hw, -⟩
    · rw [g1, g2, g5, List.take_length]
    · exact absurd hw (by simp)
  · rw [(h4.untouched q hq).1, (h4.untouched q hq).2]

/-- **C85**: such a run is possible. -/
theorem C85_possible {p : Program K V D} {files : List (P × P)} (hf : GoodFiles files) {fs fs' : FS P}
    {events : Option (List (Event K V))} {ws : Option (List (Weights K))} {res : Outcome (CresError IOError) Unit}
    (h : p.Run files fs events ws res fs') {n : Nat} (hr : p.ReadsAll files fs n) (cap : Nat) :
    Disk.Exec cap false ⟨fs, []⟩ (p.runOps files fs n ws) fs' .finished := by
  obtain ⟨files', h1⟩ := ends_exists (cap := cap) (run_trace h hf.nodup hf.disjoint hr) ⟨fs, []⟩ (by simp)
  rw [← (C85_no_failure hf h hr h1 (by simp)).2]
  exact h1

/-- **C85**, what holds in general: if all operations succeed, each output file is complete except for at most as many bytes
at the end as fit into the buffer. -/
theorem C85_missing_partial {p : Program K V D} {files : List (P × P)} (hf : GoodFiles files) {fs fs' files' : FS P}
    {events : Option (List (Event K V))} {ws : Option (List (Weights K))} {res : Outcome (CresError IOError) Unit}
    (h : p.Run files fs events ws res fs') {n : Nat} (hr : p.ReadsAll files fs n) {cap : Nat} {faults : Bool}
    (he : Disk.Exec cap faults ⟨fs, []⟩ (p.runOps files fs n ws) files' .finished) (q : P) :
    files' q = fs' q ∨ ∃ content part, fs' q = some content ∧ files' q = some part ∧ part <+: content ∧
      content.length ≤ part.length + cap := by
  obtain ⟨-, h2, -⟩ := ends_exec (run_trace h hf.nodup hf.disjoint hr) (follows_start fs) he
  obtain ⟨touched, h4⟩ := h2 rfl
  by_cases hq : q ∈ touched
  · obtain ⟨-, c, L, g1, g2, g3, g4, -⟩ := h4.content q hq
    refine Or.inr ⟨c, c.take L, g1, g2, List.take_prefix _ _, ?_⟩
    rw [List.length_take]
    omega
  · exact Or.inl (by rw [(h4.untouched q hq).1, (h4.untouched q hq).2])

/-- **C85**: errors when the end of a file is written are not reported: if the complete output files are smaller than the
buffer then there is an execution in which all operations succeed, but all output files are empty. -/
theorem C85_lost_partial {p : Program K V D} {files : List (P × P)} (hf : GoodFiles files) {fs fs' : FS P}
    {events : Option (List (Event K V))} {ws : Option (List (Weights K))} {res : Outcome (CresError IOError) Unit}
    (h : p.Run files fs events ws res fs') {n : Nat} (hr : p.ReadsAll files fs n) {cap : Nat}
    (hcap : ∀ q ∈ files.map Prod.snd, ∀ content, fs' q = some content → content.length < cap) :
    ∃ files', Disk.Exec cap true ⟨fs, []⟩ (p.runOps files fs n ws) files' .finished ∧
      ∀ q, fs' q ≠ fs q → files' q = some [] := by
  obtain ⟨files', h1, h2⟩ := ends_lost (cap := cap) (fs0 := fs) (run_trace h hf.nodup hf.disjoint hr)
    (fun q c hq ho => hcap q (ho.resolve_right (by simp)) c hq) ⟨fs, []⟩
    ⟨fun _ _ => ⟨rfl, rfl⟩, fun _ h => absurd h (by simp), fun _ => rfl, fun _ _ h => by cases h⟩
  refine ⟨files', h1, fun q hq => ?_⟩
  rcases h2 q with ⟨-, h2⟩ | ⟨-, h2⟩
  · exact h2
  · exact absurd h2 hq

/-- The number of calls to read records exists in each run. -/
theorem run_readsAll {p : Program K V D} {files : List (P × P)} {fs fs' : FS P} {events : Option (List (Event K V))}
    {ws : Option (List (Weights K))} {res : Outcome (CresError IOError) Unit} (h : p.Run files fs events ws res fs') :
    ∃ n, p.ReadsAll files fs n := by
  have hread : ∀ {s fs1 o x}, CombinedIO.new p.io files fs = (.ok (), s, fs1) → p.ReadsEvents s fs1 o x →
      ∃ n, p.ReadsAll files fs n := by
    intro s fs1 o x h1 hr
    have : ∃ n, (s.recordItems p.io n fs1).1 ≠ none := by
      cases hr with
      | @panic n x hx => exact ⟨n, by rw [hx]; simp⟩
      | @done n items x r hx hreach hfin => exact ⟨n, by rw [hx]; simp⟩
    obtain ⟨n, hn⟩ := this
    refine ⟨n, fun s' fs1' h2 => ?_⟩
    rw [h1] at h2
    simp only [Prod.mk.injEq, true_and] at h2
    obtain ⟨rfl, rfl⟩ := h2
    exact hn
  cases h with
  | createErr h1 => exact ⟨0, fun s fs1 h2 => by rw [h1] at h2; simp at h2⟩
  | createPanic h1 => exact ⟨0, fun s fs1 h2 => by rw [h1] at h2; simp at h2⟩
  | readErr h1 h2 => exact hread h1 h2
  | readPanic h1 h2 => exact hread h1 h2
  | weightsErr h1 h2 => exact hread h1 h2
  | weightsPanic h1 h2 => exact hread h1 h2
  | update h1 h2 => exact hread h1 h2

/-- **C86**: after an interruption or failure at any time a run can be repeated. All runs from then on, also with other
settings, are as they would be if the first run had not taken place: the same results are possible, with the same events and
weights, and if a run succeeds then all files are the same. -/
theorem C86_again {p p' : Program K V D} {files : List (P × P)} (hf : GoodFiles files) {fs fs' files' : FS P}
    {events : Option (List (Event K V))} {ws : Option (List (Weights K))} {res : Outcome (CresError IOError) Unit}
    (h : p.Run files fs events ws res fs') {n : Nat} (hr : p.ReadsAll files fs n) {cap : Nat} {faults : Bool} {e : Ending}
    (he : Disk.Exec cap faults ⟨fs, []⟩ (p.runOps files fs n ws) files' e) :
    (∀ events' ws' g, p'.Run files files' events' ws' (.ok ()) g ↔ p'.Run files fs events' ws' (.ok ()) g) ∧
    ∀ events' ws' res', (∃ g, p'.Run files files' events' ws' res' g) ↔ ∃ g, p'.Run files fs events' ws' res' g := by
  have hother := (C84_crash hf h hr he).1
  have hother' : ∀ q, q ∉ files.map Prod.snd → fs q = files' q := fun q hq => (hother q hq).symm
  refine ⟨fun events' ws' g => ⟨fun k => ?_, fun k => ?_⟩, fun events' ws' res' => ⟨fun ⟨g, k⟩ => ?_, fun ⟨g, k⟩ => ?_⟩⟩
  · obtain ⟨g', k1, -, k2⟩ := run_alike hf.disjoint hother k
    rw [← k2 (Or.inr rfl)]
    exact k1
  · obtain ⟨g', k1, -, k2⟩ := run_alike hf.disjoint hother' k
    rw [← k2 (Or.inr rfl)]
    exact k1
  · obtain ⟨g', k1, -⟩ := run_alike hf.disjoint hother k
    exact ⟨g', k1⟩
  · obtain ⟨g', k1, -⟩ := run_alike hf.disjoint hother' k
    exact ⟨g', k1⟩

end

/-! ### example -/

theorem exProg_readsAll (multi : Bool) : (exSettings multi).program.ReadsAll [((0 : ℕ), 10), (1, 11)] exProgFS 5 := by
  intro s fs1 h
  obtain ⟨h1, -⟩ := files_items (exProgFiles multi)
  obtain ⟨s', fs1', h3, h4⟩ := new_ready (files := [((0 : ℕ), 10), (1, 11)]) (eventFiles_inputs (exProgFiles multi)) exProgGood.disjoint
    (by
      intro d hd
      obtain ⟨d', hd', rfl⟩ := List.mem_map.1 hd
      exact h1 d' hd')
  rw [show (exSettings multi).program.io = (exSettings multi).io from rfl, h3] at h
  simp only [Prod.mk.injEq, true_and] at h
  obtain ⟨rfl, rfl⟩ := h
  have h5 := recordItems_ready _ 5 s' fs1' h4
  rw [if_pos (by simp [fileItems, exProgHepmc, exProgLhef])] at h5
  rw [show (exSettings multi).program.io = (exSettings multi).io from rfl, h5]
  simp

/-- Whether an outcome is a success. -/
def isSuccess {E A : Type*} : Outcome E A → Bool
  | .ok _ => true
  | _ => false

theorem ok_of_match {E A : Type*} {o : Outcome E A} (h : isSuccess o = true) : ∃ a, o = .ok a := by
  cases o with
  | ok a => exact ⟨a, rfl⟩
  | err e => cases h
  | panic => cases h

/-- The first output file of the example run. -/
def exProgOut : Bytes := ascii ("H\nE 1 2 3 4 5 6 7 8 9 0 0 1 2\nP 1 21 0 0 0 7 0 1 0 0 0\n" ++
  "E 1 2 3 4 5 6 7 8 9 0 0 1 6\nP 1 21 0 0 0 9 0 1 0 0 0\n")

theorem exProg_output (multi : Bool) : ∃ fs', (exSettings multi).program.Run [((0 : ℕ), 10), (1, 11)] exProgFS
    (some exProgEvents) (some [[2], [6], [2]]) (.ok ()) fs' ∧ fs' 10 = some exProgOut ∧
    ∀ q ∈ [((0 : ℕ), 10), (1, 11)].map Prod.snd, ∀ content, fs' q = some content → content.length < 8192 := by
  obtain ⟨s, fs1, x, h1, h2⟩ := exProg_reads multi
  have key : ∀ r, (exSettings multi).program.ReadsEvents s fs1 r x →
      ∃ k, x = (List.replicate k Op.next).foldl (CombinedIO.step (exSettings multi).io) (s, fs1) := by
    intro r hr
    cases hr with
    | @panic n x hm | @done n _ x _ hm =>
      obtain ⟨k, hk⟩ := recordItems_state (exSettings multi).io n s fs1
      exact ⟨k, by rw [← hk]; exact (congrArg Prod.snd hm).symm⟩
  obtain ⟨k, hx⟩ := key _ h2
  have hup : ∀ x ∈ ([[2], [6], [2]] : List (List ℚ)).zip (items [exProgHepmc.toFileData, exProgLhef.toFileData]),
      ∃ r, x.2.1.update (exSettings multi).io x.1 x.2.2 = .ok r := by
    have hall : (([[2], [6], [2]] : List (List ℚ)).zip (items [exProgHepmc.toFileData, exProgLhef.toFileData])).all (fun x =>
        isSuccess (x.2.1.update (exSettings multi).io x.1 x.2.2)) = true := by
      cases multi <;> decide +kernel
    intro x hx
    exact ok_of_match (List.all_eq_true.1 hall x hx)
  obtain ⟨h3, h4, -⟩ := C42_update_all (exSettings multi).io (files := [((0 : ℕ), 10), (1, 11)])
    (eventFiles_inputs (exProgFiles multi)) exProgGood.disjoint exProgGood.nodup (List.replicate k Op.next) [[2], [6], [2]] hup
    (x := x) (by rw [h1]; exact hx)
  have hrun := Program.Run.update h1 h2 (exProg_weights multi)
  rw [show (exSettings multi).program.io = (exSettings multi).io from rfl, h3] at hrun
  have g0 := h4 0 (0, 10) exProgHepmc.toFileData rfl rfl
  have g1 := h4 1 (1, 11) exProgLhef.toFileData rfl rfl
  refine ⟨_, hrun, ?_, ?_⟩
  · rw [g0]
    cases multi <;> decide +kernel
  · intro q hq content hc
    simp only [List.map_cons, List.map_nil, List.mem_cons, List.not_mem_nil, or_false] at hq
    rcases hq with rfl | rfl
    · rw [g0, Option.some.injEq] at hc
      rw [← hc]
      cases multi <;> decide +kernel
    · rw [g1, Option.some.injEq] at hc
      rw [← hc]
      cases multi <;> decide +kernel

/-- The hypotheses of `C84_crash`, `C85_no_failure`, `C85_possible`, `C85_missing_partial`, `C85_lost_partial` and `C86_again` are
met by a run with two files and the actual size of the buffer. -/
example (multi : Bool) : ∃ fs' files', GoodFiles [((0 : ℕ), 10), (1, 11)] ∧
    (exSettings multi).program.Run [((0 : ℕ), 10), (1, 11)] exProgFS (some exProgEvents) (some [[2], [6], [2]]) (.ok ()) fs' ∧
    (exSettings multi).program.ReadsAll [((0 : ℕ), 10), (1, 11)] exProgFS 5 ∧
    Disk.Exec 8192 true ⟨exProgFS, []⟩ ((exSettings multi).program.runOps [((0 : ℕ), 10), (1, 11)] exProgFS 5 (some [[2], [6], [2]]))
      files' .finished ∧ fs' 10 = some exProgOut ∧ files' 10 = some [] := by
  obtain ⟨fs', h1, h2, h3⟩ := exProg_output multi
  obtain ⟨files', h4, h5⟩ := C85_lost_partial exProgGood h1 (exProg_readsAll multi) h3
  exact ⟨fs', files', exProgGood, h1, exProg_readsAll multi, h4, h2, h5 10 (by rw [h2]; simp [exProgFS])⟩

/-- The full statement of **C85**: if a run reports success then the output files are complete. -/
def C85_claim : Prop := ∀ (s : CresSettings ℚ ℚ ℚ) (files : List (ℕ × ℕ)) (fs fs' files' : FS ℕ)
    (events : Option (List (Event ℚ ℚ))) (ws : Option (List (Weights ℚ))) (n : Nat), GoodFiles files →
    s.program.Run files fs events ws (.ok ()) fs' → s.program.ReadsAll files fs n →
    Disk.Exec 8192 true ⟨fs, []⟩ (s.program.runOps files fs n ws) files' .finished → files' = fs'

/-- **C85 is false**: errors when the rest of the buffer is written to a file are ignored, because this is done when the
writer is dropped. The run succeeds, but an output file is empty instead of containing the events. -/
theorem C85_violated : ¬ C85_claim := by
  intro h
  obtain ⟨fs', h1, h2, h3⟩ := exProg_output false
  obtain ⟨files', h4, h5⟩ := C85_lost_partial exProgGood h1 (exProg_readsAll false) h3
  have h6 := h _ _ _ _ _ _ _ _ exProgGood h1 (exProg_readsAll false) h4
  have h7 := h5 10 (by rw [h2]; simp [exProgFS])
  rw [h6, h2, Option.some.injEq] at h7
  exact absurd h7 (by decide +kernel)

end Cres

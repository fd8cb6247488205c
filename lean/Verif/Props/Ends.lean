import Verif.Proofs.Ends
import Verif.Proofs.EndsFiles
import Verif.Props.CrashMain
import Verif.Proofs.ClassifyStripper
import Verif.Proofs.Run

/-!
C96: every run ends, whatever the input files contain.
-/

set_option linter.unusedSectionVars false

namespace Cres

open Spec CombinedIO Program Cres.Path

section

variable {K V D P : Type*}

/-! ### input -/

/-- **C96**: if no output file is one of the input files then the number of times the program asks for a further record is at
most the total size of the input files plus one, whatever they contain. -/
theorem C96_reading_bounded [Mul K] [DecidableEq P] (p : Program K V D) {files : List (P × P)}
    (hdis : ∀ q ∈ files.map Prod.fst, q ∉ files.map Prod.snd) (fs : FS P) :
    p.ReadsAll files fs ((files.map fun f => ((fs f.1).getD []).length).sum + 1) := by
  intro s fs1 h
  have hinv := new_inv p.io files fs
  rw [h] at hinv
  rcases new_first h with ⟨-, h1, h2⟩ | ⟨f, io, fs2, h1, h2, h3, h4, h5, h6⟩
  · exact recordItems_none h1 h2 _
  · refine recordItems_ends hdis _ hinv h2 ?_
    have hf : fileSize fs2 f.1 = fileSize fs f.1 := by
      unfold fileSize
      rw [h5 _ (hdis _ (List.mem_map_of_mem (List.mem_of_getElem? h1)))]
    cases files with
    | nil => simp at h1
    | cons f' files =>
      simp only [List.getElem?_cons_zero, Option.some.injEq] at h1
      subst h1
      simp only [unread, h2, h3, h4, Option.map_some, Option.getD_some, zero_add, List.drop_succ_cons, List.drop_zero,
        List.map_cons, List.sum_cons]
      have : (files.map fun f => fileSize fs f.1).sum = (files.map fun f => ((fs f.1).getD []).length).sum := rfl
      rw [hf] at h6
      unfold fileSize at h6 this ⊢
      omega

/-- **C96**: reading ends in any case, even if files are overwritten while they are read. -/
theorem C96_reading_ends [Mul K] [DecidableEq P] (p : Program K V D) (files : List (P × P)) (fs : FS P) :
    ∃ n, p.ReadsAll files fs n := by
  cases hn : CombinedIO.new p.io files fs with
  | mk x z =>
    obtain ⟨s, fs1⟩ := z
    have key : (∃ n, (s.recordItems p.io n fs1).1 ≠ none) → ∃ n, p.ReadsAll files fs n := by
      rintro ⟨n, h⟩
      refine ⟨n, fun s' fs1' h' => ?_⟩
      rw [hn] at h'
      simp only [Prod.mk.injEq] at h'
      obtain ⟨-, rfl, rfl⟩ := h'
      exact h
    cases x with
    | err e =>
      refine ⟨0, fun s' fs1' h' => ?_⟩
      rw [hn] at h'
      simp at h'
    | panic =>
      refine ⟨0, fun s' fs1' h' => ?_⟩
      rw [hn] at h'
      simp at h'
    | ok u =>
      rcases new_first hn with ⟨-, h1, h2⟩ | ⟨f, io, fs2, h1, h2, h3, h4, h5, h6⟩
      · exact key ⟨1, recordItems_none h1 h2 0⟩
      · exact key (recordItems_ends_any _ _ h2 (le_refl _) (le_refl _))

/-- **C96**: the loops that look for the end of a header or a record end: the result is the same for all numbers of steps that
are larger than the number of bytes left. -/
theorem C96_record_loops (d : UInt8) (marker : Bytes) (buf src : Bytes) {k : Nat} (hk : src.length < k) :
    readLoop d marker k buf src = readTo d marker buf src ∧
    Stripper.readRawLoop k buf src = Stripper.readRawLoop (src.length + 1) buf src :=
  ⟨readLoop_fuel _ _ hk (by omega), Stripper.readRawLoop_fuel _ _ hk (by omega)⟩

/-- **C96**: the loops over the lines of a HepMC2 record and the particles of a STRIPPER XML record end. -/
theorem C96_parse_loops (c : ParseCtx K V) (ws : List K) (b : EventBuilder K V) (unit : HepMC.EnergyUnit) (record : Bytes) {k : Nat}
    (hk : record.length < k) :
    HepMC.parseLoop c ws k b unit record = HepMC.parseLoop c ws (record.length + 1) b unit record ∧
    Stripper.parseLoop c k b record = Stripper.parseLoop c (record.length + 1) b record :=
  ⟨HepMC.parseLoop_fuel c _ _ hk (by omega), Stripper.parseLoop_fuel c _ _ hk (by omega)⟩

/-- **C96**: advancing to the next file and writing to the next file end: not more files are opened than there are. -/
theorem C96_file_loops [Mul K] [Div K] [DecidableEq P] (cfg : IOConfig K V) (s : CombinedIO K P) (fs : FS P) (ws : List K) {k : Nat}
    (hk : s.files.length + 2 ≤ k) :
    nextLoop cfg k s fs = s.next cfg fs ∧ updateNextLoop cfg ws k s fs = s.updateNext cfg ws fs :=
  ⟨nextLoop_fuel hk, updateNextLoop_fuel _ _ (by omega) (by omega)⟩

/-- **C96**: the recursion in the tree search ends: it is not deeper than the number of nodes, for any tree. -/
theorem C96_search {Q R : Type*} [DecidableEq Q] [DistNum R] (t : VPTree Q R) (pt : Q) (exclude : List Q) (cache : List (Q × R))
    {k : Nat} (hk : t.nodes.length ≤ k) :
    nearestInSubtree t.dist t.maxDist pt exclude k t.nodes 0 cache =
      nearestInSubtree t.dist t.maxDist pt exclude t.nodes.length t.nodes 0 cache :=
  nearestInSubtree_fuel _ _ hk (le_refl _)

/-! ### tasks for reading -/

section Reading

variable {E R : Type*} (convert : R → Outcome E (Event K V)) (cluster : Event K V → Outcome E (Event K V)) (sequential : R → Bool)
  (items : List (Except E R))

theorem readSchedule_measure : ∀ (sched : List ReadAction) {s s' : ReadState E R K V},
    sched.foldlM (readStep convert cluster sequential items) s = some s' →
    sched.length + readMeasure items s' ≤ readMeasure items s
  | [], s, s', h => by
    simp only [List.foldlM_nil] at h
    cases h
    simp
  | a :: sched, s, s', h => by
    simp only [List.foldlM_cons] at h
    cases hs : readStep convert cluster sequential items s a with
    | none => rw [hs] at h; cases h
    | some s1 =>
      rw [hs] at h
      have h1 := readSchedule_measure sched (s := s1) h
      have h2 := readMeasure_step hs
      simp only [List.length_cons]
      omega

/-- **C96**: while events are read each sequence of steps of the main thread and the tasks is finite: there are not more than
two steps for each item from the reader, and one for the end. -/
theorem C96_read_tasks_bounded {sched : List ReadAction} {s : ReadState E R K V}
    (h : sched.foldlM (readStep convert cluster sequential items) .init = some s) : sched.length ≤ 2 * items.length + 1 := by
  have := readSchedule_measure convert cluster sequential items sched h
  simp only [readMeasure, ReadState.init, Nat.sub_zero, List.length_nil, Option.isNone_none, if_true] at this
  omega

/-- **C96**: when no step is possible any more reading has ended. -/
theorem C96_read_tasks_end {s : ReadState E R K V} (hstuck : ∀ a, readStep convert cluster sequential items s a = none) : s.Finished := by
  constructor
  · by_contra hs
    have hs : s.stopped = none := by simpa using hs
    have := hstuck .main
    simp only [readStep, hs] at this
    split at this
    · cases this
    · cases this
    · split_ifs at this
      split at this <;> cases this
  · by_contra hp
    obtain ⟨x, l, hx⟩ := List.exists_cons_of_ne_nil hp
    have := hstuck (.task 0)
    simp only [readStep, hx, List.getElem?_cons_zero] at this
    split at this <;> cases this

/-- Every state can be followed by steps that lead to the end. -/
theorem read_can_finish {s : ReadState E R K V} (hr : ReadReachable convert cluster sequential items s) :
    ∃ s', ReadReachable convert cluster sequential items s' ∧ s'.Finished := by
  generalize hk : readMeasure items s = k
  induction k using Nat.strong_induction_on generalizing s with
  | _ k ih =>
    by_cases hst : ∀ a, readStep convert cluster sequential items s a = none
    · exact ⟨s, hr, C96_read_tasks_end convert cluster sequential items hst⟩
    · simp only [not_forall] at hst
      obtain ⟨a, ha⟩ := hst
      cases hs : readStep convert cluster sequential items s a with
      | none => exact absurd hs ha
      | some s1 => exact ih _ (by rw [← hk]; exact readMeasure_step hs) (hr.step hs) rfl

end Reading

/-! ### resampling -/

section Resampling

variable [Zero D] [Add K] [Zero K] [One K] [Mul K] [Div K] [NatCast K] [LinearOrder K]

/-- **C96**: parallel resampling does not get stuck, whatever the weights are: the numbers of weights may be different and
weights may be missing. If no task can go on then all have finished or one has panicked. Each sequence of steps is finite. -/
theorem C96_resampling {cfg : Cfg} {n : Nat} {nearest : Nat → List (Nat × D)} {seeds : List Nat}
    (hv : ValidInput n nearest seeds) (mem : Mem K) :
    (∀ sched s, runSchedule cfg n nearest seeds sched (State.init mem) = some s →
      sched.length ≤ (seeds.map (fun s => 5 * (nearest s).length + 11)).sum) ∧
    (∀ s : State D K, Reachable cfg n nearest seeds mem s → (∀ t, stepAll cfg n nearest seeds s t = none) →
      s.Finished seeds ∨ ∃ t, s.tasks t = .panicked) :=
  ⟨fun _ _ h => C08_bounded h, fun _ hr hs => stuck_ends hv hr hs⟩

theorem resampling_can_end {cfg : Cfg} {n : Nat} {nearest : Nat → List (Nat × D)} {seeds : List Nat}
    (hv : ValidInput n nearest seeds) {mem : Mem K} {s : State D K} (hr : Reachable cfg n nearest seeds mem s) :
    ∃ s', Reachable cfg n nearest seeds mem s' ∧ (s'.Finished seeds ∨ ∃ t, s'.tasks t = .panicked) := by
  generalize hk : totalMeasure nearest seeds s = k
  induction k using Nat.strong_induction_on generalizing s with
  | _ k ih =>
    by_cases hst : ∀ t, stepAll cfg n nearest seeds s t = none
    · exact ⟨s, hr, stuck_ends hv hr hst⟩
    · simp only [not_forall] at hst
      obtain ⟨a, ha⟩ := hst
      cases hs : stepAll cfg n nearest seeds s a with
      | none => exact absurd hs ha
      | some s1 => exact ih _ (by rw [← hk]; exact stepAll_measure hs) (hr.step hs) rfl

end Resampling

/-! ### complete runs -/

section Runs

variable [Zero D] [LinearOrder D] [DistNum D] [ExactComparison D] [Zero K] [One K] [Add K] [Mul K] [Div K] [Neg K] [NatCast K]
  [LinearOrder K] [LinearOrder V] [DecidableEq P]

theorem computesWeights_exists {p : Program K V D} (hg : GoodComponents p) (events : List (Event K V)) :
    ∃ o, p.ComputesWeights events o := by
  cases hl : logSumsPanics p.cfg p.infoLog (events.filter fun e => !e.outgoingByPid.isEmpty) with
  | true => exact ⟨_, .mk (.log hl)⟩
  | false =>
    obtain ⟨s, h1, h2⟩ := resampling_can_end (hg.valid _)
      (Reachable.init (cfg := p.cfg) (n := (events.filter fun e => !e.outgoingByPid.isEmpty).length)
        (mem := memOf (events.filter fun e => !e.outgoingByPid.isEmpty)))
    rcases h2 with h2 | ⟨t, h2⟩
    · exact ⟨_, .mk (.ok hl ⟨s, h1, h2, rfl⟩)⟩
    · exact ⟨_, .mk (.task hl h1 h2)⟩

/-- A run has an outcome. -/
theorem run_exists {p : Program K V D} (hg : GoodComponents p) (files : List (P × P)) (fs : FS P) :
    ∃ events ws res fs', p.Run files fs events ws res fs' := by
  obtain ⟨n, hn⟩ := C96_reading_ends p files fs
  cases hnew : CombinedIO.new p.io files fs with
  | mk x z =>
    obtain ⟨s, fs1⟩ := z
    cases x with
    | err e => exact ⟨_, _, _, _, .createErr hnew⟩
    | panic => exact ⟨_, _, _, _, .createPanic hnew⟩
    | ok u =>
      have h1 := hn s fs1 hnew
      cases hi : s.recordItems p.io n fs1 with
      | mk y x =>
        rw [hi] at h1
        cases y with
        | none => exact absurd rfl h1
        | some y =>
          cases y with
          | err e => exact e.elim
          | panic => exact ⟨_, _, _, _, .readPanic hnew (.panic hi)⟩
          | ok items =>
            obtain ⟨r, hr, hf⟩ := read_can_finish (tryConvert p.io.ctx) p.cluster (fun r => r.1 == .ntuple) items ReadReachable.init
            have hd := ReadsEvents.done (p := p) hi hr hf
            cases hres : r.result with
            | err e => rw [hres] at hd; exact ⟨_, _, _, _, .readErr hnew hd⟩
            | panic => rw [hres] at hd; exact ⟨_, _, _, _, .readPanic hnew hd⟩
            | ok events =>
              rw [hres] at hd
              obtain ⟨o, ho⟩ := computesWeights_exists hg events
              cases o with
              | err e => exact ⟨_, _, _, _, .weightsErr hnew hd ho⟩
              | panic => exact ⟨_, _, _, _, .weightsPanic hnew hd ho⟩
              | ok ws => exact ⟨_, _, _, _, .update hnew hd ho⟩

/-- **C96**: `Cres::run` has an outcome for any files. Together with the other statements, which say that no part of the
program goes on forever or waits forever: each run ends. -/
theorem C96_run {s : CresSettings K V D} (hc : GoodChoices s) (files : List (P × P)) (fs : FS P) :
    ∃ events ws res fs', s.program.Run files fs events ws res fs' :=
  run_exists (cres_goodComponents hc) files fs

/-- **C96**: the command line program has an outcome for any names of files and any files. -/
theorem C96_main {s : CresSettings K V D} (hc : GoodChoices s) (cwd : List Bytes) (outdir : Bytes) (infiles : List Bytes)
    (fs : FS (List Bytes)) : (∃ ws res fs', MainRun s cwd outdir infiles fs ws res fs') ∧
      ∃ n, MainReadsAll s cwd outdir infiles fs n := by
  cases hp : prepareFiles s.io fs (locatedPairs cwd outdir infiles) with
  | err e => exact ⟨⟨_, _, _, .scalingErr hp⟩, 0, fun files io h => by rw [hp] at h; cases h⟩
  | panic => exact ⟨⟨_, _, _, .scalingPanic hp⟩, 0, fun files io h => by rw [hp] at h; cases h⟩
  | ok x =>
    obtain ⟨files, io⟩ := x
    obtain ⟨events, ws, res, fs', h⟩ := C96_run (s := { s with io := io }) ⟨hc.search, hc.seeds, hc.rng⟩ files fs
    obtain ⟨n, hn⟩ := C96_reading_ends ({ s with io := io } : CresSettings K V D).program files fs
    refine ⟨⟨_, _, _, .run hp h⟩, n, fun files' io' h' => ?_⟩
    rw [hp] at h'
    cases h'
    exact hn

end Runs

end

/-! ### examples -/

/-- The bound on the number of reads for the example files: their sizes. -/
example (multi : Bool) : (exSettings multi).program.ReadsAll [((0 : ℕ), 10), (1, 11)] exProgFS
    (([((0 : ℕ), 10), (1, 11)].map fun f => ((exProgFS f.1).getD []).length).sum + 1) :=
  C96_reading_bounded _ exProgGood.disjoint _

/-- Files with any content: the program ends. -/
example (multi : Bool) (fs : FS ℕ) : ∃ events ws res fs', (exSettings multi).program.Run [(0, 10), (1, 0), (0, 1)] fs events ws res fs' :=
  run_exists (cres_goodComponents (exSettings_good multi)) _ fs

/-- Weights that are missing or different in number: the task panics, and the other one can go on. -/
example : ∃ s : State ℚ ℚ, Reachable ⟨true, false⟩ 2 (fun i => [(1 - i, 1)]) [0] (fun i => if i = 0 then [-1] else []) s ∧
    s.tasks 0 = .panicked := by
  refine ⟨_, .step (tid := 0) (.step (tid := 0) (.step (tid := 0) .init rfl) rfl) rfl, ?_⟩
  decide +kernel

end Cres

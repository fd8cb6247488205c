import Verif.Spec.Together
import Verif.Proofs.TogetherRun
import Verif.Props.Ends
import Verif.Props.CrashMain

/-!
C99: several runs at the same time do not interfere.
-/

namespace Cres

open Spec CombinedIO Cres.Path

variable {ι K V D : Type*} [DecidableEq ι]

section

variable [Zero D] [DistNum D] [Zero K] [One K] [Add K] [Mul K] [Div K] [NatCast K] [Neg K] [LinearOrder K] [LinearOrder V]

theorem jobs_local {jobs : ι → Job K V D} (n : ι → Nat) (c : ∀ i, (jobs i).Choice) (i : ι) :
    ((jobs i).proc (n i) (c i)).Local (IsInput (jobs i)) (IsOutput (jobs i)) fun _ => True :=
  jobProc_local _ _ _ fun f hf => ⟨⟨f.2, hf⟩, ⟨f.1, hf⟩⟩

theorem jobs_separate {jobs : ι → Job K V D} (hs : Separate jobs) :
    ∀ i j, i ≠ j → ∀ q, IsOutput (jobs i) q → ¬ IsInput (jobs j) q ∧ ¬ IsOutput (jobs j) q := by
  rintro i j hij q ⟨inn, hq⟩
  exact ⟨fun ⟨out, h⟩ => (hs i j hij _ _ hq h).1 rfl, fun ⟨inn', h⟩ => (hs i j hij _ _ hq h).2 rfl⟩

theorem together_result {jobs : ι → Job K V D} (hs : Separate jobs) {n : ι → Nat} {c : ∀ i, (jobs i).Choice} {sched : List ι}
    {ps : ι → Proc (FS (List Bytes)) (Option (Option (List (Weights K)) × Outcome MainError Unit))} {fs fs' : FS (List Bytes)}
    (h : Together (fun i => (jobs i).proc (n i) (c i)) fs sched ps fs') {i : ι}
    {a : Option (Option (List (Weights K)) × Outcome MainError Unit)} (ha : ps i = .done a) :
    (((jobs i).proc (n i) (c i)).run fs).1 = a ∧
    ∀ q, IsOutput (jobs i) q → (((jobs i).proc (n i) (c i)).run fs).2 q = fs' q := by
  obtain ⟨-, -, h3⟩ := together_local (jobs_separate hs) h (jobs_local n c)
  obtain ⟨τ, h4, h5⟩ := h3 i fs fun _ _ => rfl
  rw [h5, ha]
  exact ⟨rfl, fun q hq => h4 q (.inr hq)⟩

/-- **C99**: several runs of the program at the same time, such that no output file of a run is an input or output file of
another run. Whatever the interleaving of the accesses to files, as soon as a run has ended it has a result, weights and
output files that it can have without the other runs, also while other runs go on. Files that are not output files of any
run are not changed. -/
theorem C99_results {jobs : ι → Job K V D} (hs : Separate jobs) {n : ι → Nat} {c : ∀ i, (jobs i).Choice} {sched : List ι}
    {ps : ι → Proc (FS (List Bytes)) (Option (Option (List (Weights K)) × Outcome MainError Unit))} {fs fs' : FS (List Bytes)}
    (h : Together (fun i => (jobs i).proc (n i) (c i)) fs sched ps fs') :
    (∀ i ws res, ps i = .done (some (ws, res)) →
      ∃ fsi, MainRun (jobs i).settings (jobs i).cwd (jobs i).outdir (jobs i).infiles fs ws res fsi ∧
        ∀ q, IsOutput (jobs i) q → fs' q = fsi q) ∧
    ∀ q, (∀ i, ¬ IsOutput (jobs i) q) → fs' q = fs q := by
  refine ⟨fun i ws res hi => ?_, (together_local (jobs_separate hs) h (jobs_local n c)).2.1⟩
  obtain ⟨h1, h2⟩ := together_result hs h hi
  exact ⟨_, jobProc_run (Prod.ext h1 rfl), fun q hq => (h2 q hq).symm⟩

/-- Runs in turn, starting with files that are the same for these runs. -/
theorem inTurn_exists {jobs : ι → Job K V D} (hs : Separate jobs) {n : ι → Nat} {c : ∀ i, (jobs i).Choice}
    {fs : FS (List Bytes)} {ws : ι → Option (List (Weights K))} {res : ι → Outcome MainError Unit}
    (h : ∀ i, (((jobs i).proc (n i) (c i)).run fs).1 = some (ws i, res i)) :
    ∀ (l : List ι) (fs1 : FS (List Bytes)), l.Nodup →
      (∀ i ∈ l, AgreeOn (fun q => IsInput (jobs i) q ∨ IsOutput (jobs i) q) fs fs1) →
      ∃ fs2, InTurn jobs ws res l fs1 fs2 ∧
        (∀ i ∈ l, ∀ q, IsOutput (jobs i) q → fs2 q = (((jobs i).proc (n i) (c i)).run fs).2 q) ∧
        ∀ q, (∀ i ∈ l, ¬ IsOutput (jobs i) q) → fs2 q = fs1 q
  | [], fs1, _, _ => ⟨fs1, .nil, by simp, fun _ _ => rfl⟩
  | i :: l, fs1, hn, ha => by
    obtain ⟨hil, hn⟩ := List.nodup_cons.1 hn
    obtain ⟨g1, g2, -⟩ := (jobs_local n c i).run_agree (ha i (by simp))
    have hframe : ∀ q, ¬ IsOutput (jobs i) q → (((jobs i).proc (n i) (c i)).run fs1).2 q = fs1 q :=
      fun q hq => (jobs_local n c i).run_frame fs1 hq
    have hsep := jobs_separate hs
    obtain ⟨fs2, k1, k2, k3⟩ := inTurn_exists hs h l (((jobs i).proc (n i) (c i)).run fs1).2 hn (by
      intro j hj q hq
      have hij : i ≠ j := fun hij => hil (hij ▸ hj)
      rw [hframe q fun ho => ?_]
      · exact ha j (List.mem_cons_of_mem _ hj) q hq
      · have := hsep i j hij q ho
        rcases hq with hq | hq
        · exact this.1 hq
        · exact this.2 hq)
    refine ⟨fs2, .cons (jobProc_run (n := n i) (c := c i) (Prod.ext (g1.symm.trans (h i)) rfl)) k1, fun j hj q hq => ?_, fun q hq => ?_⟩
    · rcases List.mem_cons.1 hj with rfl | hj
      · rw [k3 q fun j' hj' ho => (hsep j j' (fun hjj => hil (hjj ▸ hj')) q hq).2 ho]
        exact (g2 q (.inr hq)).symm
      · exact k2 j hj q hq
    · rw [k3 q fun j hj => hq j (List.mem_cons_of_mem _ hj)]
      exact hframe q (hq i (by simp))

/-- **C99**: when all runs have ended, the files, results and weights are as if the runs had been made one after the other, in
any order. -/
theorem C99_one_after_another {jobs : ι → Job K V D} (hs : Separate jobs) {n : ι → Nat} {c : ∀ i, (jobs i).Choice}
    {sched : List ι} {ps : ι → Proc (FS (List Bytes)) (Option (Option (List (Weights K)) × Outcome MainError Unit))}
    {fs fs' : FS (List Bytes)} (h : Together (fun i => (jobs i).proc (n i) (c i)) fs sched ps fs')
    {ws : ι → Option (List (Weights K))} {res : ι → Outcome MainError Unit} (hd : ∀ i, ps i = .done (some (ws i, res i)))
    {order : List ι} (hn : order.Nodup) (hall : ∀ i, i ∈ order) : InTurn jobs ws res order fs fs' := by
  obtain ⟨fs2, h1, h2, h3⟩ := inTurn_exists hs (fun i => (together_result hs h (hd i)).1) order fs hn fun _ _ _ _ => rfl
  have : fs2 = fs' := by
    funext q
    by_cases hq : ∃ i, IsOutput (jobs i) q
    · obtain ⟨i, hq⟩ := hq
      rw [h2 i (hall i) q hq, (together_result hs h (hd i)).2 q hq]
    · push Not at hq
      rw [h3 q fun i _ => hq i, (C99_results hs h).2 q hq]
  exact this ▸ h1

/-- **C99**: finitely many runs at the same time end. The number of accesses to files does not depend on their order. -/
theorem C99_ends [Fintype ι] {jobs : ι → Job K V D} (hs : Separate jobs) (n : ι → Nat) (c : ∀ i, (jobs i).Choice)
    (fs : FS (List Bytes)) : ∃ N, ∀ sched ps fs', Together (fun i => (jobs i).proc (n i) (c i)) fs sched ps fs' →
      sched.length ≤ N ∧ (sched.length = N ↔ ∀ i, ∃ a, ps i = .done a) := by
  refine ⟨∑ i, ((jobs i).proc (n i) (c i)).steps fs, fun sched ps fs' h => ?_⟩
  have := together_steps (jobs_separate hs) h (jobs_local n c)
  refine ⟨by omega, ?_⟩
  rw [← this]
  constructor
  · intro h0 i
    have h0 : ∑ i, (ps i).steps fs' = 0 := by omega
    have := (Finset.sum_eq_zero_iff.1 h0) i (Finset.mem_univ i)
    cases hp : ps i with
    | done a => exact ⟨a, rfl⟩
    | access u k => rw [hp, Proc.steps] at this; omega
  · intro hd
    have : ∑ i, (ps i).steps fs' = 0 := Finset.sum_eq_zero fun i _ => by
      obtain ⟨a, ha⟩ := hd i
      rw [ha, Proc.steps]
    omega

/-- **C99**: all weights and results of the single runs are possible together, in each interleaving. -/
theorem C99_possible {jobs : ι → Job K V D} (hs : Separate jobs) {fs : FS (List Bytes)} {fsi : ι → FS (List Bytes)}
    {ws : ι → Option (List (Weights K))} {res : ι → Outcome MainError Unit}
    (h : ∀ i, MainRun (jobs i).settings (jobs i).cwd (jobs i).outdir (jobs i).infiles fs (ws i) (res i) (fsi i)) :
    ∃ n : ι → Nat, ∃ c : ∀ i, (jobs i).Choice, ∀ sched ps fs', Together (fun i => (jobs i).proc (n i) (c i)) fs sched ps fs' →
      ∀ i a, ps i = .done a → a = some (ws i, res i) ∧ ∀ q, IsOutput (jobs i) q → fs' q = fsi i q := by
  choose n c hc using fun i => jobProc_exists (h i)
  refine ⟨n, c, fun sched ps fs' ht i a ha => ?_⟩
  obtain ⟨h1, h2⟩ := together_result hs ht ha
  rw [hc] at h1 h2
  exact ⟨h1.symm, fun q hq => (h2 q hq).symm⟩

/-- **C99**: it is sufficient that the runs have different output directories and that none of them contains input files. -/
theorem C99_directories {jobs : ι → Job K V D} {ins : ι → List (Bytes × Bytes)}
    (hi : ∀ i, (jobs i).infiles = (ins i).map fun x => x.1 ++ x.2) (hp : ∀ i, ∀ x ∈ ins i, IsFilePath (x.1 ++ x.2) x.1 x.2)
    (hout : ∀ i j, i ≠ j → locate (jobs i).cwd (jobs i).outdir ≠ locate (jobs j).cwd (jobs j).outdir)
    (hin : ∀ i j, ∀ x ∈ ins i, locate (jobs i).cwd x.1 ≠ locate (jobs j).cwd (jobs j).outdir) : Separate jobs := by
  intro i j hij f g hf hg
  rw [hi, locatedPairs_paths _ _ (hp _)] at hf hg
  simp only [List.mem_map, Option.some.injEq, exists_eq_right] at hf hg
  obtain ⟨x, hx, rfl⟩ := hf
  obtain ⟨y, hy, rfl⟩ := hg
  simp only
  constructor
  · rw [locate_dir _ (hp j y hy)]
    intro h
    exact hin j i y hy ((append_name_inj.1 h).1.symm)
  · intro h
    exact hout i j hij (append_name_inj.1 h).1

end

/-! ### example -/

/-- Two runs with the same input files and different output directories. -/
def exJobs (multi : Bool) (b : Bool) : Job ℚ ℚ ℚ :=
  ⟨exMain multi fun _ => none, [ascii "home"], if b then ascii "out" else ascii "/tmp/out", exMainIns.map fun x => x.1 ++ x.2⟩

/-- The hypotheses of the theorems for C99 are met: the output of the first run is that of the single run in the example for
C74, for each interleaving with the second run, and this is not changed by the second run. -/
example (multi : Bool) : ∃ n : Bool → Nat, ∃ c : ∀ i, (exJobs multi i).Choice,
    (∃ sched ps fs', Together (fun i => (exJobs multi i).proc (n i) (c i)) exMainFS sched ps fs' ∧ ∀ i, ∃ a, ps i = .done a) ∧
    ∀ sched ps fs', Together (fun i => (exJobs multi i).proc (n i) (c i)) exMainFS sched ps fs' → ∀ a, ps true = .done a →
      ∃ res, a = some (some [[2], [6], [2]], res) := by
  have hs : Separate (exJobs multi) := by
    refine C99_directories (ins := fun _ => exMainIns) (fun i => rfl) (fun i => (exMain_inputs multi).paths) ?_ ?_
    · revert multi; decide +kernel
    · revert multi; decide +kernel
  have hgood : GoodChoices (exMain multi fun _ => none) :=
    ⟨(exSettings_good multi).search, (exSettings_good multi).seeds, (exSettings_good multi).rng⟩
  obtain ⟨res, fs1, h1⟩ := exMain_run multi
  obtain ⟨ws2, res2, fs2, h2⟩ := (C96_main hgood [ascii "home"] (ascii "/tmp/out") (exMainIns.map fun x => x.1 ++ x.2) exMainFS).1
  obtain ⟨n, c, h⟩ := C99_possible hs (fs := exMainFS) (fsi := fun b => if b then fs1 else fs2)
    (ws := fun b => if b then some [[2], [6], [2]] else ws2) (res := fun b => if b then res else res2) (by
      rintro (_ | _)
      · exact h2
      · exact h1)
  refine ⟨n, c, ?_, fun sched ps fs' ht a ha => ⟨res, (h sched ps fs' ht true a ha).1⟩⟩
  obtain ⟨sched1, h3⟩ := together_one (fun i => (exJobs multi i).proc (n i) (c i)) true exMainFS
  obtain ⟨sched2, h4⟩ := together_one _ false _
  refine ⟨_, _, _, h3.trans h4, ?_⟩
  rintro (_ | _)
  · exact ⟨_, Function.update_self ..⟩
  · refine ⟨_, (Function.update_of_ne (by simp) _ _).trans (Function.update_self ..)⟩

end Cres

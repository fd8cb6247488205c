import Verif.Props.Crash
import Verif.Props.Main

/-!
C84, C85 and C86 for runs of the command line program.
-/

set_option linter.unusedSectionVars false

namespace Cres

open Spec CombinedIO Program Cres.Path

section

variable {K V D P : Type*}

theorem prepareFiles_sublist [Zero K] [One K] [Neg K] [Div K] [NatCast K] {cfg io : IOConfig K V} {fs : FS P} {l files : List (P × P)}
    (h : prepareFiles cfg fs (l.map some) = .ok (files, io)) : files.Sublist l := by
  unfold prepareFiles at h
  split_ifs at h with h1 h2
  · cases hs : scanFiles cfg fs (l.map some) with
    | ok r =>
      rw [hs] at h
      simp only [Outcome.map_ok, Outcome.ok.injEq, Prod.mk.injEq] at h
      obtain ⟨rfl, -⟩ := h
      have h3 := scanFiles_files cfg fs hs
      have h4 : l = r.map Prod.fst := by
        have : l.map some = (r.map Prod.fst).map some := by rw [h3, List.map_map]; rfl
        exact List.map_injective_iff.2 (Option.some_injective _) this
      rw [h4]
      simp only [Stripper.extractScaling]
      exact List.filter_sublist.map _
    | err e => rw [hs] at h; simp at h
    | panic => rw [hs] at h; simp at h
  · simp only [Outcome.ok.injEq, Prod.mk.injEq] at h
    obtain ⟨rfl, -⟩ := h
    simp

theorem goodFiles_sublist {files l : List (P × P)} (h : GoodFiles l) (hs : files.Sublist l) : GoodFiles files :=
  ⟨fun p hp hp' => h.disjoint p ((hs.map Prod.fst).subset hp) ((hs.map Prod.snd).subset hp'), h.nodup.sublist (hs.map Prod.snd)⟩

theorem scanFiles_alike {cfg : IOConfig K V} {fs fs' : FS P} : ∀ {l : List (Option (P × P))},
    (∀ f, some f ∈ l → fs' f.1 = fs f.1) → scanFiles cfg fs' l = scanFiles cfg fs l
  | [], _ => rfl
  | none :: l, _ => rfl
  | some f :: l, h => by
    rw [scanFiles, scanFiles, h f (by simp), scanFiles_alike fun g hg => h g (by simp [hg])]

theorem prepareFiles_alike [Zero K] [One K] [Neg K] [Div K] [NatCast K] {cfg : IOConfig K V} {fs fs' : FS P} {l : List (Option (P × P))}
    (h : ∀ f, some f ∈ l → fs' f.1 = fs f.1) : prepareFiles cfg fs' l = prepareFiles cfg fs l := by
  unfold prepareFiles
  rw [scanFiles_alike h]

/-- The paths of input files: each one consists of a directory and a name, no directory is the output directory and all names
are different. -/
structure GoodPaths (cwd : List Bytes) (outdir : Bytes) (ins : List (Bytes × Bytes)) : Prop where
  paths : ∀ x ∈ ins, IsFilePath (x.1 ++ x.2) x.1 x.2
  dirs : ∀ x ∈ ins, locate cwd x.1 ≠ locate cwd outdir
  names : (ins.map Prod.snd).Nodup

variable [Zero D] [DistNum D] [Zero K] [One K] [Add K] [Mul K] [Div K] [NatCast K] [Neg K] [LinearOrder K] [LinearOrder V]

theorem GoodPaths.prepared {cwd : List Bytes} {outdir : Bytes} {ins : List (Bytes × Bytes)} (h : GoodPaths cwd outdir ins)
    {cfg io : IOConfig K V} {fs : FS (List Bytes)} {files : List (List Bytes × List Bytes)}
    (hp : prepareFiles cfg fs (locatedPairs cwd outdir (ins.map fun x => x.1 ++ x.2)) = .ok (files, io)) :
    GoodFiles files ∧ ∀ q ∈ files.map Prod.snd, ∃ x ∈ ins, q = locate cwd outdir ++ [x.2] := by
  rw [locatedPairs_paths cwd outdir h.paths] at hp
  have hs := prepareFiles_sublist hp
  refine ⟨goodFiles_sublist (goodFiles_paths cwd outdir h.paths h.dirs h.names) hs, fun q hq => ?_⟩
  obtain ⟨y, hy, rfl⟩ := List.mem_map.1 ((hs.map Prod.snd).subset hq)
  obtain ⟨x, hx, rfl⟩ := List.mem_map.1 hy
  exact ⟨x, hx, rfl⟩

/-- The number of calls to read records exists in each run. -/
theorem main_readsAll {s : CresSettings K V D} {cwd : List Bytes} {outdir : Bytes} {infiles : List Bytes} {fs fs' : FS (List Bytes)}
    {ws : Option (List (Weights K))} {res : Outcome MainError Unit} (h : MainRun s cwd outdir infiles fs ws res fs') :
    ∃ n, MainReadsAll s cwd outdir infiles fs n := by
  cases h with
  | scalingErr h | scalingPanic h => exact ⟨0, fun files io h' => by rw [h] at h'; simp at h'⟩
  | run h1 h2 =>
    obtain ⟨n, hn⟩ := run_readsAll h2
    refine ⟨n, fun files io h' => ?_⟩
    rw [h1] at h'
    simp only [Outcome.ok.injEq, Prod.mk.injEq] at h'
    obtain ⟨rfl, rfl⟩ := h'
    exact hn

/-- **C84** for runs of the command line program: if the run is interrupted at any time, or writing fails, then only files in
the output directory that have the name of an input file are changed, and each of them is as before the run or contains a first
part of what it contains after the complete run. -/
theorem C84_main {s : CresSettings K V D} {cwd : List Bytes} {outdir : Bytes} {ins : List (Bytes × Bytes)}
    (hg : GoodPaths cwd outdir ins) {fs fs' files' : FS (List Bytes)} {ws : Option (List (Weights K))} {res : Outcome MainError Unit}
    (h : MainRun s cwd outdir (ins.map fun x => x.1 ++ x.2) fs ws res fs') {n : Nat}
    (hr : MainReadsAll s cwd outdir (ins.map fun x => x.1 ++ x.2) fs n) {cap : Nat} {faults : Bool} {e : Ending}
    (he : Disk.Exec cap faults ⟨fs, []⟩ (mainOps s cwd outdir (ins.map fun x => x.1 ++ x.2) fs n ws) files' e) :
    (∀ q, (∀ x ∈ ins, q ≠ locate cwd outdir ++ [x.2]) → files' q = fs q) ∧
    ∀ q, files' q = fs q ∨ ∃ content part, fs' q = some content ∧ files' q = some part ∧ part <+: content := by
  have hno : ∀ {d : Disk (List Bytes)} {files' e}, Disk.Exec cap faults d [] files' e → d.writers = [] → files' = d.files := by
    intro d files' e he hd
    cases he with
    | finished h => rw [hd] at h; cases h; rfl
    | interrupted => rfl
    | interruptedDropping h => rw [hd] at h; cases h; rfl
  cases h with
  | scalingErr h | scalingPanic h =>
    simp only [mainOps, h] at he
    rw [hno he rfl]
    exact ⟨fun _ _ => rfl, fun _ => Or.inl rfl⟩
  | run h1 h2 =>
    simp only [mainOps, h1] at he
    obtain ⟨g1, g2⟩ := hg.prepared h1
    obtain ⟨g3, g4⟩ := C84_crash g1 h2 (hr _ _ h1) he
    refine ⟨fun q hq => g3 q fun hm => ?_, g4⟩
    obtain ⟨x, hx, rfl⟩ := g2 q hm
    exact hq x hx rfl

/-- **C85** for runs of the command line program: a run without write errors that is not interrupted leaves the files that it
should. In general, if all operations succeed, at most as many bytes as fit into the buffer are missing at the end of files. -/
theorem C85_main_partial {s : CresSettings K V D} {cwd : List Bytes} {outdir : Bytes} {ins : List (Bytes × Bytes)}
    (hg : GoodPaths cwd outdir ins) {fs fs' files' : FS (List Bytes)} {ws : Option (List (Weights K))} {res : Outcome MainError Unit}
    (h : MainRun s cwd outdir (ins.map fun x => x.1 ++ x.2) fs ws res fs') {n : Nat}
    (hr : MainReadsAll s cwd outdir (ins.map fun x => x.1 ++ x.2) fs n) {cap : Nat} {faults : Bool}
    (he : Disk.Exec cap faults ⟨fs, []⟩ (mainOps s cwd outdir (ins.map fun x => x.1 ++ x.2) fs n ws) files' .finished) :
    (faults = false → files' = fs') ∧
    ∀ q, files' q = fs' q ∨ ∃ content part, fs' q = some content ∧ files' q = some part ∧ part <+: content ∧
      content.length ≤ part.length + cap := by
  cases h with
  | scalingErr h | scalingPanic h =>
    simp only [mainOps, h] at he
    cases he with
    | finished h =>
      cases h
      exact ⟨fun _ => rfl, fun _ => Or.inl rfl⟩
  | run h1 h2 =>
    simp only [mainOps, h1] at he
    obtain ⟨g1, -⟩ := hg.prepared h1
    refine ⟨?_, C85_missing_partial g1 h2 (hr _ _ h1) he⟩
    rintro rfl
    exact (C85_no_failure g1 h2 (hr _ _ h1) he (by simp)).2

theorem mainRun_alike {s : CresSettings K V D} {cwd : List Bytes} {outdir : Bytes} {ins : List (Bytes × Bytes)}
    (hg : GoodPaths cwd outdir ins) {fs files' : FS (List Bytes)} (h : ∀ q, (∀ x ∈ ins, q ≠ locate cwd outdir ++ [x.2]) → files' q = fs q)
    (hsub : ∀ files io, prepareFiles s.io fs (locatedPairs cwd outdir (ins.map fun x => x.1 ++ x.2)) = .ok (files, io) →
      ∀ q, q ∉ files.map Prod.snd → files' q = fs q)
    {ws : Option (List (Weights K))} {res : Outcome MainError Unit} {g : FS (List Bytes)}
    (hrun : MainRun s cwd outdir (ins.map fun x => x.1 ++ x.2) fs ws res g) :
    ∃ g', MainRun s cwd outdir (ins.map fun x => x.1 ++ x.2) files' ws res g' ∧ (res = .ok () → g' = g) := by
  have hin : ∀ f, some f ∈ locatedPairs cwd outdir (ins.map fun x => x.1 ++ x.2) → files' f.1 = fs f.1 := by
    intro f hf
    rw [locatedPairs_paths cwd outdir hg.paths] at hf
    simp only [List.mem_map, Option.some.injEq, exists_eq_right] at hf
    obtain ⟨x, hx, rfl⟩ := hf
    apply h
    intro y hy heq
    simp only at heq
    rw [locate_dir cwd (hg.paths x hx), append_name_inj] at heq
    exact hg.dirs x hx heq.1
  have hprep := prepareFiles_alike (cfg := s.io) hin
  cases hrun with
  | scalingErr h1 => exact ⟨_, .scalingErr (hprep.trans h1), by simp⟩
  | scalingPanic h1 => exact ⟨_, .scalingPanic (hprep.trans h1), by simp⟩
  | @run files io events ws res fs' h1 h2 =>
    obtain ⟨g1, -⟩ := hg.prepared h1
    obtain ⟨g', k1, -, k2⟩ := run_alike g1.disjoint (fun q hq => (hsub _ _ h1 q hq).symm) h2
    refine ⟨g', .run (hprep.trans h1) k1, fun hres => k2 (Or.inr ?_)⟩
    cases res with
    | ok u => rfl
    | err e => simp [Outcome.mapErr] at hres
    | panic => simp [Outcome.mapErr] at hres

/-- **C86** for runs of the command line program: after an interruption or failure at any time the program can be run again.
All runs with the same file settings are as they would be if the first run had not taken place. -/
theorem C86_main {s s' : CresSettings K V D} (hs : s'.io = s.io) {cwd : List Bytes} {outdir : Bytes} {ins : List (Bytes × Bytes)}
    (hg : GoodPaths cwd outdir ins) {fs fs' files' : FS (List Bytes)} {ws : Option (List (Weights K))} {res : Outcome MainError Unit}
    (h : MainRun s cwd outdir (ins.map fun x => x.1 ++ x.2) fs ws res fs') {n : Nat}
    (hr : MainReadsAll s cwd outdir (ins.map fun x => x.1 ++ x.2) fs n) {cap : Nat} {faults : Bool} {e : Ending}
    (he : Disk.Exec cap faults ⟨fs, []⟩ (mainOps s cwd outdir (ins.map fun x => x.1 ++ x.2) fs n ws) files' e) :
    (∀ ws' g, MainRun s' cwd outdir (ins.map fun x => x.1 ++ x.2) files' ws' (.ok ()) g ↔
      MainRun s' cwd outdir (ins.map fun x => x.1 ++ x.2) fs ws' (.ok ()) g) ∧
    ∀ ws' res', (∃ g, MainRun s' cwd outdir (ins.map fun x => x.1 ++ x.2) files' ws' res' g) ↔
      ∃ g, MainRun s' cwd outdir (ins.map fun x => x.1 ++ x.2) fs ws' res' g := by
  have hother := (C84_main hg h hr he).1
  have hother' : ∀ q, (∀ x ∈ ins, q ≠ locate cwd outdir ++ [x.2]) → fs q = files' q := fun q hq => (hother q hq).symm
  have hin : ∀ f, some f ∈ locatedPairs cwd outdir (ins.map fun x => x.1 ++ x.2) → files' f.1 = fs f.1 := by
    intro f hf
    rw [locatedPairs_paths cwd outdir hg.paths] at hf
    simp only [List.mem_map, Option.some.injEq, exists_eq_right] at hf
    obtain ⟨x, hx, rfl⟩ := hf
    apply hother
    intro y hy heq
    simp only at heq
    rw [locate_dir cwd (hg.paths x hx), append_name_inj] at heq
    exact hg.dirs x hx heq.1
  have hprep := prepareFiles_alike (cfg := s'.io) hin
  have hsub : ∀ files io, prepareFiles s'.io fs (locatedPairs cwd outdir (ins.map fun x => x.1 ++ x.2)) = .ok (files, io) →
      ∀ q, q ∉ files.map Prod.snd → files' q = fs q := by
    intro files io hp
    rw [hs] at hp
    cases h with
    | scalingErr h | scalingPanic h => rw [h] at hp; simp at hp
    | run h1 h2 =>
      rw [h1] at hp
      simp only [Outcome.ok.injEq, Prod.mk.injEq] at hp
      obtain ⟨rfl, rfl⟩ := hp
      simp only [mainOps, h1] at he
      exact (C84_crash (hg.prepared h1).1 h2 (hr _ _ h1) he).1
  have hsub' : ∀ files io, prepareFiles s'.io files' (locatedPairs cwd outdir (ins.map fun x => x.1 ++ x.2)) = .ok (files, io) →
      ∀ q, q ∉ files.map Prod.snd → fs q = files' q :=
    fun files io hp q hq => (hsub files io (hprep ▸ hp) q hq).symm
  refine ⟨fun ws' g => ⟨fun k => ?_, fun k => ?_⟩, fun ws' res' => ⟨fun ⟨g, k⟩ => ?_, fun ⟨g, k⟩ => ?_⟩⟩
  · obtain ⟨g', k1, k2⟩ := mainRun_alike hg hother' hsub' k
    rw [← k2 rfl]
    exact k1
  · obtain ⟨g', k1, k2⟩ := mainRun_alike hg hother hsub k
    rw [← k2 rfl]
    exact k1
  · obtain ⟨g', k1, -⟩ := mainRun_alike hg hother' hsub' k
    exact ⟨g', k1⟩
  · obtain ⟨g', k1, -⟩ := mainRun_alike hg hother hsub k
    exact ⟨g', k1⟩

end

/-- The hypotheses of `C84_main`, `C85_main_partial` and `C86_main` are met by a run with absolute and relative paths, and
also if the run is interrupted in the beginning. -/
example (multi : Bool) : ∃ res fs' n, GoodPaths [ascii "home"] (ascii "out") exMainIns ∧
    MainRun (exMain multi fun _ => none) [ascii "home"] (ascii "out") (exMainIns.map fun x => x.1 ++ x.2) exMainFS
      (some [[2], [6], [2]]) res fs' ∧
    MainReadsAll (exMain multi fun _ => none) [ascii "home"] (ascii "out") (exMainIns.map fun x => x.1 ++ x.2) exMainFS n ∧
    Disk.Exec 8192 false ⟨exMainFS, []⟩ (mainOps (exMain multi fun _ => none) [ascii "home"] (ascii "out")
      (exMainIns.map fun x => x.1 ++ x.2) exMainFS n (some [[2], [6], [2]])) fs' .finished ∧
    Disk.Exec 8192 false ⟨exMainFS, []⟩ (mainOps (exMain multi fun _ => none) [ascii "home"] (ascii "out")
      (exMainIns.map fun x => x.1 ++ x.2) exMainFS n (some [[2], [6], [2]])) exMainFS .interrupted := by
  obtain ⟨res, fs', h⟩ := exMain_run multi
  obtain ⟨n, hn⟩ := main_readsAll h
  have hg : GoodPaths [ascii "home"] (ascii "out") exMainIns := ⟨(exMain_inputs multi).paths, (exMain_inputs multi).dirs, (exMain_inputs multi).names⟩
  refine ⟨res, fs', n, hg, h, hn, ?_, .interrupted⟩
  cases h with
  | run h1 h2 =>
    simp only [mainOps, h1]
    exact C85_possible (hg.prepared h1).1 h2 (hn _ _ h1) 8192

end Cres

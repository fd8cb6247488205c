import Verif.Proofs.Main
import Verif.Proofs.Negative

/-!
# C72, C74, C75: complete runs, starting from the names of files
-/

namespace Cres

open Spec CombinedIO Program Cres.Path

variable {K V D : Type*}

/-! ## C72: names of output files -/

/-- **C72**: the output for the file `n` in the directory `d` is the file `n` in the output directory. -/
theorem C72_output (cwd : List Bytes) (outdir : Bytes) {f d n : Bytes} (h : IsFilePath f d n) :
    ∃ out, filePair outdir f = some (f, out) ∧ locate cwd f = locate cwd d ++ [n] ∧
      locate cwd out = locate cwd outdir ++ [n] :=
  ⟨_, by rw [filePair, fileName_dir h]; rfl, locate_dir cwd h, locate_fromPair cwd h.2.2⟩

/-- **C72**: whatever the path of the input file is, the output is in the output directory itself, or there is no output. -/
theorem C72_inside (cwd : List Bytes) (outdir : Bytes) {f g out : Bytes} (h : filePair outdir f = some (g, out)) :
    g = f ∧ ∃ n, IsName n ∧ locate cwd out = locate cwd outdir ++ [n] := by
  unfold filePair at h
  cases hn : fileName f with
  | none => rw [hn] at h; simp at h
  | some n =>
    rw [hn] at h
    simp only [Option.map_some, Option.some.injEq, Prod.mk.injEq] at h
    obtain ⟨rfl, rfl⟩ := h
    exact ⟨rfl, n, fileName_isName hn, locate_fromPair cwd (fileName_isName hn)⟩

/-- **C72**: two input files have the same output file if and only if they have the same name, and an input file is its own
output file if and only if its directory is the output directory. -/
theorem C72_collisions (cwd : List Bytes) (outdir : Bytes) {f d n f' d' n' out out' : Bytes} (h : IsFilePath f d n)
    (h' : IsFilePath f' d' n') (ho : filePair outdir f = some (f, out)) (ho' : filePair outdir f' = some (f', out')) :
    (locate cwd out = locate cwd out' ↔ n = n') ∧
    (locate cwd out = locate cwd f ↔ locate cwd d = locate cwd outdir) := by
  obtain ⟨o, h1, h2, h3⟩ := C72_output cwd outdir h
  obtain ⟨o', h1', -, h3'⟩ := C72_output cwd outdir h'
  rw [ho] at h1
  rw [ho'] at h1'
  simp only [Option.some.injEq, Prod.mk.injEq, true_and] at h1 h1'
  subst h1 h1'
  rw [h3, h3', h2, append_name_inj, append_name_inj]
  exact ⟨by simp, by simp [eq_comm]⟩

section

variable [Zero D] [DistNum D] [Zero K] [One K] [Add K] [Mul K] [Div K] [Neg K] [NatCast K]
  [LinearOrder K] [LinearOrder V]

/-- **C72**: a run changes no files except those in the output directory with the name of an input file. This is the case for
all settings and inputs, whether the run succeeds or not. -/
theorem C72_files {s : CresSettings K V D} {cwd : List Bytes} {outdir : Bytes} {infiles : List Bytes}
    {fs fs' : FS (List Bytes)} {ws : Option (List (Weights K))} {res : Outcome MainError Unit}
    (h : MainRun s cwd outdir infiles fs ws res fs') (q : List Bytes)
    (hq : ∀ f ∈ infiles, ∀ n, fileName f = some n → q ≠ locate cwd outdir ++ [n]) : fs' q = fs q := by
  cases h with
  | scalingErr _ | scalingPanic _ => rfl
  | run h1 h2 =>
    refine programRun_other h2 q fun hm => ?_
    obtain ⟨x, hx, rfl⟩ := List.mem_map.1 hm
    have := prepareFiles_mem h1 x hx
    simp only [locatedPairs, List.mem_map] at this
    obtain ⟨f, hf, h3⟩ := this
    rw [Option.map_eq_some_iff] at h3
    obtain ⟨⟨g, out⟩, h3, rfl⟩ := h3
    unfold filePair at h3
    rw [Option.map_eq_some_iff] at h3
    obtain ⟨n, h4, h5⟩ := h3
    simp only [Prod.mk.injEq] at h5
    obtain ⟨rfl, rfl⟩ := h5
    exact hq _ hf n h4 (locate_fromPair cwd (fileName_isName h4))

/-- **C72**: if one of the paths has no file name no file is changed. -/
theorem C72_no_name {s : CresSettings K V D} {cwd : List Bytes} {outdir : Bytes} {infiles : List Bytes}
    {fs fs' : FS (List Bytes)} {ws : Option (List (Weights K))} {res : Outcome MainError Unit}
    (h : MainRun s cwd outdir infiles fs ws res fs') {f : Bytes} (hf : f ∈ infiles) (hn : fileName f = none) :
    fs' = fs ∧ res ≠ .ok () := by
  have hmem : none ∈ locatedPairs cwd outdir infiles := by
    rw [locatedPairs, List.mem_map]
    exact ⟨f, hf, by rw [filePair, hn]; rfl⟩
  cases h with
  | scalingErr _ | scalingPanic _ => exact ⟨rfl, by simp⟩
  | run h1 h2 =>
    exfalso
    unfold prepareFiles at h1
    split_ifs at h1 with g1 g2
    · cases hs : scanFiles s.io fs (locatedPairs cwd outdir infiles) with
      | ok r =>
        rw [scanFiles_files _ _ hs] at hmem
        simp at hmem
      | err e => rw [hs] at h1; simp at h1
      | panic => rw [hs] at h1; simp at h1
    · rw [List.all_eq_true] at g2
      exact absurd (g2 _ hmem) (by simp)

end

/-- A relative path with `.`, `..` and repeated slashes. -/
example : IsFilePath (ascii "../data//./a.hepmc") (ascii "../data//./") (ascii "a.hepmc") ∧
    filePair (ascii "/out/") (ascii "../data//./a.hepmc") = some (ascii "../data//./a.hepmc", ascii "/out/a.hepmc") ∧
    filePair (ascii "out") (ascii "a.hepmc") = some (ascii "a.hepmc", ascii "out/a.hepmc") ∧
    locate [ascii "home", ascii "me"] (ascii "../data//./a.hepmc") = [ascii "home", ascii "data", ascii "a.hepmc"] ∧
    locate [ascii "home", ascii "me"] (ascii "out/a.hepmc") = [ascii "home", ascii "me", ascii "out", ascii "a.hepmc"] ∧
    fileName (ascii "data/..") = none ∧ fileName (ascii "/") = none := by
  refine ⟨⟨by decide, by decide, ?_, ?_, ?_, ?_⟩, ?_, ?_, ?_, ?_, ?_, ?_⟩ <;> decide +kernel

/-! ## C74: a run of the command line program -/

/-- The pairs of locations for paths that consist of a directory and a name. -/
theorem locatedPairs_paths (cwd : List Bytes) (outdir : Bytes) {ins : List (Bytes × Bytes)}
    (h : ∀ x ∈ ins, IsFilePath (x.1 ++ x.2) x.1 x.2) :
    locatedPairs cwd outdir (ins.map fun x => x.1 ++ x.2) =
      (ins.map fun x => (locate cwd (x.1 ++ x.2), locate cwd outdir ++ [x.2])).map some := by
  rw [locatedPairs, List.map_map, List.map_map]
  apply List.map_congr_left
  intro x hx
  have h1 := h x hx
  simp only [Function.comp_apply, filePair, fileName_dir h1, Option.map_some, locate_fromPair cwd h1.2.2]

theorem goodFiles_paths (cwd : List Bytes) (outdir : Bytes) {ins : List (Bytes × Bytes)}
    (h : ∀ x ∈ ins, IsFilePath (x.1 ++ x.2) x.1 x.2) (hdir : ∀ x ∈ ins, locate cwd x.1 ≠ locate cwd outdir)
    (hname : (ins.map Prod.snd).Nodup) :
    GoodFiles (ins.map fun x => (locate cwd (x.1 ++ x.2), locate cwd outdir ++ [x.2])) := by
  constructor
  · intro p hp hp'
    simp only [List.map_map, List.mem_map, Function.comp_apply] at hp hp'
    obtain ⟨x, hx, rfl⟩ := hp
    obtain ⟨y, -, hy⟩ := hp'
    rw [locate_dir cwd (h x hx), append_name_inj] at hy
    exact hdir x hx hy.1.symm
  · have : (ins.map fun x => (locate cwd (x.1 ++ x.2), locate cwd outdir ++ [x.2])).map Prod.snd =
        (ins.map Prod.snd).map fun n => locate cwd outdir ++ [n] := by
      simp
    rw [this]
    exact hname.map fun a b hab => by simpa using hab

variable [Zero K] [One K] [Add K] [Mul K] [Div K] [Neg K] [NatCast K]

/-- What is required for the names and the content of the input files: each path consists of a directory `d` and a name
`n`, no directory is the output directory, all names are different, and `tags` is the information in XML files. -/
structure GoodInputs (io : IOConfig K V) (cwd : List Bytes) (outdir : Bytes) (ins : List (Bytes × Bytes))
    (tags : List (Option (Stripper.XmlTag K))) (fs : FS (List Bytes)) : Prop where
  paths : ∀ x ∈ ins, IsFilePath (x.1 ++ x.2) x.1 x.2
  dirs : ∀ x ∈ ins, locate cwd x.1 ≠ locate cwd outdir
  names : (ins.map Prod.snd).Nodup
  content : List.Forall₂ (fun x t => ∃ c, fs (locate cwd x.1 ++ [x.2]) = some c ∧ HasTag io c t) ins tags
  xml : io.feat.stripperXml = true ∨ ∀ t ∈ tags, t = none

theorem GoodInputs.files {io : IOConfig K V} {cwd : List Bytes} {outdir : Bytes} {ins : List (Bytes × Bytes)}
    {tags : List (Option (Stripper.XmlTag K))} {fs : FS (List Bytes)} (h : GoodInputs io cwd outdir ins tags fs) :
    prepareFiles io fs (locatedPairs cwd outdir (ins.map fun x => x.1 ++ x.2)) =
      .ok ((eventInputs ins tags).map fun x => (locate cwd (x.1 ++ x.2), locate cwd outdir ++ [x.2]),
        { io with scaling := channelScales tags }) ∧
    GoodFiles ((eventInputs ins tags).map fun x => (locate cwd (x.1 ++ x.2), locate cwd outdir ++ [x.2])) ∧
    ((eventInputs ins tags).map fun x => (locate cwd (x.1 ++ x.2), locate cwd outdir ++ [x.2])).map Prod.fst =
      (eventInputs ins tags).map fun x => locate cwd x.1 ++ [x.2] := by
  have hsub := eventInputs_sublist ins tags
  refine ⟨?_, ?_, ?_⟩
  · rw [locatedPairs_paths cwd outdir h.paths, ← eventInputs_map]
    refine prepareFiles_tags ?_ h.xml
    rw [List.forall₂_map_left_iff]
    have h1 := h.content
    have h2 := h.paths
    clear h hsub
    induction h1 with
    | nil => exact .nil
    | @cons x t ins tags hx _ ih =>
      refine .cons ?_ (ih fun x hx => h2 x (by simp [hx]))
      rw [locate_dir cwd (h2 x (by simp))]
      exact hx
  · exact goodFiles_paths cwd outdir (fun x hx => h.paths x (hsub.subset hx)) (fun x hx => h.dirs x (hsub.subset hx))
      (h.names.sublist (hsub.map _))
  · rw [List.map_map]
    apply List.map_congr_left
    intro x hx
    exact locate_dir cwd (h.paths x (hsub.subset hx))

variable [Zero D] [LinearOrder D] [DistNum D] [ExactComparison D] [LinearOrder K] [LinearOrder V]

/-- **C74**: in release builds every run gets as far as updating the weights, and there is such a run. -/
theorem C74_completes {s : CresSettings K V D} (hc : GoodChoices s) (h0 : s.minWeight = 0)
    (hd : s.io.ctx.debug = false) {cwd : List Bytes} {outdir : Bytes}
    {ins : List (Bytes × Bytes)} {tags : List (Option (Stripper.XmlTag K))} {fs : FS (List Bytes)}
    (hg : GoodInputs s.io cwd outdir ins tags fs) {io : IOConfig K V}
    (hio : io = { s.io with scaling := channelScales tags }) {ds : List (EventFile K V)}
    (hin : EventFiles io fs ((eventInputs ins tags).map fun x => locate cwd x.1 ++ [x.2]) ds) (hsup : WeightsSupported io ds) :
    (∀ ws res fs', MainRun s cwd outdir (ins.map fun x => x.1 ++ x.2) fs ws res fs' → ∃ ws', ws = some ws') ∧
    ∃ ws res fs', MainRun s cwd outdir (ins.map fun x => x.1 ++ x.2) fs ws res fs' := by
  obtain ⟨h1, h2, h3⟩ := hg.files
  have hc' : GoodChoices { s with io := { s.io with scaling := channelScales tags } } := ⟨hc.search, hc.seeds, hc.rng⟩
  subst hio
  have hin' := hin
  rw [← h3] at hin'
  obtain ⟨m, hm0, hm1, hm, -⟩ := supported_weights (p := CresSettings.program { s with io := { s.io with scaling := channelScales tags } }) hin' hsup
  obtain ⟨h4, events, ws, res, fs', h5⟩ := run_completes (p := CresSettings.program { s with io := { s.io with scaling := channelScales tags } }) hd hm0 hm1 (cres_goodComponents hc')
    (cres_unweight h0) hm hin' h2 fun ev hev => ⟨_, rfl, eventFiles_id hin' ev hev⟩
  refine ⟨?_, _, _, _, .run h1 h5⟩
  intro ws res fs' h
  cases h with
  | scalingErr g1 | scalingPanic g1 => rw [h1] at g1; simp at g1
  | run g1 g2 =>
    rw [h1] at g1
    simp only [Outcome.ok.injEq, Prod.mk.injEq] at g1
    obtain ⟨rfl, rfl⟩ := g1
    exact h4 _ _ _ _ g2


section Exact

variable {K : Type*} [Field K] [LinearOrder K] [IsStrictOrderedRing K]

/-- **C74**: without unweighting, if the new weights can be written, the run succeeds. For each input file with events there
is a file with the same name in the output directory, with the same events up to their weights, and the sum of weights is
the same, for the central weight (`k = 0`) and for selected names. Without `multiweight` the weights of events that have no
particles after clustering are missing in this sum. All other files are unchanged. -/
theorem C74_run {s : CresSettings K V D} (hc : GoodChoices s) (h0 : s.minWeight = 0) {cwd : List Bytes} {outdir : Bytes} {ins : List (Bytes × Bytes)}
    {tags : List (Option (Stripper.XmlTag K))} {fs fs' : FS (List Bytes)} (hg : GoodInputs s.io cwd outdir ins tags fs)
    {io : IOConfig K V} (hio : io = { s.io with scaling := channelScales tags }) {ds : List (EventFile K V)}
    (hin : EventFiles io fs ((eventInputs ins tags).map fun x => locate cwd x.1 ++ [x.2]) ds) (hsup : WeightsSupported io ds)
    {ws : List (Weights K)} {res : Outcome MainError Unit}
    (h : MainRun s cwd outdir (ins.map fun x => x.1 ++ x.2) fs (some ws) res fs')
    (hw : ∀ w ∈ ws, ∀ x ∈ w, ∀ d ∈ ds, Writable io d.kind x) :
    res = .ok () ∧
    (∃ ds', EventFiles io fs' ((eventInputs ins tags).map fun x => locate cwd outdir ++ [x.2]) ds' ∧
      List.Forall₂ SameExceptWeights ds ds' ∧ ∀ k, weightSumNo k (allEvents ds') =
        weightSumNo k ((allEvents ds).filter fun ev => s.io.ctx.multi || HasParticles s.program ev)) ∧
    ∀ q, (∀ x ∈ eventInputs ins tags, q ≠ locate cwd outdir ++ [x.2]) → fs' q = fs q := by
  obtain ⟨h1, h2, h3⟩ := hg.files
  generalize hws : some ws = ows at h
  cases h with
  | scalingErr _ | scalingPanic _ => simp at hws
  | @run files io' events ws' res fs' g1 g2 =>
    subst hws
    rw [h1] at g1
    simp only [Outcome.ok.injEq, Prod.mk.injEq] at g1
    obtain ⟨rfl, rfl⟩ := g1
    have hc' : GoodChoices { s with io := { s.io with scaling := channelScales tags } } := ⟨hc.search, hc.seeds, hc.rng⟩
    subst hio
    obtain ⟨m, events, hm0, hm1, rfl, he, hcw, g3⟩ :=
      supported_run (cres_goodComponents hc') (cres_unweight h0) (by rw [h3]; exact hin) h2 hsup g2
    obtain ⟨h4, ds', h5, h6, h7⟩ := g3 hw
    have h8 := (weights_passed_all (cres_goodComponents hc') (cres_unweight h0) hm0 hm1 he hcw).2.2
    refine ⟨by rw [h4]; rfl, ⟨ds', ?_, h6, fun k => by rw [h7]; exact h8 k⟩, fun q hq => programRun_other g2 q ?_⟩
    · rw [List.map_map] at h5
      exact h5
    · simp only [List.map_map, List.mem_map, Function.comp_apply, not_exists, not_and]
      exact fun x hx he => hq x hx he.symm

end Exact

/-! ### example -/

/-- The settings of the example for C69, with information from XML files: a text with `<N` is a cross section. -/
def exMain (multi : Bool) (sc : Bytes → Option ℚ) : CresSettings ℚ ℚ ℚ :=
  { exSettings multi with
    io := { (exSettings multi).io with
      xmlInfo := fun c => if ascii "<?xml?><N" <+: c then .ok (.normalization (ascii "a") 6) else .ok (.eventrecord (ascii "a") 2 2)
      scaling := sc } }

theorem exMainHepmc_ok (multi : Bool) (sc : Bytes → Option ℚ) :
    IsEventFile (exMain multi sc).io (exProgHepmc.header ++ exProgHepmc.records.flatten) exProgHepmc := exProgHepmc_ok multi

theorem exMainLhef_ok (multi : Bool) (sc : Bytes → Option ℚ) :
    IsEventFile (exMain multi sc).io (exProgLhef.header ++ exProgLhef.records.flatten ++ ascii "\n</LesHouchesEvents>\n") exProgLhef :=
  exProgLhef_ok multi

theorem exMain_reads {P : Type*} [DecidableEq P] (multi : Bool) (sc : Bytes → Option ℚ) {files : List (P × P)} {fs : FS P}
    (hin : EventFiles (exMain multi sc).io fs (files.map Prod.fst) [exProgHepmc, exProgLhef]) (hf : GoodFiles files) :
    ∃ s fs1 x, CombinedIO.new (exMain multi sc).io files fs = (.ok (), s, fs1) ∧
      (exMain multi sc).program.ReadsEvents s fs1 (.ok exProgEvents) x := by
  obtain ⟨h1, -⟩ := files_items hin
  obtain ⟨s, fs1, h3, h4⟩ := new_ready (eventFiles_inputs hin) hf.disjoint
    (by
      intro d hd
      obtain ⟨d', hd', rfl⟩ := List.mem_map.1 hd
      exact h1 d' hd')
  refine ⟨s, fs1, ?_⟩
  have h5 := recordItems_ready _ 5 s fs1 h4
  rw [if_pos (by simp [fileItems, exProgHepmc, exProgLhef])] at h5
  generalize hx : s.recordItems (exMain multi sc).io 5 fs1 = y at h5
  obtain ⟨y, x⟩ := y
  simp only at h5
  subst h5
  refine ⟨x, h3, ?_⟩
  have hdec : (exProgRead multi [.main, .main, .main, .task 1, .main, .task 1, .task 0] .init).map
      (fun s => (s.stopped.isSome, s.pending.isEmpty, s.result)) = some (true, true, .ok exProgEvents) := by
    cases multi <;> decide +kernel
  cases hr : exProgRead multi [.main, .main, .main, .task 1, .main, .task 1, .task 0] .init with
  | none => rw [hr] at hdec; simp at hdec
  | some r =>
    rw [hr] at hdec
    simp only [Option.map_some, Option.some.injEq, Prod.mk.injEq] at hdec
    rw [← hdec.2.2]
    exact .done hx (exProgRead_reachable hr .init) ⟨hdec.1, by simpa using hdec.2.1⟩

theorem computesWeights_congr {K V D : Type*} [Zero D] [Zero K] [One K] [Add K] [Mul K] [Div K] [NatCast K]
    [LinearOrder K] {p q : Program K V D} (h1 : p.cfg = q.cfg)
    (h2 : p.nearest = q.nearest) (h3 : p.seeds = q.seeds) (h4 : p.unweight = q.unweight) (h5 : p.infoLog = q.infoLog)
    {events : List (Event K V)} {r : Outcome (CresError IOError) (List (Weights K))} (h : p.ComputesWeights events r) :
    q.ComputesWeights events r := by
  cases h with
  | mk h =>
    rw [h1, h4, h5]
    refine .mk ?_
    cases h with
    | log h => exact .log (by rwa [← h1, ← h5])
    | task g1 g2 g3 => exact .task (by rwa [← h1, ← h5]) (by rw [← h1, ← h2, ← h3]; exact g2) g3
    | ok g1 g2 => exact .ok (by rwa [← h1, ← h5]) (by rw [← h1, ← h2, ← h3]; exact g2)

/-- Input files for the example: two event files and a cross section. -/
def exMainIns : List (Bytes × Bytes) := [(ascii "/data/", ascii "a.hepmc"), (ascii "../x/", ascii "N.xml"), ([], ascii "b.lhe")]

/-- What is found in the XML files. -/
def exMainTags : List (Option (Stripper.XmlTag ℚ)) := [none, some (.normalization (ascii "a") 6), none]

/-- The files. -/
def exMainFS : FS (List Bytes) := fun p =>
  if p = [ascii "data", ascii "a.hepmc"] then some (exProgHepmc.header ++ exProgHepmc.records.flatten)
  else if p = [ascii "home", ascii "b.lhe"] then
    some (exProgLhef.header ++ exProgLhef.records.flatten ++ ascii "\n</LesHouchesEvents>\n")
  else if p = [ascii "x", ascii "N.xml"] then some (ascii "<?xml?><N/>")
  else none

theorem exMain_inputs (multi : Bool) :
    GoodInputs (exMain multi fun _ => none).io [ascii "home"] (ascii "out") exMainIns exMainTags exMainFS := by
  refine ⟨?_, ?_, by decide +kernel, .cons ⟨_, rfl, ?_⟩ (.cons ⟨_, rfl, ?_, ?_⟩ (.cons ⟨_, rfl, ?_⟩ .nil)), Or.inl rfl⟩
  · unfold IsFilePath IsName
    decide +kernel
  · decide +kernel
  · show ¬ _
    cases multi <;> decide +kernel
  · cases multi <;> decide +kernel
  · cases multi <;> decide +kernel
  · show ¬ _
    cases multi <;> decide +kernel

theorem exMain_eventInputs : eventInputs exMainIns exMainTags = [(ascii "/data/", ascii "a.hepmc"), ([], ascii "b.lhe")] := by
  decide +kernel

theorem exMain_files (multi : Bool) : EventFiles (exMain multi (channelScales exMainTags)).io exMainFS
    ((eventInputs exMainIns exMainTags).map fun x => locate [ascii "home"] x.1 ++ [x.2]) [exProgHepmc, exProgLhef] := by
  rw [exMain_eventInputs]
  exact .cons ⟨_, by decide +kernel, exMainHepmc_ok multi _⟩ (.cons ⟨_, by decide +kernel, exMainLhef_ok multi _⟩ .nil)

theorem exMain_run (multi : Bool) : ∃ res fs', MainRun (exMain multi fun _ => none) [ascii "home"] (ascii "out")
    (exMainIns.map fun x => x.1 ++ x.2) exMainFS (some [[2], [6], [2]]) res fs' := by
  obtain ⟨h1, h2, h3⟩ := (exMain_inputs multi).files
  obtain ⟨s, fs1, x, h4, h5⟩ := exMain_reads multi (channelScales exMainTags) (by rw [h3]; exact exMain_files multi) h2
  exact ⟨_, _, .run h1 (.update h4 h5 (computesWeights_congr (p := (exSettings multi).program)
      (q := (exMain multi (channelScales exMainTags)).program) rfl rfl rfl rfl rfl (exProg_weights multi)))⟩

theorem exMain_writable (multi : Bool) : ∀ w ∈ ([[2], [6], [2]] : List (List ℚ)), ∀ x ∈ w, ∀ d ∈ [exProgHepmc, exProgLhef],
    Writable (exMain multi (channelScales exMainTags)).io d.kind x := by
  intro w hw x hx d hd
  have h2 : (exSettings multi).io.ctx.float.finite x = true := by
    simp only [List.mem_cons, List.not_mem_nil, or_false] at hw
    rcases hw with rfl | rfl | rfl <;> simp only [List.mem_cons, List.not_mem_nil, or_false] at hx <;> subst hx <;>
      cases multi <;> decide +kernel
  simp only [List.mem_cons, List.not_mem_nil, or_false] at hd
  rcases hd with rfl | rfl <;> exact ⟨h2, trivial⟩

/-- The hypotheses of the theorems above are met in this run: two files with events in different formats, one with a cross
section, with absolute and relative paths. -/
example (multi : Bool) : ∃ res fs', GoodChoices (exMain multi fun _ => none) ∧ (exMain multi fun _ => none).minWeight = 0 ∧
    GoodInputs (exMain multi fun _ => none).io [ascii "home"] (ascii "out") exMainIns exMainTags exMainFS ∧
    EventFiles (exMain multi (channelScales exMainTags)).io exMainFS
      ((eventInputs exMainIns exMainTags).map fun x => locate [ascii "home"] x.1 ++ [x.2]) [exProgHepmc, exProgLhef] ∧
    WeightsSupported (exMain multi (channelScales exMainTags)).io [exProgHepmc, exProgLhef] ∧
    MainRun (exMain multi fun _ => none) [ascii "home"] (ascii "out") (exMainIns.map fun x => x.1 ++ x.2) exMainFS
      (some [[2], [6], [2]]) res fs' ∧
    (∀ w ∈ ([[2], [6], [2]] : List (List ℚ)), ∀ x ∈ w, ∀ d ∈ [exProgHepmc, exProgLhef],
      Writable (exMain multi (channelScales exMainTags)).io d.kind x) := by
  obtain ⟨res, fs', h⟩ := exMain_run multi
  exact ⟨res, fs', ⟨(exSettings_good multi).search, (exSettings_good multi).seeds, (exSettings_good multi).rng⟩, rfl,
    exMain_inputs multi, exMain_files multi, .inl fun _ => rfl, h, exMain_writable multi⟩

/-! ## C75: the C interface -/

namespace CApi

variable {K V D : Type*}

/-- **C75**: a call of `cres_run` with distinct file names outside the output directory and with any distance function
returns 0 if the new weights can be written. For each input file with events there is a file with the same name in the output
directory, with the same events up to their weights, and the sum of weights is the same. Without `multiweight` the weights of
events that have no particles after clustering are missing in this sum. No other file is changed and the last error remains. -/
theorem C75_run [Zero D] [LinearOrder D] [DistNum D] [ExactComparison D] [Field K] [LinearOrder K] [IsStrictOrderedRing K] [LinearOrder V]
    {message : MainError → List UInt8} {o : Opt K V D} {dist : Event K V → Event K V → D}
    (hdist : o.customDistance = some dist ∨ o.customDistance = none ∧ o.builtinDistance = some dist)
    (hsearch : match o.search with
      | .naive minPos => IsMinOracle minPos
      | .tree psort sort _ _ => SortsByDistance psort ∧ SortsByDistance sort)
    (hseeds : SortsByKey o.sortSeeds) {cwd : List Bytes} {ins : List (Bytes × Bytes)}
    (hins : o.infiles = ins.map fun x => x.1 ++ x.2) {tags : List (Option (Stripper.XmlTag K))} {fs fs' : FS (List Bytes)}
    (hg : GoodInputs o.io cwd o.outdir ins tags fs) {io : IOConfig K V}
    (hio : io = { o.io with scaling := channelScales tags, ctx := { o.io.ctx with names := [] } }) {ds : List (EventFile K V)}
    (hin : EventFiles io fs ((eventInputs ins tags).map fun x => locate cwd x.1 ++ [x.2]) ds)
    {err err' : Option (List UInt8)} {ret : Int} {ws : List (Weights K)}
    (h : CRun message o cwd fs err (some ws) (err', ret) fs') (hw : ∀ w ∈ ws, ∀ x ∈ w, ∀ d ∈ ds, Writable io d.kind x) :
    ret = 0 ∧ err' = err ∧
    (∃ ds', EventFiles io fs' ((eventInputs ins tags).map fun x => locate cwd o.outdir ++ [x.2]) ds' ∧
      List.Forall₂ SameExceptWeights ds ds' ∧ centralSum (allEvents ds') =
        centralSum ((allEvents ds).filter fun ev => o.io.ctx.multi || HasParticles (o.settings dist).program ev)) ∧
    ∀ q, (∀ x ∈ eventInputs ins tags, q ≠ locate cwd o.outdir ++ [x.2]) → fs' q = fs q := by
  have hd : o.distance = some dist := by
    unfold Opt.distance
    rcases hdist with h | h
    · rw [h]
    · rw [h.1, h.2]
  generalize hws : some ws = ows at h
  generalize hr : (err', ret) = r at h
  cases h with
  | distance h => simp at hws
  | @run dist' ws' res fs' h1 h2 =>
    rw [hd] at h1
    simp only [Option.some.injEq] at h1
    subst h1 hws
    rw [hins] at h2
    have hc : GoodChoices (o.settings dist) := ⟨hsearch, hseeds, fun _ => ⟨le_rfl, Or.inl rfl⟩⟩
    have hg' : GoodInputs (o.settings dist).io cwd o.outdir ins tags fs := ⟨hg.paths, hg.dirs, hg.names, hg.content, hg.xml⟩
    obtain ⟨h3, h4, h5⟩ := C74_run hc rfl hg' hio hin (.inl fun _ => by rw [hio]) h2 hw
    subst h3
    simp only [RunResult.of, cresRun, Prod.mk.injEq] at hr
    obtain ⟨ds', h6, h7, h8⟩ := h4
    refine ⟨hr.2, hr.1, ⟨ds', h6, h7, ?_⟩, h5⟩
    have := h8 0
    unfold weightSumNo at this
    rwa [show (weightNo 0 : Event K V → K) = centralWeight from funext weightNo_zero] at this

/-- **C75**: in release builds every such call gets as far as updating the weights, and there is such a call. -/
theorem C75_completes [Zero D] [LinearOrder D] [DistNum D] [ExactComparison D] [Zero K] [One K] [Add K] [Mul K] [Div K] [Neg K] [NatCast K]
    [LinearOrder K] [LinearOrder V]
    {message : MainError → List UInt8} {o : Opt K V D} {dist : Event K V → Event K V → D}
    (hdist : o.customDistance = some dist ∨ o.customDistance = none ∧ o.builtinDistance = some dist)
    (hsearch : match o.search with
      | .naive minPos => IsMinOracle minPos
      | .tree psort sort _ _ => SortsByDistance psort ∧ SortsByDistance sort)
    (hseeds : SortsByKey o.sortSeeds) (hdebug : o.io.ctx.debug = false) {cwd : List Bytes} {ins : List (Bytes × Bytes)}
    (hins : o.infiles = ins.map fun x => x.1 ++ x.2) {tags : List (Option (Stripper.XmlTag K))} {fs : FS (List Bytes)}
    (hg : GoodInputs o.io cwd o.outdir ins tags fs) {io : IOConfig K V}
    (hio : io = { o.io with scaling := channelScales tags, ctx := { o.io.ctx with names := [] } }) {ds : List (EventFile K V)}
    (hin : EventFiles io fs ((eventInputs ins tags).map fun x => locate cwd x.1 ++ [x.2]) ds) (err : Option (List UInt8)) :
    (∀ ws r fs', CRun message o cwd fs err ws r fs' → ∃ ws', ws = some ws') ∧ ∃ ws r fs', CRun message o cwd fs err ws r fs' := by
  have hd : o.distance = some dist := by
    unfold Opt.distance
    rcases hdist with h | h
    · rw [h]
    · rw [h.1, h.2]
  have hc : GoodChoices (o.settings dist) := ⟨hsearch, hseeds, fun _ => ⟨le_rfl, Or.inl rfl⟩⟩
  have hg' : GoodInputs (o.settings dist).io cwd o.outdir ins tags fs := ⟨hg.paths, hg.dirs, hg.names, hg.content, hg.xml⟩
  obtain ⟨h1, ws, res, fs', h2⟩ := C74_completes hc rfl hdebug hg' hio hin (.inl fun _ => by rw [hio])
  rw [← hins] at h1 h2
  refine ⟨?_, _, _, _, .run hd h2⟩
  intro ws r fs' h
  cases h with
  | distance h => rw [hd] at h; simp at h
  | run g1 g2 =>
    rw [hd] at g1
    simp only [Option.some.injEq] at g1
    subst g1
    exact h1 _ _ _ g2

/-- **C75**: in any call the return value is 0, 1 or -1. If it is 0 the last error remains, otherwise there is a message. No
file is changed except those in the output directory with the name of an input file. -/
theorem C75_return [Zero D] [DistNum D] [Zero K] [One K] [Add K] [Mul K] [Div K] [Neg K] [NatCast K]
    [LinearOrder K] [LinearOrder V] {message : MainError → List UInt8}
    {o : Opt K V D} {cwd : List Bytes} {fs fs' : FS (List Bytes)} {err err' : Option (List UInt8)} {ret : Int}
    {ws : Option (List (Weights K))} (h : CRun message o cwd fs err ws (err', ret) fs') :
    (ret = 0 ∧ err' = err ∨ ret = 1 ∧ (∃ e, err' = some (message e)) ∨ ret = -1 ∧ err' = some (ascii "panic: Any { .. }")) ∧
    ∀ q, (∀ f ∈ o.infiles, ∀ n, fileName f = some n → q ≠ locate cwd o.outdir ++ [n]) → fs' q = fs q := by
  generalize hr : (err', ret) = r at h
  have hp : panicMsg = ascii "panic: Any { .. }" := by decide +kernel
  cases h with
  | distance h =>
    simp only [cresRun, Prod.mk.injEq] at hr
    exact ⟨Or.inr (Or.inr ⟨hr.2, by rw [hr.1, hp]⟩), fun _ _ => rfl⟩
  | @run dist' ws' res fs' h1 h2 =>
    refine ⟨?_, C72_files h2⟩
    cases res with
    | ok u =>
      simp only [RunResult.of, cresRun, Prod.mk.injEq] at hr
      exact Or.inl ⟨hr.2, hr.1⟩
    | err e =>
      simp only [RunResult.of, cresRun, Prod.mk.injEq] at hr
      exact Or.inr (Or.inl ⟨hr.2, e, hr.1⟩)
    | panic =>
      simp only [RunResult.of, cresRun, Prod.mk.injEq] at hr
      exact Or.inr (Or.inr ⟨hr.2, by rw [hr.1, hp]⟩)

/-- **C75**: a call of `cres_run` is a run of the command line program with the settings of the options, and the return value and
the last error tell how it ended. So everything that is proved about runs of the command line program, for example in **C76** to
**C92**, holds for the C interface as well. -/
theorem C75_same_as_main [Zero D] [DistNum D] [Zero K] [One K] [Add K] [Mul K] [Div K] [Neg K] [NatCast K]
    [LinearOrder K] [LinearOrder V] {message : MainError → List UInt8} {o : Opt K V D} {dist : Event K V → Event K V → D}
    (hdist : o.customDistance = some dist ∨ o.customDistance = none ∧ o.builtinDistance = some dist)
    {cwd : List Bytes} {fs fs' : FS (List Bytes)} {err err' : Option (List UInt8)} {ret : Int} {ws : Option (List (Weights K))} :
    CRun message o cwd fs err ws (err', ret) fs' ↔
      ∃ res, MainRun (o.settings dist) cwd o.outdir o.infiles fs ws res fs' ∧
        (res = .ok () ∧ ret = 0 ∧ err' = err ∨ (∃ e, res = .err e ∧ ret = 1 ∧ err' = some (message e)) ∨
          res = .panic ∧ ret = -1 ∧ err' = some (ascii "panic: Any { .. }")) := by
  have hd : o.distance = some dist := by
    unfold Opt.distance
    rcases hdist with h | h
    · rw [h]
    · rw [h.1, h.2]
  have hp : panicMsg = ascii "panic: Any { .. }" := by decide +kernel
  constructor
  · intro h
    generalize hr : (err', ret) = r at h
    cases h with
    | distance h => rw [hd] at h; simp at h
    | @run dist' ws' res fs' h1 h2 =>
      rw [hd] at h1
      simp only [Option.some.injEq] at h1
      subst h1
      refine ⟨res, h2, ?_⟩
      cases res with
      | ok u =>
        simp only [RunResult.of, cresRun, Prod.mk.injEq] at hr
        exact Or.inl ⟨rfl, hr.2, hr.1⟩
      | err e =>
        simp only [RunResult.of, cresRun, Prod.mk.injEq] at hr
        exact Or.inr (Or.inl ⟨e, rfl, hr.2, hr.1⟩)
      | panic =>
        simp only [RunResult.of, cresRun, Prod.mk.injEq] at hr
        exact Or.inr (Or.inr ⟨rfl, hr.2, by rw [hr.1, hp]⟩)
  · rintro ⟨res, h, h'⟩
    have := CRun.run (message := message) (lastError := err) hd h
    rcases h' with ⟨rfl, rfl, rfl⟩ | ⟨e, rfl, rfl, rfl⟩ | ⟨rfl, rfl, rfl⟩
    · exact this
    · exact this
    · rw [← hp]
      exact this

/-- Options for the example, with the built-in or another distance. -/
def exOpt (multi builtin : Bool) : Opt ℚ ℚ ℚ where
  infiles := exMainIns.map fun x => x.1 ++ x.2
  outdir := ascii "out"
  customDistance := if builtin then none else some (exSettings multi).distance
  builtinDistance := if builtin then some (exSettings multi).distance else none
  jets := id
  particles := exampleParticles
  search := .naive firstMin
  maxCellSize := 100
  io := (exMain multi fun _ => none).io
  sortSeeds := (exSettings multi).sortSeeds
  infoLog := true

/-- The hypotheses of `C75_run` are met in a call with two event files and a cross section. -/
example (multi builtin : Bool) (message : MainError → List UInt8) (err : Option (List UInt8)) : ∃ err' ret fs',
    ((exOpt multi builtin).customDistance = some (exSettings multi).distance ∨ (exOpt multi builtin).customDistance = none ∧
      (exOpt multi builtin).builtinDistance = some (exSettings multi).distance) ∧
    (exOpt multi builtin).infiles = exMainIns.map (fun x => x.1 ++ x.2) ∧
    GoodInputs (exOpt multi builtin).io [ascii "home"] (exOpt multi builtin).outdir exMainIns exMainTags exMainFS ∧
    (exMain multi (channelScales exMainTags)).io = { (exOpt multi builtin).io with
      scaling := channelScales exMainTags, ctx := { (exOpt multi builtin).io.ctx with names := [] } } ∧
    CRun message (exOpt multi builtin) [ascii "home"] exMainFS err (some [[2], [6], [2]]) (err', ret) fs' := by
  obtain ⟨res, fs', h⟩ := exMain_run multi
  have hd : (exOpt multi builtin).customDistance = some (exSettings multi).distance ∨
      (exOpt multi builtin).customDistance = none ∧
        (exOpt multi builtin).builtinDistance = some (exSettings multi).distance := by
    cases builtin
    · exact Or.inl rfl
    · exact Or.inr ⟨rfl, rfl⟩
  refine ⟨_, _, _, hd, rfl, exMain_inputs multi, rfl, .run (dist := (exSettings multi).distance) ?_ h⟩
  cases builtin <;> rfl

end CApi

end Cres

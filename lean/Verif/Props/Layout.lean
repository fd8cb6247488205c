import Verif.Proofs.Reorder
import Verif.Model.Distance
import Verif.Props.Main

/-!
# C88, C89: the distribution of events over files, and their order
-/

set_option linter.unusedSectionVars false

namespace Cres

open Spec CombinedIO Program Cres.Path

section
variable {K V D P P' : Type*} [Zero D] [LinearOrder D] [Zero K] [One K] [Add K] [Mul K] [Div K] [NatCast K] [LinearOrder K]
  [LinearOrder V] [DecidableEq P] [DecidableEq P']

/-- **C88**: any run with any components, also if it fails before weights are updated. If other files, possibly more or
fewer and in other formats, contain the same events in the same order there is a run with these files, with the same order of
events in memory, that ends with the same result or passes the same weights to the files. -/
theorem C88_same_weights {p q : Program K V D} (hpq : SameSettings p q) {fs fs1 : FS P} {files : List (P × P)}
    {ds : List (EventFile K V)} (hin : EventFiles p.io fs (files.map Prod.fst) ds) (hf : GoodFiles files)
    {fs' : FS P'} {files' : List (P' × P')} {ds' : List (EventFile K V)}
    (hin' : EventFiles q.io fs' (files'.map Prod.fst) ds') (hf' : GoodFiles files') (hsame : allEvents ds' = allEvents ds)
    {events : Option (List (Event K V))} {ws : Option (List (Weights K))} {res : Outcome (CresError IOError) Unit}
    (h : p.Run files fs events ws res fs1) :
    ∃ res' fs1', q.Run files' fs' events ws res' fs1' ∧ (ws = none → res' = res) := by
  obtain ⟨s, fs0, s', fs0', h1, h2, h3⟩ := reads_same hpq hin hf hin' hf' hsame
  have hcw : ∀ events o, p.ComputesWeights events o → q.ComputesWeights events o := fun events o ho =>
    computesWeights_congr (by simp [Program.cfg, hpq.ctx]) hpq.nearest.symm hpq.seeds.symm hpq.unweight.symm hpq.infoLog.symm ho
  have hs : ∀ {r : Outcome IOError Unit} {t fs2}, CombinedIO.new p.io files fs = (r, t, fs2) → r = .ok () ∧ t = s ∧ fs2 = fs0 := by
    intro r t fs2 hn
    rw [h1] at hn
    simp only [Prod.mk.injEq] at hn
    exact ⟨hn.1.symm, hn.2.1.symm, hn.2.2.symm⟩
  cases h with
  | createErr g => have := (hs g).1; simp at this
  | createPanic g => have := (hs g).1; simp at this
  | readErr g1 g2 =>
    obtain ⟨-, rfl, rfl⟩ := hs g1
    obtain ⟨x, hx⟩ := h3 _ _ g2
    exact ⟨_, _, .readErr h2 hx, fun _ => rfl⟩
  | readPanic g1 g2 =>
    obtain ⟨-, rfl, rfl⟩ := hs g1
    obtain ⟨x, hx⟩ := h3 _ _ g2
    exact ⟨_, _, .readPanic h2 hx, fun _ => rfl⟩
  | weightsErr g1 g2 g3 =>
    obtain ⟨-, rfl, rfl⟩ := hs g1
    obtain ⟨x, hx⟩ := h3 _ _ g2
    exact ⟨_, _, .weightsErr h2 hx (hcw _ _ g3), fun _ => rfl⟩
  | weightsPanic g1 g2 g3 =>
    obtain ⟨-, rfl, rfl⟩ := hs g1
    obtain ⟨x, hx⟩ := h3 _ _ g2
    exact ⟨_, _, .weightsPanic h2 hx (hcw _ _ g3), fun _ => rfl⟩
  | update g1 g2 g3 =>
    obtain ⟨-, rfl, rfl⟩ := hs g1
    obtain ⟨x, hx⟩ := h3 _ _ g2
    exact ⟨_, _, .update h2 hx (hcw _ _ g3), fun h => by simp at h⟩

end

section
variable {K V D : Type*} [Zero D] [LinearOrder D] [DistNum D] [ExactComparison D] [Zero K] [One K] [Add K] [Mul K] [Div K]
  [Neg K] [NatCast K] [LinearOrder K] [LinearOrder V]

/-- **C88** for the command line program: for other input files with the same events in the same order
there is a run with the same new weights. If these weights can be written to the files, both runs succeed and the events in
the output files are the same, in the same order. -/
theorem C88_main {s : CresSettings K V D} (hc : GoodChoices s)
    {cwd : List Bytes} {outdir : Bytes} {ins : List (Bytes × Bytes)} {tags : List (Option (Stripper.XmlTag K))}
    {fs fs1 : FS (List Bytes)} (hg : GoodInputs s.io cwd outdir ins tags fs)
    {io : IOConfig K V} (hio : io = { s.io with scaling := channelScales tags }) {ds : List (EventFile K V)}
    (hin : EventFiles io fs ((eventInputs ins tags).map fun x => locate cwd x.1 ++ [x.2]) ds) (hsup : WeightsSupported io ds)
    {cwd' : List Bytes} {outdir' : Bytes} {ins' : List (Bytes × Bytes)} {tags' : List (Option (Stripper.XmlTag K))}
    {fs' : FS (List Bytes)} (hg' : GoodInputs s.io cwd' outdir' ins' tags' fs')
    {io' : IOConfig K V} (hio' : io' = { s.io with scaling := channelScales tags' }) {ds' : List (EventFile K V)}
    (hin' : EventFiles io' fs' ((eventInputs ins' tags').map fun x => locate cwd' x.1 ++ [x.2]) ds') (hsup' : WeightsSupported io' ds')
    (hsame : allEvents ds' = allEvents ds) {ws : List (Weights K)} {res : Outcome MainError Unit}
    (h : MainRun s cwd outdir (ins.map fun x => x.1 ++ x.2) fs (some ws) res fs1)
    (hw : ∀ w ∈ ws, ∀ x ∈ w, ∀ d ∈ ds, Writable io d.kind x) (hw' : ∀ w ∈ ws, ∀ x ∈ w, ∀ d ∈ ds', Writable io' d.kind x) :
    res = .ok () ∧ ∃ fs1', MainRun s cwd' outdir' (ins'.map fun x => x.1 ++ x.2) fs' (some ws) (.ok ()) fs1' ∧
      ∃ out out', EventFiles io fs1 ((eventInputs ins tags).map fun x => locate cwd outdir ++ [x.2]) out ∧
        EventFiles io' fs1' ((eventInputs ins' tags').map fun x => locate cwd' outdir' ++ [x.2]) out' ∧
        List.Forall₂ SameExceptWeights ds out ∧ List.Forall₂ SameExceptWeights ds' out' ∧ allEvents out' = allEvents out := by
  obtain ⟨h1, h2, h3⟩ := hg.files
  obtain ⟨h1', h2', h3'⟩ := hg'.files
  generalize hws : some ws = ows at h
  cases h with
  | scalingErr _ | scalingPanic _ => simp at hws
  | @run files io'' events ws' res fs1 g1 g2 =>
    subst hws
    rw [h1] at g1
    simp only [Outcome.ok.injEq, Prod.mk.injEq] at g1
    obtain ⟨rfl, rfl⟩ := g1
    have hc1 : GoodChoices { s with io := { s.io with scaling := channelScales tags } } := ⟨hc.search, hc.seeds, hc.rng⟩
    have hc2 : GoodChoices { s with io := { s.io with scaling := channelScales tags' } } := ⟨hc.search, hc.seeds, hc.rng⟩
    subst hio hio'
    rw [← h3] at hin
    rw [← h3'] at hin'
    obtain ⟨res', fs1', g3, -⟩ := C88_same_weights (p := CresSettings.program { s with io := { s.io with scaling := channelScales tags } })
      (q := CresSettings.program { s with io := { s.io with scaling := channelScales tags' } }) ⟨rfl, rfl, rfl, rfl, rfl, rfl⟩ hin h2 hin' h2'
      hsame g2
    obtain ⟨rfl, -, out, k1, k2, k3⟩ := supported_can_write (cres_goodComponents hc1) (unweight_survivors _ _ _) hin h2 hsup g2 hw
    obtain ⟨rfl, -, out', l1, l2, l3⟩ := supported_can_write (cres_goodComponents hc2) (unweight_survivors _ _ _) hin' h2' hsup' g3 hw'
    rw [List.map_map] at k1 l1
    exact ⟨rfl, fs1', .run h1' g3, out, out', k1, l1, k2, l2, by rw [k3, l3, hsame]⟩

/-- **C89**: any run with any components that do not use the positions of events in the input. If the events in other
files are the same in another order, there is a run with these files in which the weights are the same for the same events.
In debug builds sums must not depend on the order. -/
theorem C89_same_weights {P P' : Type*} [DecidableEq P] [DecidableEq P'] {p q : Program K V D} (hpq : SameSettings p q)
    (hp : IdFree p) (hun : ScalesSurvivors p.unweight) (hsum : p.io.ctx.debug = true → SumsCommute K)
    {fs fs1 : FS P} {files : List (P × P)}
    {ds : List (EventFile K V)} (hin : EventFiles p.io fs (files.map Prod.fst) ds) (hf : GoodFiles files)
    {fs' : FS P'} {files' : List (P' × P')} {ds' : List (EventFile K V)}
    (hin' : EventFiles q.io fs' (files'.map Prod.fst) ds') (hf' : GoodFiles files') (hsame : (allEvents ds').Perm (allEvents ds))
    {events : Option (List (Event K V))} {ws : List (Weights K)} {res : Outcome (CresError IOError) Unit}
    (h : p.Run files fs events (some ws) res fs1) :
    ∃ events' ws' res' fs1', q.Run files' fs' events' (some ws') res' fs1' ∧ (ws'.zip (allEvents ds')).Perm (ws.zip (allEvents ds)) := by
  obtain ⟨τ, t1, t2, t3⟩ := perm_positions hsame.symm
  obtain ⟨s, fs0, s', fs0', h1, h2, h3⟩ := reads_reordered hpq hin hf hin' hf' hsame.length_eq t1 t2 t3
  generalize hws : some ws = ows at h
  cases h with
  | createErr _ | createPanic _ | readErr _ _ | readPanic _ _ | weightsErr _ _ _ | weightsPanic _ _ _ => simp at hws
  | @update s1 fs2 events ws' x g1 g2 g3 =>
    simp only [Option.some.injEq] at hws
    subst hws
    rw [h1] at g1
    simp only [Prod.mk.injEq, true_and] at g1
    obtain ⟨rfl, rfl⟩ := g1
    obtain ⟨k1, k2, x', k3⟩ := h3 _ _ g2
    rw [← k2] at t1 t2 t3
    obtain ⟨ws', l1, l2, l3, l4⟩ := computes_reid hp hun hsum k1 t1 t2 g3
    have l5 := computesWeights_congr (q := q) (by simp [Program.cfg, hpq.ctx]) hpq.nearest.symm hpq.seeds.symm hpq.unweight.symm
      hpq.infoLog.symm l1
    refine ⟨_, ws', _, _, .update h2 k3 l5, ?_⟩
    rw [← l2] at t1 t2 t3 l4
    exact zipWith_perm Prod.mk (by omega) (by omega) hsame.length_eq t1 t2 l4 t3

/-- **C89** for the command line program: for other input files with the same events in another order there is a run such that
the events in the output files are the same, with the same weights, up to their order. -/
theorem C89_main {s : CresSettings K V D} (hc : GoodChoices s) (hd : IgnoresIds s.distance)
    (hsum : s.io.ctx.debug = true → SumsCommute K)
    {cwd : List Bytes} {outdir : Bytes} {ins : List (Bytes × Bytes)} {tags : List (Option (Stripper.XmlTag K))}
    {fs fs1 : FS (List Bytes)} (hg : GoodInputs s.io cwd outdir ins tags fs)
    {io : IOConfig K V} (hio : io = { s.io with scaling := channelScales tags }) {ds : List (EventFile K V)}
    (hin : EventFiles io fs ((eventInputs ins tags).map fun x => locate cwd x.1 ++ [x.2]) ds) (hsup : WeightsSupported io ds)
    {cwd' : List Bytes} {outdir' : Bytes} {ins' : List (Bytes × Bytes)} {tags' : List (Option (Stripper.XmlTag K))}
    {fs' : FS (List Bytes)} (hg' : GoodInputs s.io cwd' outdir' ins' tags' fs')
    {io' : IOConfig K V} (hio' : io' = { s.io with scaling := channelScales tags' }) {ds' : List (EventFile K V)}
    (hin' : EventFiles io' fs' ((eventInputs ins' tags').map fun x => locate cwd' x.1 ++ [x.2]) ds') (hsup' : WeightsSupported io' ds')
    (hsame : (allEvents ds').Perm (allEvents ds)) {ws : List (Weights K)} {res : Outcome MainError Unit}
    (h : MainRun s cwd outdir (ins.map fun x => x.1 ++ x.2) fs (some ws) res fs1)
    (hw : ∀ w ∈ ws, ∀ x ∈ w, ∀ d ∈ ds, Writable io d.kind x) (hw' : ∀ w ∈ ws, ∀ x ∈ w, ∀ d ∈ ds', Writable io' d.kind x) :
    res = .ok () ∧ ∃ ws' fs1', MainRun s cwd' outdir' (ins'.map fun x => x.1 ++ x.2) fs' (some ws') (.ok ()) fs1' ∧
      ∃ out out', EventFiles io fs1 ((eventInputs ins tags).map fun x => locate cwd outdir ++ [x.2]) out ∧
        EventFiles io' fs1' ((eventInputs ins' tags').map fun x => locate cwd' outdir' ++ [x.2]) out' ∧
        List.Forall₂ SameExceptWeights ds out ∧ List.Forall₂ SameExceptWeights ds' out' ∧
        (allEvents out').Perm (allEvents out) := by
  obtain ⟨h1, h2, h3⟩ := hg.files
  obtain ⟨h1', h2', h3'⟩ := hg'.files
  generalize hws : some ws = ows at h
  cases h with
  | scalingErr _ | scalingPanic _ => simp at hws
  | @run files io'' events ws' res fs1 g1 g2 =>
    subst hws
    rw [h1] at g1
    simp only [Outcome.ok.injEq, Prod.mk.injEq] at g1
    obtain ⟨rfl, rfl⟩ := g1
    have hc1 : GoodChoices { s with io := { s.io with scaling := channelScales tags } } := ⟨hc.search, hc.seeds, hc.rng⟩
    have hc2 : GoodChoices { s with io := { s.io with scaling := channelScales tags' } } := ⟨hc.search, hc.seeds, hc.rng⟩
    subst hio hio'
    rw [← h3] at hin
    rw [← h3'] at hin'
    obtain ⟨events', ws', res', fs1', g3, g4⟩ := C89_same_weights (p := CresSettings.program { s with io := { s.io with scaling := channelScales tags } })
      (q := CresSettings.program { s with io := { s.io with scaling := channelScales tags' } }) ⟨rfl, rfl, rfl, rfl, rfl, rfl⟩
      (cres_idFree hd) (unweight_survivors _ _ _) hsum hin h2 hin' h2' hsame g2
    obtain ⟨rfl, k0, out, k1, k2, k3⟩ := supported_can_write (cres_goodComponents hc1) (unweight_survivors _ _ _) hin h2 hsup g2 hw
    have hlen' : ws'.length = (allEvents ds').length := by
      obtain ⟨m, hm0, hm1, hm, -⟩ := supported_weights (p := CresSettings.program { s with io := { s.io with scaling := channelScales tags' } }) hin' hsup'
      exact (run_files_stored hm hin' h2' g3).2.1
    have hsub : ∀ w ∈ ws', w ∈ ws := by
      have g5 := g4.map Prod.fst
      rw [List.map_fst_zip hlen'.le, List.map_fst_zip k0.le] at g5
      exact fun w hw => g5.mem_iff.1 hw
    obtain ⟨rfl, -, out', l1, l2, l3⟩ := supported_can_write (cres_goodComponents hc2) (unweight_survivors _ _ _) hin' h2' hsup' g3
      fun w hwm => hw' w (hsub w hwm)
    rw [List.map_map] at k1 l1
    refine ⟨rfl, ws', fs1', .run h1' g3, out, out', k1, l1, k2, l2, ?_⟩
    rw [k3, l3, ← List.map_uncurry_zip_eq_zipWith, ← List.map_uncurry_zip_eq_zipWith]
    exact g4.map _

end

/-- **C89**: the distance of the command line program does not depend on positions. -/
theorem C89_default_distance {W : Type*} (km : SquareMatrix ℝ → ℝ) (ptWeight : ℝ) :
    IgnoresIds (euclDistance km ptWeight : Event W FourVector → Event W FourVector → ℝ) := fun _ _ _ _ => rfl

/-- **C89**: in exact arithmetic sums do not depend on the order. -/
theorem C89_exact_sums {K : Type*} [Field K] : SumsCommute K := fun _ _ h => h.sum_eq

/-- **C29**: if all items can be read, every order of the events is possible. -/
theorem C29_any_order {E R K V : Type*} {convert : R → Outcome E (Event K V)} {cluster : Event K V → Outcome E (Event K V)}
    {records : List R} {events : List (Event K V)} (hids : (events.map Event.id).Perm (List.range records.length))
    (hev : ∀ ev ∈ events, ∃ r, records[ev.id]? = some r ∧ ReadsAs convert cluster ev.id (.ok r) ev) :
    ∃ s, ReadReachable convert cluster (fun _ => false) (records.map .ok) s ∧ s.Finished ∧ s.result = .ok events := by
  refine read_any_order (fun _ _ => rfl) hids fun ev h => ?_
  obtain ⟨r, h1, r', ev0, ev1, h2, h3, h4, h5, h6⟩ := hev ev h
  cases h2
  refine ⟨r, h1, ?_⟩
  unfold convertRecord
  rw [h6]
  simp [Outcome.mapErr, Outcome.bind, h3, h4, h5]

/-! ### example -/

/-- A file with the first event of the example for C69. -/
def exLayoutA : EventFile ℚ ℚ :=
  ⟨⟨.hepmc2, ascii "H\n", [ascii "E 1 2 3 4 5 6 7 8 9 0 0 1 -2\nP 1 21 0 0 0 7 0 1 0 0 0\n"]⟩, [⟨0, [-2], [(21, [7])]⟩]⟩

/-- A file with the other events. One of them was in a Les Houches file. -/
def exLayoutB : EventFile ℚ ℚ :=
  ⟨⟨.hepmc2, ascii "H\n", [ascii "E 1 2 3 4 5 6 7 8 9 0 0 1 6\nP 1 21 0 0 0 9 0 1 0 0 0\n",
    ascii "E 1 2 3 4 5 6 7 8 9 0 0 1 6\nP 1 21 0 0 0 8 0 1 0 0 0\n"]⟩,
   [⟨0, [6], [(21, [9])]⟩, ⟨0, [6], [(21, [8])]⟩]⟩

theorem exLayoutA_ok (multi : Bool) :
    IsEventFile (exSettings multi).io (exLayoutA.header ++ exLayoutA.records.flatten) exLayoutA := by
  refine ⟨⟨by decide +kernel, ?_, ⟨rfl, by simp [exLayoutA], by decide +kernel, ?_, ?_, ?_, ?_⟩, ?_⟩, ?_⟩
  · exact fun rest => detectFormat_append _ (b := 72) (h := [10]) (by decide) (Or.inr (by decide)) rest
  · unfold Contains; decide +kernel
  · decide +kernel
  · unfold Contains; decide +kernel
  · decide +kernel
  · decide +kernel
  · refine .cons ?_ .nil
    show HepMC.parse _ _ = _
    cases multi <;> decide +kernel

theorem exLayoutB_ok (multi : Bool) :
    IsEventFile (exSettings multi).io (exLayoutB.header ++ exLayoutB.records.flatten) exLayoutB := by
  refine ⟨⟨by decide +kernel, ?_, ⟨rfl, by simp [exLayoutB], by decide +kernel, ?_, ?_, ?_, ?_⟩, ?_⟩, ?_⟩
  · exact fun rest => detectFormat_append _ (b := 72) (h := [10]) (by decide) (Or.inr (by decide)) rest
  · unfold Contains; decide +kernel
  · decide +kernel
  · unfold Contains; decide +kernel
  · decide +kernel
  · decide +kernel
  · refine .cons ?_ (.cons ?_ .nil)
    · show HepMC.parse _ _ = _
      cases multi <;> decide +kernel
    · show HepMC.parse _ _ = _
      cases multi <;> decide +kernel

/-- The other input files. -/
def exLayoutIns : List (Bytes × Bytes) := [(ascii "/data/", ascii "a"), (ascii "/data/", ascii "b")]

def exLayoutFS : FS (List Bytes) := fun p =>
  if p = [ascii "data", ascii "a"] then some (exLayoutA.header ++ exLayoutA.records.flatten)
  else if p = [ascii "data", ascii "b"] then some (exLayoutB.header ++ exLayoutB.records.flatten)
  else none

theorem exLayout_inputs (multi : Bool) :
    GoodInputs (exMain multi fun _ => none).io [] (ascii "/out") exLayoutIns [none, none] exLayoutFS := by
  refine ⟨?_, ?_, by decide +kernel, .cons ⟨_, rfl, ?_⟩ (.cons ⟨_, rfl, ?_⟩ .nil), Or.inl rfl⟩
  · unfold IsFilePath IsName
    decide +kernel
  · decide +kernel
  · show ¬ _
    cases multi <;> decide +kernel
  · show ¬ _
    cases multi <;> decide +kernel

theorem exLayout_files (multi : Bool) : EventFiles (exMain multi (channelScales [none, none])).io exLayoutFS
    ((eventInputs exLayoutIns ([none, none] : List (Option (Stripper.XmlTag ℚ)))).map fun x => locate [] x.1 ++ [x.2]) [exLayoutA, exLayoutB] := by
  rw [show eventInputs exLayoutIns ([none, none] : List (Option (Stripper.XmlTag ℚ))) = exLayoutIns by decide +kernel]
  exact .cons ⟨_, by decide +kernel, exLayoutA_ok multi⟩ (.cons ⟨_, by decide +kernel, exLayoutB_ok multi⟩ .nil)

/-- The hypotheses of `C88_main` and `C89_main` are met for the run in the example for C74, with a HepMC2 and a Les Houches file, and two
HepMC2 files with the same events. -/
example (multi : Bool) : ∃ res fs', GoodChoices (exMain multi fun _ => none) ∧ IgnoresIds (exMain multi fun _ => none).distance ∧
    GoodInputs (exMain multi fun _ => none).io [ascii "home"] (ascii "out") exMainIns exMainTags exMainFS ∧
    EventFiles (exMain multi (channelScales exMainTags)).io exMainFS
      ((eventInputs exMainIns exMainTags).map fun x => locate [ascii "home"] x.1 ++ [x.2]) [exProgHepmc, exProgLhef] ∧
    WeightsSupported (exMain multi (channelScales exMainTags)).io [exProgHepmc, exProgLhef] ∧
    GoodInputs (exMain multi fun _ => none).io [] (ascii "/out") exLayoutIns [none, none] exLayoutFS ∧
    EventFiles (exMain multi (channelScales [none, none])).io exLayoutFS
      ((eventInputs exLayoutIns ([none, none] : List (Option (Stripper.XmlTag ℚ)))).map fun x => locate [] x.1 ++ [x.2]) [exLayoutA, exLayoutB] ∧
    WeightsSupported (exMain multi (channelScales [none, none])).io [exLayoutA, exLayoutB] ∧
    allEvents [exLayoutA, exLayoutB] = allEvents [exProgHepmc, exProgLhef] ∧
    MainRun (exMain multi fun _ => none) [ascii "home"] (ascii "out") (exMainIns.map fun x => x.1 ++ x.2) exMainFS
      (some [[2], [6], [2]]) res fs' ∧
    (∀ w ∈ ([[2], [6], [2]] : List (List ℚ)), ∀ x ∈ w, ∀ d ∈ [exProgHepmc, exProgLhef],
      Writable (exMain multi (channelScales exMainTags)).io d.kind x) ∧
    (∀ w ∈ ([[2], [6], [2]] : List (List ℚ)), ∀ x ∈ w, ∀ d ∈ [exLayoutA, exLayoutB],
      Writable (exMain multi (channelScales [none, none])).io d.kind x) := by
  obtain ⟨res, fs', h⟩ := exMain_run multi
  refine ⟨res, fs', ⟨(exSettings_good multi).search, (exSettings_good multi).seeds, (exSettings_good multi).rng⟩, fun _ _ _ _ => rfl,
    exMain_inputs multi, exMain_files multi, .inl fun _ => rfl, exLayout_inputs multi, exLayout_files multi, .inl fun _ => rfl, rfl, h,
    exMain_writable multi, ?_⟩
  intro w hw x hx d hd
  have := exMain_writable multi w hw x hx exProgHepmc (by simp)
  simp only [List.mem_cons, List.not_mem_nil, or_false] at hd
  rcases hd with rfl | rfl <;> exact this

/-- The files can also be given in another order; then the events are in another order. -/
example : (allEvents [exLayoutB, exLayoutA]).Perm (allEvents [exProgHepmc, exProgLhef]) ∧
    allEvents [exLayoutB, exLayoutA] ≠ allEvents [exProgHepmc, exProgLhef] := by
  constructor
  · decide +kernel
  · decide +kernel

theorem exReorder_inputs (multi : Bool) :
    GoodInputs (exMain multi fun _ => none).io [] (ascii "/out") exLayoutIns.reverse [none, none] exLayoutFS := by
  refine ⟨?_, ?_, by decide +kernel, .cons ⟨_, rfl, ?_⟩ (.cons ⟨_, rfl, ?_⟩ .nil), Or.inl rfl⟩
  · unfold IsFilePath IsName
    decide +kernel
  · decide +kernel
  · show ¬ _
    cases multi <;> decide +kernel
  · show ¬ _
    cases multi <;> decide +kernel

theorem exReorder_files (multi : Bool) : EventFiles (exMain multi (channelScales [none, none])).io exLayoutFS
    ((eventInputs exLayoutIns.reverse ([none, none] : List (Option (Stripper.XmlTag ℚ)))).map fun x => locate [] x.1 ++ [x.2])
      [exLayoutB, exLayoutA] := by
  rw [show eventInputs exLayoutIns.reverse ([none, none] : List (Option (Stripper.XmlTag ℚ))) = exLayoutIns.reverse by decide +kernel]
  exact .cons ⟨_, by decide +kernel, exLayoutB_ok multi⟩ (.cons ⟨_, by decide +kernel, exLayoutA_ok multi⟩ .nil)

/-- There is a run with the files in this order that leads to the same events. -/
example (multi : Bool) : ∃ ws' fs1' out', MainRun (exMain multi fun _ => none) [] (ascii "/out")
      (exLayoutIns.reverse.map fun x => x.1 ++ x.2) exLayoutFS (some ws') (.ok ()) fs1' ∧
    EventFiles (exMain multi (channelScales [none, none])).io fs1'
      ((eventInputs exLayoutIns.reverse ([none, none] : List (Option (Stripper.XmlTag ℚ)))).map fun x => locate [] (ascii "/out") ++ [x.2]) out' ∧
    ∃ fs1 out, MainRun (exMain multi fun _ => none) [ascii "home"] (ascii "out") (exMainIns.map fun x => x.1 ++ x.2) exMainFS
      (some [[2], [6], [2]]) (.ok ()) fs1 ∧ (allEvents out').Perm (allEvents out) := by
  obtain ⟨res, fs1, h⟩ := exMain_run multi
  obtain ⟨rfl, ws', fs1', h1, out, out', h2, h3, h4, h5, h6⟩ := C89_main (s := exMain multi fun _ => none)
    (ds' := [exLayoutB, exLayoutA]) ⟨(exSettings_good multi).search, (exSettings_good multi).seeds, (exSettings_good multi).rng⟩ (fun _ _ _ _ => rfl)
    (fun _ => C89_exact_sums) (exMain_inputs multi) rfl (exMain_files multi) (.inl fun _ => rfl) (exReorder_inputs multi) rfl
    (exReorder_files multi) (.inl fun _ => rfl) (by decide +kernel) h (exMain_writable multi) (by
      intro w hw x hx d hd
      have := exMain_writable multi w hw x hx exProgHepmc (by simp)
      simp only [List.mem_cons, List.not_mem_nil, or_false] at hd
      rcases hd with rfl | rfl <;> exact this)
  exact ⟨ws', fs1', out', h1, h3, fs1, out, h, h6⟩

end Cres

import Verif.Proofs.Unweighted

/-!
Property C93: complete runs with unweighting.
-/

set_option linter.unusedSectionVars false

namespace Cres

open Spec CombinedIO Program Cres.Path

variable {K V D : Type*} [Zero D] [LinearOrder D] [DistNum D] [ExactComparison D] [Field K] [LinearOrder K] [IsStrictOrderedRing K]
  [LinearOrder V]

/-- **C93**: for each run with a minimum weight, as far as weights are passed to the output files, there is a run with the same
input and the same settings but without minimum weight, and the weights are those of that run after unweighting, with the same
common factor for all events and all their weights. The sum of central weights is the same, or all events are discarded. -/
theorem C93_same_resampling {s : CresSettings K V D} (hc : GoodChoices s) (h0 : 0 < s.minWeight) {cwd : List Bytes} {outdir : Bytes}
    {ins : List (Bytes × Bytes)} {tags : List (Option (Stripper.XmlTag K))} {fs fs' : FS (List Bytes)}
    (hg : GoodInputs s.io cwd outdir ins tags fs) {io : IOConfig K V} (hio : io = { s.io with scaling := channelScales tags })
    {ds : List (EventFile K V)}
    (hin : EventFiles io fs ((eventInputs ins tags).map fun x => locate cwd x.1 ++ [x.2]) ds) (hsup : WeightsSupported io ds)
    {ws : List (Weights K)} {res : Outcome MainError Unit}
    (h : MainRun s cwd outdir (ins.map fun x => x.1 ++ x.2) fs (some ws) res fs') :
    ∃ rs res₀ fs₀ c, MainRun { s with minWeight := 0 } cwd outdir (ins.map fun x => x.1 ++ x.2) fs (some rs) res₀ fs₀ ∧
      List.Forall₂ (Unweighted (if s.io.ctx.multi then [] else [0]) s.minWeight c) rs ws ∧
      (centralTotal ws = centralTotal rs ∨ ∀ w ∈ ws, w = if s.io.ctx.multi then [] else [0]) ∧
      ((∀ r ∈ rs, 0 ≤ r.headD 0) → 0 ≤ c) := by
  obtain ⟨h1, h2, h3⟩ := hg.files
  generalize hws : some ws = ows at h
  cases h with
  | scalingErr _ | scalingPanic _ => simp at hws
  | @run files io' events ws' res fs' g1 g2 =>
    subst hws
    rw [h1] at g1
    simp only [Outcome.ok.injEq, Prod.mk.injEq] at g1
    obtain ⟨rfl, rfl⟩ := g1
    have hc' : GoodChoices { s with io := { s.io with scaling := channelScales tags } } := ⟨hc.search, hc.seeds, hc.rng⟩
    subst hio
    have hin' := hin
    rw [← h3] at hin'
    obtain ⟨m, hm0, hm1, hm, -⟩ := supported_weights (p := { s with io := { s.io with scaling := channelScales tags } }.program) hin' hsup
    obtain ⟨evs, he, hr, hcw⟩ := run_events_all hm hin' h2 g2
    obtain ⟨rs, c, k1, k2, k3, k4⟩ := computesWeights_unweighted hc' h0 hm0 hm1 hr hcw
    have hdef : defaultWeights (K := K) { s with io := { s.io with scaling := channelScales tags } }.program.cfg =
        if s.io.ctx.multi then [] else [0] := rfl
    rw [hdef] at k2 k3
    subst he
    obtain ⟨res₀, fs₀, hrun⟩ := run_other_weights
      (p := { s with io := { s.io with scaling := channelScales tags } }.program)
      (q := { s with io := { s.io with scaling := channelScales tags }, minWeight := 0 }.program) rfl rfl g2 k1
    exact ⟨rs, _, fs₀, c, .run (s := { s with minWeight := 0 }) h1 hrun, k2, k3, k4⟩

theorem unweighted_central {default : List K} (hd : default.headD 0 = 0) {minWt c : K} (hm : 0 < minWt) {r w : List K}
    (h : Unweighted default minWt c r w) :
    (w.headD 0 = 0 ∨ minWt * |c| ≤ |w.headD 0|) ∧ (0 ≤ r.headD 0 → 0 ≤ c → 0 ≤ w.headD 0) := by
  cases h with
  | discarded h => exact ⟨Or.inl hd, fun _ _ => hd.ge⟩
  | kept h =>
    have hw : (r.map (· * survivorFactor minWt c |r.headD 0|)).headD 0 = r.headD 0 * survivorFactor minWt c |r.headD 0| := by
      generalize survivorFactor minWt c |r.headD 0| = f
      cases r with
      | nil => simp
      | cons a l => rfl
    have hp := abs_pos.2 h
    rw [hw]
    refine ⟨Or.inr ?_, fun h1 h2 => mul_nonneg h1 ?_⟩
    · unfold survivorFactor
      rw [abs_mul]
      split_ifs with hlt
      · rw [abs_mul, abs_div, abs_abs, abs_of_pos hm]
        apply le_of_eq
        field_simp
      · exact mul_le_mul_of_nonneg_right (not_lt.1 hlt) (abs_nonneg _)
    · unfold survivorFactor
      split_ifs
      · exact mul_nonneg (div_nonneg hm.le (abs_nonneg _)) h2
      · exact h2

theorem forall₂_zip_reweighted {R : List K → List K → Prop} {rs ws : List (List K)} {evs : List (Event K V)} (hw : ∀ w ∈ ws, w ≠ [])
    (hl : ws.length = evs.length) (h : List.Forall₂ R rs ws) :
    List.Forall₂ (fun r ev => R r ev.weights) rs (List.zipWith reweighted ws evs) := by
  induction h generalizing evs with
  | nil => exact .nil
  | @cons r w rs ws h1 _ ih =>
    cases evs with
    | nil => simp at hl
    | cons e evs =>
      refine .cons ?_ (ih (fun x hx => hw x (List.mem_cons_of_mem _ hx)) (by simpa using hl))
      rw [reweighted, if_neg (hw w List.mem_cons_self)]
      exact h1

/-- **C93** without `multiweight`, for the output files: if the new weights can be written the run succeeds, and each event in the
output has the weight from a run without minimum weight after unweighting. The sum of weights is the one of events with particles in the
input, or all weights in the output vanish. The other weights have at least the size of the minimum weight times the common factor. If the
run without minimum weight has no negative weights there are no negative weights in the output. -/
theorem C93_output {s : CresSettings K V D} (hc : GoodChoices s) (h0 : 0 < s.minWeight) (hmulti : s.io.ctx.multi = false)
    {cwd : List Bytes} {outdir : Bytes}
    {ins : List (Bytes × Bytes)} {tags : List (Option (Stripper.XmlTag K))} {fs fs' : FS (List Bytes)}
    (hg : GoodInputs s.io cwd outdir ins tags fs) {io : IOConfig K V} (hio : io = { s.io with scaling := channelScales tags })
    {ds : List (EventFile K V)}
    (hin : EventFiles io fs ((eventInputs ins tags).map fun x => locate cwd x.1 ++ [x.2]) ds)
    {ws : List (Weights K)} {res : Outcome MainError Unit}
    (h : MainRun s cwd outdir (ins.map fun x => x.1 ++ x.2) fs (some ws) res fs')
    (hw : ∀ w ∈ ws, ∀ x ∈ w, ∀ d ∈ ds, Writable io d.kind x) :
    res = .ok () ∧
    (∃ ds', EventFiles io fs' ((eventInputs ins tags).map fun x => locate cwd outdir ++ [x.2]) ds' ∧
      List.Forall₂ SameExceptWeights ds ds' ∧
      (centralSum (allEvents ds') = centralSum ((allEvents ds).filter fun ev => HasParticles s.program ev) ∨
        ∀ ev ∈ allEvents ds', centralWeight ev = 0) ∧
      ∃ rs res₀ fs₀ c, MainRun { s with minWeight := 0 } cwd outdir (ins.map fun x => x.1 ++ x.2) fs (some rs) res₀ fs₀ ∧
        List.Forall₂ (fun r ev => Unweighted [0] s.minWeight c r ev.weights) rs (allEvents ds') ∧
        (∀ ev ∈ allEvents ds', centralWeight ev = 0 ∨ s.minWeight * |c| ≤ |centralWeight ev|) ∧
        ((∀ r ∈ rs, 0 ≤ r.headD 0) → ∀ ev ∈ allEvents ds', 0 ≤ centralWeight ev)) ∧
    ∀ q, (∀ x ∈ eventInputs ins tags, q ≠ locate cwd outdir ++ [x.2]) → fs' q = fs q := by
  have hsup : WeightsSupported io ds := .inl fun h => by
    rw [hio] at h
    rw [show s.io.ctx.multi = true from h] at hmulti
    cases hmulti
  obtain ⟨rs, res₀, fs₀, c, hr, hf, hsum, hpos⟩ := C93_same_resampling hc h0 hg hio hin hsup h
  rw [if_neg (by rw [hmulti]; decide)] at hf hsum
  obtain ⟨h1, h2, h3⟩ := hg.files
  have hin' := hin
  rw [hio, ← h3] at hin'
  have hw' := hw
  rw [hio] at hw'
  generalize hws : some ws = ows at h
  cases h with
  | scalingErr _ | scalingPanic _ => simp at hws
  | @run files io' events ws' res fs' g1 g2 =>
    subst hws
    rw [h1] at g1
    simp only [Outcome.ok.injEq, Prod.mk.injEq] at g1
    obtain ⟨rfl, rfl⟩ := g1
    have hc' : GoodChoices { s with io := { s.io with scaling := channelScales tags } } := ⟨hc.search, hc.seeds, hc.rng⟩
    obtain ⟨k1, k2, ds', k3, k4, k5⟩ := supported_can_write (cres_goodComponents hc') (unweight_survivors _ _ _) hin' h2
      (by rw [← hio]; exact hsup) g2 hw'
    have hlen : ∀ w ∈ ws, w ≠ [] := by
      intro w hwm hn
      subst hn
      obtain ⟨r, -, hu⟩ := forall₂_mem hf hwm
      generalize hz : ([] : List K) = z at hu
      cases hu with
      | kept h => exact h (by rw [List.map_eq_nil_iff.1 hz.symm]; rfl)
    have hf' : List.Forall₂ (fun r ev => Unweighted [0] s.minWeight c r ev.weights) rs (allEvents ds') := by
      rw [k5]
      exact forall₂_zip_reweighted hlen k2 hf
    obtain ⟨-, ds'', l1, -, l2⟩ := C69_unweight_partial hc' h0.le hmulti hin' h2 g2 hw'
    have := eventFiles_unique k3 l1
    subst this
    refine ⟨by rw [k1]; rfl, ⟨ds', ?_, k4, l2, rs, res₀, fs₀, c, hr, hf', ?_, ?_⟩, fun q hq => programRun_other g2 q ?_⟩
    · rw [List.map_map] at k3
      rw [hio]
      exact k3
    · intro ev hev
      obtain ⟨r, -, hu⟩ := forall₂_mem hf' hev
      exact (unweighted_central rfl h0 hu).1
    · intro hrp ev hev
      obtain ⟨r, hrm, hu⟩ := forall₂_mem hf' hev
      exact (unweighted_central rfl h0 hu).2 (hrp r hrm) (hpos hrp)
    · simp only [List.map_map, List.mem_map, Function.comp_apply, not_exists, not_and]
      exact fun x hx he => hq x hx he.symm

/-! ### example -/

/-- The settings of the example for C74 with a minimum weight. -/
def exUnweight (multi : Bool) (sc : Bytes → Option ℚ) : CresSettings ℚ ℚ ℚ :=
  { exMain multi sc with
    minWeight := 4
    rng := fun i => if i = 0 then 3 else 1 }

theorem exUnweight_good (multi : Bool) : GoodChoices (exUnweight multi fun _ => none) := by
  refine ⟨(exSettings_good multi).search, (exSettings_good multi).seeds, fun i => ?_⟩
  show (0 : ℚ) ≤ (if i = 0 then 3 else 1) ∧ ((4 : ℚ) = 0 ∨ (if i = 0 then (3 : ℚ) else 1) < 4)
  split_ifs <;> norm_num

theorem exUnweight_weights (multi : Bool) (sc : Bytes → Option ℚ) :
    (exUnweight multi sc).program.ComputesWeights exProgEvents (.ok [[4], [6], if multi then [] else [0]]) := by
  have hres : (exUnweight multi sc).program.Resamples (exProgEvents.filter fun e => !e.outgoingByPid.isEmpty)
      (.ok [⟨1, [6], [(81, [9])]⟩, ⟨2, [2], [(81, [8])]⟩, ⟨0, [2], [(81, [7])]⟩]) := by
    generalize ho : (Outcome.ok _ : Outcome IOError (List (Event ℚ ℚ))) = o
    have h := exProg_resamples multi
    rw [ho] at h
    cases h with
    | log _ | task _ _ _ => cases ho
    | ok g1 g2 => exact .ok g1 g2
  have := ComputesWeights.mk hres
  have hrun : runWeights (exUnweight multi sc).program.cfg (exUnweight multi sc).program.infoLog
      (fun _ => (.ok [⟨1, [6], [(81, [9])]⟩, ⟨2, [2], [(81, [8])]⟩, ⟨0, [2], [(81, [7])]⟩] : Outcome IOError (List (Event ℚ ℚ))))
      (exUnweight multi sc).program.unweight exProgEvents = .ok [[4], [6], if multi then [] else [0]] := by
    show runWeights (exSettings multi).program.cfg true _ (unweightStep false 4 fun i => if i = 0 then 3 else 1) exProgEvents = _
    cases multi <;> decide +kernel
  rw [hrun] at this
  exact this

theorem exUnweight_run (multi : Bool) : ∃ res fs', MainRun (exUnweight multi fun _ => none) [ascii "home"] (ascii "out")
    (exMainIns.map fun x => x.1 ++ x.2) exMainFS (some [[4], [6], if multi then [] else [0]]) res fs' := by
  obtain ⟨h1, h2, h3⟩ := (exMain_inputs multi).files
  obtain ⟨s, fs1, x, h4, h5⟩ := exMain_reads multi (channelScales exMainTags) (by rw [h3]; exact exMain_files multi) h2
  have h6 : (exUnweight multi (channelScales exMainTags)).program.ReadsEvents s fs1 (.ok exProgEvents) x :=
    readsEvents_congr (p := (exMain multi (channelScales exMainTags)).program)
      (q := (exUnweight multi (channelScales exMainTags)).program) rfl rfl h5
  exact ⟨_, _, .run (s := exUnweight multi fun _ => none) h1
    (.update h4 h6 (exUnweight_weights multi (channelScales exMainTags)))⟩

/-- The hypotheses of the theorems above are met in this run: after resampling the weights are 2, 6, 2. One of the small weights is
discarded, the other one is raised to 4. -/
example (multi : Bool) : ∃ res fs', GoodChoices (exUnweight multi fun _ => none) ∧ 0 < (exUnweight multi fun _ => none).minWeight ∧
    GoodInputs (exUnweight multi fun _ => none).io [ascii "home"] (ascii "out") exMainIns exMainTags exMainFS ∧
    EventFiles (exUnweight multi (channelScales exMainTags)).io exMainFS
      ((eventInputs exMainIns exMainTags).map fun x => locate [ascii "home"] x.1 ++ [x.2]) [exProgHepmc, exProgLhef] ∧
    WeightsSupported (exUnweight multi (channelScales exMainTags)).io [exProgHepmc, exProgLhef] ∧
    MainRun (exUnweight multi fun _ => none) [ascii "home"] (ascii "out") (exMainIns.map fun x => x.1 ++ x.2) exMainFS
      (some [[4], [6], if multi then [] else [0]]) res fs' ∧
    (∀ w ∈ ([[4], [6], if multi then [] else [0]] : List (List ℚ)), ∀ x ∈ w, ∀ d ∈ [exProgHepmc, exProgLhef],
      Writable (exUnweight multi (channelScales exMainTags)).io d.kind x) := by
  obtain ⟨res, fs', h⟩ := exUnweight_run multi
  refine ⟨res, fs', exUnweight_good multi, by show (0 : ℚ) < 4; norm_num, exMain_inputs multi, exMain_files multi, .inl fun _ => rfl,
    h, ?_⟩
  intro w hw x hx d hd
  have h2 : (exSettings multi).io.ctx.float.finite x = true := by
    simp only [List.mem_cons, List.not_mem_nil, or_false] at hw
    rcases hw with rfl | rfl | rfl
    · simp only [List.mem_cons, List.not_mem_nil, or_false] at hx
      subst hx
      cases multi <;> decide +kernel
    · simp only [List.mem_cons, List.not_mem_nil, or_false] at hx
      subst hx
      cases multi <;> decide +kernel
    · cases multi
      · simp only [Bool.false_eq_true, if_false, List.mem_cons, List.not_mem_nil, or_false] at hx
        subst hx
        decide +kernel
      · simp at hx
  simp only [List.mem_cons, List.not_mem_nil, or_false] at hd
  rcases hd with rfl | rfl <;> exact ⟨h2, trivial⟩

/-- One event is discarded, one is raised, one is kept. -/
example : List.Forall₂ (Unweighted [0] (4 : ℚ) 1) [[2], [6], [2]] [[4], [6], [0]] := by
  refine .cons ?_ (.cons ?_ (.cons ?_ .nil))
  · convert Unweighted.kept (K := ℚ) (default := [0]) (minWt := 4) (common := 1) (rs := [2]) (by norm_num) using 1
    norm_num [survivorFactor]
  · convert Unweighted.kept (K := ℚ) (default := [0]) (minWt := 4) (common := 1) (rs := [6]) (by norm_num) using 1
    norm_num [survivorFactor]
  · exact .discarded (by norm_num)

end Cres

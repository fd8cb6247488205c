import Verif.Props.Report
import Verif.Proofs.Survivors
import Verif.Props.Unweighted

/-!
Property C106 for runs with unweighting: what is reported about the weights of unweighted events.
-/

set_option linter.unusedSectionVars false

namespace Cres

open Spec CombinedIO Program

section

variable {K V D P : Type*} [Zero D] [LinearOrder D] [Field K] [LinearOrder K] [IsStrictOrderedRing K] [LinearOrder V]
  [DecidableEq P]

/-- Sums over the weights of the events in the input files that have particles. -/
theorem read_sum {p : Program K V D} (hg : GoodComponents p) {m : Nat} {ds : List (EventFile K V)} {events : List (Event K V)}
    (he : EventsRead p m ds events) (φ : K → K) :
    (((allEvents ds).filter (HasParticles p)).map fun e => φ (weightNo 0 e)).sum =
      ((identified events).map fun e => φ (weightNo 0 e)).sum := by
  have hc0 : ∀ ev ∈ events, ∃ e0, (allEvents ds)[ev.id]? = some e0 ∧ weightNo 0 e0 = weightNo 0 ev ∧
      HasParticles p e0 = !ev.outgoingByPid.isEmpty := by
    intro ev hev
    obtain ⟨e0, e1, g1, g2, g3, -⟩ := he.from_file ev hev
    refine ⟨e0, g1, ?_, ?_⟩
    · rw [g3]
      simp only [weightNo, hg.cluster _ _ g2]
    · rw [HasParticles, g2, g3]
  rw [sum_filter_ite, sum_by_ids (events := events) _ he.ids]
  refine (sum_identified events _).trans ?_
  rw [List.sum_eq_zero (l := List.map _ (events.filter _)), add_zero]
  · congr 1
    apply List.map_congr_left
    intro e hem
    have hm := List.mem_filter.1 hem
    obtain ⟨e0, g1, g2, g3⟩ := hc0 e hm.1
    have h1 : HasParticles p e0 = true := by rw [g3]; exact hm.2
    rw [g1]
    simp only [Option.map_some, Option.getD_some, h1, if_true, g2]
  · intro x hx
    obtain ⟨e, hem, rfl⟩ := List.mem_map.1 hx
    obtain ⟨hem, hp⟩ := List.mem_filter.1 hem
    obtain ⟨e0, g1, g2, g3⟩ := hc0 e hem
    rw [g1]
    simp [g3, hp]

/-- Sums over the weights in the output are sums over the weights of the events that are left. -/
theorem written_sum {p : Program K V D} (hm : p.io.ctx.multi = false) {ds : List (EventFile K V)}
    {events : List (Event K V)} (he : EventsRead p 1 ds events) {ws : List (Weights K)} {resampled final : List (Event K V)}
    (hrun : runWeights p.cfg p.infoLog (fun _ => (.ok resampled : Outcome IOError _)) p.unweight events = .ok ws)
    (hfin : p.unweight resampled = .ok final) (hsub1 : IsSubCollection (identified events) resampled)
    (hsub2 : IsSubCollection resampled final) (hlen : ∀ e ∈ final, e.weights.length = 1) {φ : K → K} (hφ : φ 0 = 0) :
    ((List.zipWith reweighted ws (allEvents ds)).map fun e => φ (weightNo 0 e)).sum = (final.map fun e => φ (weightNo 0 e)).sum := by
  have hids : (events.map Event.id).Perm (List.range events.length) := by rw [he.length_eq]; exact he.ids
  obtain ⟨resampled', final', h1, h2, h3, h4, h5⟩ := runWeights_entries hids hrun
  simp only [Outcome.ok.injEq] at h1
  subst h1
  rw [hfin] at h2
  simp only [Outcome.ok.injEq] at h2
  subst h2
  obtain ⟨hnd, hlt, hset⟩ := h4 hsub1 hsub2
  have hl : ws.length = (allEvents ds).length := by rw [h3, he.length_eq]
  have hdef : defaultWeights (K := K) p.cfg = [0] := by simp [defaultWeights, Program.cfg, hm]
  have hz : (List.zipWith reweighted ws (allEvents ds)).length = (allEvents ds).length := by
    rw [List.length_zipWith, hl, Nat.min_self]
  have key : ∀ i < (allEvents ds).length, ((List.zipWith reweighted ws (allEvents ds))[i]?.map fun e => φ (weightNo 0 e)).getD 0 =
      φ ((ws.getD i []).headD 0) := by
    intro i hi
    have hi' : i < ws.length := by omega
    rw [List.getElem?_zipWith, List.getElem?_eq_getElem hi, List.getElem?_eq_getElem hi']
    simp only [Option.map_some, Option.getD_some, List.getD_eq_getElem?_getD, List.getElem?_eq_getElem hi']
    have : ws[i] ≠ [] := by
      by_cases hex : ∃ e ∈ final, e.id = i
      · obtain ⟨e, hem, rfl⟩ := hex
        have := hset e hem
        rw [List.getElem?_eq_getElem hi', Option.some.injEq] at this
        rw [this]
        intro hc
        have := hlen e hem
        rw [hc] at this
        simp at this
      · have := h5 i (by omega) (fun e hem hid => hex ⟨e, hem, hid⟩)
        rw [List.getElem?_eq_getElem hi', Option.some.injEq, hdef] at this
        rw [this]
        simp
    rw [weightNo_zero]
    simp [reweighted, this, centralWeight]
  rw [sum_range_eq, hz]
  rw [List.map_congr_left (g := fun i => φ ((ws.getD i []).headD 0)) (fun i hi => key i (List.mem_range.1 hi))]
  have hfs : (final.map fun e => φ (weightNo 0 e)) = (final.map Event.id).map (fun i => φ ((ws.getD i []).headD 0)) := by
    rw [List.map_map]
    apply List.map_congr_left
    intro e hem
    rw [weightNo_zero]
    simp [List.getD_eq_getElem?_getD, hset e hem, centralWeight]
  rw [hfs, ← List.sum_toFinset _ hnd, ← List.sum_toFinset _ List.nodup_range]
  symm
  apply Finset.sum_subset
  · intro i hi
    obtain ⟨e, hem, rfl⟩ := List.mem_map.1 (List.mem_toFinset.1 hi)
    have := hlt e hem
    rw [he.length_eq] at this
    simpa using this
  · intro i hi hni
    have hi : i < (allEvents ds).length := by simpa using hi
    rw [List.getD_eq_getElem?_getD, h5 i (by rw [he.length_eq]; exact hi) ?_, hdef]
    · exact hφ
    · intro e hem hid
      exact hni (List.mem_toFinset.2 (List.mem_map.2 ⟨e, hem, hid⟩))

theorem resampled_single {p : Program K V D} (hg : GoodComponents p) {m : Nat} (hm0 : 0 < m)
    (hm1 : p.io.ctx.multi = false → m = 1) {ds : List (EventFile K V)} {events : List (Event K V)} (he : EventsRead p m ds events)
    {s : State D K} (hr : Reachable p.cfg (identified events).length (p.nearest (identified events)) (p.seeds (identified events))
      (memOf (identified events)) s) (hfin : s.Finished (p.seeds (identified events))) :
    ∀ e ∈ withWeights (identified events) s.mem, e.weights.length = m := by
  intro e hev
  obtain ⟨A, hA⟩ := inv_reachable (hg.valid (identified events)) (read_weights hg hm0 hm1 he) hr
  obtain ⟨j, hj⟩ := List.getElem?_of_mem hev
  unfold withWeights at hj
  rw [List.getElem?_mapIdx, Option.map_eq_some_iff] at hj
  obtain ⟨e', hj', rfl⟩ := hj
  change (s.mem j).length = m
  rw [finished_mem hA hfin]
  exact hA.uniform.length j (List.getElem?_eq_some_iff.1 hj').1

/-- What is reported for a given list of events. -/
theorem reportOf_on {events evs : List (Event K V)} (hne : ∀ e ∈ events, e.weights ≠ [])
    (h : ∀ φ : K → K, φ 0 = 0 → (evs.map fun e => φ (weightNo 0 e)).sum = (events.map fun e => φ (weightNo 0 e)).sum)
    {r : WeightReport K} (hr : reportOf events = some r) : ReportsOn r evs := by
  rw [reportOf_eq hne, Option.some.injEq, reportWeights_eq] at hr
  subst hr
  simp only [List.map_map]
  refine ⟨(h id rfl).symm, (h (fun x => x ^ 2) (by simp)).symm, ?_⟩
  simp only [negativeSum, absSum]
  rw [h (fun x => max (-x) 0) (by simp), h (fun x => |x|) (by simp)]
  rfl

end

section

variable {K V D P : Type*} [Zero D] [LinearOrder D] [DistNum D] [ExactComparison D] [Field K] [LinearOrder K] [IsStrictOrderedRing K]
  [LinearOrder V] [DecidableEq P]

/-- **C106** with unweighting, without `multiweight`: if the new weights can be written the run succeeds, something is reported,
and the numbers reported in the end are the ones for the events in the output files, including those that were discarded and
have vanishing weight. The sum is the one reported in the beginning, or all weights are discarded. -/
theorem C106_unweighted_partial {s : CresSettings K V D} (hc : GoodChoices s) (h0 : 0 ≤ s.minWeight) (hm : s.io.ctx.multi = false)
    {fs fs' : FS P} {files : List (P × P)} {ds : List (EventFile K V)}
    (hin : EventFiles s.io fs (files.map Prod.fst) ds) (hf : GoodFiles files)
    {events : List (Event K V)} {ws : List (Weights K)} {res : Outcome (CresError IOError) Unit}
    (h : s.program.Run files fs (some events) (some ws) res fs') (hw : ∀ w ∈ ws, ∀ x ∈ w, ∀ d ∈ ds, Writable s.io d.kind x) :
    res = .ok () ∧ ∃ ds', EventFiles s.io fs' (files.map Prod.snd) ds' ∧ List.Forall₂ SameExceptWeights ds ds' ∧
      (∃ i f, s.program.Reports events ws i f) ∧
      ∀ i f, s.program.Reports events ws i f →
        ReportsOn i ((allEvents ds).filter (HasParticles s.program)) ∧ ReportsOn f (allEvents ds') ∧
        (f.sum = i.sum ∨ ∀ ev ∈ allEvents ds', centralWeight ev = 0) := by
  have hs : WeightsSupported s.program.io ds := .inl fun h => by
    rw [show s.program.io.ctx.multi = s.io.ctx.multi from rfl, hm] at h
    cases h
  have hg := cres_goodComponents hc
  have hn : s.program.io.ctx.multi = true → s.program.io.ctx.names = [] := fun h => by
    rw [show s.program.io.ctx.multi = s.io.ctx.multi from rfl, hm] at h
    cases h
  obtain ⟨k1, k2, ds', k3, k4, k5⟩ := supported_can_write hg (unweight_survivors _ _ _) hin hf hs h hw
  obtain ⟨evs, he', he, hcw⟩ := run_events_all (p := s.program) (single_weights hn hin) hin hf h
  cases he'
  have hne := read_nonempty hg Nat.one_pos he
  have hlen : ∀ {resampled final}, s.program.Resamples (identified events) (.ok resampled) → s.program.unweight resampled = .ok final →
      IsSubCollection (identified events) resampled ∧ IsSubCollection resampled final ∧ (∀ e ∈ final, e.weights.length = 1) ∧
      (final = [] ∨ centralSum final = centralSum resampled) ∧
      centralSum resampled = weightSumNo 0 (identified events) := by
    intro resampled final g1 g2
    cases g1 with
    | ok hlog hres =>
      obtain ⟨st, hr, hfin, rfl⟩ := hres
      have h1 := resampled_single hg Nat.one_pos (fun _ => rfl) he hr hfin
      obtain ⟨h2, h3, h4⟩ := cres_unweighter hc h0 _ _ h1 g2
      refine ⟨withWeights_subCollection _ _, h2, h3, h4, ?_⟩
      have hcons := C01_weight_sums_conserved_parallel (hg.valid _) (read_weights hg Nat.one_pos (fun _ => rfl) he) hr hfin 0
      unfold centralSum weightSumNo
      rw [initial_weights, show (centralWeight : Event K V → K) = weightNo 0 from funext fun e => (weightNo_zero e).symm, final_weights]
      exact hcons
  refine ⟨k1, ds', k3, k4, ?_, ?_⟩
  · generalize ho : (Outcome.ok ws : Outcome (CresError IOError) _) = o at hcw
    cases hcw with
    | @mk resampled hres =>
      cases resampled with
      | err e => simp [runWeights, Outcome.mapErr, Outcome.bind] at ho
      | panic => simp [runWeights, Outcome.mapErr, Outcome.bind] at ho
      | ok resampled =>
        obtain ⟨resampled', final, h1, h2, -⟩ := runWeights_form ho.symm
        simp only [Outcome.ok.injEq] at h1
        subst h1
        obtain ⟨-, -, h3, -⟩ := hlen hres h2
        refine ⟨_, _, .mk (reportOf_eq hne) hres h2 (reportOf_eq fun e hev => ?_) ho.symm⟩
        have := h3 e ((sortById_perm _).mem_iff.1 hev)
        intro h4
        rw [h4] at this
        simp at this
  · intro i f hr
    cases hr with
    | @mk resampled final _ _ g1 g2 g3 g4 g5 =>
      obtain ⟨s1, s2, s3, s4, s5⟩ := hlen g2 g3
      have hi := reportOf_on (evs := (allEvents ds).filter (HasParticles s.program)) hne (fun φ _ => read_sum hg he φ) g1
      have hf : ReportsOn f (allEvents ds') := by
        refine reportOf_on ?_ ?_ g4
        · intro e hev h4
          have := s3 e ((sortById_perm _).mem_iff.1 hev)
          rw [h4] at this
          simp at this
        · intro φ hφ
          rw [k5, written_sum hm he g5 g3 s1 s2 s3 hφ]
          exact (((sortById_perm final).map fun e => φ (weightNo 0 e)).sum_eq).symm
      refine ⟨hi, hf, ?_⟩
      have hcw : (centralWeight : Event K V → K) = weightNo 0 := funext fun e => (weightNo_zero e).symm
      rcases s4 with s4 | s4
      · right
        have hz := written_sum hm he g5 g3 s1 s2 s3 (φ := fun x => |x|) abs_zero
        rw [← k5, s4, List.map_nil, List.sum_nil] at hz
        intro ev hev
        rw [hcw]
        refine abs_eq_zero.1 (List.all_zero_of_le_zero_le_of_sum_eq_zero ?_ hz
          (List.mem_map_of_mem (f := fun e => |weightNo 0 e|) hev))
        intro x hx
        obtain ⟨e, -, rfl⟩ := List.mem_map.1 hx
        exact abs_nonneg _
      · left
        rw [hf.sum, hi.sum, weightSumNo, k5]
        have h1 := written_sum hm he g5 g3 s1 s2 s3 (φ := id) rfl
        have h2 := read_sum hg he id
        simp only [id_eq] at h1 h2
        rw [h1]
        unfold weightSumNo
        rw [h2]
        rw [s5] at s4
        unfold centralSum weightSumNo at s4
        rw [hcw] at s4
        exact s4

end

/-! ### example -/

/-- The settings of the example for C69 with a minimum weight. -/
def exReportUnw : CresSettings ℚ ℚ ℚ :=
  { exSettings false with
    minWeight := 4
    rng := fun i => if i = 0 then 3 else 1 }

theorem exReportUnw_good : GoodChoices exReportUnw := by
  refine ⟨(exSettings_good false).search, (exSettings_good false).seeds, fun i => ?_⟩
  show (0 : ℚ) ≤ (if i = 0 then 3 else 1) ∧ ((4 : ℚ) = 0 ∨ (if i = 0 then (3 : ℚ) else 1) < 4)
  split_ifs <;> norm_num

theorem exReportUnw_resamples : exReportUnw.program.Resamples (exProgEvents.filter fun e => !e.outgoingByPid.isEmpty)
    (.ok [⟨1, [6], [(81, [9])]⟩, ⟨2, [2], [(81, [8])]⟩, ⟨0, [2], [(81, [7])]⟩]) := by
  generalize ho : (Outcome.ok _ : Outcome IOError (List (Event ℚ ℚ))) = o
  have h := exProg_resamples false
  rw [ho] at h
  cases h with
  | log _ | task _ _ _ => cases ho
  | ok g1 g2 => exact .ok g1 g2

/-- In this run the weights 2, 6, 2 after resampling become 4, 6, 0. The report is the one for the weights in the output: the
sum of squares is 52, not 44 as after resampling. -/
theorem exReportUnw_reports : exReportUnw.program.Reports exProgEvents [[4], [6], [0]] ⟨10, 76, 1 / 7⟩ ⟨10, 52, 0⟩ :=
  .mk (by decide +kernel) exReportUnw_resamples
    (show unweightStep false 4 (fun i => if i = 0 then 3 else 1) _ = Outcome.ok [⟨1, [6], [(81, [9])]⟩, ⟨0, [4], [(81, [7])]⟩] by
      decide +kernel)
    (by decide +kernel)
    (show runWeights (exSettings false).program.cfg true _ (unweightStep false 4 fun i => if i = 0 then 3 else 1) exProgEvents = _ by
      decide +kernel)

/-- The hypotheses of `C106_unweighted_partial` are met in this run. -/
example : ∃ res fs', exReportUnw.program.Run [((0 : ℕ), 10), (1, 11)] exProgFS (some exProgEvents) (some [[4], [6], [0]]) res fs' ∧
    EventFiles exReportUnw.io exProgFS [0, 1] [exProgHepmc, exProgLhef] ∧
    (∀ w ∈ ([[4], [6], [0]] : List (List ℚ)), ∀ x ∈ w, ∀ d ∈ [exProgHepmc, exProgLhef], Writable exReportUnw.io d.kind x) := by
  obtain ⟨s, fs1, x, h1, h2⟩ := exProg_reads false
  have h3 : exReportUnw.program.ReadsEvents s fs1 (.ok exProgEvents) x :=
    readsEvents_congr (p := (exSettings false).program) (q := exReportUnw.program) rfl rfl h2
  have h4 := ComputesWeights.mk exReportUnw_resamples
  rw [show runWeights exReportUnw.program.cfg exReportUnw.program.infoLog _ exReportUnw.program.unweight exProgEvents =
      .ok [[4], [6], [0]] from
    (show runWeights (exSettings false).program.cfg true _ (unweightStep false 4 fun i => if i = 0 then 3 else 1) exProgEvents = _ by
      decide +kernel)] at h4
  refine ⟨_, _, .update h1 h3 h4, exProgFiles false, ?_⟩
  intro w hw x hx d hd
  have h2 : (exSettings false).io.ctx.float.finite x = true := by
    simp only [List.mem_cons, List.not_mem_nil, or_false] at hw
    rcases hw with rfl | rfl | rfl <;>
    · simp only [List.mem_cons, List.not_mem_nil, or_false] at hx
      subst hx
      decide +kernel
  simp only [List.mem_cons, List.not_mem_nil, or_false] at hd
  rcases hd with rfl | rfl <;> exact ⟨h2, trivial⟩

end Cres

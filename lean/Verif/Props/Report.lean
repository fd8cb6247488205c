import Verif.Spec.Report
import Verif.Props.Negative

/-!
Property C106: what a run reports about weights.
-/

set_option linter.unusedSectionVars false

namespace Cres

open Spec CombinedIO Program

section

variable {K V D P : Type*} [Field K] [LinearOrder K] [IsStrictOrderedRing K] [LinearOrder V]

theorem negative_filter_sum (ws : List K) : (ws.filter (· < 0)).sum = -(ws.map fun w => max (-w) 0).sum := by
  induction ws with
  | nil => simp
  | cons w ws ih =>
    rw [List.filter_cons]
    by_cases hw : w < 0
    · simp only [hw, decide_true, if_true, List.sum_cons, ih, List.map_cons]
      rw [max_eq_left (by linarith)]
      ring
    · simp only [hw, decide_false, Bool.false_eq_true, if_false, ih, List.map_cons, List.sum_cons]
      rw [max_eq_right (by linarith [not_lt.1 hw])]
      ring

theorem sum_add_negative (ws : List K) : ws.sum + (ws.map fun w => max (-w) 0).sum * 2 = (ws.map fun w => |w|).sum := by
  induction ws with
  | nil => simp
  | cons w ws ih =>
    simp only [List.map_cons, List.sum_cons]
    rw [← ih]
    rcases le_total w 0 with hw | hw
    · rw [max_eq_left (by linarith), abs_of_nonpos hw]; ring
    · rw [max_eq_right (by linarith), abs_of_nonneg hw]; ring

theorem reportWeights_eq (ws : List K) :
    reportWeights ws = ⟨ws.sum, (ws.map fun w => w ^ 2).sum, (ws.map fun w => max (-w) 0).sum / (ws.map fun w => |w|).sum⟩ := by
  simp only [reportWeights, negative_filter_sum, neg_neg, WeightReport.mk.injEq, true_and]
  refine ⟨by simp [sq], ?_⟩
  rw [← sum_add_negative]
  congr 1
  ring

theorem reportWeights_perm {ws ws' : List K} (h : ws.Perm ws') : reportWeights ws = reportWeights ws' := by
  rw [reportWeights_eq, reportWeights_eq, h.sum_eq, (h.map _).sum_eq, (h.map fun w => max (-w) 0).sum_eq,
    (h.map fun w => |w|).sum_eq]

theorem reportOf_eq {events : List (Event K V)} (h : ∀ e ∈ events, e.weights ≠ []) :
    reportOf events = some (reportWeights (events.map (weightNo 0))) := by
  rw [reportOf]
  have hm : events.mapM Event.weight = some (events.map (weightNo 0)) := by
    induction events with
    | nil => rfl
    | cons e es ih =>
      rw [List.mapM_cons, weight_eq (h e List.mem_cons_self), ih (fun x hx => h x (List.mem_cons_of_mem _ hx)), List.map_cons,
        weightNo_zero]
      rfl
  rw [hm, Option.map_some]

/-- The weights that are reported in the beginning. -/
theorem initial_weights (evs : List (Event K V)) : evs.map (weightNo 0) = (List.range evs.length).map (wt (memOf evs) 0) := by
  apply List.ext_getElem?
  intro i
  by_cases hi : i < evs.length
  · simp [hi, wt, memOf, weightNo]
  · simp [hi]

/-- The weights that are reported in the end, up to their order. -/
theorem final_weights (evs : List (Event K V)) (mem : Mem K) :
    (withWeights evs mem).map (weightNo 0) = (List.range evs.length).map (wt mem 0) := by
  apply List.ext_getElem?
  intro i
  by_cases hi : i < evs.length
  · simp [hi, withWeights, wt, weightNo]
  · simp [hi, withWeights]

/-- The numbers reported for `n` weights. -/
theorem report_range (n : Nat) (mem : Mem K) : reportWeights ((List.range n).map (wt mem 0)) =
    ⟨∑ j ∈ Finset.range n, wt mem 0 j, ∑ j ∈ Finset.range n, wt mem 0 j ^ 2,
      (∑ j ∈ Finset.range n, max (-wt mem 0 j) 0) / ∑ j ∈ Finset.range n, |wt mem 0 j|⟩ := by
  rw [reportWeights_eq, List.map_map, List.map_map, List.map_map]
  rfl

/-- With the same non-negative sum of weights, the fraction of negative weights is smaller if their contribution is. -/
theorem fraction_mono {S N N' : K} (hS : 0 ≤ S) (h0 : 0 ≤ N') (hle : N' ≤ N) (hA : 0 < S + N' * 2) :
    N' / (S + N' * 2) ≤ N / (S + N * 2) := by
  rw [div_le_div_iff₀ hA (by linarith)]
  nlinarith

end

section

variable {K V D P : Type*} [Zero D] [LinearOrder D] [Field K] [LinearOrder K] [IsStrictOrderedRing K] [LinearOrder V]
  [DecidableEq P]

theorem read_nonempty {p : Program K V D} (hg : GoodComponents p) {m : Nat} (hm0 : 0 < m) {ds : List (EventFile K V)}
    {events : List (Event K V)} (he : EventsRead p m ds events) : ∀ e ∈ identified events, e.weights ≠ [] := by
  intro e hev h0
  have := he.weights hg e (List.mem_filter.1 hev).1
  rw [h0] at this
  simp at this
  omega

theorem resampled_nonempty {p : Program K V D} (hg : GoodComponents p) {m : Nat} (hm0 : 0 < m)
    (hm1 : p.io.ctx.multi = false → m = 1) {ds : List (EventFile K V)} {events : List (Event K V)} (he : EventsRead p m ds events)
    {s : State D K} (hr : Reachable p.cfg (identified events).length (p.nearest (identified events)) (p.seeds (identified events))
      (memOf (identified events)) s) (hfin : s.Finished (p.seeds (identified events))) :
    ∀ e ∈ withWeights (identified events) s.mem, e.weights ≠ [] := by
  intro e hev h0
  obtain ⟨A, hA⟩ := inv_reachable (hg.valid (identified events)) (read_weights hg hm0 hm1 he) hr
  obtain ⟨j, hj⟩ := List.getElem?_of_mem hev
  unfold withWeights at hj
  rw [List.getElem?_mapIdx, Option.map_eq_some_iff] at hj
  obtain ⟨e', hj', rfl⟩ := hj
  have hjl := (List.getElem?_eq_some_iff.1 hj').1
  have := hA.uniform.length j hjl
  rw [← finished_mem hA hfin, show s.mem j = [] from h0] at this
  simp at this
  omega

/-- The reported numbers in terms of the final state of resampling. -/
theorem reports_state {p : Program K V D} (hg : GoodComponents p) (hun : p.unweight = .ok) {m : Nat} (hm0 : 0 < m)
    (hm1 : p.io.ctx.multi = false → m = 1) {ds : List (EventFile K V)} {events : List (Event K V)} (he : EventsRead p m ds events)
    {ws : List (Weights K)} {i f : WeightReport K} (h : p.Reports events ws i f) :
    ∃ s : State D K, Reachable p.cfg (identified events).length (p.nearest (identified events)) (p.seeds (identified events))
        (memOf (identified events)) s ∧ s.Finished (p.seeds (identified events)) ∧
      runWeights p.cfg p.infoLog (fun _ => (.ok (withWeights (identified events) s.mem) : Outcome IOError _)) p.unweight events =
        .ok ws ∧
      i = reportWeights ((List.range (identified events).length).map (wt (memOf (identified events)) 0)) ∧
      f = reportWeights ((List.range (identified events).length).map (wt s.mem 0)) := by
  have hu := read_weights hg hm0 hm1 he
  cases h with
  | @mk resampled unweighted _ _ h1 h2 h3 h4 h5 =>
    rw [hun] at h3
    cases h3
    cases h2 with
    | ok hlog hres =>
      obtain ⟨s, hr, hfin, rfl⟩ := hres
      refine ⟨s, hr, hfin, h5, ?_, ?_⟩
      · have hne := read_nonempty hg hm0 he
        change reportOf (identified events) = some i at h1
        rw [reportOf_eq hne, initial_weights, Option.some.injEq] at h1
        exact h1.symm
      · have hne := resampled_nonempty hg hm0 hm1 he hr hfin
        have hp := sortById_perm (withWeights (identified events) s.mem)
        change reportOf (sortById (withWeights (identified events) s.mem)) = some f at h4
        rw [reportOf_eq fun e hev => hne e (hp.mem_iff.1 hev), reportWeights_perm (hp.map _), final_weights,
          Option.some.injEq] at h4
        exact h4.symm

theorem sum_whereParticles {p : Program K V D} {ins outs : List (Event K V)} (hl : outs.length = ins.length) (g : Event K V → K) :
    (outs.map g).sum = ((whereParticles p ins outs).map g).sum +
      (((ins.zip outs).filter fun x => !HasParticles p x.1).map fun x => g x.2).sum := by
  unfold whereParticles
  rw [List.map_map]
  induction ins generalizing outs with
  | nil => simp [List.length_eq_zero_iff.1 hl]
  | cons e ins ih =>
    cases outs with
    | nil => simp at hl
    | cons o outs =>
      have := ih (outs := outs) (by simpa using hl)
      rw [List.map_cons, List.sum_cons, this, List.zip_cons_cons, List.filter_cons, List.filter_cons]
      cases HasParticles p e
      · simp only [Bool.false_eq_true, if_false, Bool.not_false, if_true, List.map_cons, List.sum_cons]
        ring
      · simp only [if_true, Bool.not_true, Bool.false_eq_true, if_false, List.map_cons, List.sum_cons, Function.comp_apply]
        ring

/-- Sums over the weights in the output of events with particles. -/
theorem written_whereParticles {p : Program K V D} (hg : GoodComponents p) (hun : p.unweight = .ok) {m : Nat} (hm0 : 0 < m)
    (hm1 : p.io.ctx.multi = false → m = 1) {ds : List (EventFile K V)}
    {events : List (Event K V)} (he : EventsRead p m ds events) {ws : List (Weights K)} {s : State D K}
    (hr : Reachable p.cfg (identified events).length (p.nearest (identified events)) (p.seeds (identified events))
      (memOf (identified events)) s) (hfin : s.Finished (p.seeds (identified events)))
    (hrun : runWeights p.cfg p.infoLog (fun _ => (.ok (withWeights (identified events) s.mem) : Outcome IOError _)) p.unweight
      events = .ok ws) (φ : K → K) :
    ((whereParticles p (allEvents ds) (List.zipWith reweighted ws (allEvents ds))).map fun e => φ (weightNo 0 e)).sum =
      ∑ j ∈ Finset.range (identified events).length, φ (wt s.mem 0 j) := by
  obtain ⟨hl, -, hsum⟩ := weights_written_all (M := K) hg hun hm0 hm1 he hr hfin hrun
  obtain ⟨hsum, hwt⟩ := hsum 0
  obtain ⟨h1, -, -⟩ := hsum φ
  obtain ⟨-, h2, h3⟩ := hsum fun x => φ (if p.io.ctx.multi then x else 0)
  have hzl : (List.zipWith reweighted ws (allEvents ds)).length = (allEvents ds).length := by
    rw [List.length_zipWith, hl, Nat.min_self]
  rw [sum_whereParticles (p := p) hzl fun e => φ (weightNo 0 e)] at h1
  rw [sum_whereParticles (p := p) (ins := allEvents ds) rfl] at h2
  have h4 : whereParticles p (allEvents ds) (allEvents ds) = (allEvents ds).filter (HasParticles p) := by
    unfold whereParticles
    generalize allEvents ds = l
    induction l with
    | nil => rfl
    | cons e l ih =>
      rw [List.zip_cons_cons, List.filter_cons, List.filter_cons]
      cases HasParticles p e <;> simp [ih]
  rw [h4, h3] at h2
  have h5 : ((((allEvents ds).zip (List.zipWith reweighted ws (allEvents ds))).filter fun x => !HasParticles p x.1).map
        fun x => φ (weightNo 0 x.2)).sum =
      ((((allEvents ds).zip (allEvents ds)).filter fun x => !HasParticles p x.1).map
        fun x => φ (if p.io.ctx.multi then weightNo 0 x.2 else 0)).sum := by
    have key : ∀ l l' : List (Event K V), l'.length = l.length →
        (∀ (i : Nat) e e', l[i]? = some e → l'[i]? = some e' → HasParticles p e = false →
          weightNo 0 e' = if p.io.ctx.multi then weightNo 0 e else 0) →
        ((l.zip l').filter fun x => !HasParticles p x.1).map (fun x => φ (weightNo 0 x.2)) =
          ((l.zip l).filter fun x => !HasParticles p x.1).map fun x => φ (if p.io.ctx.multi then weightNo 0 x.2 else 0) := by
      intro l
      induction l with
      | nil => intros; simp
      | cons e l ih =>
        intro l' hl' h
        cases l' with
        | nil => simp at hl'
        | cons e' l' =>
          have hi := ih l' (by simpa using hl') fun i a b ha hb => h (i + 1) a b (by simpa using ha) (by simpa using hb)
          rw [List.zip_cons_cons, List.zip_cons_cons, List.filter_cons, List.filter_cons]
          cases hp : HasParticles p e
          · simp only [Bool.not_false, if_true, List.map_cons, hi]
            rw [h 0 e e' rfl rfl hp]
          · simpa using hi
    rw [key _ _ hzl fun i e e' h h' => (hwt i e e' h h').2]
  rw [h5] at h1
  have h6 := add_left_cancel h2
  rw [h6] at h1
  exact add_right_cancel h1

/-- **C106** (not empty): whenever new weights are computed, something is reported. -/
theorem C106_reported {p : Program K V D} (hg : GoodComponents p) (hun : p.unweight = .ok) {m : Nat} (hm0 : 0 < m)
    (hm1 : p.io.ctx.multi = false → m = 1) {ds : List (EventFile K V)} {events : List (Event K V)} (he : EventsRead p m ds events)
    {ws : List (Weights K)} (h : p.ComputesWeights events (.ok ws)) : ∃ i f, p.Reports events ws i f := by
  have hu := read_weights hg hm0 hm1 he
  generalize ho : (Outcome.ok ws : Outcome (CresError IOError) _) = o at h
  cases h with
  | @mk resampled hres =>
    cases hres with
    | log _ => simp [runWeights, Outcome.mapErr, Outcome.bind] at ho
    | task _ _ _ => simp [runWeights, Outcome.mapErr, Outcome.bind] at ho
    | @ok events' hlog hres =>
      have hres' := hres
      obtain ⟨s, hr, hfin, rfl⟩ := hres
      refine ⟨_, _, .mk (reportOf_eq (read_nonempty hg hm0 he)) (.ok hlog hres') (by rw [hun]) (reportOf_eq fun e hev => ?_) ho.symm⟩
      exact resampled_nonempty hg hm0 hm1 he hr hfin e ((sortById_perm _).mem_iff.1 hev)

/-- The numbers that are reported describe the events with particles in the input and in the output. -/
theorem reports_on {p : Program K V D} (hg : GoodComponents p) (hun : p.unweight = .ok) {m : Nat} (hm0 : 0 < m)
    (hm1 : p.io.ctx.multi = false → m = 1) {ds : List (EventFile K V)} {events : List (Event K V)} (he : EventsRead p m ds events)
    {ws : List (Weights K)} {i f : WeightReport K} (h : p.Reports events ws i f) :
    ReportsOn i ((allEvents ds).filter (HasParticles p)) ∧
    ReportsOn f (whereParticles p (allEvents ds) (List.zipWith reweighted ws (allEvents ds))) ∧
    f.sum = i.sum ∧ f.errorSq ≤ i.errorSq ∧
    (0 ≤ i.sum → 0 < absSum 0 (whereParticles p (allEvents ds) (List.zipWith reweighted ws (allEvents ds))) →
      f.fraction ≤ i.fraction) := by
  obtain ⟨s, hr, hfin, hrun, rfl, rfl⟩ := reports_state hg hun hm0 hm1 he h
  have hout := written_whereParticles hg hun hm0 hm1 he hr hfin hrun
  have hin := fun φ => (((weights_written_all (M := K) hg hun hm0 hm1 he hr hfin hrun).2.2 0).1 φ).2.2
  have hu := read_weights hg hm0 hm1 he
  have hS := C01_weight_sums_conserved_parallel (hg.valid _) hu hr hfin 0
  obtain ⟨g1, g2, g3⟩ := C07_no_increase_parallel (hg.valid _) hu hr hfin 0
  have hadd : ∀ mem : Mem K, ∑ j ∈ Finset.range (identified events).length, wt mem 0 j +
      (∑ j ∈ Finset.range (identified events).length, max (-wt mem 0 j) 0) * 2 =
        ∑ j ∈ Finset.range (identified events).length, |wt mem 0 j| := by
    intro mem
    have := sum_add_negative ((List.range (identified events).length).map (wt mem 0))
    rw [List.map_map, List.map_map] at this
    exact this
  rw [report_range, report_range]
  refine ⟨⟨(hin id).symm, (hin fun x => x ^ 2).symm, ?_⟩, ⟨(hout id).symm, (hout fun x => x ^ 2).symm, ?_⟩, hS, g3, fun h0 hpos => ?_⟩
  · simp only [negativeSum, absSum]
    rw [hin fun x => max (-x) 0, hin fun x => |x|]
  · simp only [negativeSum, absSum]
    rw [hout fun x => max (-x) 0, hout fun x => |x|]
  · simp only [absSum] at hpos
    rw [hout fun x => |x|, ← hadd] at hpos
    simp only at h0 ⊢
    rw [← hadd, ← hadd]
    have hS' : ∑ j ∈ Finset.range (identified events).length, wt s.mem 0 j =
      ∑ j ∈ Finset.range (identified events).length, wt (memOf (identified events)) 0 j := hS
    rw [hS'] at hpos ⊢
    exact fraction_mono h0 (Finset.sum_nonneg fun _ _ => le_max_right _ _) g1 hpos

/-- Reported numbers make sense: the fraction is between 0 and 1 if it is defined. -/
theorem ReportsOn.fraction_range {r : WeightReport K} {events : List (Event K V)} (h : ReportsOn r events)
    (hpos : 0 < absSum 0 events) : 0 ≤ r.fraction ∧ r.fraction ≤ 1 := by
  have h0 : 0 ≤ negativeSum 0 events := List.sum_nonneg (by
    intro x hx
    obtain ⟨e, -, rfl⟩ := List.mem_map.1 hx
    exact le_max_right _ _)
  have h1 : negativeSum 0 events ≤ absSum 0 events := list_sum_le _ fun e _ => max_le (neg_le_abs _) (abs_nonneg _)
  rw [h.fraction]
  exact ⟨div_nonneg h0 hpos.le, (div_le_one hpos).2 h1⟩

/-- **C106** for any clustering and neighbour search: in a run without unweighting, if the new weights can be written, the
numbers that are reported before resampling are the sum of weights, the sum of squared weights (the square of the uncertainty) and
the fraction of negative weights for the events with particles in the input files. The numbers reported after resampling are those for the
same events in the output files. The sum of weights is the same, the uncertainty does not increase, and if the sum of weights is
not negative and there are weights different from zero in the output, the fraction of negative weights does not increase. This
holds for all interleavings. -/
theorem C106_reports_partial {p : Program K V D} (hg : GoodComponents p) (hun : p.unweight = .ok)
    {fs fs' : FS P} {files : List (P × P)} {ds : List (EventFile K V)}
    (hin : EventFiles p.io fs (files.map Prod.fst) ds) (hf : GoodFiles files) (hs : WeightsSupported p.io ds)
    {events : List (Event K V)} {ws : List (Weights K)} {res : Outcome (CresError IOError) Unit}
    (h : p.Run files fs (some events) (some ws) res fs') (hw : ∀ w ∈ ws, ∀ x ∈ w, ∀ d ∈ ds, Writable p.io d.kind x) :
    res = .ok () ∧ ∃ ds', EventFiles p.io fs' (files.map Prod.snd) ds' ∧ List.Forall₂ SameExceptWeights ds ds' ∧
      (∃ i f, p.Reports events ws i f) ∧
      ∀ i f, p.Reports events ws i f →
        ReportsOn i ((allEvents ds).filter (HasParticles p)) ∧ ReportsOn f (whereParticles p (allEvents ds) (allEvents ds')) ∧
        f.sum = i.sum ∧ f.errorSq ≤ i.errorSq ∧
        (0 ≤ i.sum → 0 < absSum 0 (whereParticles p (allEvents ds) (allEvents ds')) → f.fraction ≤ i.fraction) := by
  obtain ⟨m, events', hm0, hm1, he', he, hcw, h1⟩ := supported_run hg hun hin hf hs h
  cases he'
  obtain ⟨h2, ds', h3, h4, h5⟩ := h1 hw
  refine ⟨h2, ds', h3, h4, C106_reported hg hun hm0 hm1 he hcw, fun i f hr => ?_⟩
  rw [h5]
  exact reports_on hg hun hm0 hm1 he hr

end

section

variable {K V D P : Type*} [Zero D] [LinearOrder D] [DistNum D] [ExactComparison D] [Field K] [LinearOrder K] [IsStrictOrderedRing K]
  [LinearOrder V] [DecidableEq P]

/-- **C106** on one thread: in a run of the command line program on one thread, without unweighting and without limit on
the size of cells, if the reported sum of weights is not negative, then the fraction of negative weights that is reported in the
end is zero. -/
theorem C106_one_thread_partial {s : CresSettings K V D} (hc : GoodChoices s) (h0 : s.minWeight = 0)
    {fs fs' : FS P} {files : List (P × P)} {ds : List (EventFile K V)}
    (hin : EventFiles s.io fs (files.map Prod.fst) ds) (hf : GoodFiles files) (hws : WeightsSupported s.io ds)
    {events : List (Event K V)} {ws : List (Weights K)} {res : Outcome (CresError IOError) Unit}
    (h : s.program.Run files fs (some events) (some ws) res fs') (hone : OneThreadWeights s.program events ws)
    (hlen : events.length ≤ usizeMax) (hno : NoLimit s events) {i f : WeightReport K} (hr : s.program.Reports events ws i f)
    (hpos : 0 ≤ i.sum) : f.fraction = 0 := by
  have hg := cres_goodComponents hc
  have hun := cres_unweight h0
  obtain ⟨m, events', hm0, hm1, he', he, hcw, -⟩ := supported_run (p := s.program) hg hun hin hf hws h
  cases he'
  obtain ⟨h1, h2, -⟩ := reports_on hg hun hm0 hm1 he hr
  have hcs : 0 ≤ centralSum ((allEvents ds).filter (HasParticles s.program)) := by
    rw [h1.sum] at hpos
    unfold weightSumNo at hpos
    rwa [show (weightNo 0 : Event K V → K) = centralWeight from funext weightNo_zero] at hpos
  obtain ⟨-, -, hwt⟩ := one_thread_weights hc h0 hin hf hws h hone hlen hno hcs
  rw [h2.fraction]
  have : negativeSum 0 (whereParticles s.program (allEvents ds) (List.zipWith reweighted ws (allEvents ds))) = 0 := by
    unfold negativeSum
    apply List.sum_eq_zero
    intro x hx
    obtain ⟨e, hev, rfl⟩ := List.mem_map.1 hx
    unfold whereParticles at hev
    obtain ⟨⟨a, b⟩, hab, rfl⟩ := List.mem_map.1 hev
    obtain ⟨hab, hp⟩ := List.mem_filter.1 hab
    obtain ⟨k, hk⟩ := List.getElem?_of_mem hab
    rw [List.getElem?_zip_eq_some] at hk
    have := (hwt k a b hk.1 hk.2).1 hp
    rw [weightNo_zero]
    exact max_eq_right (by linarith)
  rw [this, zero_div]

end

/-! ### counterexample -/

/-- The full property: in all runs without unweighting whose output is complete, the reported sum of weights stays the same, and the
reported uncertainty and the reported fraction of negative weights do not increase. The last part does not hold. -/
def C106_claim : Prop :=
  ∀ (s : CresSettings ℚ ℚ ℚ) (fs fs' : FS ℕ) (files : List (ℕ × ℕ)) (ds : List (EventFile ℚ ℚ)) (events : List (Event ℚ ℚ))
    (ws : List (Weights ℚ)) (res : Outcome (CresError IOError) Unit) (i f : WeightReport ℚ),
    GoodChoices s → s.minWeight = 0 → EventFiles s.io fs (files.map Prod.fst) ds → GoodFiles files → WeightsSupported s.io ds →
    s.program.Run files fs (some events) (some ws) res fs' → (∀ w ∈ ws, ∀ x ∈ w, ∀ d ∈ ds, Writable s.io d.kind x) →
    s.program.Reports events ws i f → f.sum = i.sum ∧ f.errorSq ≤ i.errorSq ∧ f.fraction ≤ i.fraction

/-- A file with two events with negative sum of weights. -/
def exNegHepmc : EventFile ℚ ℚ :=
  ⟨⟨.hepmc2, ascii "H\n", [ascii "E 1 2 3 4 5 6 7 8 9 0 0 1 -3\nP 1 21 0 0 0 7 0 1 0 0 0\n",
    ascii "E 1 2 3 4 5 6 7 8 9 0 0 1 1\nP 1 21 0 0 0 9 0 1 0 0 0\n"]⟩,
   [⟨0, [-3], [(21, [7])]⟩, ⟨0, [1], [(21, [9])]⟩]⟩

theorem exNegHepmc_ok (multi : Bool) :
    IsEventFile (exSettings multi).io (exNegHepmc.header ++ exNegHepmc.records.flatten) exNegHepmc := by
  refine ⟨⟨by decide +kernel, ?_, ⟨rfl, by simp [exNegHepmc], by decide +kernel, ?_, ?_, ?_, ?_⟩, ?_⟩, ?_⟩
  · exact fun rest => detectFormat_append _ (b := 72) (h := [10]) (by decide) (Or.inr (by decide)) rest
  · unfold Contains; decide +kernel
  · decide +kernel
  · unfold Contains; decide +kernel
  · decide +kernel
  · decide +kernel
  · refine .cons ?_ (.cons ?_ .nil)
    · show HepMC.parse _ _ = _
      cases multi <;> decide +kernel
    · show HepMC.parse _ _ = _
      cases multi <;> decide +kernel

def exNegFS : FS ℕ
  | 0 => some (exNegHepmc.header ++ exNegHepmc.records.flatten)
  | _ => none

theorem exNegFiles (multi : Bool) : EventFiles (exSettings multi).io exNegFS [0] [exNegHepmc] :=
  .cons ⟨_, rfl, exNegHepmc_ok multi⟩ .nil

def exNegEvents : List (Event ℚ ℚ) := [⟨0, [-3], [(81, [7])]⟩, ⟨1, [1], [(81, [9])]⟩]

/-- Execution of a list of reading steps. -/
def exNegRead (multi : Bool) : List ReadAction → ReadState IOError EventRecord ℚ ℚ → Option (ReadState IOError EventRecord ℚ ℚ)
  | [], s => some s
  | a :: as, s => (readStep (tryConvert (exSettings multi).io.ctx) (exSettings multi).program.cluster (fun r => r.1 == .ntuple)
      ((fileItems (exSettings multi).io [exNegHepmc.toFileData]).map .ok) s a).bind (exNegRead multi as)

theorem exNegRead_reachable {multi : Bool} {as : List ReadAction} {s s' : ReadState IOError EventRecord ℚ ℚ}
    (h : exNegRead multi as s = some s')
    (hs : ReadReachable (tryConvert (exSettings multi).io.ctx) (exSettings multi).program.cluster (fun r => r.1 == .ntuple)
      ((fileItems (exSettings multi).io [exNegHepmc.toFileData]).map .ok) s) :
    ReadReachable (tryConvert (exSettings multi).io.ctx) (exSettings multi).program.cluster (fun r => r.1 == .ntuple)
      ((fileItems (exSettings multi).io [exNegHepmc.toFileData]).map .ok) s' := by
  induction as generalizing s with
  | nil =>
    simp only [exNegRead, Option.some.injEq] at h
    exact h ▸ hs
  | cons a as ih =>
    simp only [exNegRead] at h
    cases hst : readStep (tryConvert (exSettings multi).io.ctx) (exSettings multi).program.cluster (fun r => r.1 == .ntuple)
        ((fileItems (exSettings multi).io [exNegHepmc.toFileData]).map .ok) s a with
    | none => rw [hst] at h; cases h
    | some s1 =>
      rw [hst] at h
      exact ih h (.step hs hst)

theorem exNeg_reads (multi : Bool) : ∃ s fs1 x, CombinedIO.new (exSettings multi).io [((0 : ℕ), 10)] exNegFS = (.ok (), s, fs1) ∧
    (exSettings multi).program.ReadsEvents s fs1 (.ok exNegEvents) x := by
  obtain ⟨h1, -⟩ := files_items (exNegFiles multi)
  obtain ⟨s, fs1, h3, h4⟩ := new_ready (files := [((0 : ℕ), 10)]) (eventFiles_inputs (exNegFiles multi)) (by decide)
    (by
      intro d hd
      obtain ⟨d', hd', rfl⟩ := List.mem_map.1 hd
      exact h1 d' hd')
  refine ⟨s, fs1, ?_⟩
  have h5 := recordItems_ready _ 4 s fs1 h4
  rw [if_pos (by simp [fileItems, exNegHepmc])] at h5
  generalize hx : s.recordItems (exSettings multi).io 4 fs1 = y at h5
  obtain ⟨y, x⟩ := y
  simp only at h5
  subst h5
  refine ⟨x, h3, ?_⟩
  have hdec : (exNegRead multi [.main, .main, .main, .task 0, .task 0] .init).map
      (fun s => (s.stopped.isSome, s.pending.isEmpty, s.result)) = some (true, true, .ok exNegEvents) := by
    cases multi <;> decide +kernel
  cases hr : exNegRead multi [.main, .main, .main, .task 0, .task 0] .init with
  | none => rw [hr] at hdec; simp at hdec
  | some r =>
    rw [hr] at hdec
    simp only [Option.map_some, Option.some.injEq, Prod.mk.injEq] at hdec
    rw [← hdec.2.2]
    exact .done hx (exNegRead_reachable hr .init) ⟨hdec.1, by simpa using hdec.2.1⟩

theorem exNeg_resamples (multi : Bool) : (exSettings multi).program.Resamples (exNegEvents.filter fun e => !e.outgoingByPid.isEmpty)
    (.ok [⟨0, [-1], [(81, [7])]⟩, ⟨1, [-1], [(81, [9])]⟩]) := by
  have hdec : (runSchedule (exSettings multi).program.cfg 2 ((exSettings multi).program.nearest exNegEvents)
      ((exSettings multi).program.seeds exNegEvents) (List.replicate (if multi then 12 else 10) 0) (State.init (memOf exNegEvents))).map
      (fun s => (s.tasks 0, s.mem 0, s.mem 1)) = some (.done (some ⟨[0, 1], 2, -2⟩), [-1], [-1]) := by
    cases multi <;> decide +kernel
  cases hr : runSchedule (exSettings multi).program.cfg 2 ((exSettings multi).program.nearest exNegEvents)
      ((exSettings multi).program.seeds exNegEvents) (List.replicate (if multi then 12 else 10) 0) (State.init (memOf exNegEvents)) with
  | none => rw [hr] at hdec; simp at hdec
  | some st =>
    rw [hr] at hdec
    simp only [Option.map_some, Option.some.injEq, Prod.mk.injEq] at hdec
    have hid : identified exNegEvents = exNegEvents := by decide
    have hlog : logSumsPanics (exSettings multi).program.cfg (exSettings multi).program.infoLog exNegEvents = false := by
      cases multi <;> decide +kernel
    have hseeds : (exSettings multi).program.seeds exNegEvents = [0] := by cases multi <;> decide +kernel
    have hres : (exSettings multi).program.Resamples (exNegEvents.filter fun e => !e.outgoingByPid.isEmpty)
        (.ok (withWeights exNegEvents st.mem)) := by
      rw [show exNegEvents.filter (fun e => !e.outgoingByPid.isEmpty) = exNegEvents from hid]
      refine .ok hlog ⟨st, runSchedule_reachable _ Reachable.init hr, ?_, rfl⟩
      intro t ht
      rw [hseeds] at ht
      simp only [List.length_cons, List.length_nil, zero_add, Nat.lt_one_iff] at ht
      subst ht
      exact ⟨_, hdec.1⟩
    have hw : withWeights exNegEvents st.mem = [⟨0, [-1], [(81, [7])]⟩, ⟨1, [-1], [(81, [9])]⟩] := by
      simp [withWeights, exNegEvents, hdec]
    rw [hw] at hres
    exact hres

theorem exNeg_runWeights (multi : Bool) : runWeights (exSettings multi).program.cfg (exSettings multi).program.infoLog
    (fun _ => (.ok [⟨0, [-1], [(81, [7])]⟩, ⟨1, [-1], [(81, [9])]⟩] : Outcome IOError (List (Event ℚ ℚ))))
    (exSettings multi).program.unweight exNegEvents = .ok [[-1], [-1]] := by
  cases multi <;> decide +kernel

/-- A run with negative sum of weights: weights -3 and 1 become -1 and -1. -/
theorem exNeg_run (multi : Bool) : ∃ res fs', (exSettings multi).program.Run [((0 : ℕ), 10)] exNegFS
    (some exNegEvents) (some [[-1], [-1]]) res fs' := by
  obtain ⟨s, fs1, x, h1, h2⟩ := exNeg_reads multi
  have := ComputesWeights.mk (exNeg_resamples multi)
  rw [exNeg_runWeights multi] at this
  exact ⟨_, _, .update h1 h2 this⟩

/-- The fraction of negative weights increases from 3/4 to 1. -/
theorem exNeg_reports (multi : Bool) : (exSettings multi).program.Reports exNegEvents [[-1], [-1]] ⟨-2, 10, 3 / 4⟩ ⟨-2, 2, 1⟩ :=
  .mk (by decide +kernel) (exNeg_resamples multi)
    (show _ = Outcome.ok [⟨0, [-1], [(81, [7])]⟩, ⟨1, [-1], [(81, [9])]⟩] by cases multi <;> decide +kernel) (by decide +kernel)
    (exNeg_runWeights multi)

theorem C106_violated : ¬ C106_claim := by
  intro h
  obtain ⟨res, fs', hr⟩ := exNeg_run false
  have hw : ∀ w ∈ ([[-1], [-1]] : List (List ℚ)), ∀ x ∈ w, ∀ d ∈ [exNegHepmc], Writable (exSettings false).io d.kind x := by
    intro w hw x hx d hd
    have h2 : (exSettings false).io.ctx.float.finite x = true := by
      simp only [List.mem_cons, List.not_mem_nil, or_false] at hw
      rcases hw with rfl | rfl <;> simp only [List.mem_cons, List.not_mem_nil, or_false] at hx <;> subst hx <;> decide +kernel
    simp only [List.mem_cons, List.not_mem_nil, or_false] at hd
    rcases hd with rfl
    exact ⟨h2, trivial⟩
  have := (h (exSettings false) exNegFS fs' [(0, 10)] [exNegHepmc] exNegEvents [[-1], [-1]] res _ _ (exSettings_good false) rfl
    (exNegFiles false) ⟨by decide, by decide⟩ (Or.inl fun h => by cases h) hr hw (exNeg_reports false)).2.2
  norm_num at this

/-! ### example -/

/-- The report in the run of the example for C69: the fraction of negative weights decreases from 1/7 to 0. -/
theorem exProg_reports (multi : Bool) : (exSettings multi).program.Reports exProgEvents [[2], [6], [2]] ⟨10, 76, 1 / 7⟩ ⟨10, 44, 0⟩ :=
  .mk (by decide +kernel) (exProg_resamples multi)
    (show _ = Outcome.ok [⟨1, [6], [(81, [9])]⟩, ⟨2, [2], [(81, [8])]⟩, ⟨0, [2], [(81, [7])]⟩] by cases multi <;> decide +kernel)
    (by decide +kernel) (by cases multi <;> decide +kernel)

/-- The hypotheses of `C106_reports_partial` and of `C106_one_thread_partial` are met in this run; the remaining ones are shown in the examples for C69 and
C77. -/
example (multi : Bool) : (∃ res fs', (exSettings multi).program.Run [((0 : ℕ), 10), (1, 11)] exProgFS (some exProgEvents)
      (some [[2], [6], [2]]) res fs') ∧ OneThreadWeights (exSettings multi).program exProgEvents [[2], [6], [2]] ∧
    (exSettings multi).program.Reports exProgEvents [[2], [6], [2]] ⟨10, 76, 1 / 7⟩ ⟨10, 44, 0⟩ ∧
    0 < absSum 0 (whereParticles (exSettings multi).program (allEvents [exProgHepmc, exProgLhef])
      (List.zipWith reweighted [[2], [6], [2]] (allEvents [exProgHepmc, exProgLhef]))) := by
  refine ⟨exProg_run multi, exProg_oneThread multi, exProg_reports multi, ?_⟩
  cases multi <;> decide +kernel

end Cres

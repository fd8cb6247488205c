import Verif.Props.BinUncertainty

/-!
Property C135: signs of weights that are not negative.
-/

set_option linter.unusedSectionVars false

namespace Cres

open Spec CombinedIO Program Cres.Path

/-- **C135** as expected: events with a weight that is not negative still have such a weight in the output files. Here for runs on one thread without
unweighting and a distance that is a metric. -/
def C135_claim : Prop :=
  ∀ s : CresSettings ℚ ℚ ℚ, GoodChoices s → s.minWeight = 0 → IgnoresIds s.distance →
    ∀ x : Sample ℚ ℚ, x.Good s → x.events.length ≤ usizeMax → IsMetricOn (· ∈ x.clustered s) s.distance → NoChoice s (x.clustered s) →
    0 ≤ centralSum x.events →
    ∀ events ws res fs', OneThreadRun s x.cwd x.outdir (x.ins.map fun y => y.1 ++ y.2) x.fs events ws res fs' →
      ∀ out, x.Wrote s fs' out → ∀ (i : Nat) ev ev', x.events[i]? = some ev → (allEvents out)[i]? = some ev' →
        0 ≤ centralWeight ev → 0 ≤ centralWeight ev'

/-- **C135** is violated: with the maximum cell size 2 the only cell for the event with weight -8 contains the event with weight 6 and no other one, and
both get the weight -1, although the sum of all weights is positive. -/
theorem C135_violated : ¬ C135_claim := by
  intro hcl
  obtain ⟨res, fs1, out, h1, h2, h3⟩ := exLimit_out exLimit_small (by decide +kernel)
  have hlen : exLimitX.events.length ≤ usizeMax := by
    rw [show exLimitX.events.length = 4 by decide +kernel]
    decide
  have hz : (List.zipWith reweighted [[-1], [-1], [2], [2]] exLimitX.events)[1]? = some (⟨0, [-1], [(21, [9])]⟩ : Event ℚ ℚ) := by decide +kernel
  have := hcl (exLimit 2) (exLimit_choices 2) rfl (fun _ _ _ _ => rfl) exLimitX (exLimitX_good 2) hlen
    (exLimit_metric 2) (exLimit_noChoice 2) (by decide +kernel) _ _ _ _ h1 out h2 1 ⟨0, [6], [(21, [9])]⟩ ⟨0, [-1], [(21, [9])]⟩
    (by decide +kernel) (by rw [h3]; exact hz) (by decide +kernel)
  revert this
  decide +kernel

/-- The number of events with negative weight can increase, too: with events at 0, 1, 2 and 50 on a line, the weights -9, 1, 2 and 20 and the maximum cell
size 10, resampling on one thread ends with the weights -2, -2, -2 and 20. -/
theorem C135_more_violated : ∃ s : State ℤ ℚ,
    Reachable ⟨false, false⟩ 4 (naiveNearest firstMin 4 (exDist [0, 1, 2, 50]) 10) [0] (exMem [-9, 1, 2, 20]) s ∧ s.Finished [0] ∧
    ((List.range 4).filter fun j => wt (exMem [-9, 1, 2, 20]) 0 j < 0) = [0] ∧
    ((List.range 4).filter fun j => wt s.mem 0 j < 0) = [0, 1, 2] := by
  cases hr : runSchedule ⟨false, false⟩ 4 (naiveNearest firstMin 4 (exDist [0, 1, 2, 50]) 10) [0] (serialSchedule 0 [14])
      (State.init (exMem [-9, 1, 2, 20])) with
  | none =>
    have : (runSchedule ⟨false, false⟩ 4 (naiveNearest firstMin 4 (exDist [0, 1, 2, 50]) 10) [0] (serialSchedule 0 [14])
      (State.init (exMem [-9, 1, 2, 20]))).isSome = true := by decide +kernel
    rw [hr] at this
    simp at this
  | some st =>
    have hd : (runSchedule ⟨false, false⟩ 4 (naiveNearest firstMin 4 (exDist [0, 1, 2, 50]) 10) [0] (serialSchedule 0 [14])
      (State.init (exMem [-9, 1, 2, 20]))).map (fun s => (s.tasks 0, (List.range 4).filter fun j => wt s.mem 0 j < 0)) =
        some (.done (some ⟨[0, 1, 2], 2, -6⟩), [0, 1, 2]) := by decide +kernel
    rw [hr] at hd
    simp only [Option.map_some, Option.some.injEq, Prod.mk.injEq] at hd
    refine ⟨st, runSchedule_reachable _ Reachable.init hr, fun t ht => ?_, by decide +kernel, hd.2⟩
    obtain rfl : t = 0 := by simpa using ht
    exact ⟨_, hd.1⟩

section

variable {K V D : Type*} [Zero D] [LinearOrder D] [DistNum D] [ExactComparison D] [Field K] [LinearOrder K]
  [IsStrictOrderedRing K] [LinearOrder V] {s : CresSettings K V D}

/-- **C135**, what is guaranteed for any maximum cell size, distance, number of threads and interleaving: if a weight that is not negative becomes negative,
the event has particles, there is an event with negative weight within the maximum cell size of it, and there was a weight at least as negative before. -/
theorem C135_near_partial (hc : GoodChoices s) (h0 : s.minWeight = 0) {x : Sample K V} (hx : x.Good s) {ws : List (Weights K)}
    {res : Outcome MainError Unit} {fs' : FS (List Bytes)} (h : x.Run s ws res fs') (hw : x.CanWrite s ws) :
    res = .ok () ∧ ∃ out, x.Wrote s fs' out ∧ ∀ (i : Nat) ev ev', x.events[i]? = some ev → (allEvents out)[i]? = some ev' →
      0 ≤ centralWeight ev → centralWeight ev' < 0 → HasParticles s.program ev = true ∧
      (∃ e i' e', AsRead s.program i ev e ∧ ReadAt s.program x.files i' e' ∧ centralWeight e' < 0 ∧ ¬ FarFrom s e' e) ∧
      ∃ ev0 ∈ x.events, HasParticles s.program ev0 = true ∧ centralWeight ev0 ≤ centralWeight ev' := by
  obtain ⟨m, hm0, hm1, hmw, -⟩ := supported_weights (p := CresSettings.program { s with io := x.io s }) hx.files hx.weights
  obtain ⟨events, he, hcw⟩ := hx.run hmw h
  obtain ⟨rfl, out, w1, w2⟩ := hx.wrote hc h hw
  refine ⟨rfl, out, w1, fun i ev ev' hev hev' hpos hneg => ?_⟩
  have hg := cres_goodComponents hc
  have hm1 : s.program.io.ctx.multi = false → m = 1 := hm1
  have hu := read_weights hg hm0 hm1 he
  obtain ⟨st, r1, r2, r3⟩ := computesWeights_state hcw
  have hwr := event_written hg (cres_unweight h0) hm0 hm1 he r1 r2 r3 i hev
  rw [w2, List.getElem?_zipWith, hev] at hev'
  have hp : HasParticles s.program ev = true := by
    by_contra hp
    rw [Bool.not_eq_true] at hp
    rw [hwr.2 hp] at hev'
    simp only [Option.some.injEq] at hev'
    subst hev'
    revert hneg
    rw [imp_false, not_lt]
    cases hm : s.program.io.ctx.multi with
    | true => simpa [defaultWeights, Program.cfg, hm, reweighted] using hpos
    | false => simp [defaultWeights, Program.cfg, hm, reweighted, centralWeight]
  obtain ⟨j, e, b1, b2, b3, b4, b5⟩ := hwr.1 hp
  refine ⟨hp, ?_, ?_⟩
  · by_contra hno
    push Not at hno
    have := far_event hc h0 hm0 hm1 he hcw hev hp b2 hpos fun i' e' g1 g2 => hno e i' e' b2 g1 g2
    rw [this] at hev'
    simp only [reweighted_self, Option.some.injEq] at hev'
    subst hev'
    exact absurd hpos (not_le.2 hneg)
  · have hj := (List.getElem?_eq_some_iff.1 b1).1
    obtain ⟨j0, q1, q2⟩ := Finset.exists_min_image (Finset.range (identified events).length) (wt (memOf (identified events)) 0)
      ⟨j, Finset.mem_range.2 hj⟩
    obtain ⟨j1, q3, q4⟩ := Finset.exists_max_image (Finset.range (identified events).length) (wt (memOf (identified events)) 0)
      ⟨j, Finset.mem_range.2 hj⟩
    have hb := (C131_range (hg.valid _) hu r1 r2 0 (fun i hi => ⟨q2 i (Finset.mem_range.2 hi), q4 i (Finset.mem_range.2 hi)⟩) j hj).1
    obtain ⟨e2, he2⟩ : ∃ e2, (identified events)[j0]? = some e2 := ⟨_, List.getElem?_eq_getElem (Finset.mem_range.1 q1)⟩
    rw [wt_central he2] at hb
    have hids := List.mem_filter.1 (List.mem_of_getElem? he2)
    obtain ⟨e0, e1, k1, k2, k3, -⟩ := he.from_file e2 hids.1
    refine ⟨e0, List.mem_of_getElem? k1, by rw [HasParticles, k2]; rw [k3] at hids; exact hids.2, ?_⟩
    have hce : centralWeight e2 = centralWeight e0 := by
      rw [k3]
      simp only [centralWeight, hg.cluster _ _ k2]
    rw [← hce]
    refine hb.trans (le_of_eq ?_)
    have hne : st.mem j ≠ [] := by
      intro h0
      rw [h0] at b5
      simp at b5
      omega
    rw [b4] at hev'
    simp only [Option.some.injEq] at hev'
    subst hev'
    simp [reweighted, hne, centralWeight, wt, List.head?_eq_getElem?]

/-- **C135** without a limit for the size of cells: on one thread, if the sum of the weights of events with particles is not negative, no weight that is not
negative becomes negative. -/
theorem C135_unlimited_partial (hc : GoodChoices s) (h0 : s.minWeight = 0) {x : Sample K V} (hx : x.Good s) {events : List (Event K V)}
    {ws : List (Weights K)} {res : Outcome MainError Unit} {fs' : FS (List Bytes)}
    (h : OneThreadRun s x.cwd x.outdir (x.ins.map fun y => y.1 ++ y.2) x.fs events ws res fs') (hlen : events.length ≤ usizeMax)
    (hno : NoLimit s events) (hpos : 0 ≤ centralSum (x.events.filter (HasParticles s.program))) (hw : x.CanWrite s ws) :
    res = .ok () ∧ ∃ out, x.Wrote s fs' out ∧ ∀ (i : Nat) ev ev', x.events[i]? = some ev → (allEvents out)[i]? = some ev' →
      0 ≤ centralWeight ev → 0 ≤ centralWeight ev' := by
  obtain ⟨h1, out, h2, h3, h4⟩ := C77_main hc h0 hx.inputs rfl hx.files hx.weights h hlen hno hpos hw
  refine ⟨h1, out, ⟨h2, h3⟩, fun i ev ev' hev hev' hp => ?_⟩
  obtain ⟨g1, g2⟩ := h4 i ev ev' hev hev'
  cases hq : HasParticles s.program ev with
  | true => exact g1 hq
  | false =>
    rw [g2 hq]
    split_ifs
    · exact hp
    · exact le_rfl

end

/-- In the example for C110 with the limit 2, the event with weight 6 gets a negative weight, and the event with weight -8 is close to it. -/
example : ∃ ws res fs' out ev', exLimitX.Run (exLimit 2) ws res fs' ∧ exLimitX.Wrote (exLimit 2) fs' out ∧ (allEvents out)[1]? = some ev' ∧
    centralWeight ev' < 0 ∧ (∃ e i' e', AsRead (exLimit 2).program 1 ⟨0, [6], [(21, [9])]⟩ e ∧ ReadAt (exLimit 2).program exLimitX.files i' e' ∧
      centralWeight e' < 0 ∧ ¬ FarFrom (exLimit 2) e' e) := by
  obtain ⟨res, fs', -, h2⟩ := exLimit_runs exLimit_small
  have hw : exLimitX.CanWrite (exLimit 2) [[-1], [-1], [2], [2]] := exLimit_writable 2 (by decide +kernel)
  obtain ⟨-, out, h3, h4⟩ := C135_near_partial (exLimit_choices 2) rfl (exLimitX_good 2) h2 hw
  obtain ⟨-, out', h5, h6⟩ := (exLimitX_good 2).wrote (exLimit_choices 2) h2 hw
  have hz : (List.zipWith reweighted [[-1], [-1], [2], [2]] exLimitX.events)[1]? = some (⟨0, [-1], [(21, [9])]⟩ : Event ℚ ℚ) := by decide +kernel
  have hout : (allEvents out)[1]? = some (⟨0, [-1], [(21, [9])]⟩ : Event ℚ ℚ) := by
    rw [eventFiles_unique h3.files h5.files, h6]
    exact hz
  have := h4 1 ⟨0, [6], [(21, [9])]⟩ ⟨0, [-1], [(21, [9])]⟩ (by decide +kernel) hout (by decide +kernel) (by decide +kernel)
  exact ⟨_, res, fs', out, _, h2, h3, hout, by decide +kernel, this.2.1⟩

/-- The hypotheses of `C135_unlimited_partial` are met in the example for C77, where the weights -2 and 2 are replaced. -/
example : ∃ km m events ws res fs' out, OneThreadRun (exReal km m) exRealX.cwd exRealX.outdir (exRealX.ins.map fun y => y.1 ++ y.2) exRealX.fs
      events ws res fs' ∧ exRealX.events.map centralWeight = [-2, 2] ∧ exRealX.Wrote (exReal km m) fs' out ∧
    ∀ (i : Nat) ev ev', exRealX.events[i]? = some ev → (allEvents out)[i]? = some ev' → 0 ≤ centralWeight ev → 0 ≤ centralWeight ev' := by
  obtain ⟨km, m, events, ws, res, fs', h1, h2, h3, h4, h5, h6, h7, h8, h9, h10, h11, h12⟩ := exReal_oneThread
  have hno : NoLimit (exReal km m) events := noLimit_of_metric (events_metric h1 h4 h5 rfl h6 (.inl fun _ => rfl) h7).2 h9
  obtain ⟨-, out, h13, h14⟩ := C135_unlimited_partial (x := exRealX) h2 h3 ⟨h5, h6, .inl fun _ => rfl⟩ h7 h8 hno h10 h11
  exact ⟨km, m, events, ws, res, fs', out, h7, h12, h13, h14⟩

end Cres

import Verif.Proofs.SeparateRun
import Verif.Props.Apart

/-!
# C109: threads and strategy do not matter if events with negative weight do not share neighbours
-/

set_option linter.unusedSectionVars false

namespace Cres

open Spec CombinedIO Program Cres.Path

section

variable {K V D : Type*} [AddCommGroup D] [LinearOrder D] [IsOrderedAddMonoid D] [Field K] [LinearOrder K]
  [IsStrictOrderedRing K] [LinearOrder V]

theorem Spec.Sample.Good.order {s s' : CresSettings K V D} (hs : SameExceptOrder s s') {x : Sample K V} (hx : x.Good s) :
    x.Good s' := by
  have hio : x.io s' = x.io s := by unfold Spec.Sample.io; rw [hs.io]
  exact ⟨by rw [hs.io]; exact hx.inputs, by rw [hio]; exact hx.files, by rw [hio]; exact hx.weights⟩

/-- **C109** for other input files with the same events in another order: the events get the same weights in all runs, and the
events in the output files are the same up to their order. This holds for all interleavings, i.e. any number of threads, for
any strategy and neighbour search. -/
theorem C109_reordered {s s' : CresSettings K V D} (hs : SameExceptOrder s s') (hc : GoodChoices s) (hc' : GoodChoices s')
    (h0 : s.minWeight = 0) (hd : IgnoresIds s.distance) {x x' : Sample K V} (hx : x.Good s) (hx' : x'.Good s)
    (hsame : x'.events.Perm x.events) (hlen : x.events.length ≤ usizeMax)
    (hm : IsMetricOn (· ∈ x.clustered s) s.distance) (hn : NoEqualDistances s.distance s.maxCellSize (x.clustered s))
    (ha : NegativeApart s.distance s.maxCellSize (x.clustered s)) {ws ws' : List (Weights K)} {res res' : Outcome MainError Unit}
    {fs1 fs2 : FS (List Bytes)} (h : x.Run s ws res fs1) (h' : x'.Run s' ws' res' fs2) :
    (ws'.zip x'.events).Perm (ws.zip x.events) ∧
    (x.CanWrite s ws → x'.CanWrite s' ws' → res = .ok () ∧ res' = .ok () ∧
      ∃ out out', x.Wrote s fs1 out ∧ x'.Wrote s' fs2 out' ∧ (allEvents out').Perm (allEvents out)) := by
  have hx2 := hx'.order hs
  obtain ⟨m, hm0, hm1, hmw, -⟩ := supported_weights (p := CresSettings.program { s with io := x.io s }) hx.files hx.weights
  obtain ⟨m', hm0', hm1', hmw', -⟩ := supported_weights (p := CresSettings.program { s' with io := x'.io s' }) hx2.files hx2.weights
  obtain ⟨events, he, hcw⟩ := hx.run hmw h
  obtain ⟨events', he', hcw'⟩ := hx2.run hmw' h'
  obtain ⟨τ, t1, t2, t3⟩ := perm_positions hsame.symm
  obtain ⟨l1, l2, l3⟩ := separate_relabel hs hc hc' h0 hd hm0 hm0' hm1 (by
      intro hmu
      refine hm1' ?_
      show s'.io.ctx.multi = false
      rw [hs.io]
      exact hmu) he he' hsame.length_eq ⟨t1, t2⟩ t3 hlen hm hn ha hcw hcw'
  have hzip : (ws'.zip x'.events).Perm (ws.zip x.events) := by
    have hl : x.events.length = ws.length := l1.symm
    rw [hl] at t1 t2 t3
    have l3 : ∀ i < ws.length, ws'[τ i]? = ws[i]? := by rw [l1]; exact l3
    exact zipWith_perm Prod.mk (by omega) (by rw [← l1] at l2; omega) hsame.length_eq t1 t2 l3 t3
  refine ⟨hzip, fun hw hw' => ?_⟩
  obtain ⟨rfl, out, k1, k2⟩ := hx.wrote hc h hw
  obtain ⟨rfl, out', m1, m2⟩ := hx2.wrote hc' h' hw'
  refine ⟨rfl, rfl, out, out', k1, m1, ?_⟩
  rw [k2, m2, ← List.map_uncurry_zip_eq_zipWith, ← List.map_uncurry_zip_eq_zipWith]
  exact hzip.map _

/-- **C109**: if the distance is a metric for the events in the input files after clustering, no two events have the same
distance from an event with negative weight, and events with negative weight do not share neighbours, then any two runs
without unweighting have the same weights, the same result and the same files in the end, for any number of threads, all
interleavings, in whatever order events arrive in memory, and for any strategy and neighbour search. -/
theorem C109_determined {s s' : CresSettings K V D} (hs : SameExceptOrder s s') (hc : GoodChoices s) (hc' : GoodChoices s')
    (h0 : s.minWeight = 0) (hd : IgnoresIds s.distance) {x : Sample K V} (hx : x.Good s) (hlen : x.events.length ≤ usizeMax)
    (hm : IsMetricOn (· ∈ x.clustered s) s.distance) (hn : NoEqualDistances s.distance s.maxCellSize (x.clustered s))
    (ha : NegativeApart s.distance s.maxCellSize (x.clustered s)) {ws ws' : List (Weights K)} {res res' : Outcome MainError Unit}
    {fs1 fs2 : FS (List Bytes)} (h : x.Run s ws res fs1) (h' : x.Run s' ws' res' fs2) : ws = ws' ∧ res = res' ∧ fs1 = fs2 := by
  have hx2 := hx.order hs
  obtain ⟨m, hm0, hm1, hmw, -⟩ := supported_weights (p := CresSettings.program { s with io := x.io s }) hx.files hx.weights
  obtain ⟨events, he, hcw⟩ := hx.run hmw h
  obtain ⟨events', he', hcw'⟩ := hx2.run hmw h'
  obtain ⟨l1, l2, l3⟩ := separate_relabel hs hc hc' h0 hd hm0 hm0 hm1 hm1 he he' (τ := _root_.id) rfl
    ⟨fun _ h => h, fun _ _ _ _ h => h⟩ (fun _ _ => rfl) hlen hm hn ha hcw hcw'
  have hws : ws = ws' := by
    apply List.ext_getElem?
    intro i
    by_cases hi : i < (allEvents x.files).length
    · exact (l3 i hi).symm
    · rw [List.getElem?_eq_none (by omega), List.getElem?_eq_none (by omega)]
  subst hws
  obtain ⟨h1, h2, h3⟩ := hx.inputs.files
  unfold Sample.Run at h h'
  generalize hw : some ws = ows at h
  cases h with
  | scalingErr _ => simp at hw
  | scalingPanic _ => simp at hw
  | run g1 g2 =>
    subst hw
    generalize hw : some ws = ows at h'
    cases h' with
    | scalingErr _ => simp at hw
    | scalingPanic _ => simp at hw
    | run g1' g2' =>
      subst hw
      rw [hs.io, h1] at g1'
      rw [h1] at g1
      simp only [Outcome.ok.injEq, Prod.mk.injEq] at g1 g1'
      obtain ⟨rfl, rfl⟩ := g1
      obtain ⟨rfl, rfl⟩ := g1'
      obtain ⟨rfl, rfl⟩ := run_output_order (hs.withIO _) g2 g2'
      exact ⟨rfl, rfl, rfl⟩

end

/-- **C109** with the distance of the command line program, which is a metric for the events in a run. -/
theorem C109_default_distance {K : Type*} [Field K] [LinearOrder K] [IsStrictOrderedRing K] {s s' : CresSettings K FourVector ℝ}
    (hs : SameExceptOrder s s') (hc : GoodChoices s) (hc' : GoodChoices s') (h0 : s.minWeight = 0)
    {km : SquareMatrix ℝ → ℝ} (hkm : SolvesAssignment km) {τ : ℝ} (hd : s.distance = euclDistance km τ)
    {x : Sample K FourVector} (hx : x.Good s) (hlen : x.events.length ≤ usizeMax)
    (hn : NoEqualDistances s.distance s.maxCellSize (x.clustered s))
    (ha : NegativeApart s.distance s.maxCellSize (x.clustered s)) {ws ws' : List (Weights K)} {res res' : Outcome MainError Unit}
    {fs1 fs2 : FS (List Bytes)} (h : x.Run s ws res fs1) (h' : x.Run s' ws' res' fs2) : ws = ws' ∧ res = res' ∧ fs1 = fs2 := by
  refine C109_determined hs hc hc' h0 (by rw [hd]; exact C89_default_distance km τ) hx hlen ?_ hn ha h h'
  rw [hd]
  refine (euclDistance_metric hkm τ ?_).2
  intro e he
  obtain ⟨e0, -, rfl⟩ := List.mem_map.1 he
  exact cluster_canonical _ _ _ _

/-! ### example -/

theorem exApart_negativeApart (multi : Bool) :
    NegativeApart (exApart multi).distance (exApart multi).maxCellSize (exApartX.clustered (exApart multi)) := by
  rw [(exApart_clustered multi).1]
  refine ⟨?_, ?_⟩
  · intro i j a b ha hb hij _ _ na nb
    have hi := (List.getElem?_eq_some_iff.1 ha).1
    have hj := (List.getElem?_eq_some_iff.1 hb).1
    simp only [List.length_cons, List.length_nil] at hi hj
    interval_cases i <;> interval_cases j <;> simp at ha hb hij <;> subst ha hb <;>
      simp [exApart, exMain, exSettings, centralWeight] at na nb ⊢ <;>
      (first | (norm_num at na; done) | (norm_num at nb; done) | norm_num | norm_num [abs_of_neg])
  · intro i j k a b c ha hb hc hij hik hjk _ _ _ na nb hle
    have hi := (List.getElem?_eq_some_iff.1 ha).1
    have hj := (List.getElem?_eq_some_iff.1 hb).1
    have hk := (List.getElem?_eq_some_iff.1 hc).1
    simp only [List.length_cons, List.length_nil] at hi hj hk
    interval_cases i <;> interval_cases j <;> interval_cases k <;> simp at ha hb hc hij hik hjk <;> subst ha hb hc <;>
      simp [exApart, exMain, exSettings, centralWeight] at na nb hle ⊢ <;>
      (first | (norm_num at na; done) | (norm_num at nb; done) | (norm_num at hle; done) | norm_num | norm_num [abs_of_neg])

/-- A run for the events of the example. -/
theorem exApartX_runs (multi : Bool) : ∃ ws res fs', exApartX.Run (exApart multi) ws res fs' :=
  exApart_runs (exApartX_good multi)
    (events := [⟨3, [6], [(81, [8])]⟩, ⟨0, [4], [(81, [32])]⟩, ⟨1, [-2], [(81, [30])]⟩, ⟨2, [-2], [(81, [7])]⟩]) (by
      refine ⟨by decide +kernel, fun e he => ?_⟩
      simp only [List.mem_cons, List.not_mem_nil, or_false] at he
      rcases he with rfl | rfl | rfl | rfl
      · exact ⟨⟨0, [6], [(21, [8])]⟩, ⟨0, [6], [(81, [8])]⟩, by decide +kernel, by cases multi <;> decide +kernel, rfl, rfl⟩
      · exact ⟨⟨0, [4], [(21, [32])]⟩, ⟨0, [4], [(81, [32])]⟩, by decide +kernel, by cases multi <;> decide +kernel, rfl, rfl⟩
      · exact ⟨⟨0, [-2], [(21, [30])]⟩, ⟨0, [-2], [(81, [30])]⟩, by decide +kernel, by cases multi <;> decide +kernel, rfl, rfl⟩
      · exact ⟨⟨0, [-2], [(21, [7])]⟩, ⟨0, [-2], [(81, [7])]⟩, by decide +kernel, by cases multi <;> decide +kernel, rfl, rfl⟩)

/-- The hypotheses of `C109_determined` are met: there are two events with negative weight, and the result is the same for
any interleaving and strategy. -/
example (multi : Bool) : ∃ ws res fs', exApartX.Run (exApart multi) ws res fs' ∧ ∀ strategy ws' res' fs'',
    exApartX.Run { exApart multi with strategy := strategy } ws' res' fs'' → ws = ws' ∧ res = res' ∧ fs' = fs'' := by
  have hc : GoodChoices (exApart multi) := ⟨(exSettings_good multi).search, (exSettings_good multi).seeds, (exSettings_good multi).rng⟩
  obtain ⟨ws, res, fs', h⟩ := exApartX_runs multi
  refine ⟨ws, res, fs', h, fun strategy ws' res' fs'' h' => ?_⟩
  exact C109_determined (s := exApart multi) (s' := { exApart multi with strategy := strategy }) ⟨rfl, rfl, rfl, rfl, rfl, rfl, rfl, rfl⟩ hc
    ⟨hc.search, hc.seeds, hc.rng⟩ rfl (fun _ _ _ _ => rfl) (exApartX_good multi) (by
      rw [show exApartX.events.length = 4 by decide +kernel]
      decide) (exApart_metric multi) (exApart_distances multi) (exApart_negativeApart multi) h h'

end Cres

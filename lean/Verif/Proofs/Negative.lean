import Verif.Proofs.Named
import Verif.Proofs.OneThread
import Verif.Props.SearchRounded
import Verif.Spec.Negative

/-!
How the weights in the output files are related to those after resampling.
-/

set_option linter.unusedSectionVars false

namespace Cres

open Spec CombinedIO Program

theorem distWrapper_get {K V D : Type*} [Zero D] {dist : Event K V → Event K V → D} {events : List (Event K V)} {i j : Nat} (hi : i < events.length)
    (hj : j < events.length) : distWrapper dist events i j = dist events[i] events[j] := by
  simp [distWrapper, List.getElem?_eq_getElem hi, List.getElem?_eq_getElem hj]

section

variable {K V D P : Type*} [Zero D] [LinearOrder D] [Zero K] [One K] [Add K] [Mul K] [Div K] [NatCast K] [LinearOrder K]
  [LinearOrder V] [DecidableEq P]

/-- What is written in a run without unweighting. -/
theorem supported_run_stored {p : Program K V D} (hg : GoodComponents p) (hun : p.unweight = .ok) {fs fs' : FS P}
    {files : List (P × P)} {ds : List (EventFile K V)} (hin : EventFiles p.io fs (files.map Prod.fst) ds) (hf : GoodFiles files)
    (hs : WeightsSupported p.io ds) {oevents : Option (List (Event K V))} {ws : List (Weights K)}
    {res : Outcome (CresError IOError) Unit} (h : p.Run files fs oevents (some ws) res fs') :
    ∃ m events, 0 < m ∧ (p.io.ctx.multi = false → m = 1) ∧ oevents = some events ∧ EventsRead p m ds events ∧
      p.ComputesWeights events (.ok ws) ∧
      ((∀ w ∈ ws, ∀ x ∈ w, ∀ d ∈ ds, Storable p.io d.kind x) →
        res = .ok () ∧ ∃ ds' ws', EventFiles p.io fs' (files.map Prod.snd) ds' ∧ List.Forall₂ SameExceptWeights ds ds' ∧
          allEvents ds' = List.zipWith reweighted ws' (allEvents ds) ∧
          List.Forall₂ (fun w w' => ∃ d ∈ ds, w' = w.map (stored d.kind)) ws ws') := by
  obtain ⟨m, hm0, hm1, hm, -, hcan⟩ := supported_weights_stored hin hs
  obtain ⟨-, -, -, h1⟩ := run_files_stored hm hin hf h
  obtain ⟨events, h2, he, hcw⟩ := run_events_all hm hin hf h
  have hlen := (weights_length hg hun hm0 hm1 he hcw).2
  refine ⟨m, events, hm0, hm1, h2, he, hcw, fun hw => ?_⟩
  obtain ⟨h3, h4⟩ := h1 fun w hwm => hcan w (hlen w hwm) (hw w hwm) fun hlt h =>
    weights_equal hg hun hm0 hm1 he hcw hm0 hlt h w hwm
  exact ⟨h3, _, _, h4⟩

theorem supported_run {p : Program K V D} (hg : GoodComponents p) (hun : p.unweight = .ok) {fs fs' : FS P}
    {files : List (P × P)} {ds : List (EventFile K V)} (hin : EventFiles p.io fs (files.map Prod.fst) ds) (hf : GoodFiles files)
    (hs : WeightsSupported p.io ds) {oevents : Option (List (Event K V))} {ws : List (Weights K)}
    {res : Outcome (CresError IOError) Unit} (h : p.Run files fs oevents (some ws) res fs') :
    ∃ m events, 0 < m ∧ (p.io.ctx.multi = false → m = 1) ∧ oevents = some events ∧ EventsRead p m ds events ∧
      p.ComputesWeights events (.ok ws) ∧
      ((∀ w ∈ ws, ∀ x ∈ w, ∀ d ∈ ds, Writable p.io d.kind x) →
        res = .ok () ∧ ∃ ds', EventFiles p.io fs' (files.map Prod.snd) ds' ∧ List.Forall₂ SameExceptWeights ds ds' ∧
          allEvents ds' = List.zipWith reweighted ws (allEvents ds)) := by
  obtain ⟨m, hm0, hm1, hm, hcan⟩ := supported_weights hin hs
  obtain ⟨-, -, h1⟩ := run_files hm hin hf h
  obtain ⟨events, h2, he, hcw⟩ := run_events_all hm hin hf h
  have hlen := (weights_length hg hun hm0 hm1 he hcw).2
  refine ⟨m, events, hm0, hm1, h2, he, hcw, fun hw => ?_⟩
  obtain ⟨h3, h4⟩ := h1 fun w hwm => hcan w (hlen w hwm) (hw w hwm) fun hlt h =>
    weights_equal hg hun hm0 hm1 he hcw hm0 hlt h w hwm
  exact ⟨h3, _, h4⟩

end

section

variable {K V D P : Type*} [Zero D] [LinearOrder D] [DistNum D] [ExactComparison D] [Zero K] [One K] [Add K] [Mul K] [Div K]
  [Neg K] [NatCast K] [LinearOrder K] [LinearOrder V] [DecidableEq P]

/-- Without a limit on distances, the neighbour search of the command line program finds all other events. -/
theorem cres_all_found {s : CresSettings K V D} (hc : GoodChoices s) {events : List (Event K V)} (hlen : events.length ≤ usizeMax)
    (hno : NoLimit s events) {seed : Nat} (hs : seed < events.length) (i : Nat) :
    i ∈ (s.search.nearest s.distance s.maxCellSize events seed).map Prod.fst ↔ i < events.length ∧ i ≠ seed := by
  have hle : ∀ i j, i < events.length → j < events.length →
      DistNum.le (distWrapper s.distance events i j) s.maxCellSize = true := by
    intro i j hi hj
    rw [distWrapper_get hi hj]
    exact hno.dist _ (List.getElem_mem hi) _ (List.getElem_mem hj)
  have h := hc.search
  unfold SearchAlgo.nearest
  cases hsr : s.search with
  | naive minPos =>
    rw [hsr] at h
    rw [(C11_naive_search_exact h events.length (distWrapper s.distance events) s.maxCellSize seed hs).mem i, List.mem_range]
    refine ⟨fun g => ⟨g.1, g.2.1⟩, fun g => ⟨g.1, g.2, ?_⟩⟩
    have := hle i seed g.1 hs
    rw [ExactComparison.le_eq] at this
    exact of_decide_eq_true this
  | tree psort sort cornerPt f64Max =>
    rw [hsr] at h
    rw [← List.mem_range (n := events.length)]
    refine (C81_all_found_partial h.1 h.2 cornerPt f64Max (List.range events.length) (by simpa using hlen) s.maxCellSize seed
      (List.mem_range.2 hs) (fun x y hx hy => hle x y (List.mem_range.1 hx) (List.mem_range.1 hy)) ?_).2 i
    intro x y z w hx hy hz hw
    rw [distWrapper_get (List.mem_range.1 hx) (List.mem_range.1 hy), distWrapper_get (List.mem_range.1 hz) (List.mem_range.1 hw)]
    exact hno.diff _ (List.getElem_mem _) _ (List.getElem_mem _) _ (List.getElem_mem _) _ (List.getElem_mem _)

section Limit

omit [LinearOrder V] [Zero K] [One K] [Add K] [Mul K] [Div K] [Neg K] [NatCast K] [LinearOrder K] [Zero D] [LinearOrder D] [DistNum D] [ExactComparison D] [DecidableEq P]

variable {D : Type*} [AddCommGroup D] [LinearOrder D] [IsOrderedAddMonoid D]

/-- If distances are not negative, it is enough to compare them to the maximum. -/
theorem noLimit_of_nonneg {s : CresSettings K V D} {events : List (Event K V)}
    (h0 : ∀ e ∈ events, ∀ e' ∈ events, 0 ≤ s.distance e e')
    (hmax : ∀ e ∈ events, ∀ e' ∈ events, s.distance e e' ≤ s.maxCellSize) : NoLimit s events := by
  refine ⟨fun e he e' he' => decide_eq_true (hmax e he e' he'), fun e₁ h₁ e₂ h₂ e₃ h₃ e₄ h₄ => decide_eq_true ?_⟩
  exact abs_sub_le_of_nonneg_of_le (h0 _ h₁ _ h₂) (hmax _ h₁ _ h₂) (h0 _ h₃ _ h₄) (hmax _ h₃ _ h₄)

theorem noLimit_of_metric {s : CresSettings K V D} {events : List (Event K V)} (hm : IsMetricOn (· ∈ events) s.distance)
    (hmax : ∀ e ∈ events, ∀ e' ∈ events, s.distance e e' ≤ s.maxCellSize) : NoLimit s events := by
  refine noLimit_of_nonneg (fun e he e' he' => ?_) hmax
  have h1 := hm.triangle e e' e he he' he
  have h2 := hm.triangle e e e' he he he'
  rw [hm.symm e' e he' he] at h1
  have h3 : 0 ≤ s.distance e e := by simpa using h2
  by_contra hlt
  exact absurd (h3.trans h1) (not_le.2 (add_neg (not_le.1 hlt) (not_le.1 hlt)))

end Limit

/-- `f64` distances and a maximum that is an `f64` number, for example the largest one. -/
theorem noLimit_f64 {K V : Type*} {s : CresSettings K V N64} {events : List (Event K V)} (hf : IsF64 s.maxCellSize.val)
    (h0 : ∀ e ∈ events, ∀ e' ∈ events, 0 ≤ (s.distance e e').val)
    (hmax : ∀ e ∈ events, ∀ e' ∈ events, (s.distance e e').val ≤ s.maxCellSize.val) : NoLimit s events := by
  refine ⟨fun e he e' he' => decide_eq_true (hmax e he e' he'), fun e₁ h₁ e₂ h₂ e₃ h₃ e₄ h₄ => decide_eq_true ?_⟩
  show |fl64 ((s.distance e₁ e₂).val - (s.distance e₃ e₄).val)| ≤ s.maxCellSize.val
  have h := abs_sub_le_of_nonneg_of_le (h0 _ h₁ _ h₂) (hmax _ h₁ _ h₂) (h0 _ h₃ _ h₄) (hmax _ h₃ _ h₄)
  generalize (s.distance e₁ e₂).val - (s.distance e₃ e₄).val = x at h
  have hf' : IsF64 (-s.maxCellSize.val) := by
    obtain ⟨m, e, a, b, c, d⟩ := hf
    exact ⟨-m, e, by rwa [abs_neg], b, c, by rw [d]; push_cast; ring⟩
  have n1 := fl64_nearest x _ hf
  have n2 := fl64_nearest x _ hf'
  rw [abs_le] at h ⊢
  rw [abs_of_nonneg (sub_nonneg.2 h.2)] at n1
  rw [abs_of_nonpos (sub_nonpos.2 h.1)] at n2
  exact ⟨by linarith [(abs_le.1 n2).1], by linarith [(abs_le.1 n1).2]⟩

/-- The state after resampling on one thread, and what is written. -/
theorem one_thread_state {s : CresSettings K V D} (hc : GoodChoices s) (h0 : s.minWeight = 0)
    {fs fs' : FS P} {files : List (P × P)} {ds : List (EventFile K V)}
    (hin : EventFiles s.io fs (files.map Prod.fst) ds) (hf : GoodFiles files) (hws : WeightsSupported s.io ds)
    {events : List (Event K V)} {ws : List (Weights K)} {res : Outcome (CresError IOError) Unit}
    (h : s.program.Run files fs (some events) (some ws) res fs') (hone : OneThreadWeights s.program events ws)
    (hlen : events.length ≤ usizeMax) (hno : NoLimit s events) :
    ∃ (m : Nat) (st : State D K), 0 < m ∧ (s.program.io.ctx.multi = false → m = 1) ∧ EventsRead s.program m ds events ∧
      s.program.ComputesWeights events (.ok ws) ∧
      Reachable s.program.cfg (identified events).length (s.program.nearest (identified events))
        (s.program.seeds (identified events)) (memOf (identified events)) st ∧
      st.Finished (s.program.seeds (identified events)) ∧
      runWeights s.program.cfg s.program.infoLog
        (fun _ => (.ok (withWeights (identified events) st.mem) : Outcome IOError _)) s.program.unweight events = .ok ws ∧
      ValidInput (identified events).length (s.program.nearest (identified events)) (s.program.seeds (identified events)) ∧
      (∀ i ∈ s.program.seeds (identified events), ∀ j,
        j ∈ (s.program.nearest (identified events) i).map Prod.fst ↔ j < (identified events).length ∧ j ≠ i) ∧
      (∀ i < (identified events).length, wt (memOf (identified events)) 0 i < 0 → i ∈ s.program.seeds (identified events)) ∧
      resampleAll s.program.cfg (identified events).length (s.program.nearest (identified events))
        (s.program.seeds (identified events)) (memOf (identified events)) = some (st.mem, st.log) ∧
      ((∀ w ∈ ws, ∀ x ∈ w, ∀ d ∈ ds, Writable s.io d.kind x) →
        res = .ok () ∧ ∃ ds', EventFiles s.io fs' (files.map Prod.snd) ds' ∧ List.Forall₂ SameExceptWeights ds ds' ∧
          allEvents ds' = List.zipWith reweighted ws (allEvents ds)) := by
  have hg := cres_goodComponents hc
  have hun := cres_unweight h0
  obtain ⟨m, events', hm0, hm1, h2, he, hcw, hres⟩ := supported_run hg hun hin hf hws h
  simp only [Option.some.injEq] at h2
  subst h2
  obtain ⟨evs, ks, st, rfl, hks, hsched, hfin, hrun⟩ := hone
  change ks.length = (s.program.seeds (identified events)).length at hks
  change runSchedule _ (identified events).length (s.program.nearest (identified events)) (s.program.seeds (identified events))
    (serialSchedule 0 ks) (State.init (memOf (identified events))) = some st at hsched
  change st.Finished (s.program.seeds (identified events)) at hfin
  change runWeights _ _ (fun _ => (.ok (withWeights (identified events) st.mem) : Outcome IOError _)) _ _ = _ at hrun
  have hr := runSchedule_reachable _ Reachable.init hsched
  have hu := read_weights hg hm0 hm1 he
  have hsub : ∀ e ∈ identified events, e ∈ events := fun e hem => (List.mem_filter.1 hem).1
  have hilen : (identified events).length ≤ usizeMax := (List.length_filter_le _ _).trans hlen
  have hseeds : s.program.seeds (identified events) =
      (selectSeeds s.sortSeeds s.strategy (identified events).length (memOf (identified events))).getD [] := rfl
  obtain ⟨seeds, hsel, -, hmem⟩ := selectSeeds_mem hc.seeds s.strategy hu
  have hsel' : s.program.seeds (identified events) = seeds := by rw [hseeds, hsel]; rfl
  have hlt : ∀ i ∈ s.program.seeds (identified events), i < (identified events).length := by
    intro i hi
    rw [hsel'] at hi
    exact ((hmem i).1 hi).1
  refine ⟨m, st, hm0, hm1, he, hcw, hr, hfin, hrun, hg.valid _, fun i hi => ?_,
    fun i hi hwi => by rw [hsel']; exact (hmem i).2 ⟨hi, hwi⟩, C05_one_thread_partial (hg.valid _) hu ks hks hsched hfin, hres⟩
  exact cres_all_found hc hilen ⟨fun e he e' he' => hno.dist e (hsub e he) e' (hsub e' he'),
    fun e₁ h₁ e₂ h₂ e₃ h₃ e₄ h₄ => hno.diff _ (hsub _ h₁) _ (hsub _ h₂) _ (hsub _ h₃) _ (hsub _ h₄)⟩ (hlt i hi)

end

variable {K V D P : Type*} [Zero D] [LinearOrder D] [Field K] [LinearOrder K] [IsStrictOrderedRing K] [LinearOrder V]
  [DecidableEq P]

/-- The central weights in the output in terms of those after resampling. -/
theorem weights_written {p : Program K V D} (hg : GoodComponents p) (hun : p.unweight = .ok) {m : Nat} (hm0 : 0 < m)
    (hm1 : p.io.ctx.multi = false → m = 1) {ds : List (EventFile K V)}
    {events : List (Event K V)} (he : EventsRead p m ds events) {ws : List (Weights K)} {s : State D K}
    (hr : Reachable p.cfg (identified events).length (p.nearest (identified events)) (p.seeds (identified events))
      (memOf (identified events)) s) (hfin : s.Finished (p.seeds (identified events)))
    (hrun : runWeights p.cfg p.infoLog (fun _ => (.ok (withWeights (identified events) s.mem) : Outcome IOError _)) p.unweight
      events = .ok ws) :
    (∀ φ : K → K,
      ((List.zipWith reweighted ws (allEvents ds)).map fun e => φ (centralWeight e)).sum =
        ∑ j ∈ Finset.range (identified events).length, φ (wt s.mem 0 j) +
          ((events.filter fun e => e.outgoingByPid.isEmpty).map fun e =>
            φ (if p.io.ctx.multi then centralWeight e else 0)).sum ∧
      ((allEvents ds).map fun e => φ (centralWeight e)).sum =
        ∑ j ∈ Finset.range (identified events).length, φ (wt (memOf (identified events)) 0 j) +
          ((events.filter fun e => e.outgoingByPid.isEmpty).map fun e => φ (centralWeight e)).sum ∧
      (((allEvents ds).filter (HasParticles p)).map fun e => φ (centralWeight e)).sum =
        ∑ j ∈ Finset.range (identified events).length, φ (wt (memOf (identified events)) 0 j)) ∧
    ∀ (i : Nat) ev0 ev', (allEvents ds)[i]? = some ev0 → (List.zipWith reweighted ws (allEvents ds))[i]? = some ev' →
      (HasParticles p ev0 = true → ∃ j < (identified events).length, centralWeight ev' = wt s.mem 0 j) ∧
      (HasParticles p ev0 = false → centralWeight ev' = if p.io.ctx.multi then centralWeight ev0 else 0) := by
  have h3 := (weights_written_all (M := K) hg hun hm0 hm1 he hr hfin hrun).2.2 0
  simpa only [weightNo_zero] using h3

end Cres

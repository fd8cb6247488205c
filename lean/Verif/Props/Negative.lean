import Verif.Proofs.Negative

/-!
# C76 and C77: negative weights in files
-/

set_option linter.unusedSectionVars false

namespace Cres

open Spec CombinedIO Program

section

variable {K V D P : Type*} [Zero D] [LinearOrder D] [Field K] [LinearOrder K] [IsStrictOrderedRing K] [LinearOrder V]
  [DecidableEq P]

theorem list_sum_le {α : Type*} (l : List α) {f g : α → K} (h : ∀ a ∈ l, f a ≤ g a) : (l.map f).sum ≤ (l.map g).sum :=
  List.sum_le_sum h

/-- **C76**, for any clustering and neighbour search: in a run without unweighting, if the new weights can be written, the run
succeeds, and the contribution of negative weights, the sum of absolute values and the sum of squares of the weights in the
output files are at most those in the input files, for the central weights (`k = 0`) and for weights with selected names. This
holds for all interleavings. -/
theorem C76_no_increase {p : Program K V D} (hg : GoodComponents p) (hun : p.unweight = .ok)
    {fs fs' : FS P} {files : List (P × P)} {ds : List (EventFile K V)}
    (hin : EventFiles p.io fs (files.map Prod.fst) ds) (hf : GoodFiles files) (hs : WeightsSupported p.io ds)
    {events : Option (List (Event K V))}
    {ws : List (Weights K)} {res : Outcome (CresError IOError) Unit} (h : p.Run files fs events (some ws) res fs')
    (hw : ∀ w ∈ ws, ∀ x ∈ w, ∀ d ∈ ds, Writable p.io d.kind x) :
    res = .ok () ∧ ∃ ds', EventFiles p.io fs' (files.map Prod.snd) ds' ∧ List.Forall₂ SameExceptWeights ds ds' ∧
      ∀ k, negativeSum k (allEvents ds') ≤ negativeSum k (allEvents ds) ∧
        absSum k (allEvents ds') ≤ absSum k (allEvents ds) ∧ squareSum k (allEvents ds') ≤ squareSum k (allEvents ds) := by
  obtain ⟨m, events, hm0, hm1, rfl, he, hcw, h1⟩ := supported_run hg hun hin hf hs h
  obtain ⟨s, hr, hfin, hrun⟩ := computesWeights_state hcw
  have hsum := (weights_written_all (M := K) hg hun hm0 hm1 he hr hfin hrun).2.2
  obtain ⟨h2, ds', h3, h4, h5⟩ := h1 hw
  refine ⟨h2, ds', h3, h4, fun k => ?_⟩
  obtain ⟨g1, g2, g3⟩ := C07_no_increase_parallel (hg.valid _) (read_weights hg hm0 hm1 he) hr hfin k
  have key : ∀ φ : K → K, (∀ x, φ 0 ≤ φ x) →
      ∑ j ∈ Finset.range (identified events).length, φ (wt s.mem k j) ≤
        ∑ j ∈ Finset.range (identified events).length, φ (wt (memOf (identified events)) k j) →
      ((allEvents ds').map fun e => φ (weightNo k e)).sum ≤ ((allEvents ds).map fun e => φ (weightNo k e)).sum := by
    intro φ h0 hle
    obtain ⟨e1, e2, -⟩ := (hsum k).1 φ
    rw [h5, e1, e2]
    refine add_le_add hle (list_sum_le _ fun e _ => ?_)
    split_ifs
    · exact le_rfl
    · exact h0 _
  refine ⟨?_, ?_, ?_⟩
  · exact key (fun x => max (-x) 0) (fun x => by simp) g1
  · exact key (fun x => |x|) (fun x => by simp) g2
  · exact key (fun x => x ^ 2) (fun x => by simpa using sq_nonneg x) g3

end

section

variable {K V D P : Type*} [Zero D] [LinearOrder D] [DistNum D] [ExactComparison D] [Zero K] [One K] [Add K] [Mul K] [Div K] [Neg K] [NatCast K] [LinearOrder K]
  [LinearOrder V] [DecidableEq P]

/-- **C17** for the command line program and any distance: the events that are added to the cell of a seed are different from
the seed, and their distance from the seed is at most the maximal cell size. The naive search passes the seed as second argument
to the distance, the tree search as first one; this matters only if the distance is not symmetric. -/
theorem C17_event_distances {s : CresSettings K V D} (hc : GoodChoices s) (events : List (Event K V)) {seed : Nat}
    (hs : seed < events.length) {x : Nat × D} (hx : x ∈ s.search.nearest s.distance s.maxCellSize events seed) :
    x.1 ≠ seed ∧ x.2 ≤ s.maxCellSize ∧ ∃ e e', events[seed]? = some e ∧ events[x.1]? = some e' ∧
      match s.search with
      | .naive _ => x.2 = s.distance e' e
      | .tree .. => x.2 = s.distance e e' := by
  have h := hc.search
  unfold SearchAlgo.nearest at hx
  cases hsr : s.search with
  | naive minPos =>
    rw [hsr] at h hx
    have h1 := C11_naive_search_exact h events.length (distWrapper s.distance events) s.maxCellSize seed hs
    obtain ⟨g1, g2, g3⟩ := (h1.mem x.1).1 (List.mem_map.2 ⟨x, hx, rfl⟩)
    have g1 := List.mem_range.1 g1
    have g4 := h1.dist_eq x hx
    refine ⟨g2, by rw [g4]; exact g3, events[seed], events[x.1], List.getElem?_eq_getElem hs, List.getElem?_eq_getElem g1, ?_⟩
    simp only
    rw [g4, distWrapper_get g1 hs]
  | tree psort sort cornerPt f64Max =>
    rw [hsr] at h hx
    obtain ⟨h1, h2⟩ := C13_sound_partial ((VPTree.parNew psort sort cornerPt f64Max (List.range events.length)
      (distWrapper s.distance events)).withMaxDist s.maxCellSize) seed
    obtain ⟨h3, -, h5⟩ := C15_par_construction h.1 h.2 cornerPt f64Max (List.range events.length) (distWrapper s.distance events)
      usizeMax
    obtain ⟨g1, g2, g3, g4⟩ := h2 x hx
    have g1 : x.1 < events.length := by
      have := h3.mem_iff.1 g1
      simpa using this
    refine ⟨g2, of_decide_eq_true (by rw [← ExactComparison.le_eq]; exact g4), events[seed], events[x.1], List.getElem?_eq_getElem hs, List.getElem?_eq_getElem g1, ?_⟩
    simp only
    rw [g3, ← distWrapper_get (dist := s.distance) hs g1]
    exact congrFun (congrFun h5 _) _

/-- **C77**: in release builds there is a run on one thread. -/
theorem C77_completes {s : CresSettings K V D} (hc : GoodChoices s) (h0 : s.minWeight = 0) (hd : s.io.ctx.debug = false)
    {fs : FS P} {files : List (P × P)} {ds : List (EventFile K V)}
    (hin : EventFiles s.io fs (files.map Prod.fst) ds) (hf : GoodFiles files) (hws : WeightsSupported s.io ds) :
    ∃ events ws res fs', s.program.Run files fs (some events) (some ws) res fs' ∧ OneThreadWeights s.program events ws := by
  have hg := cres_goodComponents hc
  have hun := cres_unweight h0
  obtain ⟨m, hm0, hm1, hm, -⟩ := supported_weights (p := s.program) hin hws
  obtain ⟨s0, fs0, hnew, hread, o, x, h1⟩ := reads_files (p := s.program) hm hin hf
  obtain ⟨events, rfl⟩ := (hread _ _ h1).2.2 fun ev hev => ⟨_, rfl, eventFiles_id hin ev hev⟩
  have he := (hread _ _ h1).2.1 events rfl
  have hu := read_weights hg hm0 hm1 he
  obtain ⟨ks, st, g1, g2, g3⟩ := C05_one_thread_completes (cfg := s.program.cfg) hd (hg.valid (identified events)) hu
  have hlog : logSumsPanics s.program.cfg s.program.infoLog (identified events) = false := by
    refine logSums_ok hd fun e hev => ?_
    intro h0
    have := he.weights hg e (List.mem_filter.1 hev).1
    rw [h0] at this
    simp at this
    omega
  have hcw := ComputesWeights.mk (p := s.program) (events := events)
    (.ok hlog ⟨st, runSchedule_reachable _ Reachable.init g2, g3, rfl⟩)
  obtain ⟨ws, hres⟩ := (weights_computed hd hg hun hm0 hm1 he).1 _ hcw
  rw [hres] at hcw
  exact ⟨events, ws, _, _, .update hnew h1 hcw, _, ks, st, rfl, g1, g2, g3, hres⟩

end

section

variable {K V D P : Type*} [Zero D] [LinearOrder D] [DistNum D] [ExactComparison D] [Field K] [LinearOrder K] [IsStrictOrderedRing K] [LinearOrder V]
  [DecidableEq P]

/-- **C76** for the command line program. -/
theorem C76_cres {s : CresSettings K V D} (hc : GoodChoices s) (h0 : s.minWeight = 0)
    {fs fs' : FS P} {files : List (P × P)} {ds : List (EventFile K V)}
    (hin : EventFiles s.io fs (files.map Prod.fst) ds) (hf : GoodFiles files) (hws : WeightsSupported s.io ds)
    {events : Option (List (Event K V))} {ws : List (Weights K)} {res : Outcome (CresError IOError) Unit}
    (h : s.program.Run files fs events (some ws) res fs') (hw : ∀ w ∈ ws, ∀ x ∈ w, ∀ d ∈ ds, Writable s.io d.kind x) :
    res = .ok () ∧ ∃ ds', EventFiles s.io fs' (files.map Prod.snd) ds' ∧ List.Forall₂ SameExceptWeights ds ds' ∧
      ∀ k, negativeSum k (allEvents ds') ≤ negativeSum k (allEvents ds) ∧
        absSum k (allEvents ds') ≤ absSum k (allEvents ds) ∧ squareSum k (allEvents ds') ≤ squareSum k (allEvents ds) := by
  exact C76_no_increase (cres_goodComponents hc) (cres_unweight h0) hin hf hws h hw

/-- The new weights in a run on one thread. -/
theorem one_thread_weights {s : CresSettings K V D} (hc : GoodChoices s) (h0 : s.minWeight = 0)
    {fs fs' : FS P} {files : List (P × P)} {ds : List (EventFile K V)}
    (hin : EventFiles s.io fs (files.map Prod.fst) ds) (hf : GoodFiles files) (hws : WeightsSupported s.io ds)
    {events : List (Event K V)} {ws : List (Weights K)} {res : Outcome (CresError IOError) Unit}
    (h : s.program.Run files fs (some events) (some ws) res fs') (hone : OneThreadWeights s.program events ws)
    (hlen : events.length ≤ usizeMax) (hno : NoLimit s events)
    (hpos : 0 ≤ centralSum ((allEvents ds).filter (HasParticles s.program))) :
    ((∀ w ∈ ws, ∀ x ∈ w, ∀ d ∈ ds, Writable s.io d.kind x) →
      res = .ok () ∧ ∃ ds', EventFiles s.io fs' (files.map Prod.snd) ds' ∧ List.Forall₂ SameExceptWeights ds ds' ∧
        allEvents ds' = List.zipWith reweighted ws (allEvents ds)) ∧
    centralSum (List.zipWith reweighted ws (allEvents ds)) =
      centralSum ((allEvents ds).filter fun ev => s.io.ctx.multi || HasParticles s.program ev) ∧
    ∀ (i : Nat) ev ev', (allEvents ds)[i]? = some ev → (List.zipWith reweighted ws (allEvents ds))[i]? = some ev' →
      (HasParticles s.program ev = true → 0 ≤ centralWeight ev') ∧
      (HasParticles s.program ev = false → centralWeight ev' = if s.io.ctx.multi then centralWeight ev else 0) := by
  have hg := cres_goodComponents hc
  have hun := cres_unweight h0
  obtain ⟨m, st, hm0, hm1, he, hcw, hr, hfin, hrun, hv, hn, hseeds, hall, hres⟩ :=
    one_thread_state hc h0 hin hf hws h hone hlen hno
  obtain ⟨hsum, hwt⟩ := weights_written hg hun hm0 hm1 he hr hfin hrun
  have hneg := C04_all_neighbours hv hn (read_weights hg hm0 hm1 he) (by
      have := (hsum id).2.2
      simp only [id] at this
      change 0 ≤ ∑ j ∈ Finset.range (identified events).length, wt (memOf (identified events)) 0 j
      rw [← this]
      exact hpos)
    hseeds hall
  refine ⟨hres, ?_, fun i ev ev' g1 g2 => ?_⟩
  · have := (weights_passed_all hg hun hm0 hm1 he hcw).2.2 0
    unfold weightSumNo at this
    rwa [show (weightNo 0 : Event K V → K) = centralWeight from funext weightNo_zero] at this
  obtain ⟨g3, g4⟩ := hwt i ev ev' g1 g2
  refine ⟨fun hp => ?_, g4⟩
  obtain ⟨j, hj, g5⟩ := g3 hp
  rw [g5]
  exact hneg j hj

/-- **C77**: a run of the command line program on one thread, without unweighting and without limit on the size of cells, with
any distance. If the sum of the weights of events with particles is not negative and the
new weights can be written, the run succeeds and events with particles have no negative weights in the output files. Events
without particles keep their weight with `multiweight`, otherwise their weight is zero. -/
theorem C77_no_negative {s : CresSettings K V D} (hc : GoodChoices s) (h0 : s.minWeight = 0)
    {fs fs' : FS P} {files : List (P × P)} {ds : List (EventFile K V)}
    (hin : EventFiles s.io fs (files.map Prod.fst) ds) (hf : GoodFiles files) (hws : WeightsSupported s.io ds)
    {events : List (Event K V)} {ws : List (Weights K)} {res : Outcome (CresError IOError) Unit}
    (h : s.program.Run files fs (some events) (some ws) res fs') (hone : OneThreadWeights s.program events ws)
    (hlen : events.length ≤ usizeMax) (hno : NoLimit s events)
    (hpos : 0 ≤ centralSum ((allEvents ds).filter (HasParticles s.program)))
    (hw : ∀ w ∈ ws, ∀ x ∈ w, ∀ d ∈ ds, Writable s.io d.kind x) :
    res = .ok () ∧ ∃ ds', EventFiles s.io fs' (files.map Prod.snd) ds' ∧ List.Forall₂ SameExceptWeights ds ds' ∧
      ∀ (i : Nat) ev ev', (allEvents ds)[i]? = some ev → (allEvents ds')[i]? = some ev' →
        (HasParticles s.program ev = true → 0 ≤ centralWeight ev') ∧
        (HasParticles s.program ev = false → centralWeight ev' = if s.io.ctx.multi then centralWeight ev else 0) := by
  obtain ⟨h1, -, hwt⟩ := one_thread_weights hc h0 hin hf hws h hone hlen hno hpos
  obtain ⟨h2, ds', h3, h4, h5⟩ := h1 hw
  refine ⟨h2, ds', h3, h4, fun i ev ev' g1 g2 => ?_⟩
  rw [h5] at g2
  exact hwt i ev ev' g1 g2

end

/-! ### example -/

/-- The run of the example for C69 is a run on one thread. -/
theorem exProg_oneThread (multi : Bool) : OneThreadWeights (exSettings multi).program exProgEvents [[2], [6], [2]] := by
  have hdec : (runSchedule (exSettings multi).program.cfg 3 ((exSettings multi).program.nearest exProgEvents)
      ((exSettings multi).program.seeds exProgEvents) (serialSchedule 0 [if multi then 11 else 9])
      (State.init (memOf exProgEvents))).map
      (fun s => (s.tasks 0, s.mem 0, s.mem 1, s.mem 2)) = some (.done (some ⟨[1, 2], 1, 4⟩), [6], [2], [2]) := by
    cases multi <;> decide +kernel
  have hseeds : (exSettings multi).program.seeds exProgEvents = [2] := by cases multi <;> decide +kernel
  cases hr : runSchedule (exSettings multi).program.cfg 3 ((exSettings multi).program.nearest exProgEvents)
      ((exSettings multi).program.seeds exProgEvents) (serialSchedule 0 [if multi then 11 else 9])
      (State.init (memOf exProgEvents)) with
  | none => rw [hr] at hdec; simp at hdec
  | some st =>
    rw [hr] at hdec
    simp only [Option.map_some, Option.some.injEq, Prod.mk.injEq] at hdec
    refine ⟨exProgEvents, [if multi then 11 else 9], st, by decide, by rw [hseeds]; rfl, hr, ?_, ?_⟩
    · intro t ht
      rw [hseeds] at ht
      simp only [List.length_cons, List.length_nil, zero_add, Nat.lt_one_iff] at ht
      subst ht
      exact ⟨_, hdec.1⟩
    · have hw : withWeights exProgEvents st.mem = [⟨1, [6], [(81, [9])]⟩, ⟨2, [2], [(81, [8])]⟩, ⟨0, [2], [(81, [7])]⟩] := by
        simp [withWeights, exProgEvents, hdec]
      rw [hw]
      cases multi <;> decide +kernel

/-- The hypotheses of `C17_event_distances` are met: the neighbours of the event with weight -2. -/
example : (exSettings true).search.nearest (exSettings true).distance (exSettings true).maxCellSize exProgEvents 2 = [(1, 1), (0, 2)] := by
  decide +kernel

/-- The hypotheses of `C77_no_negative` are met in the run of the example for C69; those of `C76_cres` and
`C77_completes` are among those shown there. -/
example (multi : Bool) : (∃ res fs', (exSettings multi).program.Run [((0 : ℕ), 10), (1, 11)] exProgFS (some exProgEvents)
      (some [[2], [6], [2]]) res fs') ∧
    OneThreadWeights (exSettings multi).program exProgEvents [[2], [6], [2]] ∧
    exProgEvents.length ≤ usizeMax ∧ NoLimit (exSettings multi) exProgEvents ∧
    0 ≤ centralSum ((allEvents [exProgHepmc, exProgLhef]).filter (HasParticles (exSettings multi).program)) ∧
    (exSettings multi).io.ctx.debug = false := by
  refine ⟨exProg_run multi, exProg_oneThread multi, by decide +kernel, noLimit_of_metric ⟨fun x y _ _ => abs_sub_comm _ _,
    fun x y z _ _ _ => abs_sub_le _ _ _⟩ ?_, ?_, rfl⟩ <;> cases multi <;> decide +kernel

end Cres

import Verif.Proofs.Varying
import Verif.Props.Overwrite
import Verif.Props.Limit

/-!
# C112: distances that change during the run
-/

set_option linter.unusedSectionVars false

namespace Cres

open Spec CombinedIO Program

/-! ### the neighbour search -/

section Search

variable {D : Type*} [DistNum D]

theorem nearestInSubtree_congr {dist dist' : Nat → Nat → D} (maxDist : D) (pt : Nat) (exclude : List Nat) (fuel : Nat)
    {nodes : List (Node Nat D)} (h : ∀ x ∈ nodes, dist pt x.vantagePt = dist' pt x.vantagePt) (idx : Nat) (cache : List (Nat × D)) :
    nearestInSubtree dist maxDist pt exclude fuel nodes idx cache = nearestInSubtree dist' maxDist pt exclude fuel nodes idx cache := by
  induction fuel generalizing nodes idx cache with
  | zero => rfl
  | succ fuel ih =>
    cases nodes with
    | nil => rfl
    | cons node tree =>
      have hc : cachedDist dist pt node.vantagePt cache = cachedDist dist' pt node.vantagePt cache := by
        unfold cachedDist
        rw [h node List.mem_cons_self]
      have ht : ∀ k c i, nearestInSubtree dist maxDist pt exclude fuel (tree.take k) i c =
          nearestInSubtree dist' maxDist pt exclude fuel (tree.take k) i c :=
        fun k c i => ih (fun x hx => h x (List.mem_cons_of_mem _ (List.mem_of_mem_take hx))) i c
      have hd : ∀ k c i, nearestInSubtree dist maxDist pt exclude fuel (tree.drop k) i c =
          nearestInSubtree dist' maxDist pt exclude fuel (tree.drop k) i c :=
        fun k c i => ih (fun x hx => h x (List.mem_cons_of_mem _ (List.mem_of_mem_drop hx))) i c
      simp only [nearestInSubtree, hc]
      cases node.children with
      | none => rfl
      | some ch =>
        have hA : ∀ (b : Bool) k c i, nearestInSubtree dist maxDist pt exclude fuel (if b = true then tree.drop k else tree.take k) i c =
            nearestInSubtree dist' maxDist pt exclude fuel (if b = true then tree.drop k else tree.take k) i c := by
          intro b k c i
          cases b
          · exact ht k c i
          · exact hd k c i
        have hB : ∀ (b : Bool) k c i, nearestInSubtree dist maxDist pt exclude fuel (if b = true then tree.take k else tree.drop k) i c =
            nearestInSubtree dist' maxDist pt exclude fuel (if b = true then tree.take k else tree.drop k) i c := by
          intro b k c i
          cases b
          · exact hd k c i
          · exact ht k c i
        simp only [hA, hB]

theorem tree_nearest_congr {t t' : VPTree Nat D} (hn : t.nodes = t'.nodes) (hm : t.maxDist = t'.maxDist) {q : Nat}
    (h : ∀ x ∈ t.nodes, t.dist q x.vantagePt = t'.dist q x.vantagePt) : t.nearest q = t'.nearest q := by
  have key : ∀ (k : Nat) (it : NNIter Nat D), it.pt = q → NNIter.take t k it = NNIter.take t' k it := by
    intro k
    induction k with
    | zero => intro it _; rfl
    | succ k ih =>
      intro it hit
      have hnext : it.next t = it.next t' := by
        unfold NNIter.next VPTree.nearestInImpl
        rw [hit, nearestInSubtree_congr t.maxDist q it.exclude t.nodes.length h, hn, hm]
      have hpt : (it.next t').2.pt = q := by
        unfold NNIter.next
        simp only
        split <;> exact hit
      simp only [NNIter.take, hnext]
      cases hx : it.next t' with
      | mk a it' =>
        rw [hx] at hpt
        cases a with
        | none => rfl
        | some x => simp only [ih it' hpt]
  unfold VPTree.nearest
  rw [hn]
  exact key _ _ rfl

end Search

section SearchAlgo

variable {K V D : Type*} [Zero D] [LinearOrder D] [DistNum D] [ExactComparison D]

theorem parNew_points {psort sort : SortOracle Nat D} (h1 : SortsByDistance psort) (h2 : SortsByDistance sort) (cornerPt : Nat) (f64Max : D)
    (n : Nat) (dist : Nat → Nat → D) {x : Node Nat D} (hx : x ∈ (VPTree.parNew psort sort cornerPt f64Max (List.range n) dist).nodes) :
    x.vantagePt < n := by
  have h3 := (C15_par_construction h1 h2 cornerPt f64Max (List.range n) dist usizeMax).1
  exact List.mem_range.1 (h3.mem_iff.1 (List.mem_map.2 ⟨x, hx, rfl⟩))

variable [Zero K] [One K] [Add K] [Mul K] [Div K] [Neg K] [NatCast K] [LinearOrder K] [LinearOrder V] {s : CresSettings K V D}

theorem nearestFor_local (hc : GoodChoices s) (events : List (Event K V)) :
    Local events.length (s.search.nearestFor s.distance s.maxCellSize events) := by
  intro d d' seed hd
  have h := hc.search
  unfold SearchAlgo.nearestFor
  cases hsr : s.search with
  | naive minPos =>
    simp only [naiveNearest, List.map_map]
    congr 2
    refine List.map_congr_left fun i hi => ?_
    simp [hd i (List.mem_range.1 hi)]
  | tree psort sort cornerPt f64Max =>
    rw [hsr] at h
    simp only
    apply tree_nearest_congr
    · rfl
    · rfl
    intro x hx
    exact hd _ (parNew_points h.1 h.2 cornerPt f64Max _ _ hx)

/-- The distances for fixed weights. -/
theorem nearestFor_fixed (s : CresSettings K V D) (events : List (Event K V)) : ∃ d : Nat → Nat → D, ∀ seed,
    s.search.nearestFor s.distance s.maxCellSize events (d seed) seed = s.search.nearest s.distance s.maxCellSize events seed := by
  cases hsr : s.search with
  | naive minPos => exact ⟨fun seed i => distWrapper s.distance events i seed, fun seed => rfl⟩
  | tree psort sort cornerPt f64Max => 
    refine ⟨fun seed i => distWrapper s.distance events seed i, fun seed => ?_⟩
    simp only [SearchAlgo.nearestFor, SearchAlgo.nearest, treeNearest]
    apply tree_nearest_congr
    · rfl
    · rfl
    intro x _
    rfl

theorem nearestFor_valid (hc : GoodChoices s) (events : List (Event K V)) (d : Nat → D) (seed : Nat) (hs : seed < events.length) :
    (∀ x ∈ s.search.nearestFor s.distance s.maxCellSize events d seed, x.1 < events.length) ∧
    (seed :: (s.search.nearestFor s.distance s.maxCellSize events d seed).map Prod.fst).Nodup := by
  have h := hc.search
  unfold SearchAlgo.nearestFor
  cases hsr : s.search with
  | naive minPos =>
    rw [hsr] at h
    have h1 := C11_naive_search_exact h events.length (fun i _ => d i) s.maxCellSize seed hs
    refine ⟨fun x hx => ?_, List.nodup_cons.2 ⟨fun hm => ?_, h1.nodup⟩⟩
    · have := ((h1.mem x.1).1 (List.mem_map.2 ⟨x, hx, rfl⟩)).1
      simpa using this
    · exact ((h1.mem seed).1 hm).2.1 rfl
  | tree psort sort cornerPt f64Max =>
    rw [hsr] at h
    obtain ⟨h1, h2⟩ := C13_sound_partial { (VPTree.parNew psort sort cornerPt f64Max (List.range events.length)
      (distWrapper s.distance events)).withMaxDist s.maxCellSize with dist := fun _ i => d i } seed
    refine ⟨fun x hx => ?_, List.nodup_cons.2 ⟨fun hm => ?_, h1⟩⟩
    · obtain ⟨y, hy, hyx⟩ := List.mem_map.1 (h2 x hx).1
      rw [← hyx]
      exact parNew_points h.1 h.2 cornerPt f64Max _ _ hy
    · obtain ⟨x, hx, hx1⟩ := List.mem_map.1 hm
      exact (h2 x hx).2.1 hx1

/-- The program with the neighbours that are found if the distance to event `i` from `seed` is evaluated to `d seed i`. -/
def withDistances (s : CresSettings K V D) (d : Nat → Nat → D) : Program K V D :=
  { s.program with nearest := fun events seed => s.search.nearestFor s.distance s.maxCellSize events (d seed) seed }

theorem withDistances_good (hc : GoodChoices s) (d : Nat → Nat → D) : GoodComponents (withDistances s d) := by
  obtain ⟨h1, h2⟩ := cres_goodComponents hc
  refine ⟨h1, fun evs => ?_⟩
  obtain ⟨hs, -, -⟩ := h2 evs
  exact ⟨hs, fun i hi => (nearestFor_valid hc evs _ i (hs i hi)).1, fun i hi => (nearestFor_valid hc evs _ i (hs i hi)).2⟩

end SearchAlgo

/-! ### complete runs -/

section Runs

variable {K V D P : Type*} [Zero D] [LinearOrder D] [DistNum D] [ExactComparison D] [Zero K] [One K] [Add K] [Mul K] [Div K] [Neg K] [NatCast K]
  [LinearOrder K] [LinearOrder V] [DecidableEq P] {s : CresSettings K V D}

/-- Possible outcomes of a run, with any results for the distances between events. -/
abbrev VaryingRun (s : CresSettings K V D) : List (P × P) → FS P → Option (List (Event K V)) → Option (List (Weights K)) →
    Outcome (CresError IOError) Unit → FS P → Prop :=
  Varying.Run s.program (s.search.nearestFor s.distance s.maxCellSize)

theorem extends_getD (cache : Nat → Option D) : Extends cache (fun i => (cache i).getD 0) := by
  intro i v h
  simp [h]

theorem varying_resamples {events : List (Event K V)} {o : Outcome IOError (List (Event K V))}
    (h : Varying.Resamples s.program (s.search.nearestFor s.distance s.maxCellSize) events o) :
    ∃ d, (withDistances s d).Resamples events o := by
  cases h with
  | log h => exact ⟨fun _ _ => 0, .log h⟩
  | @task v t h1 h2 h3 =>
    exact ⟨fun seed i => (v.cache seed i).getD 0, .task h1 (vreachable_fixed h2 _ fun seed => extends_getD _) (fill_panicked.2 h3)⟩
  | @ok v h1 h2 h3 =>
    exact ⟨fun seed i => (v.cache seed i).getD 0, .ok h1 ⟨_, vreachable_fixed h2 _ fun seed => extends_getD _, fill_finished.2 h3, rfl⟩⟩

theorem varying_weights {events : List (Event K V)} {o : Outcome (CresError IOError) (List (Weights K))}
    (h : Varying.ComputesWeights s.program (s.search.nearestFor s.distance s.maxCellSize) events o) :
    ∃ d, (withDistances s d).ComputesWeights events o := by
  cases h with
  | mk h =>
    obtain ⟨d, hd⟩ := varying_resamples h
    exact ⟨d, .mk hd⟩

theorem withDistances_reads {d : Nat → Nat → D} {c : CombinedIO K P} {fs : FS P} {o : Outcome (CresError IOError) (List (Event K V))}
    {x : CombinedIO K P × FS P} (h : s.program.ReadsEvents c fs o x) : (withDistances s d).ReadsEvents c fs o x := by
  cases h with
  | panic h => exact .panic h
  | done h1 h2 h3 => exact .done h1 h2 h3

/-- A run with distances that change is a run with some fixed distances for each seed. -/
theorem varying_run {files : List (P × P)} {fs fs' : FS P} {events : Option (List (Event K V))} {ws : Option (List (Weights K))}
    {res : Outcome (CresError IOError) Unit} (h : VaryingRun s files fs events ws res fs') :
    ∃ d, (withDistances s d).Run files fs events ws res fs' := by
  cases h with
  | createErr h => exact ⟨fun _ _ => 0, .createErr h⟩
  | createPanic h => exact ⟨fun _ _ => 0, .createPanic h⟩
  | readErr h1 h2 => exact ⟨fun _ _ => 0, .readErr h1 (withDistances_reads h2)⟩
  | readPanic h1 h2 => exact ⟨fun _ _ => 0, .readPanic h1 (withDistances_reads h2)⟩
  | weightsErr h1 h2 h3 =>
    obtain ⟨d, hd⟩ := varying_weights h3
    exact ⟨d, .weightsErr h1 (withDistances_reads h2) hd⟩
  | weightsPanic h1 h2 h3 =>
    obtain ⟨d, hd⟩ := varying_weights h3
    exact ⟨d, .weightsPanic h1 (withDistances_reads h2) hd⟩
  | update h1 h2 h3 =>
    obtain ⟨d, hd⟩ := varying_weights h3
    exact ⟨d, .update h1 (withDistances_reads h2) hd⟩

theorem fixed_weights (hc : GoodChoices s) {events : List (Event K V)} {o : Outcome (CresError IOError) (List (Weights K))}
    (h : s.program.ComputesWeights events o) :
    Varying.ComputesWeights s.program (s.search.nearestFor s.distance s.maxCellSize) events o := by
  cases h with
  | @mk resampled h =>
    refine .mk ?_
    generalize events.filter (fun e => !e.outgoingByPid.isEmpty) = evs at h ⊢
    obtain ⟨d, hd⟩ := nearestFor_fixed s evs
    have hnear : s.program.nearest evs = fun seed => s.search.nearestFor s.distance s.maxCellSize evs (d seed) seed := by
      funext seed
      exact (hd seed).symm
    cases h with
    | log h => exact .log h
    | @task st t h1 h2 h3 =>
      rw [hnear] at h2
      obtain ⟨v, g1, -, rfl⟩ := lift_reachable (nearestFor_local hc evs) d h2
      exact .task h1 g1 (fill_panicked.1 h3)
    | @ok evs' h1 h2 =>
      obtain ⟨st, h2, h3, rfl⟩ := h2
      rw [hnear] at h2
      obtain ⟨v, g1, -, rfl⟩ := lift_reachable (nearestFor_local hc evs) d h2
      exact .ok h1 g1 (fill_finished.1 h3)

/-- **C112**: the runs with distances that do not change are among those considered. -/
theorem C112_fixed (hc : GoodChoices s) {files : List (P × P)} {fs fs' : FS P} {events : Option (List (Event K V))}
    {ws : Option (List (Weights K))} {res : Outcome (CresError IOError) Unit} (h : s.program.Run files fs events ws res fs') :
    VaryingRun s files fs events ws res fs' := by
  cases h with
  | createErr h => exact .createErr h
  | createPanic h => exact .createPanic h
  | readErr h1 h2 => exact .readErr h1 h2
  | readPanic h1 h2 => exact .readPanic h1 h2
  | weightsErr h1 h2 h3 => exact .weightsErr h1 h2 (fixed_weights hc h3)
  | weightsPanic h1 h2 h3 => exact .weightsPanic h1 h2 (fixed_weights hc h3)
  | update h1 h2 h3 => exact .update h1 h2 (fixed_weights hc h3)

/-- **C112**: whatever the distances between events are whenever they are evaluated, in release builds parallel resampling can
be continued to its end from each state that can be reached: no interleaving leads to a panic or a deadlock. -/
theorem C112_can_finish (hc : GoodChoices s) (hd : s.io.ctx.debug = false) (events : List (Event K V)) {L : Nat}
    (hu : Uniform s.program.cfg events.length L (memOf events)) {v : VState D K}
    (h : VReachable s.program.cfg events.length (s.search.nearestFor s.distance s.maxCellSize events) (s.program.seeds events)
      (memOf events) v) :
    (∀ t, v.core.tasks t ≠ .panicked) ∧
    ∃ v', Relation.ReflTransGen (VStep s.program.cfg events.length (s.search.nearestFor s.distance s.maxCellSize events)
      (s.program.seeds events)) v v' ∧ v'.core.Finished (s.program.seeds events) := by
  generalize hD : (fun seed i => (v.cache seed i).getD 0) = d
  have hext : ∀ seed, Extends (v.cache seed) (d seed) := by
    subst hD
    exact fun seed => extends_getD _
  have hval := (withDistances_good hc d).valid events
  refine ⟨fun t ht => ?_, ?_⟩
  · have hr := vreachable_fixed h d hext
    exact C08_no_panic hd hval hu hr t (fill_panicked.2 ht)
  · obtain ⟨v1, h1, h2, h3, h4⟩ := evaluate_all (cfg := s.program.cfg) (n := events.length)
      (search := s.search.nearestFor s.distance s.maxCellSize events) (seeds := s.program.seeds events) d v hext
    have hr1 := vreachable_path h h1
    obtain ⟨sched, s', g1, g2⟩ := C08_can_finish hd hval hu (vreachable_fixed hr1 d h3)
    obtain ⟨v', g3, g4⟩ := lift_schedule (nearestFor_local hc events) hr1 h4 g1
    subst g4
    exact ⟨v', h1.trans g3, fill_finished.1 g2⟩

/-- **C112**: in release builds, every run without unweighting gets as far as writing weights, whatever the distances are, and there
is such a run. -/
theorem C112_completes (hc : GoodChoices s) (h0 : s.minWeight = 0) (hd : s.io.ctx.debug = false) {fs : FS P} {files : List (P × P)}
    {ds : List (EventFile K V)} (hin : EventFiles s.io fs (files.map Prod.fst) ds) (hf : GoodFiles files) (hs : WeightsSupported s.io ds) :
    (∀ events ws res fs', VaryingRun s files fs events ws res fs' → ∃ ws', ws = some ws') ∧
    ∃ events ws res fs', VaryingRun s files fs events ws res fs' := by
  obtain ⟨m, hm0, hm1, hm, -⟩ := supported_weights (p := s.program) hin hs
  have key : ∀ p : Program K V D, p.io = s.io → p.cluster = s.program.cluster → p.unweight = s.program.unweight → GoodComponents p →
      (∀ events ws res fs', p.Run files fs events ws res fs' → ∃ ws', ws = some ws') ∧
      ∃ events ws res fs', p.Run files fs events ws res fs' := by
    intro p h1 h2 h3 hg
    refine run_completes (by rw [h1]; exact hd) hm0 (by rw [h1]; exact hm1) hg (by rw [h3]; exact cres_unweight h0) hm
      (by rw [h1]; exact hin) hf ?_
    rw [h2]
    exact fun ev hev => ⟨_, rfl, eventFiles_id hin ev hev⟩
  refine ⟨fun events ws res fs' h => ?_, ?_⟩
  · obtain ⟨d, h⟩ := varying_run h
    exact (key (withDistances s d) rfl rfl rfl (withDistances_good hc d)).1 _ _ _ _ h
  · obtain ⟨_, _, _, _, h⟩ := (key _ rfl rfl rfl (cres_goodComponents hc)).2
    exact ⟨_, _, _, _, C112_fixed hc h⟩

end Runs

section Exact

variable {K V D P : Type*} [Zero D] [LinearOrder D] [DistNum D] [ExactComparison D] [Field K] [LinearOrder K] [IsStrictOrderedRing K]
  [LinearOrder V] [DecidableEq P] {s : CresSettings K V D}

/-- **C112**: whatever the distances between events are whenever they are evaluated, in a run without unweighting, if the new
weights can be written, the run succeeds, and the output files contain the same events up to their weights. The sum of weights
is conserved, except that without `multiweight` weights of events without particles are missing. The contribution of negative
weights, the sum of absolute values and the sum of squares do not increase. -/
theorem C112_run (hc : GoodChoices s) (h0 : s.minWeight = 0) {fs fs' : FS P} {files : List (P × P)}
    {ds : List (EventFile K V)} (hin : EventFiles s.io fs (files.map Prod.fst) ds) (hf : GoodFiles files) (hs : WeightsSupported s.io ds)
    {events : Option (List (Event K V))} {ws : List (Weights K)} {res : Outcome (CresError IOError) Unit}
    (h : VaryingRun s files fs events (some ws) res fs') (hw : ∀ w ∈ ws, ∀ x ∈ w, ∀ d ∈ ds, Writable s.io d.kind x) :
    res = .ok () ∧ ∃ ds', EventFiles s.io fs' (files.map Prod.snd) ds' ∧ List.Forall₂ SameExceptWeights ds ds' ∧
      ∀ k, weightSumNo k (allEvents ds') =
          weightSumNo k ((allEvents ds).filter fun ev => s.io.ctx.multi || HasParticles s.program ev) ∧
        negativeSum k (allEvents ds') ≤ negativeSum k (allEvents ds) ∧
        absSum k (allEvents ds') ≤ absSum k (allEvents ds) ∧ squareSum k (allEvents ds') ≤ squareSum k (allEvents ds) := by
  obtain ⟨d, h⟩ := varying_run h
  have hg := withDistances_good hc d
  have hun : (withDistances s d).unweight = .ok := cres_unweight h0
  obtain ⟨m, events, hm0, hm1, rfl, he, hcw, h1⟩ := supported_run hg hun hin hf hs h
  obtain ⟨st, hr, hfin, hrun⟩ := computesWeights_state hcw
  have hsum := (weights_written_all (M := K) hg hun hm0 hm1 he hr hfin hrun).2.2
  have h8 := (weights_passed_all hg hun hm0 hm1 he hcw).2.2
  obtain ⟨h2, ds', h3, h4, h5⟩ := h1 hw
  refine ⟨h2, ds', h3, h4, fun k => ⟨by rw [h5]; exact h8 k, ?_⟩⟩
  obtain ⟨g1, g2, g3⟩ := C07_no_increase_parallel (hg.valid _) (read_weights hg hm0 hm1 he) hr hfin k
  have key : ∀ φ : K → K, (∀ x, φ 0 ≤ φ x) →
      ∑ j ∈ Finset.range (identified events).length, φ (wt st.mem k j) ≤
        ∑ j ∈ Finset.range (identified events).length, φ (wt (memOf (identified events)) k j) →
      ((allEvents ds').map fun e => φ (weightNo k e)).sum ≤ ((allEvents ds).map fun e => φ (weightNo k e)).sum := by
    intro φ h0 hle
    obtain ⟨e1, e2, -⟩ := (hsum k).1 φ
    rw [h5, e1, e2]
    refine add_le_add hle (list_sum_le _ fun e _ => ?_)
    split_ifs
    · exact le_rfl
    · exact h0 _
  refine ⟨?_, ?_, ?_⟩
  · exact key (fun x => max (-x) 0) (fun x => by simp) g1
  · exact key (fun x => |x|) (fun x => by simp) g2
  · exact key (fun x => x ^ 2) (fun x => by simpa using sq_nonneg x) g3

end Exact

/-! ### example -/

/-- The settings of the example for C110 with limit 2. -/
def exVary : CresSettings ℚ ℚ ℚ := { exLimit 2 with io := exLimitX.io (exLimit 2) }

theorem exVary_choices : GoodChoices exVary := ⟨(exLimit_choices 2).search, (exLimit_choices 2).seeds, (exLimit_choices 2).rng⟩

/-- The neighbour search in the example. -/
abbrev exVarySearch : (Nat → ℚ) → Nat → List (Nat × ℚ) := exVary.search.nearestFor exVary.distance exVary.maxCellSize exLimitEvents

/-- The distances: those from the first event are evaluated to smaller values than for the weights in the input. -/
def exVaried (seed i : Nat) : ℚ := if seed = 0 then i / 4 else distWrapper exVary.distance exLimitEvents seed i

/-- With these distances the first event shares a cell with the second and the third one, and then the last event shares a cell with
the third one. -/
theorem exVaried_reached : ∃ v, VReachable exVary.program.cfg 4 exVarySearch (exVary.program.seeds exLimitEvents) (memOf exLimitEvents) v ∧
    v.core.Finished (exVary.program.seeds exLimitEvents) ∧ withWeights exLimitEvents v.core.mem =
      [⟨0, [3], [(81, [10])]⟩, ⟨1, [3], [(81, [9])]⟩, ⟨2, [-2], [(81, [13])]⟩, ⟨3, [-2], [(81, [15])]⟩] := by
  have h1 : (runSchedule exVary.program.cfg 4 (fun seed => exVarySearch (exVaried seed) seed) (exVary.program.seeds exLimitEvents)
      (serialSchedule 0 [13, 10]) (State.init (memOf exLimitEvents))).map (fun st => ([st.tasks 0, st.tasks 1], withWeights exLimitEvents st.mem)) =
        some ([.done (some ⟨[0, 1, 2], 1 / 2, 9⟩), .done (some ⟨[2, 3], 2, -4⟩)],
          [⟨0, [3], [(81, [10])]⟩, ⟨1, [3], [(81, [9])]⟩, ⟨2, [-2], [(81, [13])]⟩, ⟨3, [-2], [(81, [15])]⟩]) := by
    decide +kernel
  cases hr : runSchedule exVary.program.cfg 4 (fun seed => exVarySearch (exVaried seed) seed) (exVary.program.seeds exLimitEvents)
      (serialSchedule 0 [13, 10]) (State.init (memOf exLimitEvents)) with
  | none => rw [hr] at h1; simp at h1
  | some st =>
    rw [hr] at h1
    simp only [Option.map_some, Option.some.injEq, Prod.mk.injEq, List.cons.injEq, and_true] at h1
    have hfin : st.Finished (exVary.program.seeds exLimitEvents) := by
      have hseeds : exVary.program.seeds exLimitEvents = [0, 3] := by decide +kernel
      rw [hseeds]
      intro t ht
      have : t = 0 ∨ t = 1 := by
        simp only [List.length_cons, List.length_nil] at ht
        omega
      rcases this with rfl | rfl
      · exact ⟨_, h1.1.1⟩
      · exact ⟨_, h1.1.2⟩
    have h2 : Reachable exVary.program.cfg 4 (fun seed => exVarySearch (exVaried seed) seed) (exVary.program.seeds exLimitEvents)
      (memOf exLimitEvents) st := runSchedule_reachable _ Reachable.init hr
    obtain ⟨v, g1, -, rfl⟩ := lift_reachable (nearestFor_local exVary_choices exLimitEvents) exVaried h2
    exact ⟨v, g1, fill_finished.1 hfin, h1.2⟩

/-- A complete run in which distances change: the final weights are 3, 3, -2, -2. With fixed distances they are -1, -1, 2, 2, see
`exLimit_small`. -/
example : ∃ (files : List (List Bytes × List Bytes)) (fs : FS (List Bytes)) (res : _) (fs' : FS (List Bytes)) (ds : _), VaryingRun exVary files fs (some exLimitEvents) (some [[3], [3], [-2], [-2]]) res fs' ∧
    EventFiles exVary.io fs (files.map Prod.fst) ds ∧ GoodFiles files ∧ WeightsSupported exVary.io ds ∧
    (∀ w ∈ ([[3], [3], [-2], [-2]] : List (Weights ℚ)), ∀ x ∈ w, ∀ d ∈ ds, Writable exVary.io d.kind x) := by
  obtain ⟨h1, h2, h3⟩ := (exLimitX_good 2).inputs.files
  have hin := (exLimitX_good 2).files
  rw [← h3] at hin
  obtain ⟨c, fs1, y, g1, g2⟩ := reads_exist (s := exVary) hin h2 (m := 1)
    (events := exLimitEvents) ⟨(exLimit_reads 2).ids, (exLimit_reads 2).from_file⟩
  obtain ⟨v, q1, q2, q3⟩ := exVaried_reached
  have hcw : Varying.ComputesWeights exVary.program (exVary.search.nearestFor exVary.distance exVary.maxCellSize) exLimitEvents
      (.ok [[3], [3], [-2], [-2]]) := by
    have hok := Varying.Resamples.ok (p := exVary.program) (search := exVary.search.nearestFor exVary.distance exVary.maxCellSize)
      (events := exLimitEvents) (s := v) (by decide +kernel) q1 q2
    rw [q3] at hok
    have := Varying.ComputesWeights.mk (events := exLimitEvents) hok
    have hw : runWeights exVary.program.cfg exVary.program.infoLog (fun _ => (.ok
      [⟨0, [3], [(81, [10])]⟩, ⟨1, [3], [(81, [9])]⟩, ⟨2, [-2], [(81, [13])]⟩, ⟨3, [-2], [(81, [15])]⟩] : Outcome IOError _))
      exVary.program.unweight exLimitEvents = .ok [[3], [3], [-2], [-2]] := by decide +kernel
    rw [hw] at this
    exact this
  exact ⟨_, _, _, _, _, .update g1 g2 hcw, hin, h2, (exLimitX_good 2).weights, exLimit_writable 2 (by decide +kernel)⟩

end Cres

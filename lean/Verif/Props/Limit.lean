import Verif.Proofs.Limit
import Verif.Props.Separate

/-!
# C110: a larger limit for the size of cells
-/

set_option linter.unusedSectionVars false

namespace Cres

open Spec CombinedIO Program Cres.Path

section

variable {K V D : Type*} [AddCommGroup D] [LinearOrder D] [IsOrderedAddMonoid D] [Field K] [LinearOrder K]
  [IsStrictOrderedRing K] [LinearOrder V]

theorem Spec.Sample.Good.limit {s s' : CresSettings K V D} {limit : D} (hs : SameExceptOrder { s with maxCellSize := limit } s')
    {x : Sample K V} (hx : x.Good s) : x.Good s' := by
  have hio : x.io s' = x.io s := by unfold Spec.Sample.io; rw [hs.io]
  exact ⟨by rw [hs.io]; exact hx.inputs, by rw [hio]; exact hx.files, by rw [hio]; exact hx.weights⟩

/-- **C110**, if events with negative weight do not share neighbours: with the larger limit the contribution of negative
weights in the output files is at most the one with the smaller limit. The runs need not have the same strategy, neighbour
search or number of threads, and this holds for all interleavings. -/
theorem C110_apart_partial {s s' : CresSettings K V D} {limit : D} (hs : SameExceptOrder { s with maxCellSize := limit } s')
    (hle : s.maxCellSize ≤ limit) (hc : GoodChoices s) (hc' : GoodChoices s') (h0 : s.minWeight = 0) (hd : IgnoresIds s.distance)
    {x : Sample K V} (hx : x.Good s) (hlen : x.events.length ≤ usizeMax) (hm : IsMetricOn (· ∈ x.clustered s) s.distance)
    (ha : NegativeApart s.distance limit (x.clustered s)) {ws ws' : List (Weights K)} {res res' : Outcome MainError Unit}
    {fs1 fs2 : FS (List Bytes)} (h : x.Run s ws res fs1) (h' : x.Run s' ws' res' fs2) (hw : x.CanWrite s ws)
    (hw' : x.CanWrite s' ws') :
    res = .ok () ∧ res' = .ok () ∧ ∃ out out', x.Wrote s fs1 out ∧ x.Wrote s' fs2 out' ∧
      negativeSum 0 (allEvents out') ≤ negativeSum 0 (allEvents out) := by
  have hx2 := hx.limit hs
  obtain ⟨m, hm0, hm1, hmw, -⟩ := supported_weights (p := CresSettings.program { s with io := x.io s }) hx.files hx.weights
  obtain ⟨events, he, hcw⟩ := hx.run hmw h
  obtain ⟨events', he', hcw'⟩ := hx2.run hmw h'
  have hmulti : s'.program.io = s.program.io := hs.io
  have hun := cres_unweight h0
  have hun' : s'.program.unweight = .ok := cres_unweight (s := s') (by rw [hs.minWeight]; exact h0)
  have hg := cres_goodComponents hc
  have hg' := cres_goodComponents hc'
  have hu := read_weights hg hm0 hm1 he
  have hu' := read_weights hg' hm0 (by rw [hmulti]; exact hm1) he'
  have hs2 := hs.next
  have he2 : EventsRead (CresSettings.program { s with maxCellSize := limit, strategy := .next }) m x.files events :=
    ⟨he.ids, he.from_file⟩
  have he2' : EventsRead (CresSettings.program { s' with strategy := .next }) m x.files events' := ⟨he'.ids, he'.from_file⟩
  have hperm : events.Perm events' := by
    have := eventsRead_perm (s := { s with maxCellSize := limit, strategy := .next }) hs2 he2 he2' rfl (τ := _root_.id)
      ⟨fun _ h => h, fun _ _ _ _ h => h⟩ fun _ _ => rfl
    rwa [show (Event.reid _root_.id : Event K V → Event K V) = _root_.id from rfl, List.map_id] at this
  have hip : (identified events).Perm (identified events') := hperm.filter _
  have hmet := metric_read hd hm he
  have hmi := identified_metric hmet
  have hmi' : IsMetricOn (· ∈ identified events') s'.distance := by
    rw [hs.distance]
    exact isMetricOn_perm hip.symm hmi
  have hil : (identified events).length ≤ usizeMax :=
    (List.length_filter_le _ _).trans (by rw [he.length_eq]; exact hlen)
  have hap := negativeApart_read hd ha he
  have hap1 : NegativeApart s.distance s.maxCellSize (identified events) :=
    ⟨fun i j a b ha hb hij pa pb na nb => hle.trans_lt (hap.negative i j a b ha hb hij pa pb na nb),
      fun i j k a b c ha hb hcc hij hik hjk pa pb pc na nb hab =>
        hle.trans_lt (hap.shared i j k a b c ha hb hcc hij hik hjk pa pb pc na nb (hab.trans hle))⟩
  have hap2 : NegativeApart s'.distance s'.maxCellSize (identified events') := by
    rw [hs.distance, hs.maxCellSize]
    obtain ⟨τ', -, t2, t3⟩ := perm_positions hip.symm
    refine hap.transfer hd τ' (fun i j hi hj => t2 i hi j hj) fun i a hia => ?_
    have := t3 i (List.getElem?_eq_some_iff.1 hia).1
    exact ⟨a, a.id, by rw [this]; exact hia, rfl⟩
  obtain ⟨st, r1, r2, r3⟩ := computesWeights_state hcw
  obtain ⟨st', r1', r2', r3'⟩ := computesWeights_state hcw'
  have k1 := leftover_eq hc hil hmi identified_particles hap1 hu r1 r2
  have k2 := leftover_eq hc' (by rw [← hip.length_eq]; exact hil) hmi' identified_particles hap2 hu' r1' r2'
  have k3 : leftover s'.distance s'.maxCellSize (identified events') ≤ leftover s.distance s.maxCellSize (identified events) := by
    rw [hs.distance, hs.maxCellSize, ← leftover_perm hip]
    exact leftover_mono hle identified_particles hap
  have hsum := (((weights_written_all (M := K) hg hun hm0 hm1 he r1 r2 r3).2.2 0).1 fun y => max (-y) 0).1
  have hsum' := (((weights_written_all (M := K) hg' hun' hm0 (by rw [hmulti]; exact hm1) he' r1' r2' r3').2.2 0).1 fun y => max (-y) 0).1
  obtain ⟨rfl, out, w1, w2⟩ := hx.wrote hc h hw
  obtain ⟨rfl, out', w1', w2'⟩ := hx2.wrote hc' h' hw'
  refine ⟨rfl, rfl, out, out', w1, w1', ?_⟩
  unfold negativeSum
  rw [w2, w2']
  refine (hsum'.le.trans ?_).trans hsum.ge
  refine add_le_add ?_ (le_of_eq ?_)
  · change negativeTotal _ _ _ ≤ negativeTotal _ _ _
    rw [k1, k2]
    exact k3
  · rw [hmulti]
    exact ((hperm.symm.filter _).map _).sum_eq

end

/-- **C110**, if events with negative weight do not share neighbours, with the distance of the command line program. -/
theorem C110_default_distance_partial {K : Type*} [Field K] [LinearOrder K] [IsStrictOrderedRing K]
    {s s' : CresSettings K FourVector ℝ} {limit : ℝ} (hs : SameExceptOrder { s with maxCellSize := limit } s')
    (hle : s.maxCellSize ≤ limit) (hc : GoodChoices s) (hc' : GoodChoices s') (h0 : s.minWeight = 0)
    {km : SquareMatrix ℝ → ℝ} (hkm : SolvesAssignment km) {τ : ℝ} (hd : s.distance = euclDistance km τ)
    {x : Sample K FourVector} (hx : x.Good s) (hlen : x.events.length ≤ usizeMax)
    (ha : NegativeApart s.distance limit (x.clustered s)) {ws ws' : List (Weights K)} {res res' : Outcome MainError Unit}
    {fs1 fs2 : FS (List Bytes)} (h : x.Run s ws res fs1) (h' : x.Run s' ws' res' fs2) (hw : x.CanWrite s ws)
    (hw' : x.CanWrite s' ws') :
    res = .ok () ∧ res' = .ok () ∧ ∃ out out', x.Wrote s fs1 out ∧ x.Wrote s' fs2 out' ∧
      negativeSum 0 (allEvents out') ≤ negativeSum 0 (allEvents out) := by
  refine C110_apart_partial hs hle hc hc' h0 (by rw [hd]; exact C89_default_distance km τ) hx hlen ?_ ha h h' hw hw'
  rw [hd]
  refine (euclDistance_metric hkm τ ?_).2
  intro e he
  obtain ⟨e0, -, rfl⟩ := List.mem_map.1 he
  exact cluster_canonical _ _ _ _

/-- **C110** as expected: with a larger limit for the size of cells there is no more negative weight in the output files. Here
for runs on one thread without unweighting, a distance that is a metric, and events without equal distances or weights, so that
the weights do not depend on other choices (C98). -/
def C110_claim : Prop :=
  ∀ (s : CresSettings ℚ ℚ ℚ) (limit : ℚ), GoodChoices s → s.minWeight = 0 → IgnoresIds s.distance → s.maxCellSize ≤ limit →
    ∀ x : Sample ℚ ℚ, x.Good s → x.events.length ≤ usizeMax → IsMetricOn (· ∈ x.clustered s) s.distance →
    NoChoice s (x.clustered s) → NoChoice { s with maxCellSize := limit } (x.clustered s) →
    ∀ events ws res fs1 events' ws' res' fs2,
      OneThreadRun s x.cwd x.outdir (x.ins.map fun y => y.1 ++ y.2) x.fs events ws res fs1 →
      OneThreadRun { s with maxCellSize := limit } x.cwd x.outdir (x.ins.map fun y => y.1 ++ y.2) x.fs events' ws' res' fs2 →
      ∀ out out', x.Wrote s fs1 out → x.Wrote { s with maxCellSize := limit } fs2 out' →
        negativeSum 0 (allEvents out') ≤ negativeSum 0 (allEvents out)

/-! ### example -/

/-- Four events, two of them with negative weight. -/
def exLimitA : EventFile ℚ ℚ :=
  ⟨⟨.hepmc2, ascii "H\n", [ascii "E 1 2 3 4 5 6 7 8 9 0 0 1 -8\nP 1 21 0 0 0 10 0 1 0 0 0\n",
    ascii "E 1 2 3 4 5 6 7 8 9 0 0 1 6\nP 1 21 0 0 0 9 0 1 0 0 0\n",
    ascii "E 1 2 3 4 5 6 7 8 9 0 0 1 11\nP 1 21 0 0 0 13 0 1 0 0 0\n",
    ascii "E 1 2 3 4 5 6 7 8 9 0 0 1 -7\nP 1 21 0 0 0 15 0 1 0 0 0\n"]⟩,
   [⟨0, [-8], [(21, [10])]⟩, ⟨0, [6], [(21, [9])]⟩, ⟨0, [11], [(21, [13])]⟩, ⟨0, [-7], [(21, [15])]⟩]⟩

theorem exLimitA_ok : IsEventFile (exSettings false).io (exLimitA.header ++ exLimitA.records.flatten) exLimitA := by
  refine ⟨⟨by decide +kernel, ?_, ⟨rfl, by simp [exLimitA], by decide +kernel, ?_, ?_, ?_, ?_⟩, ?_⟩, ?_⟩
  · exact fun rest => detectFormat_append _ (b := 72) (h := [10]) (by decide) (Or.inr (by decide)) rest
  · unfold Contains; decide +kernel
  · decide +kernel
  · unfold Contains; decide +kernel
  · decide +kernel
  · decide +kernel
  · refine .cons ?_ (.cons ?_ (.cons ?_ (.cons ?_ .nil))) <;> (show HepMC.parse _ _ = _) <;> decide +kernel

def exLimitFS : FS (List Bytes) := fun p =>
  if p = [ascii "data", ascii "a"] then some (exLimitA.header ++ exLimitA.records.flatten) else none

/-- The settings of the example for C74 with another limit for the size of cells. -/
def exLimit (limit : ℚ) : CresSettings ℚ ℚ ℚ := { exMain false (fun _ => none) with maxCellSize := limit }

def exLimitX : Sample ℚ ℚ := ⟨[], ascii "/out", [(ascii "/data/", ascii "a")], [none], exLimitFS, [exLimitA]⟩

theorem exLimit_choices (limit : ℚ) : GoodChoices (exLimit limit) :=
  ⟨(exSettings_good false).search, (exSettings_good false).seeds, (exSettings_good false).rng⟩

theorem exLimitX_good (limit : ℚ) : exLimitX.Good (exLimit limit) := by
  refine ⟨⟨?_, ?_, by decide +kernel, .cons ⟨_, rfl, ?_⟩ .nil, Or.inl rfl⟩,
    .cons ⟨_, by decide +kernel, exLimitA_ok⟩ .nil, .inl fun _ => rfl⟩
  · unfold IsFilePath IsName
    decide +kernel
  · decide +kernel
  · change ¬ ascii "<?xml" <+: trimAsciiStart ((exMain false fun _ => none).io.firstBuffer (exLimitA.header ++ exLimitA.records.flatten))
    decide +kernel

theorem exLimit_clustered (limit : ℚ) : exLimitX.clustered (exLimit limit) =
    [⟨0, [-8], [(81, [10])]⟩, ⟨0, [6], [(81, [9])]⟩, ⟨0, [11], [(81, [13])]⟩, ⟨0, [-7], [(81, [15])]⟩] := by
  change exLimitX.clustered (exMain false fun _ => none) = _
  decide +kernel

def exLimitEvents : List (Event ℚ ℚ) :=
  [⟨0, [-8], [(81, [10])]⟩, ⟨1, [6], [(81, [9])]⟩, ⟨2, [11], [(81, [13])]⟩, ⟨3, [-7], [(81, [15])]⟩]

theorem exLimit_reads (limit : ℚ) : EventsRead (exLimit limit).program 1 exLimitX.files exLimitEvents := by
  refine ⟨by decide +kernel, fun e he => ?_⟩
  change ∃ e0 e1, _ ∧ (exMain false fun _ => none).program.cluster e0 = .ok e1 ∧ _
  simp only [exLimitEvents, List.mem_cons, List.not_mem_nil, or_false] at he
  rcases he with rfl | rfl | rfl | rfl
  · exact ⟨⟨0, [-8], [(21, [10])]⟩, ⟨0, [-8], [(81, [10])]⟩, by decide +kernel, by decide +kernel, rfl, rfl⟩
  · exact ⟨⟨0, [6], [(21, [9])]⟩, ⟨0, [6], [(81, [9])]⟩, by decide +kernel, by decide +kernel, rfl, rfl⟩
  · exact ⟨⟨0, [11], [(21, [13])]⟩, ⟨0, [11], [(81, [13])]⟩, by decide +kernel, by decide +kernel, rfl, rfl⟩
  · exact ⟨⟨0, [-7], [(21, [15])]⟩, ⟨0, [-7], [(81, [15])]⟩, by decide +kernel, by decide +kernel, rfl, rfl⟩

theorem exLimit_oneThread {limit : ℚ} {k1 k2 : Nat} {c1 c2 : Cell ℚ ℚ} {w0 w1 w2 w3 : ℚ}
    (hseeds : (exLimit limit).program.seeds exLimitEvents = [0, 3])
    (hdec : (runSchedule (exLimit limit).program.cfg 4 ((exLimit limit).program.nearest exLimitEvents)
      ((exLimit limit).program.seeds exLimitEvents) (serialSchedule 0 [k1, k2]) (State.init (memOf exLimitEvents))).map
      (fun s => ([s.tasks 0, s.tasks 1], [s.mem 0, s.mem 1, s.mem 2, s.mem 3])) =
        some ([.done (some c1), .done (some c2)], [[w0], [w1], [w2], [w3]]))
    (hws : runWeights (exLimit limit).program.cfg (exLimit limit).program.infoLog (fun _ => (.ok
      [⟨0, [w0], [(81, [10])]⟩, ⟨1, [w1], [(81, [9])]⟩, ⟨2, [w2], [(81, [13])]⟩, ⟨3, [w3], [(81, [15])]⟩] : Outcome IOError _))
      (exLimit limit).program.unweight exLimitEvents = .ok [[w0], [w1], [w2], [w3]]) :
    OneThreadWeights (exLimit limit).program exLimitEvents [[w0], [w1], [w2], [w3]] := by
  cases hr : runSchedule (exLimit limit).program.cfg 4 ((exLimit limit).program.nearest exLimitEvents)
      ((exLimit limit).program.seeds exLimitEvents) (serialSchedule 0 [k1, k2]) (State.init (memOf exLimitEvents)) with
  | none => rw [hr] at hdec; simp at hdec
  | some st =>
    rw [hr] at hdec
    simp only [Option.map_some, Option.some.injEq, Prod.mk.injEq, List.cons.injEq, and_true] at hdec
    obtain ⟨⟨d1, d2⟩, d3, d4, d5, d6⟩ := hdec
    refine ⟨exLimitEvents, [k1, k2], st, by decide, by rw [hseeds]; rfl, hr, ?_, ?_⟩
    · intro t ht
      rw [hseeds] at ht
      have : t = 0 ∨ t = 1 := by
        simp only [List.length_cons, List.length_nil] at ht
        omega
      rcases this with rfl | rfl
      · exact ⟨_, d1⟩
      · exact ⟨_, d2⟩
    · have hw : withWeights exLimitEvents st.mem =
          [⟨0, [w0], [(81, [10])]⟩, ⟨1, [w1], [(81, [9])]⟩, ⟨2, [w2], [(81, [13])]⟩, ⟨3, [w3], [(81, [15])]⟩] := by
        simp [withWeights, exLimitEvents, d3, d4, d5, d6]
      rw [hw]
      exact hws

/-- With the limit 2 there are two cells with two events each. -/
theorem exLimit_small : OneThreadWeights (exLimit 2).program exLimitEvents [[-1], [-1], [2], [2]] :=
  exLimit_oneThread (k1 := 10) (k2 := 9) (c1 := ⟨[0, 1], 1, -2⟩) (c2 := ⟨[2, 3], 2, 4⟩) (by decide +kernel) (by decide +kernel)
    (by decide +kernel)

/-- With the limit 3 the first cell contains three events, and the positive weight that is left for the second one is too
small. -/
theorem exLimit_large : OneThreadWeights (exLimit 3).program exLimitEvents [[3], [3], [-2], [-2]] :=
  exLimit_oneThread (k1 := 13) (k2 := 10) (c1 := ⟨[0, 1, 2], 3, 9⟩) (c2 := ⟨[2, 3], 2, -4⟩) (by decide +kernel) (by decide +kernel)
    (by decide +kernel)

theorem exLimit_runs {limit : ℚ} {ws : List (Weights ℚ)} (hone : OneThreadWeights (exLimit limit).program exLimitEvents ws) :
    ∃ res fs', OneThreadRun (exLimit limit) exLimitX.cwd exLimitX.outdir (exLimitX.ins.map fun y => y.1 ++ y.2) exLimitX.fs
      exLimitEvents ws res fs' ∧ exLimitX.Run (exLimit limit) ws res fs' := by
  obtain ⟨h1, h2, h3⟩ := (exLimitX_good limit).inputs.files
  have hin := (exLimitX_good limit).files
  rw [← h3] at hin
  obtain ⟨c, fs1, y, g1, g2⟩ := reads_exist (s := { exLimit limit with io := exLimitX.io (exLimit limit) }) hin h2 (m := 1)
    (events := exLimitEvents) ⟨(exLimit_reads limit).ids, (exLimit_reads limit).from_file⟩
  obtain ⟨evs, ks, st, rfl, q1, q2, q3, q4⟩ := hone
  have hcw : (exLimit limit).program.ComputesWeights exLimitEvents (.ok ws) := by
    rw [← q4]
    exact .mk (.ok (by change logSumsPanics (exMain false fun _ => none).program.cfg true _ = false; decide +kernel) ⟨st, runSchedule_reachable _ Reachable.init q2, q3, rfl⟩)
  have hrun := Program.Run.update g1 g2 (computes_scaling (exLimit limit).io.scaling _ hcw)
  exact ⟨_, _, ⟨_, _, _, h1, hrun, ⟨_, ks, st, rfl, q1, q2, q3, q4⟩, rfl⟩, .run h1 hrun⟩

theorem exLimit_metric (limit : ℚ) : IsMetricOn (· ∈ exLimitX.clustered (exLimit limit)) (exLimit limit).distance :=
  ⟨fun _ _ _ _ => abs_sub_comm _ _, fun _ _ _ _ _ _ => abs_sub_le _ _ _⟩

theorem exLimit_noChoice (limit : ℚ) : NoChoice (exLimit limit) (exLimitX.clustered (exLimit limit)) := by
  rw [exLimit_clustered]
  refine ⟨?_, Or.inr ?_⟩
  · intro i j k a b c ha hb hc hij hik _ _ _ hneg _ heq
    have hi := (List.getElem?_eq_some_iff.1 ha).1
    have hj := (List.getElem?_eq_some_iff.1 hb).1
    have hk := (List.getElem?_eq_some_iff.1 hc).1
    simp only [List.length_cons, List.length_nil] at hi hj hk
    interval_cases i <;> interval_cases j <;> interval_cases k <;> simp at ha hb hc hij hik ⊢ <;> subst ha hb hc <;>
      simp [exLimit, exMain, exSettings, centralWeight] at hneg heq <;> (first | (norm_num at hneg; done) | (norm_num at heq; done) | norm_num [abs_of_neg] at heq)
  · intro i j a b ha hb _ _ hneg heq
    have hi := (List.getElem?_eq_some_iff.1 ha).1
    have hj := (List.getElem?_eq_some_iff.1 hb).1
    simp only [List.length_cons, List.length_nil] at hi hj
    interval_cases i <;> interval_cases j <;> simp at ha hb ⊢ <;> subst ha hb <;>
      simp [centralWeight] at hneg heq <;> (first | (norm_num at hneg; done) | norm_num at heq)

theorem exLimit_writable (limit : ℚ) {ws : List (Weights ℚ)} (h : ∀ w ∈ ws, ∀ c ∈ w, (exMain false fun _ => none).io.ctx.float.finite c = true) :
    exLimitX.CanWrite (exLimit limit) ws := by
  intro w hw c hc d hd
  simp only [exLimitX, List.mem_cons, List.not_mem_nil, or_false] at hd
  subst hd
  exact ⟨h w hw c hc, trivial⟩

/-- The weights in the output of a run: the sum of negative weights. -/
theorem exLimit_out {limit : ℚ} {ws : List (Weights ℚ)} (hone : OneThreadWeights (exLimit limit).program exLimitEvents ws)
    (h : ∀ w ∈ ws, ∀ c ∈ w, (exMain false fun _ => none).io.ctx.float.finite c = true) :
    ∃ res fs' out, OneThreadRun (exLimit limit) exLimitX.cwd exLimitX.outdir (exLimitX.ins.map fun y => y.1 ++ y.2) exLimitX.fs
      exLimitEvents ws res fs' ∧ exLimitX.Wrote (exLimit limit) fs' out ∧
      allEvents out = List.zipWith reweighted ws exLimitX.events := by
  obtain ⟨res, fs', h1, h2⟩ := exLimit_runs hone
  obtain ⟨-, out, h3, h4⟩ := (exLimitX_good limit).wrote (exLimit_choices limit) h2 (exLimit_writable limit h)
  exact ⟨res, fs', out, h1, h3, h4⟩

/-- **C110** is violated: in the example the sum of negative weights is -2 with the limit 2 and -4 with the limit 3. -/
theorem C110_violated : ¬ C110_claim := by
  intro hcl
  obtain ⟨res, fs1, out, h1, h2, h3⟩ := exLimit_out exLimit_small (by decide +kernel)
  obtain ⟨res', fs2, out', h1', h2', h3'⟩ := exLimit_out exLimit_large (by decide +kernel)
  have hlen : exLimitX.events.length ≤ usizeMax := by
    rw [show exLimitX.events.length = 4 by decide +kernel]
    decide
  have := hcl (exLimit 2) 3 (exLimit_choices 2) rfl (fun _ _ _ _ => rfl) (by decide +kernel) exLimitX (exLimitX_good 2) hlen
    (exLimit_metric 2) (exLimit_noChoice 2) (exLimit_noChoice 3) _ _ _ _ _ _ _ _ h1 h1' out out' h2 h2'
  rw [h3, h3'] at this
  revert this
  decide +kernel

/-- The hypotheses of `C110_apart_partial` are met by the example for C109, with any limit up to 10, and C110 is not trivial: with
the limit 1 the weight -2 at 30 is left, which is too far from other events, and with the limit 10 it is not. -/
example : ∃ ws res fs', exApartX.Run (exApart false) ws res fs' ∧
    ∀ ws' res' fs'', exApartX.Run { exApart false with maxCellSize := 1 } ws' res' fs'' →
      exApartX.CanWrite (exApart false) ws → exApartX.CanWrite { exApart false with maxCellSize := 1 } ws' →
      ∃ out out', exApartX.Wrote { exApart false with maxCellSize := 1 } fs'' out ∧ exApartX.Wrote (exApart false) fs' out' ∧
        negativeSum 0 (allEvents out') ≤ negativeSum 0 (allEvents out) := by
  obtain ⟨ws, res, fs', h⟩ := exApartX_runs false
  refine ⟨ws, res, fs', h, fun ws' res' fs'' h' hw hw' => ?_⟩
  have hlen : exApartX.events.length ≤ usizeMax := by
    rw [show exApartX.events.length = 4 by decide +kernel]
    decide
  have hc : GoodChoices (exApart false) := ⟨(exSettings_good false).search, (exSettings_good false).seeds, (exSettings_good false).rng⟩
  have hx := exApartX_good false
  obtain ⟨-, -, out, out', k1, k2, k3⟩ := C110_apart_partial (s := { exApart false with maxCellSize := 1 }) (s' := exApart false) (limit := 10)
    ⟨rfl, rfl, rfl, rfl, rfl, rfl, rfl, rfl⟩ (by norm_num) ⟨hc.search, hc.seeds, hc.rng⟩ hc rfl (fun _ _ _ _ => rfl)
    ⟨hx.inputs, hx.files, hx.weights⟩ hlen (exApart_metric false) (exApart_negativeApart false) h' h hw' hw
  exact ⟨out, out', k1, k2, k3⟩

end Cres

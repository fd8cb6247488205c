import Verif.Proofs.Apart
import Verif.Props.Determined

/-!
# C100: resampling is local
-/

set_option linter.unusedSectionVars false

namespace Cres

open Spec CombinedIO Program Cres.Path

section

variable {K V D : Type*} [Zero D] [LinearOrder D] [DistNum D] [ExactComparison D] [Zero K] [One K] [Add K] [Mul K] [Div K]
  [Neg K] [NatCast K] [LinearOrder K] [LinearOrder V]

/-- Settings for reading and writing events, with the scale factors in the input. -/
def Spec.Sample.io (x : Sample K V) (s : CresSettings K V D) : IOConfig K V := { s.io with scaling := channelScales x.tags }

/-- What is required of the input: see `GoodInputs`, `EventFiles` and `WeightsSupported`. -/
structure Spec.Sample.Good (x : Sample K V) (s : CresSettings K V D) : Prop where
  inputs : GoodInputs s.io x.cwd x.outdir x.ins x.tags x.fs
  files : EventFiles (x.io s) x.fs ((eventInputs x.ins x.tags).map fun y => locate x.cwd y.1 ++ [y.2]) x.files
  weights : WeightsSupported (x.io s) x.files

/-- A run for the given input that gets as far as computing new weights. -/
def Spec.Sample.Run (x : Sample K V) (s : CresSettings K V D) (ws : List (Weights K)) (res : Outcome MainError Unit)
    (fs' : FS (List Bytes)) : Prop :=
  MainRun s x.cwd x.outdir (x.ins.map fun y => y.1 ++ y.2) x.fs (some ws) res fs'

/-- The output directory contains files with the events `out`, which are the events in the input with other weights. -/
structure Spec.Sample.Wrote (x : Sample K V) (s : CresSettings K V D) (fs' : FS (List Bytes)) (out : List (EventFile K V)) : Prop where
  files : EventFiles (x.io s) fs' ((eventInputs x.ins x.tags).map fun y => locate x.cwd x.outdir ++ [y.2]) out
  same : List.Forall₂ SameExceptWeights x.files out

/-- New weights can be written to the output files. -/
def Spec.Sample.CanWrite (x : Sample K V) (s : CresSettings K V D) (ws : List (Weights K)) : Prop :=
  ∀ w ∈ ws, ∀ c ∈ w, ∀ d ∈ x.files, Writable (x.io s) d.kind c

variable {s : CresSettings K V D}

/-- Scale factors do not matter after reading. -/
theorem computes_scaling (sc sc' : Bytes → Option K) {events : List (Event K V)} {o : Outcome (CresError IOError) (List (Weights K))}
    (h : (CresSettings.program { s with io := { s.io with scaling := sc } }).ComputesWeights events o) :
    (CresSettings.program { s with io := { s.io with scaling := sc' } }).ComputesWeights events o := by
  cases h with
  | mk hr =>
    refine Program.ComputesWeights.mk (p := CresSettings.program { s with io := { s.io with scaling := sc' } }) ?_
    cases hr with
    | log h => exact .log h
    | task h1 h2 h3 => exact .task h1 h2 h3
    | ok h1 h2 => exact .ok h1 h2

theorem Spec.Sample.Good.run {x : Sample K V} (hx : x.Good s) {m : Nat} (hm : ∀ e ∈ x.events, e.weights.length = m) {ws : List (Weights K)}
    {res : Outcome MainError Unit} {fs' : FS (List Bytes)} (h : x.Run s ws res fs') :
    ∃ events, EventsRead s.program m x.files events ∧ s.program.ComputesWeights events (.ok ws) := by
  obtain ⟨h1, h2, h3⟩ := hx.inputs.files
  have hin := hx.files
  rw [← h3] at hin
  unfold Sample.Run at h
  generalize hws : some ws = ows at h
  cases h with
  | scalingErr _ => simp at hws
  | scalingPanic _ => simp at hws
  | run g1 g2 =>
    subst hws
    rw [h1] at g1
    simp only [Outcome.ok.injEq, Prod.mk.injEq] at g1
    obtain ⟨rfl, rfl⟩ := g1
    obtain ⟨events, -, he, hcw⟩ := run_events_all (p := CresSettings.program { s with io := x.io s }) hm hin h2 g2
    exact ⟨events, ⟨he.ids, he.from_file⟩, computes_scaling _ s.io.scaling hcw⟩

theorem Spec.Sample.Good.runs {x : Sample K V} (hx : x.Good s) {m : Nat} {ws : List (Weights K)}
    {events : List (Event K V)} (he : EventsRead s.program m x.files events) (hw : s.program.ComputesWeights events (.ok ws)) :
    ∃ res fs', x.Run s ws res fs' := by
  obtain ⟨h1, h2, h3⟩ := hx.inputs.files
  have hin := hx.files
  rw [← h3] at hin
  obtain ⟨c, fs1, y, g1, g2⟩ := reads_exist (s := { s with io := x.io s }) hin h2 (m := m) (events := events) ⟨he.ids, he.from_file⟩
  exact ⟨_, _, .run h1 (.update g1 g2 (computes_scaling s.io.scaling _ hw))⟩

theorem Spec.Sample.Good.wrote (hc : GoodChoices s) {x : Sample K V} (hx : x.Good s) {ws : List (Weights K)}
    {res : Outcome MainError Unit} {fs' : FS (List Bytes)} (h : x.Run s ws res fs') (hw : x.CanWrite s ws) :
    res = .ok () ∧ ∃ out, x.Wrote s fs' out ∧ allEvents out = List.zipWith reweighted ws x.events := by
  obtain ⟨h1, h2, h3⟩ := hx.inputs.files
  have hin := hx.files
  rw [← h3] at hin
  unfold Sample.Run at h
  generalize hws : some ws = ows at h
  cases h with
  | scalingErr _ => simp at hws
  | scalingPanic _ => simp at hws
  | run g1 g2 =>
    subst hws
    rw [h1] at g1
    simp only [Outcome.ok.injEq, Prod.mk.injEq] at g1
    obtain ⟨rfl, rfl⟩ := g1
    have hc1 : GoodChoices { s with io := x.io s } := ⟨hc.search, hc.seeds, hc.rng⟩
    obtain ⟨rfl, -, out, k1, k2, k3⟩ :=
      supported_can_write (cres_goodComponents hc1) (unweight_survivors _ _ _) hin h2 hx.weights g2 hw
    rw [List.map_map] at k1
    exact ⟨rfl, out, ⟨k1, k2⟩, k3⟩

end

section

variable {K V D : Type*} [AddCommGroup D] [LinearOrder D] [IsOrderedAddMonoid D] [Zero K] [One K] [Add K] [Mul K] [Div K]
  [Neg K] [NatCast K] [LinearOrder K] [LinearOrder V]

variable {s : CresSettings K V D}

/-- The output of two runs together is the output of a third run, if the weights are the same and can be written. -/
theorem C100_output (hc : GoodChoices s) {x a b : Sample K V} (hx : x.Good s) (ha : a.Good s) (hb : b.Good s)
    {ws wsA wsB : List (Weights K)} {res resA resB : Outcome MainError Unit} {fs' fsA fsB : FS (List Bytes)}
    (h : x.Run s ws res fs') (hA : a.Run s wsA resA fsA) (hB : b.Run s wsB resB fsB)
    (hlA : wsA.length = a.events.length)
    (hsame : ((wsA ++ wsB).zip (a.events ++ b.events)).Perm (ws.zip x.events))
    (hw : x.CanWrite s ws) (hwA : a.CanWrite s wsA) (hwB : b.CanWrite s wsB) :
    res = .ok () ∧ resA = .ok () ∧ resB = .ok () ∧
    ∃ out outA outB, x.Wrote s fs' out ∧ a.Wrote s fsA outA ∧ b.Wrote s fsB outB ∧
      (allEvents outA ++ allEvents outB).Perm (allEvents out) := by
  obtain ⟨r1, out, k1, k2⟩ := hx.wrote hc h hw
  obtain ⟨r2, outA, l1, l2⟩ := ha.wrote hc hA hwA
  obtain ⟨r3, outB, m1, m2⟩ := hb.wrote hc hB hwB
  refine ⟨r1, r2, r3, out, outA, outB, k1, l1, m1, ?_⟩
  rw [k2, l2, m2, ← List.zipWith_append hlA, ← List.map_uncurry_zip_eq_zipWith, ← List.map_uncurry_zip_eq_zipWith]
  exact hsame.map _

theorem Spec.Apart.swap {x a b : Sample K V} (hsame : (a.events ++ b.events).Perm x.events)
    (hm : IsMetricOn (· ∈ x.clustered s) s.distance) (hap : Apart s (a.clustered s) (b.clustered s)) :
    Apart s (b.clustered s) (a.clustered s) := by
  intro p hp q hq hp' hq'
  have key : (a.clustered s ++ b.clustered s).Perm (x.clustered s) := by
    have := hsame.map (Cluster.cluster s.io.ctx.multi s.particles s.clustering)
    rw [List.map_append] at this
    exact this
  have h1 := hap q hq p hp hq' hp'
  have h2 := hm.symm p q (key.mem_iff.1 (List.mem_append_right _ hp)) (key.mem_iff.1 (List.mem_append_left _ hq))
  exact lt_of_lt_of_eq h1 h2.symm

theorem computes_length (h0 : s.minWeight = 0) {m : Nat} {ds : List (EventFile K V)} {events : List (Event K V)}
    (he : EventsRead s.program m ds events) {ws : List (Weights K)} (h : s.program.ComputesWeights events (.ok ws)) :
    ws.length = (allEvents ds).length := by
  obtain ⟨_, -, -, h3⟩ := computes_state (cres_unweight h0) (by rw [he.length_eq]; exact he.ids) h
  rw [h3.length, he.length_eq]

/-- **C100**: two parts of the input that are farther from each other than the maximum size of cells do not influence each
other. If a run for all events computes the weights `ws`, then the run for each part alone can compute the weights which
the events of this part have in `ws`. -/
theorem C100_split (hc : GoodChoices s) (h0 : s.minWeight = 0) (hlog : s.io.ctx.debug = false ∨ s.infoLog = false)
    (hd : IgnoresIds s.distance) {x a b : Sample K V} (hx : x.Good s) (ha : a.Good s) (hb : b.Good s)
    (hsame : (a.events ++ b.events).Perm x.events) (hlen : x.events.length ≤ usizeMax)
    (hm : IsMetricOn (· ∈ x.clustered s) s.distance) (hn : NoEqualDistances s.distance s.maxCellSize (x.clustered s))
    (hap : Apart s (a.clustered s) (b.clustered s))
    {ws : List (Weights K)} {res : Outcome MainError Unit} {fs' : FS (List Bytes)} (h : x.Run s ws res fs') :
    ∃ wsA resA fsA wsB resB fsB, a.Run s wsA resA fsA ∧ b.Run s wsB resB fsB ∧
      wsA.length = a.events.length ∧ wsB.length = b.events.length ∧
      ((wsA ++ wsB).zip (a.events ++ b.events)).Perm (ws.zip x.events) := by
  have hap' := hap.swap hsame hm
  obtain ⟨m, hm0, hm1, hmw, -⟩ := supported_weights (p := CresSettings.program { s with io := x.io s }) hx.files hx.weights
  obtain ⟨events, he, hcw⟩ := hx.run hmw h
  obtain ⟨τ, t1, t2, t3⟩ := perm_positions hsame
  have hN : x.events.length = a.events.length + b.events.length := by rw [← hsame.length_eq, List.length_append]
  rw [hsame.length_eq] at t1 t2 t3
  have hsurj : ∀ j < x.events.length, ∃ k < x.events.length, τ k = j := by
    intro j hj
    have := (range_map_perm t1 t2).mem_iff.2 (List.mem_range.2 hj)
    obtain ⟨k, hk, hk'⟩ := List.mem_map.1 this
    exact ⟨k, List.mem_range.1 hk, hk'⟩
  have posA : ∀ i < a.events.length, x.events[τ i]? = a.events[i]? := fun i hi => by
    rw [t3 i (by omega), List.getElem?_append_left hi]
  have posB : ∀ i < b.events.length, x.events[τ (a.events.length + i)]? = b.events[i]? := fun i hi => by
    rw [t3 _ (by omega), List.getElem?_append_right (by omega), Nat.add_sub_cancel_left]
  have clA : ∀ i < a.events.length, ∀ e, (x.clustered s)[τ i]? = some e → e ∈ a.clustered s := by
    intro i hi e hie
    refine List.mem_of_getElem? (i := i) ?_
    rw [Sample.clustered, clusteredEvents, List.getElem?_map] at hie ⊢
    rw [← hie]
    exact congrArg _ (posA i hi).symm
  have clB : ∀ i < b.events.length, ∀ e, (x.clustered s)[τ (a.events.length + i)]? = some e → e ∈ b.clustered s := by
    intro i hi e hie
    refine List.mem_of_getElem? (i := i) ?_
    rw [Sample.clustered, clusteredEvents, List.getElem?_map] at hie ⊢
    rw [← hie]
    exact congrArg _ (posB i hi).symm
  obtain ⟨evA, wsA, a1, a2, a3, a4⟩ := part_events hc h0 hlog hd hm0 hm1 he hlen hm hn (ds' := a.files) (τ := τ)
    (by change a.events.length ≤ x.events.length; omega)
    (fun i hi => t1 i (by change i < a.events.length at hi; omega))
    (fun i hi j hj => t2 i (by change i < a.events.length at hi; omega) j (by change j < a.events.length at hj; omega)) posA
    (by
      intro k hk j hj hno p q hp hq hpp hqp
      obtain ⟨l, hl, rfl⟩ := hsurj j hj
      have hle : a.events.length ≤ l := by
        by_contra hcon
        exact hno l (not_le.1 hcon) rfl
      obtain ⟨i, rfl⟩ := Nat.exists_eq_add_of_le hle
      exact hap p (clA k hk p hp) q (clB i (by omega) q hq) hpp hqp) hcw
  obtain ⟨evB, wsB, b1, b2, b3, b4⟩ := part_events hc h0 hlog hd hm0 hm1 he hlen hm hn (ds' := b.files)
    (τ := fun i => τ (a.events.length + i))
    (by change b.events.length ≤ x.events.length; omega)
    (fun i hi => t1 _ (by change i < b.events.length at hi; omega))
    (fun i hi j hj h => by
      change i < b.events.length at hi
      change j < b.events.length at hj
      have := t2 _ (by omega) _ (by omega) h
      omega) posB
    (by
      intro k hk j hj hno p q hp hq hpp hqp
      obtain ⟨l, hl, rfl⟩ := hsurj j hj
      have hlt : l < a.events.length := by
        by_contra hcon
        obtain ⟨i, rfl⟩ := Nat.exists_eq_add_of_le (not_lt.1 hcon)
        exact hno i (by change i < b.events.length; omega) rfl
      exact hap' p (clB k hk p hp) q (clA l hlt q hq) hpp hqp) hcw
  obtain ⟨resA, fsA, rA⟩ := ha.runs a1 a2
  obtain ⟨resB, fsB, rB⟩ := hb.runs b1 b2
  change wsA.length = a.events.length at a3
  change wsB.length = b.events.length at b3
  refine ⟨wsA, resA, fsA, wsB, resB, fsB, rA, rB, a3, b3, (zipWith_perm Prod.mk (a := wsA ++ wsB) (a' := ws) ?_ ?_ ?_
    (τ := τ) ?_ ?_ ?_ ?_).symm⟩
  · simp [a3, b3]
  · rw [computes_length h0 he hcw, List.length_append, a3, b3]
    exact hN
  · rw [List.length_append]
    exact hN
  all_goals rw [List.length_append, a3, b3, ← hN]
  · exact t1
  · exact t2
  · intro i hi
    by_cases hia : i < a.events.length
    · rw [List.getElem?_append_left (by omega)]
      exact a4 i hia
    · obtain ⟨j, rfl⟩ := Nat.exists_eq_add_of_le (not_lt.1 hia)
      rw [List.getElem?_append_right (by omega), a3, Nat.add_sub_cancel_left]
      exact b4 j (by change j < b.events.length; omega)
  · exact t3

/-- **C100**: conversely, any two runs for the parts alone together give the weights of a run for all events. -/
theorem C100_join (hc : GoodChoices s) (h0 : s.minWeight = 0) (hlog : s.io.ctx.debug = false ∨ s.infoLog = false)
    (hd : IgnoresIds s.distance) {x a b : Sample K V} (hx : x.Good s) (ha : a.Good s) (hb : b.Good s)
    (hsame : (a.events ++ b.events).Perm x.events) (hlen : x.events.length ≤ usizeMax)
    (hm : IsMetricOn (· ∈ x.clustered s) s.distance) (hn : NoEqualDistances s.distance s.maxCellSize (x.clustered s))
    (hap : Apart s (a.clustered s) (b.clustered s))
    {wsA wsB : List (Weights K)} {resA resB : Outcome MainError Unit} {fsA fsB : FS (List Bytes)}
    (hA : a.Run s wsA resA fsA) (hB : b.Run s wsB resB fsB) :
    ∃ ws res fs', x.Run s ws res fs' ∧ wsA.length = a.events.length ∧ wsB.length = b.events.length ∧
      ((wsA ++ wsB).zip (a.events ++ b.events)).Perm (ws.zip x.events) := by
  have hap' := hap.swap hsame hm
  obtain ⟨m, hm0, hm1, hmw, -⟩ := supported_weights (p := CresSettings.program { s with io := x.io s }) hx.files hx.weights
  obtain ⟨evA, heA, hcA⟩ := ha.run (fun e he => hmw e (hsame.mem_iff.1 (List.mem_append_left _ he))) hA
  obtain ⟨evB, heB, hcB⟩ := hb.run (fun e he => hmw e (hsame.mem_iff.1 (List.mem_append_right _ he))) hB
  obtain ⟨τ, t1, t2, t3⟩ := perm_positions hsame
  have hN : x.events.length = a.events.length + b.events.length := by rw [← hsame.length_eq, List.length_append]
  rw [hsame.length_eq] at t1 t2 t3
  obtain ⟨events, ws, k1, k2, k3, k4⟩ := join_events hc h0 hlog hd hm0 hm1 heA heB hlen hm hn hN t1 t2 t3 hap hap' hcA hcB
  obtain ⟨res, fs', r⟩ := hx.runs k1 k2
  have a3 : wsA.length = a.events.length := computes_length h0 heA hcA
  have b3 : wsB.length = b.events.length := computes_length h0 heB hcB
  refine ⟨ws, res, fs', r, a3, b3, (zipWith_perm Prod.mk (a := wsA ++ wsB) (a' := ws) ?_ ?_ ?_ (τ := τ) ?_ ?_ ?_ ?_).symm⟩
  · simp [a3, b3]
  · rw [k3, List.length_append, a3, b3]
    exact hN
  · rw [List.length_append]
    exact hN
  all_goals rw [List.length_append, a3, b3, ← hN]
  · exact t1
  · exact t2
  · exact k4
  · exact t3

end

/-- **C100** with the distance of the command line program, which is a metric for the events in a run. -/
theorem C100_default_distance {K : Type*} [Field K] [LinearOrder K] [IsStrictOrderedRing K] {s : CresSettings K FourVector ℝ}
    (hc : GoodChoices s) (h0 : s.minWeight = 0) (hlog : s.io.ctx.debug = false ∨ s.infoLog = false)
    {km : SquareMatrix ℝ → ℝ} (hkm : SolvesAssignment km) {τ : ℝ} (hd : s.distance = euclDistance km τ)
    {x a b : Sample K FourVector} (hx : x.Good s) (ha : a.Good s) (hb : b.Good s)
    (hsame : (a.events ++ b.events).Perm x.events) (hlen : x.events.length ≤ usizeMax)
    (hn : NoEqualDistances s.distance s.maxCellSize (x.clustered s)) (hap : Apart s (a.clustered s) (b.clustered s)) :
    (∀ ws res fs', x.Run s ws res fs' → ∃ wsA resA fsA wsB resB fsB, a.Run s wsA resA fsA ∧ b.Run s wsB resB fsB ∧
      wsA.length = a.events.length ∧ wsB.length = b.events.length ∧
      ((wsA ++ wsB).zip (a.events ++ b.events)).Perm (ws.zip x.events)) ∧
    ∀ wsA resA fsA wsB resB fsB, a.Run s wsA resA fsA → b.Run s wsB resB fsB → ∃ ws res fs', x.Run s ws res fs' ∧
      wsA.length = a.events.length ∧ wsB.length = b.events.length ∧
      ((wsA ++ wsB).zip (a.events ++ b.events)).Perm (ws.zip x.events) := by
  have hm : IsMetricOn (· ∈ x.clustered s) s.distance := by
    rw [hd]
    refine (euclDistance_metric hkm τ ?_).2
    intro e he
    obtain ⟨e0, -, rfl⟩ := List.mem_map.1 he
    exact cluster_canonical _ _ _ _
  have hi : IgnoresIds s.distance := by rw [hd]; exact C89_default_distance km τ
  exact ⟨fun ws res fs' h => C100_split hc h0 hlog hi hx ha hb hsame hlen hm hn hap h,
    fun wsA resA fsA wsB resB fsB hA hB => C100_join hc h0 hlog hi hx ha hb hsame hlen hm hn hap hA hB⟩

/-! ### example -/

/-- Two events, one of them with negative weight. -/
def exApartA : EventFile ℚ ℚ :=
  ⟨⟨.hepmc2, ascii "H\n", [ascii "E 1 2 3 4 5 6 7 8 9 0 0 1 -2\nP 1 21 0 0 0 7 0 1 0 0 0\n",
    ascii "E 1 2 3 4 5 6 7 8 9 0 0 1 6\nP 1 21 0 0 0 8 0 1 0 0 0\n"]⟩,
   [⟨0, [-2], [(21, [7])]⟩, ⟨0, [6], [(21, [8])]⟩]⟩

/-- Two events that are far from these. -/
def exApartB : EventFile ℚ ℚ :=
  ⟨⟨.hepmc2, ascii "H\n", [ascii "E 1 2 3 4 5 6 7 8 9 0 0 1 4\nP 1 21 0 0 0 32 0 1 0 0 0\n",
    ascii "E 1 2 3 4 5 6 7 8 9 0 0 1 -2\nP 1 21 0 0 0 30 0 1 0 0 0\n"]⟩,
   [⟨0, [4], [(21, [32])]⟩, ⟨0, [-2], [(21, [30])]⟩]⟩

theorem exApartA_ok (multi : Bool) :
    IsEventFile (exSettings multi).io (exApartA.header ++ exApartA.records.flatten) exApartA := by
  refine ⟨⟨by decide +kernel, ?_, ⟨rfl, by simp [exApartA], by decide +kernel, ?_, ?_, ?_, ?_⟩, ?_⟩, ?_⟩
  · exact fun rest => detectFormat_append _ (b := 72) (h := [10]) (by decide) (Or.inr (by decide)) rest
  · unfold Contains; decide +kernel
  · decide +kernel
  · unfold Contains; decide +kernel
  · decide +kernel
  · decide +kernel
  · refine .cons ?_ (.cons ?_ .nil)
    · show HepMC.parse _ _ = _
      cases multi <;> decide +kernel
    · show HepMC.parse _ _ = _
      cases multi <;> decide +kernel

theorem exApartB_ok (multi : Bool) :
    IsEventFile (exSettings multi).io (exApartB.header ++ exApartB.records.flatten) exApartB := by
  refine ⟨⟨by decide +kernel, ?_, ⟨rfl, by simp [exApartB], by decide +kernel, ?_, ?_, ?_, ?_⟩, ?_⟩, ?_⟩
  · exact fun rest => detectFormat_append _ (b := 72) (h := [10]) (by decide) (Or.inr (by decide)) rest
  · unfold Contains; decide +kernel
  · decide +kernel
  · unfold Contains; decide +kernel
  · decide +kernel
  · decide +kernel
  · refine .cons ?_ (.cons ?_ .nil)
    · show HepMC.parse _ _ = _
      cases multi <;> decide +kernel
    · show HepMC.parse _ _ = _
      cases multi <;> decide +kernel

def exApartFS : FS (List Bytes) := fun p =>
  if p = [ascii "data", ascii "a"] then some (exApartA.header ++ exApartA.records.flatten)
  else if p = [ascii "data", ascii "b"] then some (exApartB.header ++ exApartB.records.flatten)
  else none

/-- The settings of the example for C74 with a limit for the size of cells. -/
def exApart (multi : Bool) : CresSettings ℚ ℚ ℚ := { exMain multi (fun _ => none) with maxCellSize := 10 }

/-- All events, in an order in which the files are exchanged. -/
def exApartX : Sample ℚ ℚ :=
  ⟨[], ascii "/out", [(ascii "/data/", ascii "b"), (ascii "/data/", ascii "a")], [none, none], exApartFS, [exApartB, exApartA]⟩

/-- One part of the events. -/
def exApart1 : Sample ℚ ℚ := ⟨[], ascii "/out1", [(ascii "/data/", ascii "a")], [none], exApartFS, [exApartA]⟩

/-- The other part of the events. -/
def exApart2 : Sample ℚ ℚ := ⟨[], ascii "/out2", [(ascii "/data/", ascii "b")], [none], exApartFS, [exApartB]⟩

theorem exApartX_good (multi : Bool) : exApartX.Good (exApart multi) := by
  refine ⟨⟨?_, ?_, by decide +kernel, .cons ⟨_, rfl, ?_⟩ (.cons ⟨_, rfl, ?_⟩ .nil), Or.inl rfl⟩,
    .cons ⟨_, by decide +kernel, exApartB_ok multi⟩ (.cons ⟨_, by decide +kernel, exApartA_ok multi⟩ .nil), .inl fun _ => rfl⟩
  · unfold IsFilePath IsName
    decide +kernel
  · decide +kernel
  · show ¬ _
    cases multi <;> decide +kernel
  · show ¬ _
    cases multi <;> decide +kernel

theorem exApart1_good (multi : Bool) : exApart1.Good (exApart multi) := by
  refine ⟨⟨?_, ?_, by decide +kernel, .cons ⟨_, rfl, ?_⟩ .nil, Or.inl rfl⟩,
    .cons ⟨_, by decide +kernel, exApartA_ok multi⟩ .nil, .inl fun _ => rfl⟩
  · unfold IsFilePath IsName
    decide +kernel
  · decide +kernel
  · show ¬ _
    cases multi <;> decide +kernel

theorem exApart2_good (multi : Bool) : exApart2.Good (exApart multi) := by
  refine ⟨⟨?_, ?_, by decide +kernel, .cons ⟨_, rfl, ?_⟩ .nil, Or.inl rfl⟩,
    .cons ⟨_, by decide +kernel, exApartB_ok multi⟩ .nil, .inl fun _ => rfl⟩
  · unfold IsFilePath IsName
    decide +kernel
  · decide +kernel
  · show ¬ _
    cases multi <;> decide +kernel

theorem exApart_clustered (multi : Bool) :
    exApartX.clustered (exApart multi) =
      [⟨0, [4], [(81, [32])]⟩, ⟨0, [-2], [(81, [30])]⟩, ⟨0, [-2], [(81, [7])]⟩, ⟨0, [6], [(81, [8])]⟩] ∧
    exApart1.clustered (exApart multi) = [⟨0, [-2], [(81, [7])]⟩, ⟨0, [6], [(81, [8])]⟩] ∧
    exApart2.clustered (exApart multi) = [⟨0, [4], [(81, [32])]⟩, ⟨0, [-2], [(81, [30])]⟩] := by
  cases multi <;> decide +kernel

theorem exApart_runs {multi : Bool} {x : Sample ℚ ℚ} (hx : x.Good (exApart multi)) {events : List (Event ℚ ℚ)}
    (he : EventsRead (exApart multi).program 1 x.files events) : ∃ ws res fs', x.Run (exApart multi) ws res fs' := by
  have hc : GoodChoices (exApart multi) := ⟨(exSettings_good multi).search, (exSettings_good multi).seeds, (exSettings_good multi).rng⟩
  have hg := cres_goodComponents hc
  have hu := read_weights hg Nat.one_pos (fun _ => rfl) he
  obtain ⟨sched, st, h1, h2⟩ := C08_can_finish (by cases multi <;> rfl) (hg.valid (identified events)) hu Reachable.init
  obtain ⟨ws, h3, -⟩ := state_computes (cres_unweight rfl) (Or.inl (by cases multi <;> rfl)) hg hu
    (by rw [he.length_eq]; exact he.ids) (runSchedule_reachable _ Reachable.init h1) h2
  obtain ⟨res, fs', h⟩ := hx.runs he h3
  exact ⟨ws, res, fs', h⟩

theorem exApart_metric (multi : Bool) : IsMetricOn (· ∈ exApartX.clustered (exApart multi)) (exApart multi).distance :=
  ⟨fun x y _ _ => abs_sub_comm _ _, fun x y z _ _ _ => abs_sub_le _ _ _⟩

theorem exApart_distances (multi : Bool) :
    NoEqualDistances (exApart multi).distance (exApart multi).maxCellSize (exApartX.clustered (exApart multi)) := by
  rw [(exApart_clustered multi).1]
  intro i j k a b c ha hb hc hij hik _ _ _ hneg _ heq
  have hi := (List.getElem?_eq_some_iff.1 ha).1
  have hj := (List.getElem?_eq_some_iff.1 hb).1
  have hk := (List.getElem?_eq_some_iff.1 hc).1
  simp only [List.length_cons, List.length_nil] at hi hj hk
  interval_cases i <;> interval_cases j <;> interval_cases k <;> simp at ha hb hc hij hik ⊢ <;> subst ha hb hc <;>
    simp [exApart, exMain, exSettings, centralWeight] at hneg heq <;> (first | (norm_num at hneg; done) | norm_num at heq)

theorem exApart_apart (multi : Bool) :
    Apart (exApart multi) (exApart1.clustered (exApart multi)) (exApart2.clustered (exApart multi)) := by
  obtain ⟨-, h1, h2⟩ := exApart_clustered multi
  rw [h1, h2]
  intro x hx y hy _ _
  simp only [List.mem_cons, List.not_mem_nil, or_false] at hx hy
  rcases hx with rfl | rfl <;> rcases hy with rfl | rfl <;> simp [exApart, exMain, exSettings] <;> norm_num [abs_of_neg]

/-- The hypotheses of `C100_split` and `C100_join` are met: there are runs for the two parts, whatever these runs compute is
also computed by a run for all events, and whatever a run for all events computes is computed by runs for the parts. -/
example (multi : Bool) :
    (∃ wsA resA fsA wsB resB fsB, exApart1.Run (exApart multi) wsA resA fsA ∧ exApart2.Run (exApart multi) wsB resB fsB ∧
      ∃ ws res fs', exApartX.Run (exApart multi) ws res fs' ∧ wsA.length = exApart1.events.length ∧
        wsB.length = exApart2.events.length ∧
        ((wsA ++ wsB).zip (exApart1.events ++ exApart2.events)).Perm (ws.zip exApartX.events)) ∧
    ∀ ws res fs', exApartX.Run (exApart multi) ws res fs' → ∃ wsA resA fsA wsB resB fsB,
      exApart1.Run (exApart multi) wsA resA fsA ∧ exApart2.Run (exApart multi) wsB resB fsB ∧
      wsA.length = exApart1.events.length ∧ wsB.length = exApart2.events.length ∧
      ((wsA ++ wsB).zip (exApart1.events ++ exApart2.events)).Perm (ws.zip exApartX.events) := by
  have hc : GoodChoices (exApart multi) := ⟨(exSettings_good multi).search, (exSettings_good multi).seeds, (exSettings_good multi).rng⟩
  have hlog : (exApart multi).io.ctx.debug = false ∨ (exApart multi).infoLog = false := Or.inl (by cases multi <;> rfl)
  have hsame : (exApart1.events ++ exApart2.events).Perm exApartX.events := by decide +kernel
  have hlen : exApartX.events.length ≤ usizeMax := by
    rw [show exApartX.events.length = 4 by decide +kernel]
    decide
  refine ⟨?_, fun ws res fs' h => C100_split hc rfl hlog (fun _ _ _ _ => rfl) (exApartX_good multi) (exApart1_good multi)
    (exApart2_good multi) hsame hlen (exApart_metric multi) (exApart_distances multi) (exApart_apart multi) h⟩
  obtain ⟨wsA, resA, fsA, hA⟩ := exApart_runs (exApart1_good multi)
    (events := [⟨1, [6], [(81, [8])]⟩, ⟨0, [-2], [(81, [7])]⟩]) (by
      refine ⟨by decide +kernel, fun e he => ?_⟩
      simp only [List.mem_cons, List.not_mem_nil, or_false] at he
      rcases he with rfl | rfl
      · exact ⟨⟨0, [6], [(21, [8])]⟩, ⟨0, [6], [(81, [8])]⟩, by decide +kernel, by cases multi <;> decide +kernel, rfl, rfl⟩
      · exact ⟨⟨0, [-2], [(21, [7])]⟩, ⟨0, [-2], [(81, [7])]⟩, by decide +kernel, by cases multi <;> decide +kernel, rfl, rfl⟩)
  obtain ⟨wsB, resB, fsB, hB⟩ := exApart_runs (exApart2_good multi)
    (events := [⟨0, [4], [(81, [32])]⟩, ⟨1, [-2], [(81, [30])]⟩]) (by
      refine ⟨by decide +kernel, fun e he => ?_⟩
      simp only [List.mem_cons, List.not_mem_nil, or_false] at he
      rcases he with rfl | rfl
      · exact ⟨⟨0, [4], [(21, [32])]⟩, ⟨0, [4], [(81, [32])]⟩, by decide +kernel, by cases multi <;> decide +kernel, rfl, rfl⟩
      · exact ⟨⟨0, [-2], [(21, [30])]⟩, ⟨0, [-2], [(81, [30])]⟩, by decide +kernel, by cases multi <;> decide +kernel, rfl, rfl⟩)
  exact ⟨wsA, resA, fsA, wsB, resB, fsB, hA, hB, C100_join hc rfl hlog (fun _ _ _ _ => rfl) (exApartX_good multi)
    (exApart1_good multi) (exApart2_good multi) hsame hlen (exApart_metric multi) (exApart_distances multi) (exApart_apart multi) hA hB⟩

end Cres

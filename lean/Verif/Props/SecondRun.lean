import Verif.Props.SignFlip
import Verif.Props.Observable

/-!
Property C136: negative weights that are left.
-/

set_option linter.unusedSectionVars false

namespace Cres

open Spec CombinedIO Program Cres.Path

section

variable {K V D : Type*} [Zero D] [LinearOrder D] [DistNum D] [ExactComparison D] [Field K] [LinearOrder K]
  [IsStrictOrderedRing K] [LinearOrder V] {s : CresSettings K V D}

theorem prediction_visible (l : List (Event K V)) :
    prediction 0 (fun e => if visible s e then 1 else 0) l = centralSum (l.filter (visible s)) := by
  unfold prediction centralSum
  induction l with
  | nil => rfl
  | cons e l ih =>
    rw [List.map_cons, List.sum_cons, ih, List.filter_cons]
    beta_reduce
    split_ifs with h
    · rw [List.map_cons, List.sum_cons, one_mul]
      congr 1
      unfold weightNo centralWeight
      cases e.weights <;> rfl
    · rw [zero_mul, zero_add]

theorem same_particles {ds ds' : List (EventFile K V)} (h : List.Forall₂ SameExceptWeights ds ds') :
    List.Forall₂ (fun e e' => e'.outgoingByPid = e.outgoingByPid) (allEvents ds) (allEvents ds') := by
  induction h with
  | nil => exact .nil
  | cons h _ ih =>
    unfold allEvents at ih ⊢
    rw [List.flatMap_cons, List.flatMap_cons]
    exact List.rel_append h.events ih

/-- For all interleavings: the sum of the weights of events with particles does not change. -/
theorem particle_sum (hc : GoodChoices s) (h0 : s.minWeight = 0) (hd : IgnoresIds s.distance) {x : Sample K V} (hx : x.Good s)
    {ws : List (Weights K)} {res : Outcome MainError Unit} {fs' : FS (List Bytes)} (h : x.Run s ws res fs') (hw : x.CanWrite s ws) :
    res = .ok () ∧ ∃ out, x.Wrote s fs' out ∧ centralSum ((allEvents out).filter (visible s)) = centralSum (x.events.filter (visible s)) := by
  obtain ⟨h1, out, h2, h3⟩ := C111_unresolved hc h0 hd hx (f := fun e => if visible s e then 1 else 0) (fun e ws => rfl)
    (fun a _ b _ _ ha hb _ => by simp [ha, hb]) h hw
  refine ⟨h1, out, h2, ?_⟩
  have := h3 0
  rw [prediction_visible, prediction_visible, List.filter_filter] at this
  rw [this]
  congr 2
  funext e
  unfold counted
  cases visible s e <;> simp

/-- **C136**: if the sum of the weights of events with particles is not negative, then all negative weights that are left after a run, with any maximum
cell size, number of threads and interleaving, are removed if the output is used as input, with the same clustering, for a run on one thread without a limit
for the size of cells. The files can be in any order and the events can be distributed differently. -/
theorem C136_second_run (hc : GoodChoices s) (h0 : s.minWeight = 0) (hd : IgnoresIds s.distance) {x : Sample K V} (hx : x.Good s)
    (hpos : 0 ≤ centralSum (x.events.filter (visible s)))
    {ws : List (Weights K)} {res : Outcome MainError Unit} {fs' : FS (List Bytes)} (h : x.Run s ws res fs') (hw : x.CanWrite s ws) :
    res = .ok () ∧ ∃ out, x.Wrote s fs' out ∧
      ∀ s2 : CresSettings K V D, GoodChoices s2 → s2.minWeight = 0 → (∀ e, visible s2 e = visible s e) →
      ∀ x2 : Sample K V, x2.Good s2 → x2.events.Perm (allEvents out) →
      ∀ events ws2 res2 fs2, OneThreadRun s2 x2.cwd x2.outdir (x2.ins.map fun y => y.1 ++ y.2) x2.fs events ws2 res2 fs2 →
        events.length ≤ usizeMax → NoLimit s2 events → x2.CanWrite s2 ws2 →
        res2 = .ok () ∧ ∃ out2, x2.Wrote s2 fs2 out2 ∧ ∀ ev ∈ allEvents out2, visible s ev = true → 0 ≤ centralWeight ev := by
  obtain ⟨h1, out, h2, h3⟩ := particle_sum hc h0 hd hx h hw
  refine ⟨h1, out, h2, fun s2 hc2 h02 hv x2 hx2 hperm events ws2 res2 fs2 hrun hlen hno hw2 => ?_⟩
  have hvis : (HasParticles s2.program : Event K V → Bool) = visible s := funext hv
  have hp2 : 0 ≤ centralSum (x2.events.filter (HasParticles s2.program)) := by
    rw [hvis]
    unfold centralSum at h3 hpos ⊢
    rw [((hperm.filter _).map _).sum_eq, h3]
    exact hpos
  obtain ⟨g1, out2, g2, g3, g4⟩ := C77_main hc2 h02 hx2.inputs rfl hx2.files hx2.weights hrun hlen hno hp2 hw2
  refine ⟨g1, out2, ⟨g2, g3⟩, fun ev hev hev2 => ?_⟩
  obtain ⟨i, hi⟩ := List.getElem?_of_mem hev
  have hsame := same_particles g3
  have hlt := (List.getElem?_eq_some_iff.1 hi).1
  have hlt' : i < (allEvents x2.files).length := by rw [hsame.length_eq]; exact hlt
  have ho := (List.forall₂_iff_get.1 hsame).2 i hlt' hlt
  simp only [List.get_eq_getElem] at ho
  rw [(List.getElem?_eq_some_iff.1 hi).2] at ho
  refine (g4 i _ ev (List.getElem?_eq_getElem hlt') hi).1 ?_
  rw [hvis, ← hev2]
  unfold visible Cluster.cluster
  rw [ho]

end

/-! ### example -/

/-- The output of the first run in the example for C135. -/
def exTwiceA : EventFile ℚ ℚ :=
  ⟨⟨.hepmc2, ascii "H\n", [ascii "E 1 2 3 4 5 6 7 8 9 0 0 1 -1\nP 1 21 0 0 0 10 0 1 0 0 0\n",
    ascii "E 1 2 3 4 5 6 7 8 9 0 0 1 -1\nP 1 21 0 0 0 9 0 1 0 0 0\n",
    ascii "E 1 2 3 4 5 6 7 8 9 0 0 1 2\nP 1 21 0 0 0 13 0 1 0 0 0\n",
    ascii "E 1 2 3 4 5 6 7 8 9 0 0 1 2\nP 1 21 0 0 0 15 0 1 0 0 0\n"]⟩,
   [⟨0, [-1], [(21, [10])]⟩, ⟨0, [-1], [(21, [9])]⟩, ⟨0, [2], [(21, [13])]⟩, ⟨0, [2], [(21, [15])]⟩]⟩

theorem exTwiceA_ok : IsEventFile (exSettings false).io (exTwiceA.header ++ exTwiceA.records.flatten) exTwiceA := by
  refine ⟨⟨by decide +kernel, ?_, ⟨rfl, by simp [exTwiceA], by decide +kernel, ?_, ?_, ?_, ?_⟩, ?_⟩, ?_⟩
  · exact fun rest => detectFormat_append _ (b := 72) (h := [10]) (by decide) (Or.inr (by decide)) rest
  · unfold Contains; decide +kernel
  · decide +kernel
  · unfold Contains; decide +kernel
  · decide +kernel
  · decide +kernel
  · refine .cons ?_ (.cons ?_ (.cons ?_ (.cons ?_ .nil))) <;> (show HepMC.parse _ _ = _) <;> decide +kernel

def exTwiceFS : FS (List Bytes) := fun p =>
  if p = [ascii "data", ascii "a"] then some (exTwiceA.header ++ exTwiceA.records.flatten) else none

def exTwiceX : Sample ℚ ℚ := ⟨[], ascii "/out", [(ascii "/data/", ascii "a")], [none], exTwiceFS, [exTwiceA]⟩

theorem exTwiceX_good (limit : ℚ) : exTwiceX.Good (exLimit limit) := by
  refine ⟨⟨?_, ?_, by decide +kernel, .cons ⟨_, rfl, ?_⟩ .nil, Or.inl rfl⟩,
    .cons ⟨_, by decide +kernel, exTwiceA_ok⟩ .nil, .inl fun _ => rfl⟩
  · unfold IsFilePath IsName
    decide +kernel
  · decide +kernel
  · change ¬ ascii "<?xml" <+: trimAsciiStart ((exMain false fun _ => none).io.firstBuffer (exTwiceA.header ++ exTwiceA.records.flatten))
    decide +kernel

def exTwiceEvents : List (Event ℚ ℚ) :=
  [⟨0, [-1], [(81, [10])]⟩, ⟨1, [-1], [(81, [9])]⟩, ⟨2, [2], [(81, [13])]⟩, ⟨3, [2], [(81, [15])]⟩]

theorem exTwice_reads (limit : ℚ) : EventsRead (exLimit limit).program 1 exTwiceX.files exTwiceEvents := by
  refine ⟨by decide +kernel, fun e he => ?_⟩
  change ∃ e0 e1, _ ∧ (exMain false fun _ => none).program.cluster e0 = .ok e1 ∧ _
  simp only [exTwiceEvents, List.mem_cons, List.not_mem_nil, or_false] at he
  rcases he with rfl | rfl | rfl | rfl
  · exact ⟨⟨0, [-1], [(21, [10])]⟩, ⟨0, [-1], [(81, [10])]⟩, by decide +kernel, by decide +kernel, rfl, rfl⟩
  · exact ⟨⟨0, [-1], [(21, [9])]⟩, ⟨0, [-1], [(81, [9])]⟩, by decide +kernel, by decide +kernel, rfl, rfl⟩
  · exact ⟨⟨0, [2], [(21, [13])]⟩, ⟨0, [2], [(81, [13])]⟩, by decide +kernel, by decide +kernel, rfl, rfl⟩
  · exact ⟨⟨0, [2], [(21, [15])]⟩, ⟨0, [2], [(81, [15])]⟩, by decide +kernel, by decide +kernel, rfl, rfl⟩

theorem exTwice_oneThread {limit : ℚ} {k1 k2 : Nat} {c1 c2 : Cell ℚ ℚ} {w0 w1 w2 w3 : ℚ}
    (hseeds : (exLimit limit).program.seeds exTwiceEvents = [0, 1])
    (hdec : (runSchedule (exLimit limit).program.cfg 4 ((exLimit limit).program.nearest exTwiceEvents)
      ((exLimit limit).program.seeds exTwiceEvents) (serialSchedule 0 [k1, k2]) (State.init (memOf exTwiceEvents))).map
      (fun s => ([s.tasks 0, s.tasks 1], [s.mem 0, s.mem 1, s.mem 2, s.mem 3])) =
        some ([.done (some c1), .done (some c2)], [[w0], [w1], [w2], [w3]]))
    (hws : runWeights (exLimit limit).program.cfg (exLimit limit).program.infoLog (fun _ => (.ok
      [⟨0, [w0], [(81, [10])]⟩, ⟨1, [w1], [(81, [9])]⟩, ⟨2, [w2], [(81, [13])]⟩, ⟨3, [w3], [(81, [15])]⟩] : Outcome IOError _))
      (exLimit limit).program.unweight exTwiceEvents = .ok [[w0], [w1], [w2], [w3]]) :
    OneThreadWeights (exLimit limit).program exTwiceEvents [[w0], [w1], [w2], [w3]] := by
  cases hr : runSchedule (exLimit limit).program.cfg 4 ((exLimit limit).program.nearest exTwiceEvents)
      ((exLimit limit).program.seeds exTwiceEvents) (serialSchedule 0 [k1, k2]) (State.init (memOf exTwiceEvents)) with
  | none => rw [hr] at hdec; simp at hdec
  | some st =>
    rw [hr] at hdec
    simp only [Option.map_some, Option.some.injEq, Prod.mk.injEq, List.cons.injEq, and_true] at hdec
    obtain ⟨⟨d1, d2⟩, d3, d4, d5, d6⟩ := hdec
    refine ⟨exTwiceEvents, [k1, k2], st, by decide, by rw [hseeds]; rfl, hr, ?_, ?_⟩
    · intro t ht
      rw [hseeds] at ht
      have : t = 0 ∨ t = 1 := by
        simp only [List.length_cons, List.length_nil] at ht
        omega
      rcases this with rfl | rfl
      · exact ⟨_, d1⟩
      · exact ⟨_, d2⟩
    · have hw : withWeights exTwiceEvents st.mem =
          [⟨0, [w0], [(81, [10])]⟩, ⟨1, [w1], [(81, [9])]⟩, ⟨2, [w2], [(81, [13])]⟩, ⟨3, [w3], [(81, [15])]⟩] := by
        simp [withWeights, exTwiceEvents, d3, d4, d5, d6]
      rw [hw]
      exact hws

/-- The second run. The second cell does not change any weights. -/
theorem exTwice_again : OneThreadWeights (exLimit 100).program exTwiceEvents [[0], [0], [0], [2]] :=
  exTwice_oneThread (k1 := 13) (k2 := 9) (c1 := ⟨[0, 1, 2], 3, 0⟩) (c2 := ⟨[0, 1], 1, 0⟩) (by decide +kernel) (by decide +kernel)
    (by decide +kernel)

theorem exTwice_runs {limit : ℚ} {ws : List (Weights ℚ)} (hone : OneThreadWeights (exLimit limit).program exTwiceEvents ws) :
    ∃ res fs', OneThreadRun (exLimit limit) exTwiceX.cwd exTwiceX.outdir (exTwiceX.ins.map fun y => y.1 ++ y.2) exTwiceX.fs
      exTwiceEvents ws res fs' ∧ exTwiceX.Run (exLimit limit) ws res fs' := by
  obtain ⟨h1, h2, h3⟩ := (exTwiceX_good limit).inputs.files
  have hin := (exTwiceX_good limit).files
  rw [← h3] at hin
  obtain ⟨c, fs1, y, g1, g2⟩ := reads_exist (s := { exLimit limit with io := exTwiceX.io (exLimit limit) }) hin h2 (m := 1)
    (events := exTwiceEvents) ⟨(exTwice_reads limit).ids, (exTwice_reads limit).from_file⟩
  obtain ⟨evs, ks, st, rfl, q1, q2, q3, q4⟩ := hone
  have hcw : (exLimit limit).program.ComputesWeights exTwiceEvents (.ok ws) := by
    rw [← q4]
    exact .mk (.ok (by change logSumsPanics (exMain false fun _ => none).program.cfg true _ = false; decide +kernel) ⟨st, runSchedule_reachable _ Reachable.init q2, q3, rfl⟩)
  have hrun := Program.Run.update g1 g2 (computes_scaling (exLimit limit).io.scaling _ hcw)
  exact ⟨_, _, ⟨_, _, _, h1, hrun, ⟨_, ks, st, rfl, q1, q2, q3, q4⟩, rfl⟩, .run h1 hrun⟩

theorem exTwice_writable (limit : ℚ) {ws : List (Weights ℚ)} (h : ∀ w ∈ ws, ∀ c ∈ w, (exMain false fun _ => none).io.ctx.float.finite c = true) :
    exTwiceX.CanWrite (exLimit limit) ws := by
  intro w hw c hc d hd
  simp only [exTwiceX, List.mem_cons, List.not_mem_nil, or_false] at hd
  subst hd
  exact ⟨h w hw c hc, trivial⟩


/-- The hypotheses of `C136_second_run` are met: with the maximum cell size 2 the weights -8, 6, 11 and -7 are replaced by -1, -1, 2 and 2, and a second
run without a limit replaces them by 0, 0, 0 and 2. -/
example : ∃ res fs' out res2 fs2 out2, exLimitX.Run (exLimit 2) [[-1], [-1], [2], [2]] res fs' ∧ exLimitX.Wrote (exLimit 2) fs' out ∧
    exTwiceX.events = allEvents out ∧ exTwiceX.events.map centralWeight = [-1, -1, 2, 2] ∧
    OneThreadRun (exLimit 100) exTwiceX.cwd exTwiceX.outdir (exTwiceX.ins.map fun y => y.1 ++ y.2) exTwiceX.fs
      exTwiceEvents [[0], [0], [0], [2]] res2 fs2 ∧ exTwiceX.Wrote (exLimit 100) fs2 out2 ∧
    ∀ ev ∈ allEvents out2, visible (exLimit 2) ev = true → 0 ≤ centralWeight ev := by
  obtain ⟨res, fs', -, h2⟩ := exLimit_runs exLimit_small
  have hw : exLimitX.CanWrite (exLimit 2) [[-1], [-1], [2], [2]] := exLimit_writable 2 (by decide +kernel)
  obtain ⟨-, out, h3, h4⟩ := C136_second_run (exLimit_choices 2) rfl (fun _ _ _ _ => rfl) (exLimitX_good 2) (by decide +kernel) h2 hw
  obtain ⟨-, out', h5, h6⟩ := (exLimitX_good 2).wrote (exLimit_choices 2) h2 hw
  have hz : exTwiceX.events = List.zipWith reweighted [[-1], [-1], [2], [2]] exLimitX.events := by decide +kernel
  have hout : exTwiceX.events = allEvents out := by rw [eventFiles_unique h3.files h5.files, h6, hz]
  obtain ⟨res2, fs2, h7, -⟩ := exTwice_runs exTwice_again
  have hno : NoLimit (exLimit 100) exTwiceEvents := by
    refine noLimit_of_metric ⟨fun _ _ _ _ => abs_sub_comm _ _, fun _ _ _ _ _ _ => abs_sub_le _ _ _⟩ ?_
    change ∀ e ∈ exTwiceEvents, ∀ e' ∈ exTwiceEvents, (exMain false fun _ => none).distance e e' ≤ 100
    decide +kernel
  obtain ⟨-, out2, h8, h9⟩ := h4 (exLimit 100) (exLimit_choices 100) rfl (fun _ => rfl) exTwiceX (exTwiceX_good 100) (hout ▸ .refl _) _ _ _ _ h7
    (by decide) hno (exTwice_writable 100 (by decide +kernel))
  exact ⟨res, fs', out, res2, fs2, out2, h2, h3, hout, by decide +kernel, h7, h8, h9⟩

end Cres

import Verif.Proofs.FloatXml
import Verif.Props.DefaultRun
import Verif.Model.F64Format

/-!
# C79 and C80: runs with `f64` weights
-/

set_option linter.unusedSectionVars false

namespace Cres

open Spec CombinedIO Program Cres.Path

section

variable {V D P : Type*} [Zero D] [LinearOrder D] [DistNum D] [ExactComparison D] [LinearOrder V] [DecidableEq P]

/-- **C79**: in a run of the command line program with `f64` weights and without unweighting, the new weights can be written and
the run succeeds. Sums of weights in the output files differ from those in the input files by rounding errors: for each operation
at most `2⁻⁵²` of the sum of absolute weights, and with STRIPPER XML files in addition `2⁻⁴⁹` of that sum for scales. This holds
for all interleavings. -/
theorem C79_sums {s : CresSettings N64 V D} (hc : GoodChoices s) (h0 : s.minWeight = 0)
    (hfmt : ∀ w : N64, IsF64 w.val → s.io.ctx.float.finite w = true) {fs fs' : FS P} {files : List (P × P)}
    {ds : List (EventFile N64 V)} (hin : EventFiles s.io fs (files.map Prod.fst) ds) (hf : GoodFiles files)
    (hws : WeightsSupported s.io ds) (hxml : ScaleRange ds)
    (hrange : F64Range (allEvents ds) ((allEvents ds).filter (HasParticles s.program)))
    {events : Option (List (Event N64 V))} {ws : List (Weights N64)} {res : Outcome (CresError IOError) Unit}
    (h : s.program.Run files fs events (some ws) res fs') :
    res = .ok () ∧ ∃ ds', EventFiles s.io fs' (files.map Prod.snd) ds' ∧ List.Forall₂ SameExceptWeights ds ds' ∧
      ∀ k, |exactSum k (allEvents ds') -
        exactSum k ((allEvents ds).filter fun e => s.io.ctx.multi || HasParticles s.program e)| ≤
          f64Error k ((allEvents ds).filter (HasParticles s.program)) + scaleError k ds := by
  obtain ⟨m, events, hm0, hm1, rfl, he, hcw, h1⟩ := supported_run_stored (cres_goodComponents hc) (cres_unweight h0) hin hf hws h
  obtain ⟨st, hr, hfin, hrun⟩ := computesWeights_state hcw
  obtain ⟨-, -, -, h2, -, hW, hb, h3⟩ := f64_weights hc h0 hm0 hm1 he hr hfin hrun hrange
  have hst := fun w hw x hx d hd => f64_stored (io := s.io) hfmt hxml (h2 w hw x hx) (hb w hw x hx) (d := d) hd
  obtain ⟨h4, ds', ws', h5, h6, h7, h8⟩ := h1 fun w hw x hx d hd => (hst w hw x hx d hd).1
  refine ⟨h4, ds', h5, h6, fun k => ?_⟩
  rw [h7]
  have hk := h3 k
  by_cases hx : ∃ d ∈ ds, IsXmlFile d
  · have g1 := stored_sum (a := 2 ^ (-51 : ℤ)) (b := 2 ^ (-573 : ℤ)) (by positivity) (by positivity) k (evs := allEvents ds)
      (fun w hw x hx d hd => (hst w hw x hx d hd).2.1) h8
    have g2 := scaleError_bound le_rfl (hW k) hx
    refine (abs_sub_le _ (exactSum k (List.zipWith reweighted ws (allEvents ds))) _).trans ?_
    linarith
  · rw [stored_same hx h8]
    exact hk.trans (le_add_of_nonneg_right (scaleError_nonneg k ds))

/-- **C79**: in release builds every such run succeeds, and there is one. -/
theorem C79_succeeds {s : CresSettings N64 V D} (hc : GoodChoices s) (h0 : s.minWeight = 0)
    (hd : s.io.ctx.debug = false)
    (hfmt : ∀ w : N64, IsF64 w.val → s.io.ctx.float.finite w = true) {fs : FS P} {files : List (P × P)}
    {ds : List (EventFile N64 V)} (hin : EventFiles s.io fs (files.map Prod.fst) ds) (hf : GoodFiles files)
    (hws : WeightsSupported s.io ds) (hxml : ScaleRange ds)
    (hrange : F64Range (allEvents ds) ((allEvents ds).filter (HasParticles s.program))) :
    (∀ events ws res fs', s.program.Run files fs events ws res fs' → res = .ok ()) ∧
      ∃ events ws fs', s.program.Run files fs events ws (.ok ()) fs' := by
  obtain ⟨m, hm0, hm1, hm, -⟩ := supported_weights (p := s.program) hin hws
  obtain ⟨h1, events, ws, res, fs', h2⟩ := run_completes (p := s.program) hd hm0 hm1 (cres_goodComponents hc) (cres_unweight h0) hm hin hf
    fun ev hev => ⟨_, rfl, eventFiles_id hin ev hev⟩
  have key : ∀ events ws res fs', s.program.Run files fs events ws res fs' → res = .ok () := by
    intro events ws res fs' h
    obtain ⟨ws', rfl⟩ := h1 _ _ _ _ h
    exact (C79_sums hc h0 hfmt hin hf hws hxml hrange h).1
  have := key _ _ _ _ h2
  subst this
  exact ⟨key, events, ws, fs', h2⟩

/-- **C80**: in a run on one thread with `f64` weights and any distance, if the size of cells is not limited and the sum of the weights of events with particles is not negative, the negative weights in the output files are not
larger than twice the rounding error of all operations. -/
theorem C80_negative_weights {s : CresSettings N64 V D} (hc : GoodChoices s) (h0 : s.minWeight = 0)
    (hfmt : ∀ w : N64, IsF64 w.val → s.io.ctx.float.finite w = true) {fs fs' : FS P} {files : List (P × P)}
    {ds : List (EventFile N64 V)} (hin : EventFiles s.io fs (files.map Prod.fst) ds) (hf : GoodFiles files)
    (hws : WeightsSupported s.io ds) (hxml : ScaleRange ds)
    (hrange : F64Range (allEvents ds) ((allEvents ds).filter (HasParticles s.program)))
    {events : List (Event N64 V)} {ws : List (Weights N64)} {res : Outcome (CresError IOError) Unit}
    (h : s.program.Run files fs (some events) (some ws) res fs') (hone : OneThreadWeights s.program events ws)
    (hlen : events.length ≤ usizeMax) (hno : NoLimit s events)
    (hpos : 0 ≤ exactSum 0 ((allEvents ds).filter (HasParticles s.program))) :
    res = .ok () ∧ ∃ ds', EventFiles s.io fs' (files.map Prod.snd) ds' ∧ List.Forall₂ SameExceptWeights ds ds' ∧
      ∀ (i : Nat) ev ev', (allEvents ds)[i]? = some ev → (allEvents ds')[i]? = some ev' →
        (HasParticles s.program ev = true →
          -(2 * f64Error 0 ((allEvents ds).filter (HasParticles s.program)) + scaleError 0 ds) ≤ (centralWeight ev').val) ∧
        (HasParticles s.program ev = false → centralWeight ev' = if s.io.ctx.multi then centralWeight ev else 0) := by
  obtain ⟨m, st, hm0, hm1, he, hcw, hr, hfin, hrun, hv, hs2, hs3, hres, h1⟩ :=
    one_thread_state hc h0 hin hf hws h hone hlen hno
  obtain ⟨hn, hsl, hsums, h2, habs, hW, hb, h3⟩ := f64_weights hc h0 hm0 hm1 he hr hfin hrun hrange
  have hst := fun w hw x hx d hd => f64_stored (io := s.io) hfmt hxml (h2 w hw x hx) (hb w hw x hx) (d := d) hd
  obtain ⟨-, events', -, -, -, -, -, h1'⟩ := supported_run_stored (cres_goodComponents hc) (cres_unweight h0) hin hf hws h
  obtain ⟨h4, ds', ws', h5, h6, h7, h8⟩ := h1' fun w hw x hx d hd => (hst w hw x hx d hd).1
  refine ⟨h4, ds', h5, h6, fun i ev ev' hev hev' => ?_⟩
  have hg := cres_goodComponents hc
  obtain ⟨hwl, hwm, hwk⟩ := weights_written_all (M := ℚ) hg (cres_unweight h0) hm0 hm1 he hr hfin hrun
  obtain ⟨-, hw⟩ := hwk 0
  rw [h7] at hev'
  obtain ⟨w, w', hwi, hwi', rfl⟩ : ∃ w w', ws[i]? = some w ∧ ws'[i]? = some w' ∧ ev' = reweighted w' ev := by
    rw [List.getElem?_zipWith, hev] at hev'
    have hi := (List.getElem?_eq_some_iff.1 hev).1
    have hl := h8.length_eq
    rw [List.getElem?_eq_getElem (by omega)] at hev'
    simp only [Option.some.injEq] at hev'
    exact ⟨ws[i]'(by omega), ws'[i]'(by omega), List.getElem?_eq_getElem _, List.getElem?_eq_getElem _, hev'.symm⟩
  obtain ⟨d, hd, rfl⟩ : ∃ d ∈ ds, w' = w.map (stored d.kind) := by
    obtain ⟨hi, rfl⟩ := List.getElem?_eq_some_iff.1 hwi
    obtain ⟨hi', rfl⟩ := List.getElem?_eq_some_iff.1 hwi'
    exact List.forall₂_iff_get.1 h8 |>.2 i hi hi'
  have hwmem := List.mem_of_getElem? hwi
  have hstw := stored_weight (a := 2 ^ (-51 : ℤ)) (b := 2 ^ (-573 : ℤ)) (by positivity) (by positivity)
    (fun x hx => (hst w hwmem x hx d hd).2.1) 0 ev
  obtain ⟨w1, w2⟩ := hw i ev (reweighted w ev) hev (by rw [List.getElem?_zipWith, hev, hwi])
  simp only [weightNo_zero] at w1 w2
  refine ⟨fun hp => ?_, fun hp => ?_⟩
  · obtain ⟨j, hj, hjw⟩ := w1 hp
    set N := (s.program.seeds (identified events)).length * ((identified events).length + 1) with hN
    set H := (allEvents ds).filter (HasParticles s.program)
    have hNle : N ≤ maxOperations H := by
      rw [hN, hn]
      exact Nat.mul_le_mul_right _ hsl
    have hT : 0 ≤ exactAbsSum 0 H := by
      rw [← (hsums 0).2]
      exact absTotal_nonneg _ _
    obtain ⟨b1, b2⟩ := f64_bounds (hNle.trans hrange.operations) hT (hrange.sums 0)
    have := C71_all_neighbours_partial (fl64_roundsWithin (n := (identified events).length) (by rw [hn]; exact hrange.length) maxF64)
      hv hs2 (read_weights hg hm0 hm1 he) (by rw [(hsums 0).1]; exact hpos) hs3
      (by rw [(hsums 0).2]; exact b2) hres j hj
    rw [(hsums 0).2, wt_valMem, ← hjw] at this
    have hb1 : roundingBound (2 ^ (-53 : ℤ)) (2 ^ (-1075 : ℤ)) N (exactAbsSum 0 H) ≤ f64Error 0 H := by
      refine b1.trans ?_
      unfold f64Error
      refine mul_le_mul_of_nonneg_right (by exact_mod_cast hNle) (by positivity)
    have hb2 : -(2 * f64Error 0 H) ≤ (centralWeight (reweighted w ev)).val := by linarith
    simp only [weightNo_zero] at hstw
    by_cases hx : IsXmlFile d
    · have hj2 : |(centralWeight (reweighted w ev)).val| ≤ 3 * exactAbsSum 0 (allEvents ds) + 2 ^ (-1000 : ℤ) := by
        refine le_trans ?_ (le_trans (habs 0) ?_)
        · rw [hjw]
          unfold absTotal
          refine le_trans (le_of_eq ?_) (Finset.single_le_sum (f := fun i => |wt (valMem st.mem) 0 i|)
            (fun i _ => abs_nonneg _) (Finset.mem_range.2 hj))
          simp only [wt_valMem]
        · have : exactAbsSum 0 H ≤ exactAbsSum 0 (allEvents ds) :=
            (List.filter_sublist.map _).sum_le_sum fun x hx => by
              obtain ⟨e, -, rfl⟩ := List.mem_map.1 hx
              exact abs_nonneg _
          linarith
      have hlen1 : 1 ≤ (allEvents ds).length := by
        have := (List.getElem?_eq_some_iff.1 hev).1
        omega
      have g2 := scaleError_bound hlen1 hj2 ⟨d, hd, hx⟩
      have g3 := (abs_le.1 hstw).1
      push_cast at g2
      linarith
    · have : w.map (stored d.kind) = w := by
        conv_rhs => rw [← List.map_id' w]
        exact List.map_congr_left fun x hx' => (hst w hwmem x hx' d hd).2.2.1 hx
      rw [this]
      linarith [scaleError_nonneg 0 ds]
  · have hcw' : centralWeight (reweighted (w.map (stored d.kind)) ev) = centralWeight (reweighted w ev) := by
      have := no_particles_default hg (cres_unweight h0) he hrun hev hp
      rw [hwi, Option.some.injEq] at this
      subst this
      unfold defaultWeights
      cases hmu : s.program.cfg.multi with
      | true => rfl
      | false =>
        have h00 := (hst _ hwmem 0 (by simp [defaultWeights, hmu]) d hd).2.2.2 rfl
        simp [h00]
    rw [hcw']
    exact w2 hp

end

section Main

variable {V D : Type*} [Zero D] [LinearOrder D] [DistNum D] [ExactComparison D] [LinearOrder V]

/-- **C79** for runs of the command line program, starting from the paths of input files and output directory. -/
theorem C79_main {s : CresSettings N64 V D} (hc : GoodChoices s) (h0 : s.minWeight = 0)
    (hfmt : ∀ w : N64, IsF64 w.val → s.io.ctx.float.finite w = true)
    {cwd : List Bytes} {outdir : Bytes} {ins : List (Bytes × Bytes)}
    {tags : List (Option (Stripper.XmlTag N64))} {fs fs' : FS (List Bytes)} (hg : GoodInputs s.io cwd outdir ins tags fs)
    {io : IOConfig N64 V} (hio : io = { s.io with scaling := channelScales tags }) {ds : List (EventFile N64 V)}
    (hin : EventFiles io fs ((eventInputs ins tags).map fun x => locate cwd x.1 ++ [x.2]) ds) (hsup : WeightsSupported io ds)
    (hxml : ScaleRange ds)
    (hrange : F64Range (allEvents ds) ((allEvents ds).filter (HasParticles s.program)))
    {ws : List (Weights N64)} {res : Outcome MainError Unit}
    (h : MainRun s cwd outdir (ins.map fun x => x.1 ++ x.2) fs (some ws) res fs') :
    res = .ok () ∧
    ∃ ds', EventFiles io fs' ((eventInputs ins tags).map fun x => locate cwd outdir ++ [x.2]) ds' ∧
      List.Forall₂ SameExceptWeights ds ds' ∧
      ∀ k, |exactSum k (allEvents ds') -
        exactSum k ((allEvents ds).filter fun e => s.io.ctx.multi || HasParticles s.program e)| ≤
          f64Error k ((allEvents ds).filter (HasParticles s.program)) + scaleError k ds := by
  obtain ⟨h1, h2, h3⟩ := hg.files
  generalize hws : some ws = ows at h
  cases h with
  | scalingErr _ | scalingPanic _ => simp at hws
  | @run files io' events ws' res fs' g1 g2 =>
    subst hws
    rw [h1] at g1
    simp only [Outcome.ok.injEq, Prod.mk.injEq] at g1
    obtain ⟨rfl, rfl⟩ := g1
    have hc' : GoodChoices { s with io := { s.io with scaling := channelScales tags } } := ⟨hc.search, hc.seeds, hc.rng⟩
    subst hio
    obtain ⟨h4, ds', h5, h6⟩ := C79_sums hc' h0 hfmt (by rw [h3]; exact hin) h2 hsup hxml hrange g2
    refine ⟨by rw [h4]; rfl, ds', ?_, h6⟩
    rw [List.map_map] at h5
    exact h5

/-- **C80** for runs of the command line program, starting from the paths of input files and output directory. -/
theorem C80_main {s : CresSettings N64 V D} (hc : GoodChoices s) (h0 : s.minWeight = 0)
    (hfmt : ∀ w : N64, IsF64 w.val → s.io.ctx.float.finite w = true)
    {cwd : List Bytes} {outdir : Bytes} {ins : List (Bytes × Bytes)}
    {tags : List (Option (Stripper.XmlTag N64))} {fs fs' : FS (List Bytes)} (hg : GoodInputs s.io cwd outdir ins tags fs)
    {io : IOConfig N64 V} (hio : io = { s.io with scaling := channelScales tags }) {ds : List (EventFile N64 V)}
    (hin : EventFiles io fs ((eventInputs ins tags).map fun x => locate cwd x.1 ++ [x.2]) ds) (hsup : WeightsSupported io ds)
    (hxml : ScaleRange ds)
    (hrange : F64Range (allEvents ds) ((allEvents ds).filter (HasParticles s.program)))
    {events : List (Event N64 V)} {ws : List (Weights N64)} {res : Outcome MainError Unit}
    (h : OneThreadRun s cwd outdir (ins.map fun x => x.1 ++ x.2) fs events ws res fs')
    (hlen : events.length ≤ usizeMax) (hno : NoLimit s events)
    (hpos : 0 ≤ exactSum 0 ((allEvents ds).filter (HasParticles s.program))) :
    res = .ok () ∧
    ∃ ds', EventFiles io fs' ((eventInputs ins tags).map fun x => locate cwd outdir ++ [x.2]) ds' ∧
      List.Forall₂ SameExceptWeights ds ds' ∧
      ∀ (i : Nat) ev ev', (allEvents ds)[i]? = some ev → (allEvents ds')[i]? = some ev' →
        (HasParticles s.program ev = true →
          -(2 * f64Error 0 ((allEvents ds).filter (HasParticles s.program)) + scaleError 0 ds) ≤ (centralWeight ev').val) ∧
        (HasParticles s.program ev = false → centralWeight ev' = if s.io.ctx.multi then centralWeight ev else 0) := by
  obtain ⟨h1, h2, h3⟩ := hg.files
  obtain ⟨files, io', res', g1, g2, g3, rfl⟩ := h
  rw [h1] at g1
  simp only [Outcome.ok.injEq, Prod.mk.injEq] at g1
  obtain ⟨rfl, rfl⟩ := g1
  have hc' : GoodChoices { s with io := { s.io with scaling := channelScales tags } } := ⟨hc.search, hc.seeds, hc.rng⟩
  subst hio
  obtain ⟨h4, ds', h5, h6⟩ := C80_negative_weights hc' h0 hfmt (by rw [h3]; exact hin) h2 hsup hxml hrange g2 g3 hlen
    ⟨hno.dist, hno.diff⟩
    hpos
  refine ⟨by rw [h4]; rfl, ds', ?_, h6⟩
  rw [List.map_map] at h5
  exact h5

end Main

/-- **C80** with the distance of the command line program, which is defined and a metric for the events in a run. -/
theorem C80_default_distance {s : CresSettings N64 FourVector ℝ} (hc : GoodChoices s) (h0 : s.minWeight = 0)
    {km : SquareMatrix ℝ → ℝ} (hkm : SolvesAssignment km) {τ : ℝ} (hd : s.distance = euclDistance km τ)
    (hfmt : ∀ w : N64, IsF64 w.val → s.io.ctx.float.finite w = true)
    {cwd : List Bytes} {outdir : Bytes} {ins : List (Bytes × Bytes)}
    {tags : List (Option (Stripper.XmlTag N64))} {fs fs' : FS (List Bytes)} (hg : GoodInputs s.io cwd outdir ins tags fs)
    {io : IOConfig N64 FourVector} (hio : io = { s.io with scaling := channelScales tags }) {ds : List (EventFile N64 FourVector)}
    (hin : EventFiles io fs ((eventInputs ins tags).map fun x => locate cwd x.1 ++ [x.2]) ds) (hsup : WeightsSupported io ds)
    (hxml : ScaleRange ds)
    (hrange : F64Range (allEvents ds) ((allEvents ds).filter (HasParticles s.program)))
    {events : List (Event N64 FourVector)} {ws : List (Weights N64)} {res : Outcome MainError Unit}
    (h : OneThreadRun s cwd outdir (ins.map fun x => x.1 ++ x.2) fs events ws res fs')
    (hlen : events.length ≤ usizeMax)
    (hmax : ∀ e ∈ events, ∀ e' ∈ events, s.distance e e' ≤ s.maxCellSize)
    (hpos : 0 ≤ exactSum 0 ((allEvents ds).filter (HasParticles s.program))) :
    res = .ok () ∧
    ∃ ds', EventFiles io fs' ((eventInputs ins tags).map fun x => locate cwd outdir ++ [x.2]) ds' ∧
      List.Forall₂ SameExceptWeights ds ds' ∧
      ∀ (i : Nat) ev ev', (allEvents ds)[i]? = some ev → (allEvents ds')[i]? = some ev' →
        (HasParticles s.program ev = true →
          -(2 * f64Error 0 ((allEvents ds).filter (HasParticles s.program)) + scaleError 0 ds) ≤ (centralWeight ev').val) ∧
        (HasParticles s.program ev = false → centralWeight ev' = if s.io.ctx.multi then centralWeight ev else 0) :=
  C80_main hc h0 hfmt hg hio hin hsup hxml hrange h hlen
    (noLimit_of_metric (events_metric hkm hd hg hio hin hsup h).2 hmax) hpos

/-! ### example -/

/-- Settings with `f64` weights and distances, and without cell size limit. -/
def exF64 (multi : Bool) : CresSettings N64 ℚ N64 where
  io := { ctx := { float := f64Format, multi := multi, debug := false, names := [], momentum := fun e _ _ _ => e.val,
                   milli := fun x => x / 1000 },
          feat := ⟨true, false, true⟩, firstBuffer := id, xmlInfo := fun _ => .ok (.eventrecord (ascii "a") 2 2),
          scaling := fun _ => none }
  particles := exampleParticles
  clustering := ⟨id, none, fun _ _ => false, false⟩
  search := .tree stableSort stableSort 1 ⟨maxF64⟩
  distance e e' := if e.outgoingByPid = e'.outgoingByPid then 0 else ⟨fl64 (1 / 10)⟩
  maxCellSize := ⟨maxF64⟩
  strategy := .mostNegative
  sortSeeds key l := l.insertionSort fun a b => key a ≤ key b
  minWeight := 0
  rng _ := 0
  infoLog := true

theorem exF64_good (multi : Bool) : GoodChoices (exF64 multi) := by
  refine ⟨⟨stableSort_sorts, stableSort_sorts⟩, fun key l => ⟨List.perm_insertionSort _ _, ?_⟩, fun i => ⟨le_rfl, Or.inl rfl⟩⟩
  have : Std.Total fun a b : ℕ => key a ≤ key b := ⟨fun a b => le_total _ _⟩
  have : IsTrans ℕ fun a b => key a ≤ key b := ⟨fun a b c => le_trans⟩
  exact List.pairwise_insertionSort _ l

/-- A file with three events. The weights are not `f64` numbers and are rounded. -/
def exF64File : EventFile N64 ℚ :=
  ⟨⟨.hepmc2, ascii "H\n", [ascii "E 1 2 3 4 5 6 7 8 9 0 0 1 -0.3\nP 1 21 0 0 0 7 0 1 0 0 0\n",
    ascii "E 1 2 3 4 5 6 7 8 9 0 0 1 0.1\nP 1 21 0 0 0 9 0 1 0 0 0\n",
    ascii "E 1 2 3 4 5 6 7 8 9 0 0 1 0.7\nP 1 21 0 0 0 8 0 1 0 0 0\n"]⟩,
   [⟨0, [⟨fl64 (-3 / 10)⟩], [(21, [7])]⟩, ⟨0, [⟨fl64 (1 / 10)⟩], [(21, [9])]⟩, ⟨0, [⟨fl64 (7 / 10)⟩], [(21, [8])]⟩]⟩

theorem exF64File_ok (multi : Bool) :
    IsEventFile (exF64 multi).io (exF64File.header ++ exF64File.records.flatten) exF64File := by
  refine ⟨⟨by decide +kernel, ?_, ⟨rfl, by simp [exF64File], by decide +kernel, ?_, ?_, ?_, ?_⟩, ?_⟩, ?_⟩
  · exact fun rest => detectFormat_append _ (b := 72) (h := [10]) (by decide) (Or.inr (by decide)) rest
  · unfold Contains; decide +kernel
  · decide +kernel
  · unfold Contains; decide +kernel
  · decide +kernel
  · cases multi <;> decide +kernel
  · refine .cons ?_ (.cons ?_ (.cons ?_ .nil)) <;>
    · show HepMC.parse _ _ = _
      cases multi <;> decide +kernel

/-- The input file. -/
def exF64FS : FS ℕ
  | 0 => some (exF64File.header ++ exF64File.records.flatten)
  | _ => none

theorem exF64Files (multi : Bool) : EventFiles (exF64 multi).io exF64FS [0] [exF64File] :=
  .cons ⟨_, rfl, exF64File_ok multi⟩ .nil

theorem exF64Range (multi : Bool) :
    F64Range (allEvents [exF64File]) ((allEvents [exF64File]).filter (HasParticles (exF64 multi).program)) ∧
      0 < exactSum 0 ((allEvents [exF64File]).filter (HasParticles (exF64 multi).program)) ∧
      f64Error 0 ((allEvents [exF64File]).filter (HasParticles (exF64 multi).program)) < 1 / 10 ^ 14 := by
  have hall : (allEvents [exF64File]).filter (HasParticles (exF64 multi).program) = allEvents [exF64File] := by
    refine List.filter_eq_self.2 ?_
    cases multi <;> decide +kernel
  rw [hall]
  have hex : allEvents [exF64File] = exF64File.events := by simp [allEvents]
  have habs : exactAbsSum 0 (allEvents [exF64File]) ≤ 2 := by decide +kernel
  have hops : maxOperations (allEvents [exF64File]) = 4 := by decide +kernel
  refine ⟨⟨?_, fun k => ?_, by rw [hex]; decide, by rw [hops]; norm_num⟩, by decide +kernel, ?_⟩
  · rw [hex]
    have hmax : (1 : ℚ) ≤ maxF64 := one_le_mul_of_one_le_of_one_le (by norm_num) (one_le_zpow₀ (by norm_num) (by norm_num))
    intro ev hev w hw
    simp only [exF64File, List.mem_cons, List.not_mem_nil, or_false] at hev
    rcases hev with rfl | rfl | rfl <;>
    · simp only [List.mem_singleton] at hw
      subst hw
      exact fl64_isF64 (le_trans (by norm_num [abs_le]) hmax)
  · cases k with
    | zero => exact habs.trans (le_trans (by norm_num) (zpow_two_mono (show (1 : ℤ) ≤ 1021 by norm_num)))
    | succ k =>
      have : exactAbsSum (k + 1) (allEvents [exF64File]) = 0 := by
        rw [hex]
        simp [exactAbsSum, exF64File, weightNo, val_zero]
      rw [this]
      positivity
  · unfold f64Error
    rw [hops]
    have h2 : (2 : ℚ) ^ (-1075 : ℤ) ≤ 2 ^ (-60 : ℤ) := zpow_two_mono (by norm_num)
    norm_num at h2 ⊢
    linarith

/-- The hypotheses of `C79_sums`, `C79_succeeds` and `C80_negative_weights` are met in a run on a file
with the weights -0.3, 0.1 and 0.7. The error bound is less than 10⁻¹⁴. -/
example (multi : Bool) : GoodChoices (exF64 multi) ∧ (exF64 multi).minWeight = 0 ∧ (exF64 multi).io.ctx.debug = false ∧
    (∀ w : N64, IsF64 w.val → (exF64 multi).io.ctx.float.finite w = true) ∧
    EventFiles (exF64 multi).io exF64FS ([((0 : ℕ), 10)].map Prod.fst) [exF64File] ∧ GoodFiles [((0 : ℕ), 10)] ∧
    WeightsSupported (exF64 multi).io [exF64File] ∧ ScaleRange [exF64File] ∧
    F64Range (allEvents [exF64File]) ((allEvents [exF64File]).filter (HasParticles (exF64 multi).program)) ∧
    (∃ events ws res fs', (exF64 multi).program.Run [((0 : ℕ), 10)] exF64FS (some events) (some ws) res fs' ∧
      OneThreadWeights (exF64 multi).program events ws ∧ events.length ≤ usizeMax ∧
      NoLimit (exF64 multi) events) ∧
    0 < exactSum 0 ((allEvents [exF64File]).filter (HasParticles (exF64 multi).program)) ∧
    f64Error 0 ((allEvents [exF64File]).filter (HasParticles (exF64 multi).program)) < 1 / 10 ^ 14 := by
  have hgf : GoodFiles [((0 : ℕ), 10)] := ⟨by decide, by decide⟩
  have hsup : WeightsSupported (exF64 multi).io [exF64File] := .inl fun _ => rfl
  have hin : EventFiles (exF64 multi).io exF64FS ([((0 : ℕ), 10)].map Prod.fst) [exF64File] := exF64Files multi
  obtain ⟨events, ws, res, fs', h1, h2⟩ := C77_completes (exF64_good multi) rfl rfl hin hgf hsup
  refine ⟨exF64_good multi, rfl, rfl, f64Format_finite, hin, hgf, hsup, by simp [ScaleRange, exF64File], (exF64Range multi).1,
    ⟨events, ws, res, fs', h1, h2, ?_, ?_⟩, (exF64Range multi).2⟩
  · obtain ⟨m, events', -, -, h3, he, -⟩ := supported_run (cres_goodComponents (exF64_good multi)) (cres_unweight rfl) hin hgf hsup h1
    simp only [Option.some.injEq] at h3
    subst h3
    rw [he.length_eq]
    decide +kernel
  · refine noLimit_f64 ⟨2 ^ 53 - 1, 971, by norm_num, by norm_num, by norm_num, by norm_num [exF64, maxF64]⟩ ?_ ?_
    · intro e _ e' _
      simp only [exF64]
      split_ifs
      · exact le_refl 0
      · decide +kernel
    · intro e _ e' _
      simp only [exF64]
      split_ifs
      · decide +kernel
      · decide +kernel

/-- The same settings, with a scale for STRIPPER XML files that is not an `f64` number and is rounded. -/
def exF64X (multi : Bool) : CresSettings N64 ℚ N64 :=
  { exF64 multi with io := { (exF64 multi).io with scaling := fun _ => some ⟨fl64 (3 / 10)⟩ } }

/-- A STRIPPER XML file with two events. -/
def exF64Xml : EventFile N64 ℚ :=
  ⟨⟨.stripperXml ⟨fl64 (3 / 10)⟩, ascii "<?xml version?><r>", [ascii "<se w=\"-0.1\"><p id=\"0,21\"> 7,0,3,4</p></se>",
    ascii "<se w=\"0.7\"><p id=\"0,21\"> 8,0,3,4</p></se></r>"]⟩,
   [⟨0, [⟨fl64 (fl64 (3 / 10) * fl64 (-1 / 10))⟩], [(21, [7])]⟩, ⟨0, [⟨fl64 (fl64 (3 / 10) * fl64 (7 / 10))⟩], [(21, [8])]⟩]⟩

theorem exF64Xml_ok (multi : Bool) :
    IsEventFile (exF64X multi).io (exF64Xml.header ++ exF64Xml.records.flatten) exF64Xml := by
  refine ⟨⟨by decide +kernel, ?_, ⟨rfl, by simp [exF64Xml], ?_, ?_, ?_⟩, by decide +kernel, ?_, ascii "a", 2, 2, rfl, rfl,
    fun _ => le_rfl⟩, ?_⟩
  · exact fun rest => detectFormat_append _ (b := 60) (h := ascii "?xml version?><r>") (by decide) (Or.inl (by decide)) rest
  · unfold Contains; decide +kernel
  · decide +kernel
  · unfold Contains; decide +kernel
  · intro r hr
    simp only [exF64Xml, List.mem_cons, List.not_mem_nil, or_false] at hr
    rcases hr with rfl | rfl
    · exact quoted_of_some (r := ascii "-0.1\"><p id=\"0,21\"> 7,0,3,4</p></se>") (w := ⟨fl64 (-1 / 10)⟩)
        (rest := ascii "\"><p id=\"0,21\"> 7,0,3,4</p></se>") (by decide +kernel) (by cases multi <;> decide +kernel) (by decide)
    · exact quoted_of_some (r := ascii "0.7\"><p id=\"0,21\"> 8,0,3,4</p></se></r>") (w := ⟨fl64 (7 / 10)⟩)
        (rest := ascii "\"><p id=\"0,21\"> 8,0,3,4</p></se></r>") (by decide +kernel) (by cases multi <;> decide +kernel) (by decide)
  · refine .cons ?_ (.cons ?_ .nil)
    · exact ⟨⟨0, [⟨fl64 (-1 / 10)⟩], [(21, [7])]⟩, _, by cases multi <;> decide +kernel, rfl, by cases multi <;> decide +kernel,
        by decide +kernel⟩
    · exact ⟨⟨0, [⟨fl64 (7 / 10)⟩], [(21, [8])]⟩, _, by cases multi <;> decide +kernel, rfl, by cases multi <;> decide +kernel,
        by decide +kernel⟩

/-- The input file. -/
def exF64XmlFS : FS ℕ
  | 0 => some (exF64Xml.header ++ exF64Xml.records.flatten)
  | _ => none

theorem exF64XmlSums (k : Nat) : exactAbsSum k (allEvents [exF64Xml]) ≤ 1 := by
  cases k with
  | zero => decide +kernel
  | succ k =>
    have hex : allEvents [exF64Xml] = exF64Xml.events := by simp [allEvents]
    have : exactAbsSum (k + 1) (allEvents [exF64Xml]) = 0 := by
      rw [hex]
      simp [exactAbsSum, exF64Xml, weightNo, val_zero]
    rw [this]
    norm_num

theorem exF64XmlRange (multi : Bool) :
    F64Range (allEvents [exF64Xml]) ((allEvents [exF64Xml]).filter (HasParticles (exF64X multi).program)) ∧
      ScaleRange [exF64Xml] ∧
      0 < exactSum 0 ((allEvents [exF64Xml]).filter (HasParticles (exF64X multi).program)) ∧
      f64Error 0 ((allEvents [exF64Xml]).filter (HasParticles (exF64X multi).program)) + scaleError 0 [exF64Xml] < 1 / 10 ^ 14 := by
  have hall : (allEvents [exF64Xml]).filter (HasParticles (exF64X multi).program) = allEvents [exF64Xml] := by
    refine List.filter_eq_self.2 ?_
    cases multi <;> decide +kernel
  rw [hall]
  have hex : allEvents [exF64Xml] = exF64Xml.events := by simp [allEvents]
  have hops : maxOperations (allEvents [exF64Xml]) = 3 := by decide +kernel
  have hmax : (1 : ℚ) ≤ maxF64 := one_le_mul_of_one_le_of_one_le (by norm_num) (one_le_zpow₀ (by norm_num) (by norm_num))
  refine ⟨⟨?_, fun k => ?_, by rw [hex]; decide, by rw [hops]; norm_num⟩, ?_, by decide +kernel, ?_⟩
  · rw [hex]
    intro ev hev w hw
    simp only [exF64Xml, List.mem_cons, List.not_mem_nil, or_false] at hev
    rcases hev with rfl | rfl <;>
    · simp only [List.mem_singleton] at hw
      subst hw
      exact fl64_isF64 (le_trans (by decide +kernel) hmax)
  · exact (exF64XmlSums k).trans (one_le_zpow₀ (by norm_num) (by norm_num))
  · intro d hd scale hk
    simp only [List.mem_singleton] at hd
    subst hd
    simp only [exF64Xml, Kind.stripperXml.injEq] at hk
    subst hk
    have h1 : (1 / 10 : ℚ) ≤ |fl64 (3 / 10)| := by decide +kernel
    have h2 : |fl64 (3 / 10)| ≤ 1 := by decide +kernel
    refine ⟨le_trans ((zpow_two_mono (show (-500 : ℤ) ≤ -4 by norm_num)).trans (by norm_num)) h1,
      h2.trans (one_le_zpow₀ (by norm_num) (by norm_num)), fun k => (exF64XmlSums k).trans (one_le_zpow₀ (by norm_num) (by norm_num))⟩
  · unfold f64Error scaleError
    rw [if_pos ⟨exF64Xml, by simp, _, rfl⟩, hops]
    have h2 : (2 : ℚ) ^ (-1075 : ℤ) ≤ 2 ^ (-60 : ℤ) := zpow_two_mono (by norm_num)
    have h3 : (2 : ℚ) ^ (-573 : ℤ) ≤ 2 ^ (-60 : ℤ) := zpow_two_mono (by norm_num)
    have h4 := exF64XmlSums 0
    have h5 : (allEvents [exF64Xml]).length = 2 := by decide
    rw [h5]
    generalize (2 : ℚ) ^ (-1075 : ℤ) = c at *
    generalize (2 : ℚ) ^ (-573 : ℤ) = c' at *
    norm_num at h2 h3 ⊢
    linarith

/-- The hypotheses are also met in a run on a STRIPPER XML file. -/
example (multi : Bool) : GoodChoices (exF64X multi) ∧ (exF64X multi).minWeight = 0 ∧ (exF64X multi).io.ctx.debug = false ∧
    (∀ w : N64, IsF64 w.val → (exF64X multi).io.ctx.float.finite w = true) ∧
    EventFiles (exF64X multi).io exF64XmlFS ([((0 : ℕ), 10)].map Prod.fst) [exF64Xml] ∧ GoodFiles [((0 : ℕ), 10)] ∧
    WeightsSupported (exF64X multi).io [exF64Xml] ∧ ScaleRange [exF64Xml] ∧
    F64Range (allEvents [exF64Xml]) ((allEvents [exF64Xml]).filter (HasParticles (exF64X multi).program)) ∧
    (∃ events ws res fs', (exF64X multi).program.Run [((0 : ℕ), 10)] exF64XmlFS (some events) (some ws) res fs' ∧
      OneThreadWeights (exF64X multi).program events ws) ∧
    0 < exactSum 0 ((allEvents [exF64Xml]).filter (HasParticles (exF64X multi).program)) ∧
    f64Error 0 ((allEvents [exF64Xml]).filter (HasParticles (exF64X multi).program)) + scaleError 0 [exF64Xml] < 1 / 10 ^ 14 := by
  have hgf : GoodFiles [((0 : ℕ), 10)] := ⟨by decide, by decide⟩
  have hsup : WeightsSupported (exF64X multi).io [exF64Xml] := .inl fun _ => rfl
  have hin : EventFiles (exF64X multi).io exF64XmlFS ([((0 : ℕ), 10)].map Prod.fst) [exF64Xml] :=
    .cons ⟨_, rfl, exF64Xml_ok multi⟩ .nil
  have hc : GoodChoices (exF64X multi) := ⟨(exF64_good multi).search, (exF64_good multi).seeds, (exF64_good multi).rng⟩
  obtain ⟨events, ws, res, fs', h1, h2⟩ := C77_completes hc rfl rfl hin hgf hsup
  exact ⟨hc, rfl, rfl, f64Format_finite, hin, hgf, hsup, (exF64XmlRange multi).2.1, (exF64XmlRange multi).1,
    ⟨events, ws, res, fs', h1, h2⟩, (exF64XmlRange multi).2.2⟩

end Cres

import Verif.Proofs.Choices
import Verif.Props.DefaultRun

/-!
# C97: the choice of the neighbour search
-/

set_option linter.unusedSectionVars false

namespace Cres

open Spec CombinedIO Program Cres.Path

section

variable {K V D P : Type*} [AddCommGroup D] [LinearOrder D] [IsOrderedAddMonoid D] [Zero K] [One K] [Add K] [Mul K] [Div K]
  [Neg K] [NatCast K] [LinearOrder K] [LinearOrder V] [DecidableEq P]

/-- **C97**: if the distance is a metric for the events that are read and there are no ties, exactly the same runs are
possible with both settings: with the same events, weights, result and files in the end. -/
theorem C97_same_runs (hneg : Function.Injective (Neg.neg : K → K)) {s s' : CresSettings K V D} (hs : SameExceptSearch s s')
    (hc : GoodChoices s) (hc' : GoodChoices s') (files : List (P × P)) (fs fs' : FS P)
    (events : Option (List (Event K V))) (ws : Option (List (Weights K))) (res : Outcome (CresError IOError) Unit)
    (hev : ∀ evs, events = some evs → evs.length ≤ usizeMax ∧ IsMetricOn (· ∈ evs) s.distance ∧ NoChoice s evs) :
    s.program.Run files fs events ws res fs' ↔ s'.program.Run files fs events ws res fs' := by
  have h := fun evs he => sameFor_of_noChoice hneg hs hc hc' (hev evs he).1 (hev evs he).2.1 (hev evs he).2.2
  exact ⟨run_sameSearch hs h, run_sameSearch hs.symm fun evs he => (h evs he).symm⟩

theorem run_reads {p : Program K V D} {m : Nat} {fs fs' : FS P}
    {files : List (P × P)} {ds : List (EventFile K V)}
    (hm : ∀ ev ∈ allEvents ds, ev.weights.length = m) (hin : EventFiles p.io fs (files.map Prod.fst) ds) (hf : GoodFiles files)
    {events : List (Event K V)} {ws : Option (List (Weights K))} {res : Outcome (CresError IOError) Unit}
    (h : p.Run files fs (some events) ws res fs') : EventsRead p m ds events := by
  obtain ⟨s0, fs0, hnew, hread, -⟩ := reads_files hm hin hf
  have key : ∀ {s fs1 x}, CombinedIO.new p.io files fs = (.ok (), s, fs1) → p.ReadsEvents s fs1 (.ok events) x →
      EventsRead p m ds events := by
    intro s fs1 x g1 g2
    rw [hnew] at g1
    simp only [Prod.mk.injEq, true_and] at g1
    obtain ⟨rfl, rfl⟩ := g1
    exact (hread _ _ g2).2.1 _ rfl
  generalize he : some events = oe at h
  cases h with
  | createErr _ | createPanic _ | readErr _ _ | readPanic _ _ => simp at he
  | weightsErr g1 g2 _ | weightsPanic g1 g2 _ | update g1 g2 _ =>
    simp only [Option.some.injEq] at he
    subst he
    exact key g1 g2

theorem eventsRead_injective {p : Program K V D} {m : Nat} {ds : List (EventFile K V)} {events : List (Event K V)}
    (h : EventsRead p m ds events) {i j : Nat} (hi : i < events.length) (hj : j < events.length)
    (hij : events[i].id = events[j].id) : i = j := by
  have hnd : (events.map Event.id).Nodup := h.ids.nodup_iff.2 List.nodup_range
  exact (hnd.getElem_inj_iff (hi := by simpa using hi) (hj := by simpa using hj)).1 (by simpa using hij)

theorem eventsRead_clustered {s : CresSettings K V D} {m : Nat} {ds : List (EventFile K V)} {events : List (Event K V)}
    (h : EventsRead s.program m ds events) {i : Nat} {a : Event K V} (ha : events[i]? = some a) :
    ∃ a' k, (clusteredEvents s ds)[((events[i]?.map Event.id).getD 0)]? = some a' ∧ a = { a' with id := k } := by
  rw [ha]
  obtain ⟨e0, e1, q1, q2, q3, -⟩ := h.from_file a (List.mem_of_getElem? ha)
  simp only [CresSettings.program, Outcome.ok.injEq] at q2
  refine ⟨e1, a.id, ?_, q3⟩
  simp [clusteredEvents, List.getElem?_map, q1, q2]

/-- The conditions for the events in the files carry over to the events in memory, whatever their order. -/
theorem noChoice_read {s : CresSettings K V D} (hd : IgnoresIds s.distance) {m : Nat} {ds : List (EventFile K V)}
    (hlen : (allEvents ds).length ≤ usizeMax) (hm : IsMetricOn (· ∈ clusteredEvents s ds) s.distance)
    (hn : NoChoice s (clusteredEvents s ds)) {events : List (Event K V)} (h : EventsRead s.program m ds events) :
    events.length ≤ usizeMax ∧ IsMetricOn (· ∈ events) s.distance ∧ NoChoice s events := by
  refine ⟨by rw [h.length_eq]; exact hlen, ?_, ?_⟩
  · have key : ∀ e ∈ events, ∃ e' ∈ clusteredEvents s ds, ∃ k, e = { e' with id := k } := by
      intro e he
      obtain ⟨i, hi⟩ := List.getElem?_of_mem he
      obtain ⟨a', k, h1, h2⟩ := eventsRead_clustered h hi
      exact ⟨a', List.mem_of_getElem? h1, k, h2⟩
    refine ⟨fun x y hx hy => ?_, fun x y z hx hy hz => ?_⟩
    · obtain ⟨x', hx', kx, rfl⟩ := key x hx
      obtain ⟨y', hy', ky, rfl⟩ := key y hy
      exact (hd x' y' kx ky).trans ((hm.symm x' y' hx' hy').trans (hd y' x' ky kx).symm)
    · obtain ⟨x', hx', kx, rfl⟩ := key x hx
      obtain ⟨y', hy', ky, rfl⟩ := key y hy
      obtain ⟨z', hz', kz, rfl⟩ := key z hz
      have h1 := hd x' z' kx kz
      have h2 := hd x' y' kx ky
      have h3 := hd y' z' ky kz
      rw [h1, h2, h3]
      exact hm.triangle x' y' z' hx' hy' hz'
  · refine hn.transfer hd (fun i => (events[i]?.map Event.id).getD 0) ?_ fun i a ha => eventsRead_clustered h ha
    intro i j hi hj hij
    refine eventsRead_injective h hi hj ?_
    simpa [List.getElem?_eq_getElem hi, List.getElem?_eq_getElem hj] using hij

/-- **C97** for the command line program: if the distance is a metric for the events in the input files after clustering and
there are no ties, exactly the same runs are possible with both settings, with the same output files, for any number of
threads and any arithmetic of weights. -/
theorem C97_main (hneg : Function.Injective (Neg.neg : K → K)) {s s' : CresSettings K V D} (hs : SameExceptSearch s s')
    (hc : GoodChoices s) (hc' : GoodChoices s') (hd : IgnoresIds s.distance)
    {cwd : List Bytes} {outdir : Bytes} {ins : List (Bytes × Bytes)} {tags : List (Option (Stripper.XmlTag K))}
    {fs : FS (List Bytes)} (hg : GoodInputs s.io cwd outdir ins tags fs)
    {io : IOConfig K V} (hio : io = { s.io with scaling := channelScales tags }) {ds : List (EventFile K V)}
    (hin : EventFiles io fs ((eventInputs ins tags).map fun x => locate cwd x.1 ++ [x.2]) ds) (hsup : WeightsSupported io ds)
    (hlen : (allEvents ds).length ≤ usizeMax) (hm : IsMetricOn (· ∈ clusteredEvents s ds) s.distance)
    (hn : NoChoice s (clusteredEvents s ds)) (ws : Option (List (Weights K))) (res : Outcome MainError Unit)
    (fs' : FS (List Bytes)) :
    MainRun s cwd outdir (ins.map fun x => x.1 ++ x.2) fs ws res fs' ↔
      MainRun s' cwd outdir (ins.map fun x => x.1 ++ x.2) fs ws res fs' := by
  obtain ⟨h1, h2, h3⟩ := hg.files
  have hin' := hin
  rw [← h3] at hin'
  obtain ⟨m, hm0, hm1, hmw, -⟩ :=
    supported_weights (p := CresSettings.program { s with io := { s.io with scaling := channelScales tags } })
      (by rw [hio] at hin'; exact hin') (by rw [← hio]; exact hsup)
  have key : ∀ {s s' : CresSettings K V D}, SameExceptSearch s s' → GoodChoices s → GoodChoices s' → IgnoresIds s.distance →
      prepareFiles s.io fs (locatedPairs cwd outdir (ins.map fun x => x.1 ++ x.2)) =
      .ok ((eventInputs ins tags).map fun x => (locate cwd (x.1 ++ x.2), locate cwd outdir ++ [x.2]),
        { s.io with scaling := channelScales tags }) →
      io = { s.io with scaling := channelScales tags } → IsMetricOn (· ∈ clusteredEvents s ds) s.distance →
      NoChoice s (clusteredEvents s ds) → MainRun s cwd outdir (ins.map fun x => x.1 ++ x.2) fs ws res fs' →
      MainRun s' cwd outdir (ins.map fun x => x.1 ++ x.2) fs ws res fs' := by
    intro s s' hs hc hc' hd h1 hio hm hn h
    cases h with
    | scalingErr h => rw [h1] at h; simp at h
    | scalingPanic h => rw [h1] at h; simp at h
    | @run files io'' events ws res fs' g1 g2 =>
      rw [h1] at g1
      simp only [Outcome.ok.injEq, Prod.mk.injEq] at g1
      obtain ⟨rfl, rfl⟩ := g1
      refine .run (events := events) (by rw [hs.io]; exact h1) ?_
      refine (C97_same_runs hneg (hs.withIO { s.io with scaling := channelScales tags }) ⟨hc.search, hc.seeds, hc.rng⟩ ⟨hc'.search, hc'.seeds, hc'.rng⟩ _ _ _ _ _ _ ?_).1 g2
      rintro evs rfl
      have hr := run_reads (p := CresSettings.program { s with io := { s.io with scaling := channelScales tags } }) hmw
        (by rw [hio] at hin'; exact hin') h2 g2
      have := noChoice_read (s := { s with io := { s.io with scaling := channelScales tags } }) hd hlen hm
        ⟨hn.distances, hn.seeds⟩ hr
      exact ⟨this.1, this.2.1, this.2.2.distances, this.2.2.seeds⟩
  have hcl : clusteredEvents s' ds = clusteredEvents s ds := by
    unfold clusteredEvents
    rw [hs.io, hs.particles, hs.clustering]
  exact ⟨key hs hc hc' hd h1 hio hm hn, key hs.symm hc' hc (by rw [hs.distance]; exact hd) (by rw [hs.io]; exact h1)
    (by rw [hs.io]; exact hio) (by rw [hcl, hs.distance]; exact hm) (by rw [hcl]; exact hn.of_same hs)⟩

/-- **C97** with one thread: the same holds for runs in which the cells are treated one after the other. -/
theorem C97_one_thread (hneg : Function.Injective (Neg.neg : K → K)) {s s' : CresSettings K V D} (hs : SameExceptSearch s s')
    (hc : GoodChoices s) (hc' : GoodChoices s') {cwd : List Bytes} {outdir : Bytes} {infiles : List Bytes}
    {fs fs' : FS (List Bytes)} {events : List (Event K V)} {ws : List (Weights K)} {res : Outcome MainError Unit}
    (hlen : events.length ≤ usizeMax) (hm : IsMetricOn (· ∈ events) s.distance) (hn : NoChoice s events) :
    OneThreadRun s cwd outdir infiles fs events ws res fs' ↔ OneThreadRun s' cwd outdir infiles fs events ws res fs' := by
  have key : ∀ {s s' : CresSettings K V D}, SameExceptSearch s s' → GoodChoices s → GoodChoices s' →
      IsMetricOn (· ∈ events) s.distance → NoChoice s events → OneThreadRun s cwd outdir infiles fs events ws res fs' →
      OneThreadRun s' cwd outdir infiles fs events ws res fs' := by
    intro s s' hs hc hc' hm hn h
    obtain ⟨files, io, r, h1, h2, h3, h4⟩ := h
    have hcs : GoodChoices { s with io := io } := ⟨hc.search, hc.seeds, hc.rng⟩
    have hcs' : GoodChoices { s' with io := io } := ⟨hc'.search, hc'.seeds, hc'.rng⟩
    have hns : NoChoice { s with io := io } events := ⟨hn.distances, hn.seeds⟩
    refine ⟨files, io, r, by rw [hs.io]; exact h1, ?_, ?_, h4⟩
    · refine (C97_same_runs hneg (hs.withIO io) hcs hcs' _ _ _ _ _ _ ?_).1 h2
      intro evs he
      simp only [Option.some.injEq] at he
      subst he
      exact ⟨hlen, hm, hns⟩
    · exact (sameFor_of_noChoice hneg (hs.withIO io) hcs hcs' hlen hm hns).oneThread h3
  exact ⟨key hs hc hc' hm hn, key hs.symm hc' hc (by rw [hs.distance]; exact hm) (hn.of_same hs)⟩

end

section

variable {K : Type*} [Zero K] [One K] [Add K] [Mul K] [Div K] [Neg K] [NatCast K] [LinearOrder K]

/-- **C97** with the distance of the command line program, which is a metric for the events in a run. -/
theorem C97_default_distance (hneg : Function.Injective (Neg.neg : K → K)) {s s' : CresSettings K FourVector ℝ}
    (hs : SameExceptSearch s s') (hc : GoodChoices s) (hc' : GoodChoices s')
    {km : SquareMatrix ℝ → ℝ} (hkm : SolvesAssignment km) {τ : ℝ} (hd : s.distance = euclDistance km τ)
    {cwd : List Bytes} {outdir : Bytes} {ins : List (Bytes × Bytes)} {tags : List (Option (Stripper.XmlTag K))}
    {fs : FS (List Bytes)} (hg : GoodInputs s.io cwd outdir ins tags fs)
    {io : IOConfig K FourVector} (hio : io = { s.io with scaling := channelScales tags }) {ds : List (EventFile K FourVector)}
    (hin : EventFiles io fs ((eventInputs ins tags).map fun x => locate cwd x.1 ++ [x.2]) ds) (hsup : WeightsSupported io ds)
    (hlen : (allEvents ds).length ≤ usizeMax) (hn : NoChoice s (clusteredEvents s ds)) (ws : Option (List (Weights K)))
    (res : Outcome MainError Unit) (fs' : FS (List Bytes)) :
    MainRun s cwd outdir (ins.map fun x => x.1 ++ x.2) fs ws res fs' ↔
      MainRun s' cwd outdir (ins.map fun x => x.1 ++ x.2) fs ws res fs' := by
  refine C97_main hneg hs hc hc' (by rw [hd]; exact C89_default_distance km τ) hg hio hin hsup hlen ?_ hn ws res fs'
  rw [hd]
  refine (euclDistance_metric hkm τ ?_).2
  intro e he
  obtain ⟨e0, -, rfl⟩ := List.mem_map.1 he
  exact cluster_canonical _ _ _ _

end

/-! ### example -/

/-- The settings of the example for C74 with the other search. -/
def exTree (multi : Bool) : CresSettings ℚ ℚ ℚ :=
  { exMain multi (fun _ => none) with search := .tree stableSort stableSort 1 1000 }

theorem exTree_noChoice (multi : Bool) :
    IsMetricOn (· ∈ clusteredEvents (exMain multi fun _ => none) [exProgHepmc, exProgLhef]) (exMain multi fun _ => none).distance ∧
    NoChoice (exMain multi fun _ => none) (clusteredEvents (exMain multi fun _ => none) [exProgHepmc, exProgLhef]) := by
  have hev : clusteredEvents (exMain multi fun _ => none) [exProgHepmc, exProgLhef] =
      [⟨0, [-2], [(81, [7])]⟩, ⟨0, [6], [(81, [9])]⟩, ⟨0, [6], [(81, [8])]⟩] := by
    cases multi <;> decide +kernel
  rw [hev]
  refine ⟨⟨fun x y _ _ => abs_sub_comm _ _, fun x y z _ _ _ => abs_sub_le _ _ _⟩, ?_, Or.inr ?_⟩
  · intro i j k a b c ha hb hc hij hik _ _ _ hneg _ heq
    have hi := (List.getElem?_eq_some_iff.1 ha).1
    have hj := (List.getElem?_eq_some_iff.1 hb).1
    have hk := (List.getElem?_eq_some_iff.1 hc).1
    simp only [List.length_cons, List.length_nil] at hi hj hk
    interval_cases i <;> interval_cases j <;> interval_cases k <;> simp at ha hb hc hij hik ⊢ <;> subst ha hb hc <;>
      simp [exMain, exSettings, centralWeight] at hneg heq <;> (first | (norm_num at hneg; done) | norm_num at heq)
  · intro i j a b ha hb _ _ hneg heq
    have hi := (List.getElem?_eq_some_iff.1 ha).1
    have hj := (List.getElem?_eq_some_iff.1 hb).1
    simp only [List.length_cons, List.length_nil] at hi hj
    interval_cases i <;> interval_cases j <;> simp at ha hb ⊢ <;> subst ha hb <;>
      simp [centralWeight] at hneg heq <;> (first | (norm_num at hneg; done) | norm_num at heq)

theorem exTree_good (multi : Bool) : GoodChoices (exTree multi) :=
  ⟨⟨stableSort_sorts, stableSort_sorts⟩, (exSettings_good multi).seeds, (exSettings_good multi).rng⟩

/-- The hypotheses of `C97_main` are met by the example for C74 with naive search and with tree search, so both runs are
possible. -/
example (multi : Bool) : ∃ res fs', MainRun (exTree multi) [ascii "home"] (ascii "out")
    (exMainIns.map fun x => x.1 ++ x.2) exMainFS (some [[2], [6], [2]]) res fs' := by
  obtain ⟨res, fs', h⟩ := exMain_run multi
  obtain ⟨h1, h2⟩ := exTree_noChoice multi
  refine ⟨res, fs', (C97_main (s := exMain multi fun _ => none) (s' := exTree multi) neg_injective
    ⟨rfl, rfl, rfl, rfl, rfl, rfl, rfl, rfl, rfl⟩ ⟨(exSettings_good multi).search, (exSettings_good multi).seeds, (exSettings_good multi).rng⟩
    (exTree_good multi) (fun _ _ _ _ => rfl) (exMain_inputs multi) rfl (exMain_files multi) (.inl fun _ => rfl) ?_ h1 h2 _ _ _).1 h⟩
  have : (allEvents [exProgHepmc, exProgLhef]).length = 3 := by decide +kernel
  rw [this]
  decide

end Cres

import Verif.Props.Negative
import Verif.Props.Main
import Verif.Props.Distance

/-!
# C76 and C77: runs of the command line program with paths of files and the default distance
-/

set_option linter.unusedSectionVars false

namespace Cres

open Spec CombinedIO Program Cres.Path

section

variable {K V D : Type*} [Zero D] [LinearOrder D] [DistNum D] [ExactComparison D] [Field K] [LinearOrder K] [IsStrictOrderedRing K] [LinearOrder V]

/-- **C76** for runs of the command line program, starting from the paths of input files and output directory. -/
theorem C76_main {s : CresSettings K V D} (hc : GoodChoices s) (h0 : s.minWeight = 0)
    {cwd : List Bytes} {outdir : Bytes} {ins : List (Bytes × Bytes)}
    {tags : List (Option (Stripper.XmlTag K))} {fs fs' : FS (List Bytes)} (hg : GoodInputs s.io cwd outdir ins tags fs)
    {io : IOConfig K V} (hio : io = { s.io with scaling := channelScales tags }) {ds : List (EventFile K V)}
    (hin : EventFiles io fs ((eventInputs ins tags).map fun x => locate cwd x.1 ++ [x.2]) ds) (hsup : WeightsSupported io ds)
    {ws : List (Weights K)} {res : Outcome MainError Unit}
    (h : MainRun s cwd outdir (ins.map fun x => x.1 ++ x.2) fs (some ws) res fs')
    (hw : ∀ w ∈ ws, ∀ x ∈ w, ∀ d ∈ ds, Writable io d.kind x) :
    res = .ok () ∧
    ∃ ds', EventFiles io fs' ((eventInputs ins tags).map fun x => locate cwd outdir ++ [x.2]) ds' ∧
      List.Forall₂ SameExceptWeights ds ds' ∧ ∀ k, negativeSum k (allEvents ds') ≤ negativeSum k (allEvents ds) ∧
      absSum k (allEvents ds') ≤ absSum k (allEvents ds) ∧ squareSum k (allEvents ds') ≤ squareSum k (allEvents ds) := by
  obtain ⟨h1, h2, h3⟩ := hg.files
  generalize hws : some ws = ows at h
  cases h with
  | scalingErr _ | scalingPanic _ => simp at hws
  | @run files io' events ws' res fs' g1 g2 =>
    subst hws
    rw [h1] at g1
    simp only [Outcome.ok.injEq, Prod.mk.injEq] at g1
    obtain ⟨rfl, rfl⟩ := g1
    have hc' : GoodChoices { s with io := { s.io with scaling := channelScales tags } } := ⟨hc.search, hc.seeds, hc.rng⟩
    subst hio
    obtain ⟨h4, ds', h5, h6⟩ := C76_cres hc' h0 (by rw [h3]; exact hin) h2 hsup g2 hw
    refine ⟨by rw [h4]; rfl, ds', ?_, h6⟩
    rw [List.map_map] at h5
    exact h5

/-- **C77** for runs of the command line program, starting from the paths of input files and output directory. -/
theorem C77_main {s : CresSettings K V D} (hc : GoodChoices s) (h0 : s.minWeight = 0)
    {cwd : List Bytes} {outdir : Bytes} {ins : List (Bytes × Bytes)}
    {tags : List (Option (Stripper.XmlTag K))} {fs fs' : FS (List Bytes)} (hg : GoodInputs s.io cwd outdir ins tags fs)
    {io : IOConfig K V} (hio : io = { s.io with scaling := channelScales tags }) {ds : List (EventFile K V)}
    (hin : EventFiles io fs ((eventInputs ins tags).map fun x => locate cwd x.1 ++ [x.2]) ds) (hsup : WeightsSupported io ds)
    {events : List (Event K V)} {ws : List (Weights K)} {res : Outcome MainError Unit}
    (h : OneThreadRun s cwd outdir (ins.map fun x => x.1 ++ x.2) fs events ws res fs')
    (hlen : events.length ≤ usizeMax) (hno : NoLimit s events)
    (hpos : 0 ≤ centralSum ((allEvents ds).filter (HasParticles s.program)))
    (hw : ∀ w ∈ ws, ∀ x ∈ w, ∀ d ∈ ds, Writable io d.kind x) :
    res = .ok () ∧
    ∃ ds', EventFiles io fs' ((eventInputs ins tags).map fun x => locate cwd outdir ++ [x.2]) ds' ∧
      List.Forall₂ SameExceptWeights ds ds' ∧
      ∀ (i : Nat) ev ev', (allEvents ds)[i]? = some ev → (allEvents ds')[i]? = some ev' →
        (HasParticles s.program ev = true → 0 ≤ centralWeight ev') ∧
        (HasParticles s.program ev = false → centralWeight ev' = if s.io.ctx.multi then centralWeight ev else 0) := by
  obtain ⟨h1, h2, h3⟩ := hg.files
  obtain ⟨files, io', res', g1, g2, g3, rfl⟩ := h
  rw [h1] at g1
  simp only [Outcome.ok.injEq, Prod.mk.injEq] at g1
  obtain ⟨rfl, rfl⟩ := g1
  have hc' : GoodChoices { s with io := { s.io with scaling := channelScales tags } } := ⟨hc.search, hc.seeds, hc.rng⟩
  subst hio
  obtain ⟨h4, ds', h5, h6⟩ := C77_no_negative hc' h0 (by rw [h3]; exact hin) h2 hsup g2 g3 hlen ⟨hno.dist, hno.diff⟩ hpos hw
  refine ⟨by rw [h4]; rfl, ds', ?_, h6⟩
  rw [List.map_map] at h5
  exact h5

end

/-- **C77**: in release builds there is a run on one thread. -/
theorem C77_main_completes {K V D : Type*} [Zero D] [LinearOrder D] [DistNum D] [ExactComparison D] [Zero K] [One K] [Add K] [Mul K] [Div K] [Neg K]
    [NatCast K] [LinearOrder K] [LinearOrder V] {s : CresSettings K V D} (hc : GoodChoices s) (h0 : s.minWeight = 0)
    (hd : s.io.ctx.debug = false) {cwd : List Bytes} {outdir : Bytes}
    {ins : List (Bytes × Bytes)} {tags : List (Option (Stripper.XmlTag K))} {fs : FS (List Bytes)}
    (hg : GoodInputs s.io cwd outdir ins tags fs) {io : IOConfig K V}
    (hio : io = { s.io with scaling := channelScales tags }) {ds : List (EventFile K V)}
    (hin : EventFiles io fs ((eventInputs ins tags).map fun x => locate cwd x.1 ++ [x.2]) ds) (hsup : WeightsSupported io ds) :
    ∃ events ws res fs', OneThreadRun s cwd outdir (ins.map fun x => x.1 ++ x.2) fs events ws res fs' := by
  obtain ⟨h1, h2, h3⟩ := hg.files
  have hc' : GoodChoices { s with io := { s.io with scaling := channelScales tags } } := ⟨hc.search, hc.seeds, hc.rng⟩
  subst hio
  obtain ⟨events, ws, res, fs', h4, h5⟩ := C77_completes hc' h0 hd (by rw [h3]; exact hin) h2 hsup
  exact ⟨events, ws, _, fs', _, _, res, h1, h4, h5, rfl⟩

/-! ### the default distance -/

section

variable {K : Type*} [Zero K] [One K] [Add K] [Mul K] [Div K] [Neg K] [NatCast K] [LinearOrder K]

/-- Events with particles in canonical form. -/
theorem euclDistance_metric {km : SquareMatrix ℝ → ℝ} (hkm : SolvesAssignment km) (τ : ℝ) {S : Event K FourVector → Prop}
    (hS : ∀ e, S e → ∃ parts, e.outgoingByPid = compressOutgoing parts) :
    (∀ e e', S e → S e' → (euclWithScaledPt km τ e e').isSome = true) ∧ IsMetricOn S (euclDistance km τ) := by
  have key : ∀ e e', ∀ a b, e.outgoingByPid = compressOutgoing a → e'.outgoingByPid = compressOutgoing b →
      euclWithScaledPt km τ (W := K) e e' = some (euclDistance km τ e e') ∧
        IsEventDistance (fun p q => ptDist p q τ) FourVector.new a b (euclDistance km τ e e') := by
    intro e e' a b ha hb
    obtain ⟨c, h1, h2⟩ := eventDistance_build (pairDist_ptDist τ) (norm := fun p => ptNorm p τ) (zero := FourVector.new)
      (fun p => ptNorm_eq τ p) hkm (⟨[], a⟩ : EventBuilder K FourVector) (⟨[], b⟩ : EventBuilder K FourVector)
    have h3 : euclWithScaledPt km τ e e' = some c := by
      rw [← h1]
      simp only [euclWithScaledPt, eventDistance, EventBuilder.build, ha, hb]
    have h4 : euclDistance km τ e e' = c := by simp [euclDistance, h3]
    rw [h4]
    exact ⟨h3, h2⟩
  refine ⟨fun e e' h h' => ?_, fun x y hx hy => ?_, fun x y z hx hy hz => ?_⟩
  · obtain ⟨a, ha⟩ := hS e h
    obtain ⟨b, hb⟩ := hS e' h'
    rw [(key e e' a b ha hb).1]
    rfl
  · obtain ⟨a, ha⟩ := hS x hx
    obtain ⟨b, hb⟩ := hS y hy
    exact isEventDistance_unique (key x y a b ha hb).2
      (isEventDistance_symm (pairDist_ptDist τ) (key y x b a hb ha).2)
  · obtain ⟨a, ha⟩ := hS x hx
    obtain ⟨b, hb⟩ := hS y hy
    obtain ⟨c, hc⟩ := hS z hz
    exact isEventDistance_triangle (pairDist_ptDist τ) (key x y a b ha hb).2 (key y z b c hb hc).2 (key x z a c ha hc).2

theorem cluster_canonical (multi : Bool) (P : Cluster.Particles) (c : Cluster.Settings FourVector) (e : Event K FourVector) :
    ∃ parts, (Cluster.cluster multi P c e).outgoingByPid = compressOutgoing parts := by
  unfold Cluster.cluster
  exact ⟨_, rfl⟩

/-- The distance is defined and a metric for the events in a run. -/
theorem events_metric {s : CresSettings K FourVector ℝ} {km : SquareMatrix ℝ → ℝ} (hkm : SolvesAssignment km) {τ : ℝ}
    (hd : s.distance = euclDistance km τ)
    {cwd : List Bytes} {outdir : Bytes} {ins : List (Bytes × Bytes)}
    {tags : List (Option (Stripper.XmlTag K))} {fs fs' : FS (List Bytes)} (hg : GoodInputs s.io cwd outdir ins tags fs)
    {io : IOConfig K FourVector} (hio : io = { s.io with scaling := channelScales tags }) {ds : List (EventFile K FourVector)}
    (hin : EventFiles io fs ((eventInputs ins tags).map fun x => locate cwd x.1 ++ [x.2]) ds) (hsup : WeightsSupported io ds)
    {events : List (Event K FourVector)} {ws : List (Weights K)} {res : Outcome MainError Unit}
    (h : OneThreadRun s cwd outdir (ins.map fun x => x.1 ++ x.2) fs events ws res fs') :
    (∀ e ∈ events, ∀ e' ∈ events, (euclWithScaledPt km τ e e').isSome = true) ∧ IsMetricOn (· ∈ events) s.distance := by
  have hcanon : ∀ e ∈ events, ∃ parts, e.outgoingByPid = compressOutgoing parts := by
    obtain ⟨h1, h2, h3⟩ := hg.files
    obtain ⟨files, io', res', g1, g2, g3, rfl⟩ := h
    rw [h1] at g1
    simp only [Outcome.ok.injEq, Prod.mk.injEq] at g1
    obtain ⟨rfl, rfl⟩ := g1
    subst hio
    obtain ⟨m, -, -, hm, -⟩ := supported_weights (p := { s with io := { s.io with scaling := channelScales tags } }.program) hin hsup
    obtain ⟨events', h4, he, -⟩ := run_events_all (p := { s with io := { s.io with scaling := channelScales tags } }.program)
      hm (by rw [h3]; exact hin) h2 g2
    simp only [Option.some.injEq] at h4
    subst h4
    intro e hem
    obtain ⟨e0, e1, -, q2, q3, -⟩ := he.from_file e hem
    rw [q3]
    simp only
    simp only [CresSettings.program, Outcome.ok.injEq] at q2
    rw [← q2]
    exact cluster_canonical _ _ _ _
  obtain ⟨h1, h2⟩ := euclDistance_metric (K := K) hkm τ (S := (· ∈ events)) hcanon
  exact ⟨fun e he e' he' => h1 e e' he he', by rw [hd]; exact h2⟩

end

section

variable {K : Type*} [Field K] [LinearOrder K] [IsStrictOrderedRing K]

/-- **C77** with the distance of the command line program: on one thread, without unweighting and with a cell size limit that
is not smaller than the distances between events, there are no negative weights in the output files, if the sum of the
weights of events with particles is not negative. The distance is defined and a metric for the events in a run. -/
theorem C77_default_distance {s : CresSettings K FourVector ℝ} (hc : GoodChoices s) (h0 : s.minWeight = 0)
    {km : SquareMatrix ℝ → ℝ} (hkm : SolvesAssignment km) {τ : ℝ} (hd : s.distance = euclDistance km τ)
    {cwd : List Bytes} {outdir : Bytes} {ins : List (Bytes × Bytes)}
    {tags : List (Option (Stripper.XmlTag K))} {fs fs' : FS (List Bytes)} (hg : GoodInputs s.io cwd outdir ins tags fs)
    {io : IOConfig K FourVector} (hio : io = { s.io with scaling := channelScales tags }) {ds : List (EventFile K FourVector)}
    (hin : EventFiles io fs ((eventInputs ins tags).map fun x => locate cwd x.1 ++ [x.2]) ds) (hsup : WeightsSupported io ds)
    {events : List (Event K FourVector)} {ws : List (Weights K)} {res : Outcome MainError Unit}
    (h : OneThreadRun s cwd outdir (ins.map fun x => x.1 ++ x.2) fs events ws res fs') (hlen : events.length ≤ usizeMax)
    (hmax : ∀ e ∈ events, ∀ e' ∈ events, s.distance e e' ≤ s.maxCellSize)
    (hpos : 0 ≤ centralSum ((allEvents ds).filter (HasParticles s.program)))
    (hw : ∀ w ∈ ws, ∀ x ∈ w, ∀ d ∈ ds, Writable io d.kind x) :
    (∀ e ∈ events, ∀ e' ∈ events, (euclWithScaledPt km τ e e').isSome = true) ∧ res = .ok () ∧
    ∃ ds', EventFiles io fs' ((eventInputs ins tags).map fun x => locate cwd outdir ++ [x.2]) ds' ∧
      List.Forall₂ SameExceptWeights ds ds' ∧
      ∀ (i : Nat) ev ev', (allEvents ds)[i]? = some ev → (allEvents ds')[i]? = some ev' →
        (HasParticles s.program ev = true → 0 ≤ centralWeight ev') ∧
        (HasParticles s.program ev = false → centralWeight ev' = if s.io.ctx.multi then centralWeight ev else 0) := by
  obtain ⟨h1, h2⟩ := events_metric hkm hd hg hio hin hsup h
  exact ⟨h1, C77_main hc h0 hg hio hin hsup h hlen (noLimit_of_metric h2 hmax) hpos hw⟩

end

/-! ### example -/

/-- Files with four-momenta. -/
noncomputable def exRealIO : IOConfig ℚ FourVector where
  ctx := { float := ratFormat, multi := true, debug := false, names := [],
           momentum := fun e x y z => FourVector.ofComponents e x y z, milli := id }
  feat := ⟨true, false, true⟩
  firstBuffer := id
  xmlInfo _ := .ok (.eventrecord (ascii "a") 2 2)
  scaling _ := none

/-- Settings for the example: four-momenta and the default distance. -/
noncomputable def exReal (km : SquareMatrix ℝ → ℝ) (maxCellSize : ℝ) : CresSettings ℚ FourVector ℝ where
  io := exRealIO
  particles := exampleParticles
  clustering := ⟨id, none, fun _ _ => false, false⟩
  search := .naive firstMin
  distance := euclDistance km 1
  maxCellSize := maxCellSize
  strategy := .mostNegative
  sortSeeds key l := l.insertionSort fun a b => key a ≤ key b
  minWeight := 0
  rng _ := 0
  infoLog := true

/-- Two records. -/
def exRealRecords : List Bytes := [ascii "E 1 2 3 4 5 6 7 8 9 0 0 1 -2\nP 1 21 1 2 3 7 0 1 0 0 0\n",
  ascii "E 1 2 3 4 5 6 7 8 9 0 0 1 2\nP 1 21 4 5 6 9 0 1 0 0 0\n"]

/-- The event in a record. -/
noncomputable def exRealEvent (r : Bytes) : Event ℚ FourVector :=
  match HepMC.parse exRealIO.ctx r with
  | .ok e => e
  | _ => ⟨0, [], []⟩

theorem exRealEvent_ok : ∀ r ∈ exRealRecords, HepMC.parse exRealIO.ctx r = .ok (exRealEvent r) := by
  have h : ∀ r ∈ exRealRecords, (match HepMC.parse exRealIO.ctx r with | .ok _ => true | _ => false) = true := by
    decide +kernel
  intro r hr
  have := h r hr
  unfold exRealEvent
  cases hp : HepMC.parse exRealIO.ctx r with
  | ok e => rfl
  | err e => rw [hp] at this; simp at this
  | panic => rw [hp] at this; simp at this

/-- The file with these records. -/
noncomputable def exRealFile : EventFile ℚ FourVector := ⟨⟨.hepmc2, ascii "H\n", exRealRecords⟩, exRealRecords.map exRealEvent⟩

theorem exRealFile_ok : IsEventFile exRealIO (exRealFile.header ++ exRealFile.records.flatten) exRealFile := by
  refine ⟨⟨by decide +kernel, ?_, ⟨rfl, by simp [exRealFile, exRealRecords], by decide +kernel, ?_, ?_, ?_, ?_⟩, ?_⟩, ?_⟩
  · exact fun rest => detectFormat_append _ (b := 72) (h := [10]) (by decide) (Or.inr (by decide)) rest
  · unfold Contains; decide +kernel
  · decide +kernel
  · unfold Contains; decide +kernel
  · decide +kernel
  · decide +kernel
  · show List.Forall₂ _ exRealRecords (exRealRecords.map exRealEvent)
    rw [List.forall₂_map_right_iff, List.forall₂_same]
    exact exRealEvent_ok

/-- The file system with the file. -/
noncomputable def exRealFS : FS (List Bytes) := fun p =>
  if p = [ascii "data", ascii "a.hepmc"] then some (exRealFile.header ++ exRealFile.records.flatten) else none

/-- The input path. -/
def exRealIns : List (Bytes × Bytes) := [(ascii "/data/", ascii "a.hepmc")]

theorem exReal_good (km : SquareMatrix ℝ → ℝ) (m : ℝ) : GoodChoices (exReal km m) := by
  refine ⟨firstMin_isMin, fun key l => ⟨List.perm_insertionSort _ _, ?_⟩, fun i => ⟨le_rfl, Or.inl rfl⟩⟩
  have : Std.Total fun a b : ℕ => key a ≤ key b := ⟨fun a b => le_total _ _⟩
  have : IsTrans ℕ fun a b => key a ≤ key b := ⟨fun a b c => le_trans⟩
  exact List.pairwise_insertionSort _ l

theorem exReal_inputs : GoodInputs exRealIO [ascii "home"] (ascii "out") exRealIns [none] exRealFS := by
  refine ⟨?_, ?_, by decide +kernel, .cons ⟨exRealFile.header ++ exRealFile.records.flatten, ?_, ?_⟩ .nil, Or.inl rfl⟩
  · unfold IsFilePath IsName
    decide +kernel
  · decide +kernel
  · have : locate [ascii "home"] (ascii "/data/") ++ [ascii "a.hepmc"] = [ascii "data", ascii "a.hepmc"] := by decide +kernel
    unfold exRealFS
    rw [this, if_pos rfl]
  · show ¬ _
    decide +kernel

theorem exReal_files : EventFiles { exRealIO with scaling := channelScales [none] } exRealFS
    ((eventInputs exRealIns [(none : Option (Stripper.XmlTag ℚ))]).map fun x => locate [ascii "home"] x.1 ++ [x.2]) [exRealFile] := by
  have : (eventInputs exRealIns [(none : Option (Stripper.XmlTag ℚ))]).map (fun x => locate [ascii "home"] x.1 ++ [x.2]) =
      [[ascii "data", ascii "a.hepmc"]] := by decide +kernel
  rw [this]
  refine .cons ⟨_, ?_, exRealFile_ok⟩ .nil
  unfold exRealFS
  rw [if_pos rfl]

theorem exReal_pos : centralSum ((allEvents [exRealFile]).filter
    fun e => true || !(Cluster.cluster true exampleParticles ⟨id, none, fun _ _ => false, false⟩ e).outgoingByPid.isEmpty) = 0 ∧
    centralSum ((allEvents [exRealFile]).filter
    fun e => !(Cluster.cluster true exampleParticles ⟨id, none, fun _ _ => false, false⟩ e).outgoingByPid.isEmpty) = 0 ∧
    (∀ e ∈ allEvents [exRealFile],
    (!(Cluster.cluster true exampleParticles ⟨id, none, fun _ _ => false, false⟩ e).outgoingByPid.isEmpty) = true) ∧
    (allEvents [exRealFile]).map centralWeight = [-2, 2] := by
  have h : allEvents [exRealFile] = exRealRecords.map exRealEvent := by simp [allEvents, exRealFile]
  rw [h]
  refine ⟨?_, ?_, ?_, ?_⟩
  · decide +kernel
  · decide +kernel
  · rw [List.forall_mem_map]
    decide +kernel
  · decide +kernel

/-- The distance depends only on the particles. -/
theorem euclDistance_congr {K : Type*} (km : SquareMatrix ℝ → ℝ) (τ : ℝ) {a a' b b' : Event K FourVector}
    (ha : a.outgoingByPid = a'.outgoingByPid) (hb : b.outgoingByPid = b'.outgoingByPid) :
    euclDistance km τ a b = euclDistance km τ a' b' := by
  unfold euclDistance euclWithScaledPt eventDistance
  rw [ha, hb]

theorem sum_zero_of_nonneg {l : List ℚ} (h : ∀ x ∈ l, 0 ≤ x) (hs : l.sum = 0) : ∀ x ∈ l, x = 0 := by
  induction l with
  | nil => simp
  | cons a l ih =>
    rw [List.sum_cons] at hs
    have h1 := h a (by simp)
    have h2 : 0 ≤ l.sum := List.sum_nonneg fun x hx => h x (by simp [hx])
    have h3 : a = 0 := by linarith
    have h4 : l.sum = 0 := by linarith
    intro x hx
    rcases List.mem_cons.1 hx with rfl | hx
    · exact h3
    · exact ih (fun x hx => h x (by simp [hx])) h4 x hx

/-- The hypotheses of `C77_default_distance` are met in a run on a file with two events, with weights -2 and 2 and
four-momenta. -/
theorem exReal_oneThread : ∃ km m events ws res fs', SolvesAssignment km ∧ GoodChoices (exReal km m) ∧ (exReal km m).minWeight = 0 ∧
    (exReal km m).distance = euclDistance km 1 ∧
    GoodInputs (exReal km m).io [ascii "home"] (ascii "out") exRealIns [none] exRealFS ∧
    EventFiles { (exReal km m).io with scaling := channelScales [none] } exRealFS
      ((eventInputs exRealIns [(none : Option (Stripper.XmlTag ℚ))]).map fun x => locate [ascii "home"] x.1 ++ [x.2])
      [exRealFile] ∧
    OneThreadRun (exReal km m) [ascii "home"] (ascii "out") (exRealIns.map fun x => x.1 ++ x.2) exRealFS events ws res fs' ∧
    events.length ≤ usizeMax ∧ (∀ e ∈ events, ∀ e' ∈ events, (exReal km m).distance e e' ≤ (exReal km m).maxCellSize) ∧
    0 ≤ centralSum ((allEvents [exRealFile]).filter (HasParticles (exReal km m).program)) ∧
    (∀ w ∈ ws, ∀ x ∈ w, ∀ d ∈ [exRealFile], Writable (exReal km m).io d.kind x) ∧
    (allEvents [exRealFile]).map centralWeight = [-2, 2] := by
  obtain ⟨km, hkm⟩ := solvesAssignment_exists
  let cl : Event ℚ FourVector → Event ℚ FourVector := Cluster.cluster true exampleParticles ⟨id, none, fun _ _ => false, false⟩
  let m : ℝ := (((allEvents [exRealFile]).map fun a => ((allEvents [exRealFile]).map fun b => |euclDistance km 1 (cl a) (cl b)|).sum)).sum
  have hm : ∀ a ∈ allEvents [exRealFile], ∀ b ∈ allEvents [exRealFile], euclDistance km 1 (cl a) (cl b) ≤ m := by
    intro a ha b hb
    refine (le_abs_self _).trans ?_
    refine le_trans (b := ((allEvents [exRealFile]).map fun b => |euclDistance km 1 (cl a) (cl b)|).sum) ?_ ?_
    · exact List.single_le_sum (by simp) _ (List.mem_map.2 ⟨b, hb, rfl⟩)
    · exact List.single_le_sum (fun x hx => by
        obtain ⟨c, -, rfl⟩ := List.mem_map.1 hx
        exact List.sum_nonneg (by simp)) _ (List.mem_map.2 ⟨a, ha, rfl⟩)
  obtain ⟨events, ws, res, fs', h⟩ := C77_main_completes (exReal_good km m) rfl rfl exReal_inputs rfl exReal_files
    (.inl fun _ => rfl)
  refine ⟨km, m, events, ws, res, fs', hkm, exReal_good km m, rfl, rfl, exReal_inputs, exReal_files, h, ?_⟩
  obtain ⟨h1, h2, h3⟩ := exReal_inputs.files
  obtain ⟨files, io', res', g1, g2, g3, rfl⟩ := h
  have g1' := g1.symm.trans h1
  simp only [Outcome.ok.injEq, Prod.mk.injEq] at g1'
  obtain ⟨rfl, rfl⟩ := g1'
  have hin := exReal_files
  rw [← h3] at hin
  obtain ⟨events', h4, he, hcw⟩ := run_events_all
    (p := { exReal km m with io := { exRealIO with scaling := channelScales [none] } }.program)
      (single_weights (fun _ => rfl) hin) hin h2 g2
  simp only [Option.some.injEq] at h4
  subst h4
  have hlen : events.length ≤ usizeMax := by
    rw [he.length_eq]
    have : (allEvents [exRealFile]).length = 2 := by simp [allEvents, exRealFile, exRealRecords]
    rw [this]
    decide
  have hcl : ∀ e ∈ events, ∃ e0 ∈ allEvents [exRealFile], e.outgoingByPid = (cl e0).outgoingByPid := by
    intro e hem
    obtain ⟨e0, e1, q1, q2, q3, -⟩ := he.from_file e hem
    simp only [CresSettings.program, Outcome.ok.injEq] at q2
    refine ⟨e0, List.mem_of_getElem? q1, ?_⟩
    rw [q3, ← q2]
    rfl
  have hmax : ∀ e ∈ events, ∀ e' ∈ events, euclDistance km 1 e e' ≤ m := by
    intro e he e' he'
    obtain ⟨a, ha, ha'⟩ := hcl e he
    obtain ⟨b, hb, hb'⟩ := hcl e' he'
    rw [euclDistance_congr km 1 ha' hb']
    exact hm a ha b hb
  have hpos : 0 ≤ centralSum ((allEvents [exRealFile]).filter (HasParticles (exReal km m).program)) :=
    (exReal_pos.2.1).ge
  refine ⟨hlen, hmax, hpos, ?_, exReal_pos.2.2.2⟩
  have hmet := (euclDistance_metric (K := ℚ) hkm 1 (S := (· ∈ events)) (fun e hem => by
    obtain ⟨a, -, ha'⟩ := hcl e hem
    rw [ha']
    exact cluster_canonical _ _ _ _)).2
  obtain ⟨q1, q2', -⟩ := weights_passed_all
    (cres_goodComponents (s := { exReal km m with io := { exRealIO with scaling := channelScales [none] } }) (exReal_good km m))
    (by
      funext evs
      simp only [CresSettings.program, unweightStep]
      rw [C26_trivial _ (exReal km m).minWeight _ _ (Or.inl rfl)]) Nat.one_pos (fun _ => rfl) he hcw
  have q2 : ∀ w ∈ ws, w.length ≤ 1 := fun w hw => default_length (q2' w hw)
  obtain ⟨-, q3, q4⟩ := one_thread_weights
    (s := { exReal km m with io := { exRealIO with scaling := channelScales [none] } }) (exReal_good km m) rfl hin h2
    (.inl fun _ => rfl) g2 g3 hlen (noLimit_of_metric hmet hmax) hpos
  have hz : ∀ ev ∈ List.zipWith reweighted ws (allEvents [exRealFile]), centralWeight ev = 0 := by
    have := sum_zero_of_nonneg (l := (List.zipWith reweighted ws (allEvents [exRealFile])).map centralWeight) ?_ (q3.trans exReal_pos.1)
    · intro ev hev
      exact this _ (List.mem_map_of_mem hev)
    · intro x hx
      obtain ⟨ev, hev, rfl⟩ := List.mem_map.1 hx
      obtain ⟨i, hi⟩ := List.getElem?_of_mem hev
      have hil := (List.getElem?_eq_some_iff.1 hi).1
      rw [List.length_zipWith] at hil
      have hil' : i < (allEvents [exRealFile]).length := by omega
      exact (q4 i _ ev (List.getElem?_eq_getElem hil') hi).1 (exReal_pos.2.2.1 _ (List.getElem_mem _))
  intro w hw x hx d hd
  obtain ⟨i, hi⟩ := List.getElem?_of_mem hw
  have hil := (List.getElem?_eq_some_iff.1 hi).1
  have hx0 : w = [x] := by
    have := q2 w hw
    cases w with
    | nil => simp at hx
    | cons a w =>
      simp only [List.length_cons] at this
      have : w = [] := List.length_eq_zero_iff.1 (by omega)
      subst this
      simp only [List.mem_cons, List.not_mem_nil, or_false] at hx
      rw [hx]
  have hx1 : x = 0 := by
    have h5 : (List.zipWith reweighted ws (allEvents [exRealFile]))[i]? =
        some (reweighted w ((allEvents [exRealFile])[i]'(by omega))) := by
      rw [List.getElem?_zipWith, hi, List.getElem?_eq_getElem (by omega)]
    have := hz _ (List.mem_of_getElem? h5)
    rw [hx0] at this
    simpa [reweighted, centralWeight] using this
  subst hx1
  simp only [List.mem_cons, List.not_mem_nil, or_false] at hd
  subst hd
  exact ⟨show exRealIO.ctx.float.finite 0 = true by decide +kernel, trivial⟩

end Cres

import Verif.Spec.CommandLine
import Verif.Proofs.Unlimited
import Verif.Props.Options
import Verif.Props.Select

/-!
# C102: options of the program and of the C interface
-/

set_option linter.unusedSectionVars false

namespace Cres

open Spec CombinedIO Program Cres.Path Cres.Options

variable {F : Type} {K V D : Type*}

/-! ### names -/

/-- **C102**: the names of strategies in the description of the option are accepted and mean what is described there. The default is
`most_negative`. -/
theorem C102_strategies : parseStrategy "least_negative".toList = some .leastNegative ∧
    parseStrategy "most_negative".toList = some .mostNegative ∧ parseStrategy "any".toList = some .next := by
  decide +kernel

/-- **C102**: no other names of strategies are accepted, up to the style of writing. -/
theorem C102_only_strategies (s : List Char) (a : Strategy) (h : parseStrategy s = some a) :
    (s.filter (· ≠ '_')).map asciiLower = strategyName a := by
  unfold parseStrategy at h
  split_ifs at h with h1 h2 h3
  · cases h
    rcases h1 with rfl | rfl <;> decide +kernel
  · cases h
    rcases h2 with rfl | rfl <;> decide +kernel
  · cases h
    rcases h3 with rfl | rfl <;> decide +kernel

/-- **C102**: the names of jet algorithms in the description of the option are accepted. -/
theorem C102_algorithms : parseJetAlgorithm "anti-kt".toList = some .antiKt ∧ parseJetAlgorithm "kt".toList = some .kt ∧
    parseJetAlgorithm "Cambridge-Aachen".toList = some .cambridgeAachen := by
  decide +kernel

/-- **C102**: no other names of jet algorithms are accepted, up to the style of writing. -/
theorem C102_only_algorithms (s : List Char) (a : JetAlgorithm) (h : parseJetAlgorithm s = some a) :
    (s.filter (fun c => c ≠ '_' ∧ c ≠ '-' ∧ c ≠ '/')).map asciiLower = algorithmName a := by
  unfold parseJetAlgorithm at h
  split_ifs at h with h1 h2 h3
  · cases h
    rcases h1 with rfl | rfl | rfl <;> decide +kernel
  · cases h
    subst h2
    decide +kernel
  · cases h
    rcases h3 with rfl | rfl | rfl | rfl | rfl | rfl <;> decide +kernel

/-! ### meaning of options -/

section

variable [Zero D] [DistNum D] [Zero K] [One K] [Add K] [Mul K] [Div K] [Neg K] [NatCast K] [LinearOrder K] [LinearOrder V]
  {l : Libraries F K V D} {o : CresOpt F K} {cwd : List Bytes} {fs : FS (List Bytes)}

theorem clustering_of_valid {opt : Options.Opt F} (h1 : Spec.AllOrNone opt.leptonalgorithm opt.leptonradius opt.leptonpt)
    (h2 : Spec.AllOrNone opt.photonefrac opt.photonradius opt.photonpt) :
    validate opt = .ok opt ∧ opt.clustering = some (opt.leptonDef, opt.photonDef) := by
  obtain ⟨a, b, c, d, e, f⟩ := opt
  cases a <;> cases b <;> cases c <;> cases d <;> cases e <;> cases f <;>
    simp_all [validate, Spec.AllOrNone, Options.Opt.clustering, Options.Opt.leptonDef, Options.Opt.photonDef]

/-- **C102**: with incomplete options for leptons or photons the program ends with an error. No file is changed. -/
theorem C102_rejected (h : ¬ (Spec.AllOrNone o.objects.leptonalgorithm o.objects.leptonradius o.objects.leptonpt ∧
      Spec.AllOrNone o.objects.photonefrac o.objects.photonradius o.objects.photonpt))
    {ws : Option (List (Weights K))} {res : Outcome CliError Unit} {fs' : FS (List Bytes)} :
    CliRun l o cwd fs ws res fs' ↔ ws = none ∧ fs' = fs ∧ ∃ e, validate o.objects = .error e ∧ res = .err (.validation e) := by
  have hv : ∃ e, validate o.objects = .error e := by
    rw [← (C54_validate o.objects).1] at h
    cases hv : validate o.objects with
    | error e => exact ⟨e, rfl⟩
    | ok x => exact absurd ⟨x, hv⟩ h
  obtain ⟨e, he⟩ := hv
  constructor
  · intro h
    cases h with
    | invalid h => exact ⟨rfl, rfl, _, h, rfl⟩
    | panic h => rw [he] at h; simp at h
    | run h => rw [he] at h; simp at h
  · rintro ⟨rfl, rfl, e', he', rfl⟩
    exact .invalid he'

/-- **C102**: otherwise the program does what the options say. -/
theorem C102_accepted (h1 : Spec.AllOrNone o.objects.leptonalgorithm o.objects.leptonradius o.objects.leptonpt)
    (h2 : Spec.AllOrNone o.objects.photonefrac o.objects.photonradius o.objects.photonpt) :
    ∃ s : CresSettings K V D,
      (∀ ws res fs', CliRun l o cwd fs ws res fs' ↔
        ∃ res', MainRun s cwd o.outdir o.infiles fs ws res' fs' ∧ res = res'.mapErr .main) ∧
      s.io = { l.io with ctx := { l.io.ctx with names := if l.io.ctx.multi then o.weights else [] } } ∧
      s.particles = l.particles ∧ s.clustering.jets = l.jets o.jetDef ∧
      s.clustering.leptons = o.objects.leptonDef.map l.jets ∧
      (∀ p groups, s.clustering.isolated p groups = match o.objects.photonDef with | none => false | some d => l.isolated d p groups) ∧
      s.clustering.includeNeutrinos = o.includeNeutrinos ∧
      s.search = (match o.search with | .tree => .tree l.psort l.sort l.cornerPt l.f64Max | .naive => .naive l.minPos) ∧
      s.distance = l.distance o.ptweight ∧ s.maxCellSize = (match o.maxCellSize with | none => l.f64Max | some x => l.size x) ∧
      s.strategy = o.strategy ∧ s.sortSeeds = l.sortSeeds ∧ s.minWeight = o.minweight ∧ s.rng = l.random o.seed ∧ s.infoLog = o.infoLog := by
  obtain ⟨hv, hc⟩ := clustering_of_valid h1 h2
  cases hs : o.settings l with
  | none => simp [CresOpt.settings, hc] at hs
  | some s =>
    refine ⟨s, ?_, ?_⟩
    · intro ws res fs'
      constructor
      · intro h
        cases h with
        | invalid h => rw [hv] at h; simp at h
        | panic h1 h2 =>
          rw [hv] at h1
          cases h1
          rw [hs] at h2
          simp at h2
        | run h1 h2 h3 =>
          rw [hv] at h1
          cases h1
          rw [hs] at h2
          cases h2
          exact ⟨_, h3, rfl⟩
      · rintro ⟨res', h, rfl⟩
        exact .run hv hs h
    · simp only [CresOpt.settings, hc, Option.map_some, Option.some.injEq] at hs
      subst hs
      refine ⟨rfl, rfl, rfl, rfl, ?_, rfl, ?_, rfl, ?_, rfl, rfl, rfl, rfl, rfl⟩
      · intro p g
        cases o.objects.photonDef <;> rfl
      · cases o.search <;> rfl
      · cases o.maxCellSize <;> rfl

end

section

variable [Zero D] [DistNum D] [Zero K] [One K] [Add K] [Mul K] [Div K] [Neg K] [NatCast K] [LinearOrder K] [LinearOrder V]
  {l : Libraries F K V D} {cwd : List Bytes} {fs : FS (List Bytes)}

theorem mainRun_rng {s : CresSettings K V D} (h0 : s.minWeight = 0) (rng : Nat → K) {outdir : Bytes} {infiles : List Bytes}
    {ws : Option (List (Weights K))} {res : Outcome MainError Unit} {fs' : FS (List Bytes)}
    (h : MainRun s cwd outdir infiles fs ws res fs') : MainRun { s with rng := rng } cwd outdir infiles fs ws res fs' := by
  have key : ∀ io : IOConfig K V, CresSettings.program { s with io := io } = CresSettings.program { s with rng := rng, io := io } := by
    intro io
    simp only [CresSettings.program, Program.mk.injEq, true_and]
    refine ⟨?_, trivial⟩
    funext events
    simp only [unweightStep, h0]
    rw [C26_trivial _ 0 s.rng events (.inl rfl), C26_trivial _ 0 rng events (.inl rfl)]
  cases h with
  | scalingErr h => exact .scalingErr h
  | scalingPanic h => exact .scalingPanic h
  | run h1 h2 =>
    rw [key] at h2
    exact .run (s := { s with rng := rng }) h1 h2

/-- **C102**: a call of `cres_run` in the C interface without a user-defined distance can do exactly what the program can do with the
same options. The return value and the last error tell how the run ended. -/
theorem C102_interfaces {message : MainError → List UInt8} {c : COpt F K V D} (hc : c.distance = none) (seed : Nat) (infoLog : Bool)
    {err err' : Option (List UInt8)} {ret : Int} {ws : Option (List (Weights K))} {fs' : FS (List Bytes)} :
    CApi.CRun message (c.opt l infoLog) cwd fs err ws (err', ret) fs' ↔
      ∃ res, CliRun l (correspondingOptions c seed infoLog) cwd fs ws res fs' ∧
        (res = .ok () ∧ ret = 0 ∧ err' = err ∨ (∃ e, res = .err (.main e) ∧ ret = 1 ∧ err' = some (message e)) ∨
          res = .panic ∧ ret = -1 ∧ err' = some (ascii "panic: Any { .. }")) := by
  rw [CApi.C75_same_as_main (dist := l.distance c.ptweight) (.inr ⟨hc, rfl⟩)]
  have hset : (correspondingOptions c seed infoLog).settings l =
      some { (c.opt l infoLog).settings (l.distance c.ptweight) with rng := l.random seed } := by
    simp [CresOpt.settings, correspondingOptions, Options.Opt.clustering, COpt.opt, CApi.Opt.settings]
  have hval : validate (correspondingOptions c seed infoLog).objects = .ok (correspondingOptions c seed infoLog).objects := rfl
  have hrng : (l.random seed) = ({ (c.opt l infoLog).settings (l.distance c.ptweight) with rng := l.random seed } :
    CresSettings K V D).rng := rfl
  constructor
  · rintro ⟨res, h1, h2⟩
    refine ⟨_, .run hval hset (mainRun_rng rfl _ h1), ?_⟩
    rcases h2 with ⟨rfl, h2⟩ | ⟨e, rfl, h2⟩ | ⟨rfl, h2⟩
    · exact .inl ⟨rfl, h2⟩
    · exact .inr (.inl ⟨e, rfl, h2⟩)
    · exact .inr (.inr ⟨rfl, h2⟩)
  · rintro ⟨res, h1, h2⟩
    cases h1 with
    | invalid h => rw [hval] at h; simp at h
    | panic h h' =>
      rw [hval] at h
      cases h
      rw [hset] at h'
      simp at h'
    | @run objects s ws res fs' g1 g2 g3 =>
      rw [hval] at g1
      cases g1
      rw [hset] at g2
      cases g2
      refine ⟨res, mainRun_rng (s := { (c.opt l infoLog).settings (l.distance c.ptweight) with rng := l.random seed }) rfl
        ((c.opt l infoLog).settings (l.distance c.ptweight)).rng g3, ?_⟩
      cases res with
      | ok u =>
        simp only [Outcome.mapErr] at h2
        simpa using h2
      | err e =>
        simp only [Outcome.mapErr] at h2
        simpa using h2
      | panic =>
        simp only [Outcome.mapErr] at h2
        simpa using h2

end

/-! ### unlimited cells -/

section

variable [Zero D] [LinearOrder D] [DistNum D] [ExactComparison D] [Zero K] [One K] [Add K] [Mul K] [Div K]
  [Neg K] [NatCast K] [LinearOrder K] [LinearOrder V] {s : CresSettings K V D}

theorem readsEvents_maxCellSize {P : Type*} [DecidableEq P] {io : IOConfig K V} {m : D} {c : CombinedIO K P} {fs : FS P}
    {o : Outcome (CresError IOError) (List (Event K V))} {x : CombinedIO K P × FS P}
    (h : (CresSettings.program { s with io := io }).ReadsEvents c fs o x) :
    (CresSettings.program { s with maxCellSize := m, io := io }).ReadsEvents c fs o x := by
  cases h with
  | panic h => exact .panic (p := CresSettings.program { s with maxCellSize := m, io := io }) h
  | done h1 h2 h3 => exact .done (p := CresSettings.program { s with maxCellSize := m, io := io }) h1 h2 h3

theorem computes_maxCellSize {m : D} {events : List (Event K V)} {o : Outcome (CresError IOError) (List (Weights K))}
    (hn : s.search.nearest s.distance s.maxCellSize (events.filter fun e => !e.outgoingByPid.isEmpty) =
      s.search.nearest s.distance m (events.filter fun e => !e.outgoingByPid.isEmpty))
    (h : s.program.ComputesWeights events o) : (CresSettings.program { s with maxCellSize := m }).ComputesWeights events o := by
  cases h with
  | mk hr =>
    refine Program.ComputesWeights.mk (p := CresSettings.program { s with maxCellSize := m }) ?_
    cases hr with
    | log h => exact .log h
    | task h1 h2 h3 =>
      refine .task h1 ?_ h3
      change Reachable _ _ (s.search.nearest s.distance m _) _ _ _
      rw [← hn]
      exact h2
    | ok h1 h2 =>
      refine .ok h1 ?_
      change ResampledTo _ (s.search.nearest s.distance m _) _ _ _
      rw [← hn]
      exact h2

/-- One direction of `C102_unlimited`. -/
theorem unlimited_run (hc : GoodChoices s) (hi : IgnoresIds s.distance) {x : Sample K V} (hx : x.Good s) {m : D}
    (habs : ∀ a b : D, 0 ≤ a → 0 ≤ b → a ≤ min s.maxCellSize m → b ≤ min s.maxCellSize m → DistNum.absDiff a b ≤ max a b)
    (h0 : 0 ≤ s.maxCellSize) (h0' : 0 ≤ m)
    (hd : ∀ e ∈ x.clustered s, ∀ e' ∈ x.clustered s, e.outgoingByPid ≠ [] → e'.outgoingByPid ≠ [] →
      0 ≤ s.distance e e' ∧ s.distance e e' ≤ s.maxCellSize ∧ s.distance e e' ≤ m)
    {ws : List (Weights K)} {res : Outcome MainError Unit} {fs' : FS (List Bytes)} (h : x.Run s ws res fs') :
    x.Run { s with maxCellSize := m } ws res fs' := by
  obtain ⟨n, -, -, hw, -⟩ := supported_weights (p := CresSettings.program { s with io := x.io s }) hx.files hx.weights
  obtain ⟨h1, h2, h3⟩ := hx.inputs.files
  have hin := hx.files
  rw [← h3] at hin
  unfold Sample.Run at h ⊢
  generalize hws : some ws = ows at h
  cases h with
  | scalingErr _ => simp at hws
  | scalingPanic _ => simp at hws
  | run g1 g2 =>
    subst hws
    have g1' := g1
    rw [h1] at g1
    simp only [Outcome.ok.injEq, Prod.mk.injEq] at g1
    obtain ⟨rfl, rfl⟩ := g1
    obtain ⟨events, hev, he, -⟩ := run_events_all (p := CresSettings.program { s with io := x.io s }) hw hin h2 g2
    refine .run (s := { s with maxCellSize := m }) g1' ?_ (events := some events)
    subst hev
    generalize hws : some ws = ows at g2
    cases g2 with
    | weightsErr => simp at hws
    | weightsPanic => simp at hws
    | update k1 k2 k3 =>
      cases hws
      refine .update (p := CresSettings.program { s with maxCellSize := m, io := x.io s }) k1 (readsEvents_maxCellSize k2) ?_
      refine computes_maxCellSize (s := { s with io := x.io s }) ?_ k3
      have hmem : ∀ ev ∈ events.filter (fun e => !e.outgoingByPid.isEmpty), ∃ e ∈ x.clustered s, e.outgoingByPid ≠ [] ∧
          ev = { e with id := ev.id } := by
        intro ev hev
        obtain ⟨hev, hne⟩ := List.mem_filter.1 hev
        obtain ⟨e0, e1, q1, q2, q3, -⟩ := he.from_file ev hev
        have q2 : e1 = Cluster.cluster s.io.ctx.multi s.particles s.clustering e0 := by
          have : (Outcome.ok (Cluster.cluster s.io.ctx.multi s.particles s.clustering e0) : Outcome IOError _) = .ok e1 := q2
          cases this
          rfl
        refine ⟨e1, ?_, ?_, q3⟩
        · rw [q2]
          exact List.mem_map_of_mem (List.mem_of_getElem? q1)
        · intro hcon
          rw [q3] at hne
          simp [hcon] at hne
      apply nearest_maxDist _ habs h0 h0'
      · intro a ha b hb
        obtain ⟨e, r1, r2, r3⟩ := hmem a ha
        obtain ⟨e', t1, t2, t3⟩ := hmem b hb
        have : s.distance a b = s.distance e e' := by
          rw [r3, t3]
          exact hi e e' _ _
        change 0 ≤ s.distance a b ∧ s.distance a b ≤ _ ∧ _
        rw [this]
        exact hd e r1 e' t1 r2 t2
      · have := hc.search
        revert this
        cases s.search with
        | naive => exact fun _ => trivial
        | tree psort sort c f => exact fun h => ⟨fun c l => (h.1 c l).1, fun c l => (h.2 c l).1⟩

/-- **C102**: without a maximum size, cells are unlimited. A maximum size that is not less than any distance between events (in particular
infinity, the value for unlimited cells in the C interface) has the same effect as the largest number `f64::MAX`, which is used without a maximum
size. -/
theorem C102_unlimited (hc : GoodChoices s) (hi : IgnoresIds s.distance) {x : Sample K V} (hx : x.Good s) {m : D}
    (habs : ∀ a b : D, 0 ≤ a → 0 ≤ b → a ≤ min s.maxCellSize m → b ≤ min s.maxCellSize m → DistNum.absDiff a b ≤ max a b)
    (h0 : 0 ≤ s.maxCellSize) (h0' : 0 ≤ m)
    (hd : ∀ e ∈ x.clustered s, ∀ e' ∈ x.clustered s, e.outgoingByPid ≠ [] → e'.outgoingByPid ≠ [] →
      0 ≤ s.distance e e' ∧ s.distance e e' ≤ s.maxCellSize ∧ s.distance e e' ≤ m)
    {ws : List (Weights K)} {res : Outcome MainError Unit} {fs' : FS (List Bytes)} :
    x.Run s ws res fs' ↔ x.Run { s with maxCellSize := m } ws res fs' := by
  constructor
  · exact unlimited_run hc hi hx habs h0 h0' hd
  · intro h
    refine unlimited_run (s := { s with maxCellSize := m }) (m := s.maxCellSize) ⟨hc.search, hc.seeds, hc.rng⟩ hi
      ⟨hx.inputs, hx.files, hx.weights⟩ (fun a b h1 h2 h3 h4 => habs a b h1 h2 (by rwa [min_comm]) (by rwa [min_comm])) h0' h0 ?_ h
    intro e he e' he' h1 h2
    obtain ⟨a, b, c⟩ := hd e he e' he' h1 h2
    exact ⟨a, c, b⟩

end

/-! ### Examples -/

/-- Rational numbers and infinity. -/
instance exDistTop : DistNum (WithTop ℚ) where
  le a b := decide (a ≤ b)
  lt a b := decide (a < b)
  absDiff
    | some a, some b => ((|a - b| : ℚ) : WithTop ℚ)
    | _, _ => ⊤

instance : ExactComparison (WithTop ℚ) := ⟨fun _ _ => rfl, fun _ _ => rfl⟩

/-- The libraries of the example: leptons and photons do not matter. -/
def exLibraries (multi : Bool) : Libraries Nat ℚ ℚ (WithTop ℚ) where
  io := (exApart multi).io
  particles := (exApart multi).particles
  jets _ := (exApart multi).clustering.jets
  isolated _ _ _ := false
  distance _ e e' := ((exApart multi).distance e e' : ℚ)
  size n := if n = 0 then ⊤ else (n : ℚ)
  f64Max := (1000000 : ℚ)
  psort _ l := l
  sort _ l := l
  cornerPt := 0
  minPos := firstMin
  sortSeeds := (exApart multi).sortSeeds
  random _ := (exApart multi).rng

/-- Options without a maximum size of cells. -/
def exCli : CresOpt Nat ℚ where
  outdir := ascii "/out2"
  jetDef := ⟨.kt, 1, 20⟩
  objects := ⟨none, none, none, none, none, none⟩
  includeNeutrinos := false
  minweight := 0
  seed := 0
  ptweight := 0
  infoLog := true
  search := .naive
  strategy := .mostNegative
  maxCellSize := none
  weights := []
  infiles := [ascii "/data/b"]

/-- The settings for these options. -/
def exCliSettings (multi : Bool) : CresSettings ℚ ℚ (WithTop ℚ) where
  io := (exApart multi).io
  particles := (exApart multi).particles
  clustering := (exApart multi).clustering
  search := .naive firstMin
  distance e e' := ((exApart multi).distance e e' : ℚ)
  maxCellSize := (1000000 : ℚ)
  strategy := .mostNegative
  sortSeeds := (exApart multi).sortSeeds
  minWeight := 0
  rng := (exApart multi).rng
  infoLog := true

theorem exCli_settings (multi : Bool) : exCli.settings (exLibraries multi) = some (exCliSettings multi) := by
  cases multi <;> rfl

theorem exCli_choices (multi : Bool) : GoodChoices (exCliSettings multi) :=
  ⟨firstMin_isMin, (exSettings_good multi).seeds, (exSettings_good multi).rng⟩

theorem exCli_good (multi : Bool) : exApart2.Good (exCliSettings multi) :=
  ⟨(exApart2_good multi).inputs, (exApart2_good multi).files, (exApart2_good multi).weights⟩

/-- There is a run of the program without a maximum size of cells. Runs with a maximum size that is infinite have the same results. -/
example (multi : Bool) : (∃ ws res fs', CliRun (exLibraries multi) exCli [] exApartFS (some ws) res fs') ∧
    ∀ ws res fs', exApart2.Run (exCliSettings multi) ws res fs' ↔ exApart2.Run { exCliSettings multi with maxCellSize := ⊤ } ws res fs' := by
  constructor
  · have hg := cres_goodComponents (exCli_choices multi)
    have he : EventsRead (exCliSettings multi).program 1 exApart2.files [⟨0, [4], [(81, [32])]⟩, ⟨1, [-2], [(81, [30])]⟩] := by
      refine ⟨by decide +kernel, fun e he => ?_⟩
      simp only [List.mem_cons, List.not_mem_nil, or_false] at he
      rcases he with rfl | rfl
      · exact ⟨⟨0, [4], [(21, [32])]⟩, ⟨0, [4], [(81, [32])]⟩, by decide +kernel, by cases multi <;> decide +kernel, rfl, rfl⟩
      · exact ⟨⟨0, [-2], [(21, [30])]⟩, ⟨0, [-2], [(81, [30])]⟩, by decide +kernel, by cases multi <;> decide +kernel, rfl, rfl⟩
    have hu := read_weights hg Nat.one_pos (fun _ => rfl) he
    obtain ⟨sched, st, h1, h2⟩ := C08_can_finish (by cases multi <;> rfl) (hg.valid _) hu Reachable.init
    obtain ⟨ws, h3, -⟩ := state_computes (cres_unweight rfl) (Or.inl (by cases multi <;> rfl)) hg hu
      (by rw [he.length_eq]; exact he.ids) (runSchedule_reachable _ Reachable.init h1) h2
    obtain ⟨res, fs', h⟩ := (exCli_good multi).runs he h3
    exact ⟨ws, _, fs', .run (objects := exCli.objects) rfl (exCli_settings multi) h⟩
  · intro ws res fs'
    refine C102_unlimited (exCli_choices multi) (fun _ _ _ _ => rfl) (exCli_good multi) ?_ ?_ le_top ?_
    · intro a b ha hb ha' hb'
      have key : ∀ c : WithTop ℚ, 0 ≤ c → c ≤ min (exCliSettings multi).maxCellSize ⊤ → ∃ q : ℚ, c = (q : WithTop ℚ) ∧ 0 ≤ q := by
        intro c h0 hc
        rw [min_eq_left le_top] at hc
        induction c using WithTop.recTopCoe with
        | top => exact absurd hc (by simp [exCliSettings])
        | coe q => exact ⟨q, rfl, by exact_mod_cast h0⟩
      obtain ⟨p, rfl, hp⟩ := key a ha ha'
      obtain ⟨q, rfl, hq⟩ := key b hb hb'
      change ((|p - q| : ℚ) : WithTop ℚ) ≤ _
      rw [← WithTop.coe_max, WithTop.coe_le_coe, abs_le]
      constructor
      · have := le_max_right p q
        linarith
      · have := le_max_left p q
        linarith
    · change ((0 : ℚ) : WithTop ℚ) ≤ ((1000000 : ℚ) : WithTop ℚ)
      rw [WithTop.coe_le_coe]
      norm_num
    · have hcl : exApart2.clustered (exCliSettings multi) = [⟨0, [4], [(81, [32])]⟩, ⟨0, [-2], [(81, [30])]⟩] := (exApart_clustered multi).2.2
      rw [hcl]
      intro e he e' he' _ _
      have hd : (exCliSettings multi).distance e e' = (((exApart multi).distance e e' : ℚ) : WithTop ℚ) := rfl
      rw [hd]
      refine ⟨?_, ?_, le_top⟩
      · exact_mod_cast (abs_nonneg _ : 0 ≤ (exApart multi).distance e e')
      · change _ ≤ ((1000000 : ℚ) : WithTop ℚ)
        rw [WithTop.coe_le_coe]
        simp only [List.mem_cons, List.not_mem_nil, or_false] at he he'
        rcases he with rfl | rfl <;> rcases he' with rfl | rfl <;> simp [exApart, exMain, exSettings] <;> norm_num

/-- Options that are rejected. -/
example : ¬ (Spec.AllOrNone (some JetAlgorithm.kt) (some 1) (none : Option Nat) ∧
    Spec.AllOrNone (none : Option Nat) (none : Option Nat) (none : Option Nat)) := by
  simp [Spec.AllOrNone]

end Cres

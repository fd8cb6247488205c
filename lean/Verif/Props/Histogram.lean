import Verif.Props.Similar
import Verif.Props.Observable
import Verif.Proofs.ReadMomenta

/-!
Property C133: histograms, for the default distance.
-/

set_option linter.unusedSectionVars false

namespace Cres

open Spec CombinedIO Program Cres.Path

/-- The sum of contributions of all outgoing particles in an event. They depend on types and spatial momenta. -/
noncomputable def eventSum {K : Type*} (f : ℤ → ℝ → ℝ → ℝ → ℝ) (e : Event K FourVector) : ℝ :=
  particleSum (fun t p => f t p.p1 p.p2 p.p3) (outgoingParticles e)

/-- A quantity which depends on the bin of a histogram: it changes only at the edges of bins. -/
def IsBinned {β : Type*} (edges : List ℝ) (g : ℝ → β) : Prop := ∀ x y, (∀ c ∈ edges, x < c ↔ y < c) → g x = g y

/-- The algorithm makes momenta from momenta. -/
def MakesMomenta (alg : List FourVector → List FourVector) : Prop := ∀ l, (∀ p ∈ l, Momentum p) → ∀ p ∈ alg l, Momentum p

theorem outgoingParticles_perm {K : Type*} {e : Event K FourVector} {parts : List (ℤ × FourVector)} (h : HasOutgoing e parts) :
    (outgoingParticles e).Perm parts := by
  have := compress_flat_perm parts
  rw [← (show e.outgoingByPid = compressOutgoing parts from h)] at this
  exact this

theorem eventSum_eq {K : Type*} {f : ℤ → ℝ → ℝ → ℝ → ℝ} {e : Event K FourVector} {parts : List (ℤ × FourVector)} (h : HasOutgoing e parts) :
    eventSum f e = particleSum (fun t p => f t p.p1 p.p2 p.p3) parts :=
  ((outgoingParticles_perm h).map _).sum_eq

theorem cluster_momenta {K : Type*} [Zero K] (multi : Bool) (P : Cluster.Particles) (c : Cluster.Settings FourVector) (hj : MakesMomenta c.jets)
    (hl : ∀ alg, c.leptons = some alg → MakesMomenta alg) {e : Event K FourVector} {parts : List (ℤ × FourVector)} (he : HasOutgoing e parts)
    (hp : ∀ x ∈ parts, Momentum x.2) : ∃ parts', HasOutgoing (Cluster.cluster multi P c e) parts' ∧ ∀ x ∈ parts', Momentum x.2 := by
  obtain ⟨-, -, js, ls, h1, h2, -, h4⟩ := C59_cluster P c multi e parts he
  refine ⟨_, h4, ?_⟩
  have hr : ∀ (f : ℤ × FourVector → Role) r, ∀ p ∈ withRole f r parts, Momentum p := by
    intro f r p hpm
    unfold withRole at hpm
    obtain ⟨x, hx, rfl⟩ := List.mem_map.1 hpm
    exact hp x (List.mem_filter.1 hx).1
  intro x hx
  simp only [List.mem_append] at hx
  rcases hx with ((hx | hx) | hx) | hx
  · obtain ⟨p, hpm, rfl⟩ := List.mem_map.1 hx
    exact hr _ _ p hpm
  · exact hp x (List.mem_filter.1 hx).1
  · obtain ⟨p, hpm, rfl⟩ := List.mem_map.1 hx
    exact hj js (fun q hq => hr _ _ q (h1.mem_iff.1 hq)) p hpm
  · obtain ⟨p, hpm, rfl⟩ := List.mem_map.1 hx
    cases hal : c.leptons with
    | none => rw [hal] at hpm; simp at hpm
    | some alg =>
      rw [hal] at hpm
      exact hl alg hal ls (fun q hq => hr _ _ q (h2.mem_iff.1 hq)) p hpm

section

variable {K : Type*} [Field K] [LinearOrder K] [IsStrictOrderedRing K] {s : CresSettings K FourVector ℝ}

/-- In events from files: particles are kept in the order of `EventBuilder`, and momenta are made by the program. -/
def HasMomenta (e : Event K FourVector) : Prop := ∃ parts, HasOutgoing e parts ∧ ∀ x ∈ parts, Momentum x.2

theorem good_momenta {x : Sample K FourVector} (hx : x.Good s) (hq : ∀ e x y z, Momentum (s.io.ctx.momentum e x y z))
    (hm : ∀ p, Momentum p → Momentum (s.io.ctx.milli p)) : ∀ e ∈ x.events, HasMomenta e := by
  have key : ∀ {paths} {ds : List (EventFile K FourVector)}, EventFiles (x.io s) x.fs paths ds → ∀ e ∈ allEvents ds, HasMomenta e := by
    intro paths ds h
    induction h with
    | nil => intro e he; simp [allEvents] at he
    | @cons p d paths ds hd _ ih =>
      intro e he
      have he : e ∈ d.events ++ allEvents ds := by simpa [allEvents] using he
      rcases List.mem_append.1 he with he | he
      · obtain ⟨content, -, -, hev⟩ := hd
        have : ∀ {rs : List Bytes} {es : List (Event K FourVector)}, List.Forall₂ (RecordEvent (x.io s) d.kind) rs es → ∀ e ∈ es, HasMomenta e := by
          intro rs es h
          induction h with
          | nil => simp
          | @cons r e' rs es hr _ ih2 =>
            intro e he
            rcases List.mem_cons.1 he with rfl | he
            · unfold RecordEvent at hr
              split at hr
              · exact tryConvert_all (c := s.io.ctx) (r := (.hepmc2, r)) hq hm (Outcome.mapErr_eq_ok.2 hr)
              · exact tryConvert_all (c := s.io.ctx) (r := (.lhef, r)) hq hm (Outcome.mapErr_eq_ok.2 hr)
              · obtain ⟨ev0, w, h1, -, -, rfl⟩ := hr
                obtain ⟨parts, p1, p2⟩ := tryConvert_all (c := s.io.ctx) (r := (.stripperXml, r)) (e := ev0) hq hm (Outcome.mapErr_eq_ok.2 h1)
                exact ⟨parts, p1, p2⟩
            · exact ih2 e he
        exact this hev e he
      · exact ih e he
  exact key hx.files

/-- **C133**: for each pair of events of which one can be in a cell of the other one, an observable differs by at most `L` times the maximum cell size. -/
theorem C133_within_cells {km : SquareMatrix ℝ → ℝ} (hkm : SolvesAssignment km) {τ : ℝ} (hd : s.distance = euclDistance km τ)
    (hj : MakesMomenta s.clustering.jets) (hl : ∀ alg, s.clustering.leptons = some alg → MakesMomenta alg) {f : ℤ → ℝ → ℝ → ℝ → ℝ} {L : ℝ}
    (hL : 0 ≤ L) (h0 : ∀ t, f t 0 0 0 = 0) (hf : ∀ t x y z x' y' z', |f t x y z - f t x' y' z'| ≤ L * momentumDistance τ x y z x' y' z')
    {a b : Event K FourVector} (ha : HasMomenta a) (hb : HasMomenta b)
    (hab : s.distance (Cluster.cluster s.io.ctx.multi s.particles s.clustering a)
      (Cluster.cluster s.io.ctx.multi s.particles s.clustering b) ≤ s.maxCellSize) :
    |eventSum f (Cluster.cluster s.io.ctx.multi s.particles s.clustering a) -
      eventSum f (Cluster.cluster s.io.ctx.multi s.particles s.clustering b)| ≤ L * s.maxCellSize := by
  obtain ⟨pa, ha1, ha2⟩ := ha
  obtain ⟨pb, hb1, hb2⟩ := hb
  obtain ⟨qa, ha3, ha4⟩ := cluster_momenta s.io.ctx.multi s.particles s.clustering hj hl ha1 ha2
  obtain ⟨qb, hb3, hb4⟩ := cluster_momenta s.io.ctx.multi s.particles s.clustering hj hl hb1 hb2
  rw [eventSum_eq ha3, eventSum_eq hb3]
  refine (C132_observables hkm τ ha3 hb3 ha4 hb4 h0 hf).trans ?_
  rw [hd] at hab
  exact mul_le_mul_of_nonneg_left hab hL

theorem binned_same {β : Type*} {edges : List ℝ} {g : ℝ → β} (hg : IsBinned edges g) {x y r : ℝ} (hxy : |x - y| ≤ r) (hx : ∀ c ∈ edges, r < |x - c|) :
    g x = g y := by
  apply hg
  intro c hc
  have h1 := hx c hc
  have h2 := abs_le.1 hxy
  constructor
  · intro hlt
    rw [abs_of_neg (by linarith)] at h1
    linarith
  · intro hlt
    by_contra hge
    rw [abs_of_nonneg (by linarith)] at h1
    linarith

theorem varies_binned {km : SquareMatrix ℝ → ℝ} (hkm : SolvesAssignment km) {τ : ℝ} (hd : s.distance = euclDistance km τ)
    (hj : MakesMomenta s.clustering.jets) (hl : ∀ alg, s.clustering.leptons = some alg → MakesMomenta alg) {f : ℤ → ℝ → ℝ → ℝ → ℝ} {L : ℝ}
    (hL : 0 ≤ L) (h0 : ∀ t, f t 0 0 0 = 0) (hf : ∀ t x y z x' y' z', |f t x y z - f t x' y' z'| ≤ L * momentumDistance τ x y z x' y' z')
    {events : List (Event K FourVector)} (hp : ∀ e ∈ events, HasMomenta e) {edges : List ℝ}
    (hedges : ∀ e ∈ events, centralWeight e < 0 → visible s e = true → ∀ c ∈ edges,
      L * s.maxCellSize < |eventSum f (Cluster.cluster s.io.ctx.multi s.particles s.clustering e) - c|) {g : ℝ → K} (hg : IsBinned edges g) :
    VariesBy s (fun e => g (eventSum f (Cluster.cluster s.io.ctx.multi s.particles s.clustering e))) 0 events := by
  unfold VariesBy
  intro cl a ha b hb hneg hva _ hab
  have hO : |eventSum f (cl a) - eventSum f (cl b)| ≤ L * s.maxCellSize := by
    rcases hab with hab | hab
    · exact C133_within_cells hkm hd hj hl hL h0 hf (hp a ha) (hp b hb) hab
    · rw [abs_sub_comm]
      exact C133_within_cells hkm hd hj hl hL h0 hf (hp b hb) (hp a ha) hab
  have := binned_same hg hO (hedges a ha hneg hva)
  change |g (eventSum f (cl b)) - g (eventSum f (cl a))| ≤ 0
  rw [this, sub_self, abs_zero]

/-- **C133**: the bins of a histogram do not change if no event with negative weight is closer to an edge than the maximum cell size, times `L`. This holds for
all observables of clustered events which are sums of contributions of particles, if these vanish for vanishing momentum and change by at most `L` times the
distance between momenta. It holds for all interleavings and for all weights. -/
theorem C133_histogram (hc : GoodChoices s) (hmin : s.minWeight = 0) {km : SquareMatrix ℝ → ℝ} (hkm : SolvesAssignment km) {τ : ℝ}
    (hd : s.distance = euclDistance km τ) (hj : MakesMomenta s.clustering.jets)
    (hl : ∀ alg, s.clustering.leptons = some alg → MakesMomenta alg) {f : ℤ → ℝ → ℝ → ℝ → ℝ} {L : ℝ}
    (hL : 0 ≤ L) (h0 : ∀ t, f t 0 0 0 = 0) (hf : ∀ t x y z x' y' z', |f t x y z - f t x' y' z'| ≤ L * momentumDistance τ x y z x' y' z')
    {x : Sample K FourVector} (hx : x.Good s) (hq : ∀ e x y z, Momentum (s.io.ctx.momentum e x y z))
    (hm : ∀ p, Momentum p → Momentum (s.io.ctx.milli p)) {edges : List ℝ}
    (hedges : ∀ e ∈ x.events, centralWeight e < 0 → visible s e = true → ∀ c ∈ edges,
      L * s.maxCellSize < |eventSum f (Cluster.cluster s.io.ctx.multi s.particles s.clustering e) - c|)
    {ws : List (Weights K)} {res : Outcome MainError Unit} {fs' : FS (List Bytes)} (h : x.Run s ws res fs') (hw : x.CanWrite s ws) :
    res = .ok () ∧ ∃ out, x.Wrote s fs' out ∧ ∀ g : ℝ → K, IsBinned edges g → ∀ k,
      prediction k (fun e => g (eventSum f (Cluster.cluster s.io.ctx.multi s.particles s.clustering e))) (allEvents out) =
        prediction k (fun e => g (eventSum f (Cluster.cluster s.io.ctx.multi s.particles s.clustering e))) (x.events.filter (counted s)) := by
  have hp := good_momenta hx hq hm
  have hi : IgnoresIds s.distance := by rw [hd]; exact C89_default_distance km τ
  obtain ⟨rfl, out, w1, w2⟩ := hx.wrote hc h hw
  refine ⟨rfl, out, w1, fun g hg k => ?_⟩
  obtain ⟨-, out', v1, v2⟩ := C111_unresolved hc hmin hi hx
    (f := fun e => g (eventSum f (Cluster.cluster s.io.ctx.multi s.particles s.clustering e))) (fun _ _ => rfl)
    (varies_binned hkm hd hj hl hL h0 hf hp hedges hg) h hw
  rw [eventFiles_unique v1.files w1.files] at v2
  exact v2 k

/-- **C133** for the scalar sum of transverse momenta of particles with some given types. -/
theorem C133_scalar_sum (hc : GoodChoices s) (hmin : s.minWeight = 0) {km : SquareMatrix ℝ → ℝ} (hkm : SolvesAssignment km) {τ : ℝ}
    (hd : s.distance = euclDistance km τ) (hj : MakesMomenta s.clustering.jets)
    (hl : ∀ alg, s.clustering.leptons = some alg → MakesMomenta alg) (T : ℤ → Prop) [DecidablePred T]
    {x : Sample K FourVector} (hx : x.Good s) (hq : ∀ e x y z, Momentum (s.io.ctx.momentum e x y z))
    (hm : ∀ p, Momentum p → Momentum (s.io.ctx.milli p)) {edges : List ℝ}
    (hedges : ∀ e ∈ x.events, centralWeight e < 0 → visible s e = true → ∀ c ∈ edges, s.maxCellSize <
      |eventSum (fun t x y _ => if T t then transverse x y else 0) (Cluster.cluster s.io.ctx.multi s.particles s.clustering e) - c|)
    {ws : List (Weights K)} {res : Outcome MainError Unit} {fs' : FS (List Bytes)} (h : x.Run s ws res fs') (hw : x.CanWrite s ws) :
    res = .ok () ∧ ∃ out, x.Wrote s fs' out ∧ ∀ g : ℝ → K, IsBinned edges g → ∀ k,
      prediction k (fun e => g (eventSum (fun t x y _ => if T t then transverse x y else 0)
        (Cluster.cluster s.io.ctx.multi s.particles s.clustering e))) (allEvents out) =
      prediction k (fun e => g (eventSum (fun t x y _ => if T t then transverse x y else 0)
        (Cluster.cluster s.io.ctx.multi s.particles s.clustering e))) (x.events.filter (counted s)) := by
  refine C133_histogram hc hmin hkm hd hj hl (L := 1) zero_le_one (by simp [transverse]) (fun t x y z x' y' z' => ?_) hx hq hm
    (by simpa only [one_mul] using hedges) h hw
  rw [one_mul]
  split_ifs
  · apply Real.abs_le_sqrt
    nlinarith [transverse_diff x y x' y', sq_nonneg (z - z'), mul_nonneg (sq_nonneg τ) (sq_nonneg (transverse x y - transverse x' y'))]
  · rw [sub_self, abs_zero]; exact Real.sqrt_nonneg _

end

/-! ### example -/

/-- The input of the example for C77 with four-momenta. -/
noncomputable def exRealX : Sample ℚ FourVector := ⟨[ascii "home"], ascii "out", exRealIns, [none], exRealFS, [exRealFile]⟩

theorem exRealX_clustered : exRealX.events.map (fun e => (centralWeight e, (Cluster.cluster true exampleParticles ⟨id, none, fun _ _ => false, false⟩ e).outgoingByPid)) =
    [(-2, [(81, [FourVector.ofComponents ((7 : ℚ) : ℝ) ((1 : ℚ) : ℝ) ((2 : ℚ) : ℝ) ((3 : ℚ) : ℝ)])]),
     (2, [(81, [FourVector.ofComponents ((9 : ℚ) : ℝ) ((4 : ℚ) : ℝ) ((5 : ℚ) : ℝ) ((6 : ℚ) : ℝ)])])] := by
  with_unfolding_all rfl

/-- The hypotheses of `C133_scalar_sum` are met by an input file with two jets, with a maximum cell size of 2 and a bin which ends at 5: one event is in
this bin, and one is not. -/
example : ∃ km ws res fs', exRealX.Run (exReal km 2) ws res fs' ∧ (exRealX.CanWrite (exReal km 2) ws →
    ∃ out, exRealX.Wrote (exReal km 2) fs' out ∧ ∀ g : ℝ → ℚ, IsBinned [5] g → ∀ k,
      prediction k (fun e => g (eventSum (fun t x y _ => if t = 81 then transverse x y else 0)
        (Cluster.cluster true exampleParticles ⟨id, none, fun _ _ => false, false⟩ e))) (allEvents out) =
      prediction k (fun e => g (eventSum (fun t x y _ => if t = 81 then transverse x y else 0)
        (Cluster.cluster true exampleParticles ⟨id, none, fun _ _ => false, false⟩ e))) (exRealX.events.filter (counted (exReal km 2)))) := by
  obtain ⟨km, hkm⟩ := solvesAssignment_exists
  have hgood : exRealX.Good (exReal km 2) := ⟨exReal_inputs, exReal_files, .inl fun _ => rfl⟩
  obtain ⟨events, ws, res, fs', files, io', res', g1, g2, -, rfl⟩ := C77_main_completes (exReal_good km 2) rfl rfl exReal_inputs rfl exReal_files
    (.inl fun _ => rfl)
  refine ⟨km, ws, _, fs', .run g1 g2, fun hw => ?_⟩
  refine (C133_scalar_sum (exReal_good km 2) rfl hkm rfl (fun l hl => hl) (fun alg h => by cases h) (fun t => t = 81) hgood
    (fun e x y z => ⟨_, .ofComponents (e, x, y, z)⟩) (fun _ hp => hp) (edges := [5]) ?_ (.run g1 g2) hw).2
  intro e he hneg _ c hc
  have h2 := List.mem_map_of_mem (f := fun e => (centralWeight e,
    (Cluster.cluster true exampleParticles ⟨id, none, fun _ _ => false, false⟩ e).outgoingByPid)) he
  rw [exRealX_clustered] at h2
  simp only [List.mem_cons, Prod.mk.injEq, List.not_mem_nil, or_false] at h2
  rw [List.mem_singleton.1 hc]
  rcases h2 with ⟨h3, h4⟩ | ⟨h3, h4⟩
  · have : eventSum (fun t x y _ => if t = 81 then transverse x y else 0)
        (Cluster.cluster true exampleParticles ⟨id, none, fun _ _ => false, false⟩ e) = transverse 1 2 := by
      unfold eventSum outgoingParticles
      rw [h4]
      simp [particleSum, FourVector.ofComponents, FourVector.updatePt]
    change (2 : ℝ) < |eventSum (fun t x y _ => if t = 81 then transverse x y else 0)
      (Cluster.cluster true exampleParticles ⟨id, none, fun _ _ => false, false⟩ e) - 5|
    rw [this]
    have : transverse 1 2 < 3 := by
      unfold transverse
      rw [Real.sqrt_lt' (by norm_num)]
      norm_num
    rw [abs_of_neg (by linarith)]
    linarith
  · rw [h3] at hneg
    norm_num at hneg

end Cres

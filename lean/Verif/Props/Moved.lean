import Verif.Proofs.MovedRun
import Verif.Props.Scaled
import Verif.Props.DefaultRun

/-!
**C92**: results do not depend on the orientation of events or the units of momenta.
-/

namespace Cres

open Spec CombinedIO Program Cres.Path

section
variable {K V D : Type*} [Zero D] [LinearOrder D] [Zero K] [One K] [Add K] [Mul K] [Div K] [NatCast K] [Neg K] [LinearOrder K]
  [LinearOrder V] {h : V → V}

/-- **C92**: any run with any components, for files with the same events and changed momenta. If the components treat the changed momenta
in the same way, there is a run with these files that passes the same weights to the files, or ends with the same error or panic. -/
theorem C92_same_weights {P P' : Type*} [DecidableEq P] [DecidableEq P'] {ψ : D → D} {p q : Program K V D}
    (hpq : MovedComponents h ψ p q) {fs fs1 : FS P} {files : List (P × P)}
    {ds : List (EventFile K V)} (hin : EventFiles p.io fs (files.map Prod.fst) ds) (hf : GoodFiles files)
    {fs' : FS P'} {files' : List (P' × P')} {ds' : List (EventFile K V)}
    (hin' : EventFiles q.io fs' (files'.map Prod.fst) ds') (hf' : GoodFiles files')
    (hsame : allEvents ds' = (allEvents ds).map (moved h))
    {events : List (Event K V)} {ws : Option (List (Weights K))} {res : Outcome (CresError IOError) Unit}
    (hr : p.Run files fs (some events) ws res fs1) :
    ∃ res' fs1', q.Run files' fs' (some (events.map (moved h))) ws res' fs1' ∧ (ws = none → res' = res) := by
  obtain ⟨s, fs0, s', fs0', h1, h2, h3⟩ := reads_moved hpq hin hf hin' hf' hsame
  have hs : ∀ {r : Outcome IOError Unit} {t fs2}, CombinedIO.new p.io files fs = (r, t, fs2) → r = .ok () ∧ t = s ∧ fs2 = fs0 := by
    intro r t fs2 hn
    rw [h1] at hn
    simp only [Prod.mk.injEq] at hn
    exact ⟨hn.1.symm, hn.2.1.symm, hn.2.2.symm⟩
  generalize hev : some events = oevents at hr
  cases hr with
  | createErr _ | createPanic _ | readErr _ _ | readPanic _ _ => simp at hev
  | weightsErr g1 g2 g3 =>
    obtain ⟨-, rfl, rfl⟩ := hs g1
    cases hev
    obtain ⟨hc, x', k⟩ := h3 _ _ g2
    exact ⟨_, _, .weightsErr h2 k (computes_moved hpq hc g3), fun _ => rfl⟩
  | weightsPanic g1 g2 g3 =>
    obtain ⟨-, rfl, rfl⟩ := hs g1
    cases hev
    obtain ⟨hc, x', k⟩ := h3 _ _ g2
    exact ⟨_, _, .weightsPanic h2 k (computes_moved hpq hc g3), fun _ => rfl⟩
  | update g1 g2 g3 =>
    obtain ⟨-, rfl, rfl⟩ := hs g1
    cases hev
    obtain ⟨hc, x', k⟩ := h3 _ _ g2
    exact ⟨_, _, .update h2 k (computes_moved hpq hc g3), by simp⟩

variable [DistNum D] [ExactComparison D]

/-- **C92** for the command line program: if all momenta in the input files are changed such that clustering is not affected and
distances and the cell size limit are multiplied by the same factor, there is a run such that the weights in the output files are the same.
-/
theorem C92_main {ψ : D ≃o D} {s s' : CresSettings K V D} (hs : MovedSettings h ψ s s') (hc : GoodChoices s)
    {cwd : List Bytes} {outdir : Bytes} {ins : List (Bytes × Bytes)} {tags : List (Option (Stripper.XmlTag K))}
    {fs fs1 : FS (List Bytes)} (hg : GoodInputs s.io cwd outdir ins tags fs)
    {io : IOConfig K V} (hio : io = { s.io with scaling := channelScales tags }) {ds : List (EventFile K V)}
    (hin : EventFiles io fs ((eventInputs ins tags).map fun x => locate cwd x.1 ++ [x.2]) ds) (hsup : WeightsSupported io ds)
    {cwd' : List Bytes} {outdir' : Bytes} {ins' : List (Bytes × Bytes)} {tags' : List (Option (Stripper.XmlTag K))}
    {fs' : FS (List Bytes)} (hg' : GoodInputs s'.io cwd' outdir' ins' tags' fs')
    {io' : IOConfig K V} (hio' : io' = { s'.io with scaling := channelScales tags' }) {ds' : List (EventFile K V)}
    (hin' : EventFiles io' fs' ((eventInputs ins' tags').map fun x => locate cwd' x.1 ++ [x.2]) ds') (hsup' : WeightsSupported io' ds')
    (hsame : allEvents ds' = (allEvents ds).map (moved h)) {ws : List (Weights K)} {res : Outcome MainError Unit}
    (hr : MainRun s cwd outdir (ins.map fun x => x.1 ++ x.2) fs (some ws) res fs1)
    (hw : ∀ w ∈ ws, ∀ x ∈ w, ∀ d ∈ ds, Writable io d.kind x)
    (hw' : ∀ w ∈ ws, ∀ x ∈ w, ∀ d ∈ ds', Writable io' d.kind x) :
    res = .ok () ∧ ∃ fs1', MainRun s' cwd' outdir' (ins'.map fun x => x.1 ++ x.2) fs' (some ws) (.ok ()) fs1' ∧
      ∃ out out', EventFiles io fs1 ((eventInputs ins tags).map fun x => locate cwd outdir ++ [x.2]) out ∧
        EventFiles io' fs1' ((eventInputs ins' tags').map fun x => locate cwd' outdir' ++ [x.2]) out' ∧
        List.Forall₂ SameExceptWeights ds out ∧ List.Forall₂ SameExceptWeights ds' out' ∧
        allEvents out' = (allEvents out).map (moved h) := by
  obtain ⟨h1, h2, h3⟩ := hg.files
  obtain ⟨h1', h2', h3'⟩ := hg'.files
  generalize hws : some ws = ows at hr
  cases hr with
  | scalingErr _ | scalingPanic _ => simp at hws
  | @run files io'' events ws' res fs1 g1 g2 =>
    subst hws
    rw [h1] at g1
    simp only [Outcome.ok.injEq, Prod.mk.injEq] at g1
    obtain ⟨rfl, rfl⟩ := g1
    have hc1 : GoodChoices { s with io := { s.io with scaling := channelScales tags } } := ⟨hc.search, hc.seeds, hc.rng⟩
    have hc' := goodChoices_moved hs hc
    have hc2 : GoodChoices { s' with io := { s'.io with scaling := channelScales tags' } } := ⟨hc'.search, hc'.seeds, hc'.rng⟩
    subst hio hio'
    rw [← h3] at hin
    rw [← h3'] at hin'
    have hconv := cres_moved hs (channelScales tags) (channelScales tags')
    obtain ⟨events, rfl⟩ : ∃ evs, events = some evs := by
      generalize hws : some ws = ows at g2
      cases g2 <;> first | exact ⟨_, rfl⟩ | simp at hws
    obtain ⟨res', fs1', g3, -⟩ := C92_same_weights (p := CresSettings.program { s with io := { s.io with scaling := channelScales tags } })
      (q := CresSettings.program { s' with io := { s'.io with scaling := channelScales tags' } }) hconv hin h2 hin' h2' hsame g2
    obtain ⟨rfl, k0, out, k1, k2, k3⟩ := supported_can_write (cres_goodComponents hc1) (unweight_survivors _ _ _) hin h2 hsup g2 hw
    obtain ⟨rfl, -, out', l1, l2, l3⟩ := supported_can_write (cres_goodComponents hc2) (unweight_survivors _ _ _) hin' h2' hsup' g3 hw'
    rw [List.map_map] at k1 l1
    refine ⟨rfl, fs1', .run (s := s') h1' g3, out, out', k1, l1, k2, l2, ?_⟩
    rw [k3, l3, hsame, List.map_zipWith, List.zipWith_map_right]
    congr 1
    funext w e
    exact reweighted_moved w e

end

/-! ### the distance of the command line program -/

section
variable {V : Type*} [LinearOrder V]

theorem isSetDistance_moved {d d' : V → V → ℝ} {zero : V} {h : V → V} {c : ℝ} (hc : 0 < c) (h0 : h zero = zero)
    (hd : ∀ a b, d' (h a) (h b) = c * d a b) {l₁ l₂ : List V} {x : ℝ} (hx : IsSetDistance d zero l₁ l₂ x) :
    IsSetDistance d' zero (l₁.map h) (l₂.map h) (c * x) := by
  have hpad : ∀ (l : List V) (n : Nat), padded zero n (l.map h) = ↑((l ++ List.replicate (n - l.length) zero).map h) := by
    intro l n
    rw [List.map_append, List.map_replicate, h0]
    unfold padded
    rw [List.length_map, ← Multiset.coe_replicate, Multiset.coe_add]
  have hpad' : ∀ (l : List V) (n : Nat), padded zero n l = ↑(l ++ List.replicate (n - l.length) zero) := by
    intro l n
    unfold padded
    rw [← Multiset.coe_replicate, Multiset.coe_add]
  unfold IsSetDistance at hx ⊢
  simp only [List.length_map]
  generalize hn : max l₁.length l₂.length = n at hx ⊢
  have e1 : (l₁ ++ List.replicate (n - l₁.length) zero).length = n := by
    rw [List.length_append, List.length_replicate]
    omega
  have e2 : (l₂ ++ List.replicate (n - l₂.length) zero).length = n := by
    rw [List.length_append, List.length_replicate]
    omega
  rw [hpad', hpad'] at hx
  rw [hpad, hpad]
  generalize l₁ ++ List.replicate (n - l₁.length) zero = p1 at hx e1 ⊢
  generalize l₂ ++ List.replicate (n - l₂.length) zero = p2 at hx e2 ⊢
  have f1 : (p1.map h).length = n := by rw [List.length_map, e1]
  have f2 : (p2.map h).length = n := by rw [List.length_map, e2]
  rw [pairing_set_eq_equiv d e1 e2] at hx
  rw [pairing_set_eq_equiv d' f1 f2]
  have hset : ∀ σ : Equiv.Perm (Fin n),
      ∑ i : Fin n, d' ((p1.map h)[i]'(by rw [f1]; exact i.2)) ((p2.map h)[σ i]'(by rw [f2]; exact (σ i).2)) =
      c * ∑ i : Fin n, d (p1[i]'(by rw [e1]; exact i.2)) (p2[σ i]'(by rw [e2]; exact (σ i).2)) := by
    intro σ
    rw [Finset.mul_sum]
    apply Finset.sum_congr rfl
    intro i _
    rw [← hd]
    simp
  obtain ⟨⟨σ, hσ⟩, hmin⟩ := hx
  refine ⟨⟨σ, by rw [hset, hσ]⟩, ?_⟩
  rintro y ⟨σ', rfl⟩
  rw [hset]
  exact mul_le_mul_of_nonneg_left (hmin ⟨σ', rfl⟩) hc.le

omit [LinearOrder V] in
theorem momenta_moved (h : V → V) (parts : List (ℤ × V)) (t : ℤ) : momenta (moveParticles h parts) t = (momenta parts t).map h := by
  unfold momenta moveParticles
  rw [List.filter_map, List.map_map, List.map_map]
  rfl

omit [LinearOrder V] in
theorem types_moved (h : V → V) (parts : List (ℤ × V)) : types (moveParticles h parts) = types parts := by
  unfold types moveParticles
  rw [List.map_map]
  rfl

theorem isEventDistance_moved {d d' : V → V → ℝ} {zero : V} {h : V → V} {c : ℝ} (hc : 0 < c) (h0 : h zero = zero)
    (hd : ∀ a b, d' (h a) (h b) = c * d a b) {a b : List (ℤ × V)} {x : ℝ} (hx : IsEventDistance d zero a b x) :
    IsEventDistance d' zero (moveParticles h a) (moveParticles h b) (c * x) := by
  obtain ⟨cost, h1, rfl⟩ := hx
  refine ⟨fun t => c * cost t, fun t => ?_, ?_⟩
  · rw [momenta_moved, momenta_moved]
    exact isSetDistance_moved hc h0 hd (h1 t)
  · rw [types_moved, types_moved, Finset.mul_sum]

end

theorem euclDistance_outgoing {W : Type*} {km : SquareMatrix ℝ → ℝ} (hkm : SolvesAssignment km) (τ : ℝ) {e e' : Event W FourVector}
    {a b : List (ℤ × FourVector)} (ha : HasOutgoing e a) (hb : HasOutgoing e' b) :
    IsEventDistance (fun p q => ptDist p q τ) FourVector.new a b (euclDistance km τ e e') := by
  obtain ⟨c, h1, h2⟩ := eventDistance_build (pairDist_ptDist τ) (norm := fun p => ptNorm p τ) (zero := FourVector.new)
    (fun p => ptNorm_eq τ p) hkm (⟨[], a⟩ : EventBuilder W FourVector) (⟨[], b⟩ : EventBuilder W FourVector)
  have h3 : euclWithScaledPt km τ e e' = some c := by
    unfold HasOutgoing at ha hb
    rw [← h1]
    simp only [euclWithScaledPt, eventDistance, EventBuilder.build, ha, hb]
  have h4 : euclDistance km τ e e' = c := by simp [euclDistance, h3]
  rw [h4]
  exact h2

/-- **C92**: if the distances between momenta are multiplied by the same factor, so are the distances between events. -/
theorem C92_distance {W : Type*} {km km' : SquareMatrix ℝ → ℝ} (hkm : SolvesAssignment km) (hkm' : SolvesAssignment km') {τ τ' c : ℝ}
    {h : FourVector → FourVector} (hc : 0 < c) (h0 : h FourVector.new = FourVector.new)
    (hd : ∀ p q, ptDist (h p) (h q) τ' = c * ptDist p q τ) {e e' : Event W FourVector} {a b : List (ℤ × FourVector)}
    (ha : HasOutgoing e a) (hb : HasOutgoing e' b) :
    euclDistance km' τ' (moved h e) (moved h e') = c * euclDistance km τ e e' :=
  isEventDistance_unique (euclDistance_outgoing hkm' τ' (moved_outgoing ha) (moved_outgoing hb))
    (isEventDistance_moved hc h0 hd (euclDistance_outgoing hkm τ ha hb))

/-- A rotation around the beam axis by an angle with cosine `a` and sine `b`. -/
def rotated (a b : ℝ) (p : FourVector) : FourVector := ⟨p.pt, p.p0, a * p.p1 - b * p.p2, b * p.p1 + a * p.p2, p.p3⟩

/-- Exchange of the two beams. -/
def mirrored (p : FourVector) : FourVector := ⟨p.pt, p.p0, p.p1, p.p2, -p.p3⟩

/-- Momenta in other units. -/
def inUnits (c : ℝ) (p : FourVector) : FourVector := ⟨c * p.pt, c * p.p0, c * p.p1, c * p.p2, c * p.p3⟩

/-- A rotation in space with the matrix `R`. The transverse momentum is recomputed. -/
noncomputable def turned (R : Matrix (Fin 3) (Fin 3) ℝ) (p : FourVector) : FourVector :=
  FourVector.ofComponents p.p0 (R 0 0 * p.p1 + R 0 1 * p.p2 + R 0 2 * p.p3) (R 1 0 * p.p1 + R 1 1 * p.p2 + R 1 2 * p.p3)
    (R 2 0 * p.p1 + R 2 1 * p.p2 + R 2 2 * p.p3)

theorem ptDist_components (p q : FourVector) (τ : ℝ) : ptDist p q τ =
    Real.sqrt ((p.p1 - q.p1) ^ 2 + (p.p2 - q.p2) ^ 2 + (p.p3 - q.p3) ^ 2 + (τ * (p.pt - q.pt)) ^ 2) := by
  unfold ptDist ptDistSq FourVector.spatialNormSq
  congr 1
  show (p.p1 - q.p1) * (p.p1 - q.p1) + (p.p2 - q.p2) * (p.p2 - q.p2) + (p.p3 - q.p3) * (p.p3 - q.p3) + _ = _
  ring

/-- **C92**: the distance between events does not change if all events are rotated around the beam axis. -/
theorem C92_rotated {W : Type*} {km : SquareMatrix ℝ → ℝ} (hkm : SolvesAssignment km) (τ : ℝ) {a b : ℝ} (hab : a ^ 2 + b ^ 2 = 1)
    {e e' : Event W FourVector} {ps ps' : List (ℤ × FourVector)} (he : HasOutgoing e ps) (he' : HasOutgoing e' ps') :
    euclDistance km τ (moved (rotated a b) e) (moved (rotated a b) e') = euclDistance km τ e e' := by
  have := C92_distance (c := 1) (h := rotated a b) (τ := τ) (τ' := τ) hkm hkm one_pos (by simp [rotated, FourVector.new]) (fun p q => ?_) he he'
  · rw [this, one_mul]
  · rw [one_mul, ptDist_components, ptDist_components]
    congr 1
    simp only [rotated]
    linear_combination ((p.p1 - q.p1) ^ 2 + (p.p2 - q.p2) ^ 2) * hab

/-- **C92**: the distance between events does not change if the beams are exchanged. -/
theorem C92_mirrored {W : Type*} {km : SquareMatrix ℝ → ℝ} (hkm : SolvesAssignment km) (τ : ℝ)
    {e e' : Event W FourVector} {ps ps' : List (ℤ × FourVector)} (he : HasOutgoing e ps) (he' : HasOutgoing e' ps') :
    euclDistance km τ (moved mirrored e) (moved mirrored e') = euclDistance km τ e e' := by
  have := C92_distance (c := 1) (h := mirrored) (τ := τ) (τ' := τ) hkm hkm one_pos (by simp [mirrored, FourVector.new]) (fun p q => ?_) he he'
  · rw [this, one_mul]
  · rw [one_mul, ptDist_components, ptDist_components]
    congr 1
    simp only [mirrored]
    ring

/-- **C92**: if all momenta are converted to other units, so are the distances between events. -/
theorem C92_in_units {W : Type*} {km : SquareMatrix ℝ → ℝ} (hkm : SolvesAssignment km) (τ : ℝ) {c : ℝ} (hc : 0 < c)
    {e e' : Event W FourVector} {ps ps' : List (ℤ × FourVector)} (he : HasOutgoing e ps) (he' : HasOutgoing e' ps') :
    euclDistance km τ (moved (inUnits c) e) (moved (inUnits c) e') = c * euclDistance km τ e e' := by
  refine C92_distance (h := inUnits c) (τ := τ) (τ' := τ) hkm hkm hc (by simp [inUnits, FourVector.new]) (fun p q => ?_) he he'
  rw [ptDist_components, ptDist_components, ← Real.sqrt_sq hc.le, ← Real.sqrt_mul (sq_nonneg _), Real.sqrt_sq hc.le]
  congr 1
  simp only [inUnits]
  ring

/-- **C92**: without an extra contribution of the transverse momentum the distance between events does not change if all events are rotated
in space. -/
theorem C92_turned {W : Type*} {km : SquareMatrix ℝ → ℝ} (hkm : SolvesAssignment km) {R : Matrix (Fin 3) (Fin 3) ℝ}
    (hR : R.transpose * R = 1)
    {e e' : Event W FourVector} {ps ps' : List (ℤ × FourVector)} (he : HasOutgoing e ps) (he' : HasOutgoing e' ps') :
    euclDistance km 0 (moved (turned R) e) (moved (turned R) e') = euclDistance km 0 e e' := by
  have := C92_distance (c := 1) (h := turned R) (τ := 0) (τ' := 0) hkm hkm one_pos
    (by simp [turned, FourVector.new, FourVector.ofComponents, FourVector.updatePt]) (fun p q => ?_) he he'
  · rw [this, one_mul]
  · rw [one_mul, ptDist_components, ptDist_components]
    congr 1
    have hent : ∀ i j, R 0 i * R 0 j + R 1 i * R 1 j + R 2 i * R 2 j = if i = j then 1 else 0 := by
      intro i j
      have := congrFun (congrFun hR i) j
      rw [Matrix.mul_apply, Fin.sum_univ_three, Matrix.one_apply] at this
      simpa [Matrix.transpose_apply] using this
    have h00 := hent 0 0
    have h11 := hent 1 1
    have h22 := hent 2 2
    have h01 := hent 0 1
    have h02 := hent 0 2
    have h12 := hent 1 2
    simp only [if_true, Fin.isValue, Fin.reduceEq, if_false] at h00 h11 h22 h01 h02 h12
    simp only [turned, FourVector.ofComponents, FourVector.updatePt]
    linear_combination (p.p1 - q.p1) ^ 2 * h00 + (p.p2 - q.p2) ^ 2 * h11 + (p.p3 - q.p3) ^ 2 * h22 +
      2 * (p.p1 - q.p1) * (p.p2 - q.p2) * h01 + 2 * (p.p1 - q.p1) * (p.p3 - q.p3) * h02 + 2 * (p.p2 - q.p2) * (p.p3 - q.p3) * h12

/-- **C92**: what is read from files with changed momenta. -/
theorem C92_components {a b c : ℝ} (hab : a ^ 2 + b ^ 2 = 1) (hc : 0 < c) (e x y z : ℝ) :
    rotated a b (FourVector.ofComponents e x y z) = FourVector.ofComponents e (a * x - b * y) (b * x + a * y) z ∧
    mirrored (FourVector.ofComponents e x y z) = FourVector.ofComponents e x y (-z) ∧
    inUnits c (FourVector.ofComponents e x y z) = FourVector.ofComponents (c * e) (c * x) (c * y) (c * z) := by
  simp only [rotated, mirrored, inUnits, FourVector.ofComponents, FourVector.updatePt, FourVector.mk.injEq, and_true, true_and]
  refine ⟨?_, ?_⟩
  · congr 1
    linear_combination -(x ^ 2 + y ^ 2) * hab
  · rw [← Real.sqrt_sq hc.le, ← Real.sqrt_mul (sq_nonneg _), Real.sqrt_sq hc.le]
    congr 1
    ring

/-- **C92**: multiplication of distances with a positive number. -/
theorem C92_unit {D : Type*} [Field D] [LinearOrder D] [IsStrictOrderedRing D] {c : D} (hc : 0 < c) :
    IsDistanceUnit (OrderIso.mulLeft₀ c hc) where
  zero := mul_zero c
  absDiff a b := by
    show |c * a - c * b| = c * |a - b|
    rw [← mul_sub, abs_mul, abs_of_pos hc]

/-- **C92**: no change of distances. -/
theorem C92_same_unit {D : Type*} [Zero D] [LinearOrder D] [DistNum D] : IsDistanceUnit (OrderIso.refl D) := ⟨rfl, fun _ _ => rfl⟩

/-- **C92**: photon isolation does not depend on the frame and the units of momenta if the kinematic quantities do not. -/
theorem C92_isolated {K V : Type*} [Field K] [LinearOrder K] [IsStrictOrderedRing K] [AddCommGroup V] [LinearOrder V]
    (P : Cluster.Particles) (kin : Cluster.Kinematics K V) {h : V →+ V} {c : K} (hc : 0 < c) (hpt : ∀ p, kin.pt (h p) = c * kin.pt p)
    (het : ∀ p, kin.et (h p) = c * kin.et p) (hr : ∀ p q, kin.deltaR (h p) (h q) = kin.deltaR p q) (d : Cluster.PhotonDef K) (p : V)
    (parts : List (ℤ × V)) :
    Cluster.isIsolated P kin (some { d with minPt := c * d.minPt }) (h p) (compressOutgoing (moveParticles h parts)) =
      Cluster.isIsolated P kin (some d) p (compressOutgoing parts) := by
  have hsum : (((flatGroups (compressOutgoing (moveParticles h parts))).filter (inCone P kin d.radius (h p))).map Prod.snd).sum =
      h ((((flatGroups (compressOutgoing parts)).filter (inCone P kin d.radius p)).map Prod.snd).sum) := by
    rw [(((compress_flat_perm (moveParticles h parts)).filter _).map Prod.snd).sum_eq,
      (((compress_flat_perm parts).filter _).map Prod.snd).sum_eq, map_list_sum, List.map_map]
    unfold moveParticles
    rw [List.filter_map, List.map_map]
    congr 1
    have : (inCone P kin d.radius (h p) ∘ fun x : ℤ × V => (x.1, h x.2)) = inCone P kin d.radius p := by
      funext x
      simp [inCone, hr]
    rw [this]
    rfl
  unfold Cluster.isIsolated
  simp only [cone_sum, zero_add, hsum, ← map_sub, hpt, het]
  have h1 : c * kin.pt p < c * d.minPt ↔ kin.pt p < d.minPt := mul_lt_mul_iff_right₀ hc
  have h2 : ∀ x, (c * kin.pt p > d.minEFraction * (c * x)) ↔ kin.pt p > d.minEFraction * x := by
    intro x
    rw [show d.minEFraction * (c * x) = c * (d.minEFraction * x) by ring]
    exact mul_lt_mul_iff_right₀ hc
  simp only [h1, h2]

/-! ### settings for rotated events and for other units -/

theorem converted_refl {D : Type*} [LinearOrder D] (a : SearchAlgo D) : SearchAlgo.converted (OrderIso.refl D) a = a := by
  have hp : (convertPoint (P := Nat) (OrderIso.refl D)) = id := by
    funext x
    obtain ⟨d, p, ch⟩ := x
    cases ch <;> rfl
  have hp' : (convertPoint (P := Nat) (OrderIso.refl D).symm) = id := hp
  have hk : ((OrderIso.refl D).symm : D → D) = id := rfl
  cases a with
  | naive minPos => simp only [SearchAlgo.converted, hk, List.map_id]
  | tree psort sort cornerPt f64Max => simp only [SearchAlgo.converted, hp, hp', List.map_id]

section
variable {K : Type*} [Zero K] [One K] [Add K] [Mul K] [Div K] [NatCast K] [Neg K] [LinearOrder K]

/-- **C92**: the default distance and any change of momenta that does not change distances between momenta and does not affect the
clustering: the settings are the same. -/
theorem C92_same_settings {s : CresSettings K FourVector ℝ} {km : SquareMatrix ℝ → ℝ} (hkm : SolvesAssignment km) {τ : ℝ}
    (hdist : s.distance = euclDistance km τ) {h : FourVector → FourVector} (h0 : h FourVector.new = FourVector.new)
    (hd : ∀ p q, ptDist (h p) (h q) τ = ptDist p q τ) (hjets : SameJets h s.clustering.jets s.clustering.jets)
    (hleptons : Option.Rel (SameJets h) s.clustering.leptons s.clustering.leptons)
    (hiso : ∀ p parts, s.clustering.isolated (h p) (compressOutgoing (moveParticles h parts)) = s.clustering.isolated p (compressOutgoing parts)) :
    MovedSettings h (OrderIso.refl ℝ) s s where
  unit := C92_same_unit
  multi := rfl
  debug := rfl
  particles := rfl
  jets := hjets
  leptons := hleptons
  isolated := hiso
  includeNeutrinos := rfl
  search := (converted_refl _).symm
  distance e e' parts parts' he he' := by
    rw [hdist, C92_distance hkm hkm one_pos h0 (fun p q => by rw [hd, one_mul]) he he', one_mul]
    rfl
  maxCellSize := rfl
  strategy := rfl
  sortSeeds := rfl
  minWeight := rfl
  rng := rfl
  infoLog := rfl

/-- **C92**: the default distance and momenta in other units. The cell size limit has to be converted, and the clustering has to find the
same jets, leptons and photons. -/
theorem C92_settings_in_units {s : CresSettings K FourVector ℝ} {km : SquareMatrix ℝ → ℝ} (hkm : SolvesAssignment km) {τ : ℝ}
    (hdist : s.distance = euclDistance km τ) {c : ℝ} (hc : 0 < c) {clustering : Cluster.Settings FourVector}
    (hjets : SameJets (inUnits c) s.clustering.jets clustering.jets)
    (hleptons : Option.Rel (SameJets (inUnits c)) s.clustering.leptons clustering.leptons)
    (hiso : ∀ p parts, clustering.isolated (inUnits c p) (compressOutgoing (moveParticles (inUnits c) parts)) =
      s.clustering.isolated p (compressOutgoing parts))
    (hnu : clustering.includeNeutrinos = s.clustering.includeNeutrinos) :
    MovedSettings (inUnits c) (OrderIso.mulLeft₀ c hc) s
      { s with
        clustering := clustering
        maxCellSize := c * s.maxCellSize
        search := SearchAlgo.converted (OrderIso.mulLeft₀ c hc) s.search } where
  unit := C92_unit hc
  multi := rfl
  debug := rfl
  particles := rfl
  jets := hjets
  leptons := hleptons
  isolated := hiso
  includeNeutrinos := hnu
  search := rfl
  distance e e' parts parts' he he' := by
    simp only [hdist]
    exact C92_in_units hkm τ hc he he'
  maxCellSize := rfl
  strategy := rfl
  sortSeeds := rfl
  minWeight := rfl
  rng := rfl
  infoLog := rfl

end

/-! ### examples -/

/-- The events of the example for C74 with twice the momenta. -/
def exMoved : EventFile ℚ ℚ :=
  ⟨⟨.hepmc2, ascii "H\n", [ascii "E 1 2 3 4 5 6 7 8 9 0 0 1 -2\nP 1 21 0 0 0 14 0 1 0 0 0\n",
    ascii "E 1 2 3 4 5 6 7 8 9 0 0 1 6\nP 1 21 0 0 0 18 0 1 0 0 0\n", ascii "E 1 2 3 4 5 6 7 8 9 0 0 1 6\nP 1 21 0 0 0 16 0 1 0 0 0\n"]⟩,
   [⟨0, [-2], [(21, [14])]⟩, ⟨0, [6], [(21, [18])]⟩, ⟨0, [6], [(21, [16])]⟩]⟩

theorem exMoved_ok (multi : Bool) :
    IsEventFile (exSettings multi).io (exMoved.header ++ exMoved.records.flatten) exMoved := by
  refine ⟨⟨by decide +kernel, ?_, ⟨rfl, by simp [exMoved], by decide +kernel, ?_, ?_, ?_, ?_⟩, ?_⟩, ?_⟩
  · exact fun rest => detectFormat_append _ (b := 72) (h := [10]) (by decide) (Or.inr (by decide)) rest
  · unfold Contains; decide +kernel
  · decide +kernel
  · unfold Contains; decide +kernel
  · decide +kernel
  · decide +kernel
  · refine .cons ?_ (.cons ?_ (.cons ?_ .nil)) <;>
    · show HepMC.parse _ _ = _
      cases multi <;> decide +kernel

def exMovedFS : FS (List Bytes) := fun p =>
  if p = [ascii "data", ascii "a"] then some (exMoved.header ++ exMoved.records.flatten) else none

/-- The settings for twice the momenta. -/
def exMovedSettings (multi : Bool) : CresSettings ℚ ℚ ℚ :=
  { exMain multi fun _ => none with
    maxCellSize := 200
    search := SearchAlgo.converted (OrderIso.mulLeft₀ (2 : ℚ) (by norm_num)) (exMain multi fun _ => none).search }

theorem exMoved_inputs (multi : Bool) :
    GoodInputs (exMovedSettings multi).io [] (ascii "/out") exScaledIns [none] exMovedFS := by
  refine ⟨?_, ?_, by decide +kernel, .cons ⟨_, rfl, ?_⟩ .nil, Or.inl rfl⟩
  · unfold IsFilePath IsName
    decide +kernel
  · decide +kernel
  · show ¬ _
    cases multi <;> decide +kernel

theorem exMoved_files (multi : Bool) : EventFiles (exMain multi (channelScales [none])).io exMovedFS
    ((eventInputs exScaledIns ([none] : List (Option (Stripper.XmlTag ℚ)))).map fun x => locate [] x.1 ++ [x.2]) [exMoved] := by
  rw [show eventInputs exScaledIns ([none] : List (Option (Stripper.XmlTag ℚ))) = exScaledIns by decide +kernel]
  exact .cons ⟨_, by decide +kernel, exMoved_ok multi⟩ .nil

theorem exMoved_settings (multi : Bool) :
    MovedSettings (fun x : ℚ => 2 * x) (OrderIso.mulLeft₀ (2 : ℚ) (by norm_num)) (exMain multi fun _ => none) (exMovedSettings multi) where
  unit := C92_unit _
  multi := rfl
  debug := rfl
  particles := rfl
  jets _ _ hl := hl
  leptons := .none
  isolated _ _ := rfl
  includeNeutrinos := rfl
  search := rfl
  distance e e' parts parts' he he' := by
    have key : ∀ (e : Event ℚ ℚ) (parts : List (ℤ × ℚ)), HasOutgoing e parts →
        ((moved (fun x => 2 * x) e).outgoingByPid.flatMap Prod.snd).sum = 2 * (e.outgoingByPid.flatMap Prod.snd).sum := by
      intro e parts he
      have hflat : ∀ g : List (ℤ × List ℚ), g.flatMap Prod.snd = (flatGroups g).map Prod.snd := by
        intro g
        simp only [flatGroups, List.map_flatMap, List.map_map]
        congr 1
        funext x
        exact (List.map_id _).symm
      have hm := moved_outgoing (h := fun x : ℚ => 2 * x) he
      unfold HasOutgoing at hm he
      rw [hm, he, hflat, hflat, ((compress_flat_perm _).map Prod.snd).sum_eq, ((compress_flat_perm _).map Prod.snd).sum_eq]
      unfold moveParticles
      rw [List.map_map, ← List.sum_map_mul_left]
      rfl
    show |((moved (fun x : ℚ => 2 * x) e).outgoingByPid.flatMap Prod.snd).sum - ((moved (fun x : ℚ => 2 * x) e').outgoingByPid.flatMap Prod.snd).sum| =
      2 * |(e.outgoingByPid.flatMap Prod.snd).sum - (e'.outgoingByPid.flatMap Prod.snd).sum|
    rw [key e parts he, key e' parts' he', ← mul_sub, abs_mul]
    norm_num
  maxCellSize := by
    show (200 : ℚ) = 2 * 100
    norm_num
  strategy := rfl
  sortSeeds := rfl
  minWeight := rfl
  rng := rfl
  infoLog := rfl

/-- For the file with twice the momenta there is a run that leads to the same weights as the run in the example for C74. -/
example (multi : Bool) : ∃ fs1 fs1' out out',
    MainRun (exMain multi fun _ => none) [ascii "home"] (ascii "out") (exMainIns.map fun x => x.1 ++ x.2) exMainFS
      (some [[2], [6], [2]]) (.ok ()) fs1 ∧
    MainRun (exMovedSettings multi) [] (ascii "/out") (exScaledIns.map fun x => x.1 ++ x.2) exMovedFS
      (some [[2], [6], [2]]) (.ok ()) fs1' ∧
    EventFiles (exMain multi (channelScales exMainTags)).io fs1
      ((eventInputs exMainIns exMainTags).map fun x => locate [ascii "home"] (ascii "out") ++ [x.2]) out ∧
    EventFiles (exMain multi (channelScales [none])).io fs1'
      ((eventInputs exScaledIns ([none] : List (Option (Stripper.XmlTag ℚ)))).map fun x => locate [] (ascii "/out") ++ [x.2]) out' ∧
    allEvents out' = (allEvents out).map (moved fun x => 2 * x) := by
  obtain ⟨res, fs1, hr⟩ := exMain_run multi
  obtain ⟨rfl, fs1', h1, out, out', h2, h3, h4, h5, h6⟩ := C92_main (exMoved_settings multi) (ds' := [exMoved])
    ⟨(exSettings_good multi).search, (exSettings_good multi).seeds, (exSettings_good multi).rng⟩
    (exMain_inputs multi) rfl (exMain_files multi) (.inl fun _ => rfl) (exMoved_inputs multi) rfl
    (exMoved_files multi) (.inl fun _ => rfl) (by decide +kernel) hr (exMain_writable multi) (by
      intro w hw x hx d hd
      have h2 := (exMain_writable multi w hw x hx exProgHepmc (by simp)).1
      simp only [List.mem_cons, List.not_mem_nil, or_false] at hd
      subst hd
      exact ⟨h2, trivial⟩)
  exact ⟨fs1, fs1', out, out', hr, h1, h2, h3, h6⟩

/-- A rotation around the beam axis changes momenta, but not the settings. -/
example {s : CresSettings ℚ FourVector ℝ} {km : SquareMatrix ℝ → ℝ} (hkm : SolvesAssignment km) {τ : ℝ}
    (hdist : s.distance = euclDistance km τ) (hcl : s.clustering = ⟨id, none, fun p _ => decide (p.p0 = 1), false⟩) :
    MovedSettings (rotated (3 / 5) (4 / 5)) (OrderIso.refl ℝ) s s :=
  C92_same_settings hkm hdist (by simp [rotated, FourVector.new])
    (fun p q => by
      rw [ptDist_components, ptDist_components]
      congr 1
      simp only [rotated]
      ring)
    (by rw [hcl]; exact fun _ _ hl => hl) (by rw [hcl]; exact .none) (by rw [hcl]; exact fun _ _ => rfl)

end Cres

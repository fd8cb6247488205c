import Verif.Props.Histogram
import Verif.Props.Convex

/-!
Property C134: uncertainties of bins.
-/

set_option linter.unusedSectionVars false

namespace Cres

open Spec CombinedIO Program Cres.Path

/-- The sum of a function of the weights with number `k`, times an observable. If the observable is 1 for events in a bin and 0 for other events, and the
function is the square, this is the square of the statistical uncertainty of the bin. -/
def Spec.binSum {K V : Type*} [AddMonoid K] [Mul K] (k : Nat) (f : Event K V → K) (φ : K → K) (events : List (Event K V)) : K :=
  (events.map fun e => f e * φ (weightNo k e)).sum

section

variable {D K : Type*} [Zero D] [Field K] [LinearOrder K] [IsStrictOrderedRing K]

theorem average_convex {n : Nat} {c : List Nat} {mem mem' : Nat → List K} (h : IsCellAverage c mem mem') (hne : c ≠ [])
    (hnd : c.Nodup) (hlt : ∀ i ∈ c, i < n) {g : Nat → K} {v : K} (hv : 0 ≤ v) (hg : ∀ i ∈ c, g i = v) {φ : K → K} (hφ : ConvexOn K Set.univ φ)
    (k : Nat) : ∑ i ∈ Finset.range n, g i * φ (wt mem' k i) ≤ ∑ i ∈ Finset.range n, g i * φ (wt mem k i) := by
  have hsub : c.toFinset ⊆ Finset.range n := fun i hi => Finset.mem_range.2 (hlt i (List.mem_toFinset.1 hi))
  have hcard : c.toFinset.card = c.length := List.toFinset_card_of_nodup hnd
  have hmean : ∀ i ∈ c.toFinset, wt mem' k i = (∑ i ∈ c.toFinset, wt mem k i) / (c.toFinset.card : K) := by
    intro i hi
    rw [h.mean i (List.mem_toFinset.1 hi) k, hcard, List.sum_toFinset _ hnd]
  rw [← Finset.sum_sdiff hsub, ← Finset.sum_sdiff (f := fun i => g i * φ (wt mem k i)) hsub]
  refine add_le_add (le_of_eq (Finset.sum_congr rfl fun i hi => ?_)) ?_
  · unfold wt
    rw [h.outside i fun hc => (Finset.mem_sdiff.1 hi).2 (List.mem_toFinset.2 hc)]
  · have e1 : ∑ i ∈ c.toFinset, g i * φ (wt mem' k i) = v * ((c.toFinset.card : K) * φ ((∑ i ∈ c.toFinset, wt mem k i) / (c.toFinset.card : K))) := by
      rw [Finset.sum_congr rfl fun i hi => show g i * φ (wt mem' k i) = v * φ ((∑ i ∈ c.toFinset, wt mem k i) / (c.toFinset.card : K)) by
        rw [hg i (List.mem_toFinset.1 hi), hmean i hi], ← Finset.mul_sum, Finset.sum_const, nsmul_eq_mul]
    have e2 : ∑ i ∈ c.toFinset, g i * φ (wt mem k i) = v * ∑ i ∈ c.toFinset, φ (wt mem k i) := by
      rw [Finset.mul_sum]
      exact Finset.sum_congr rfl fun i hi => by rw [hg i (List.mem_toFinset.1 hi)]
    rw [e1, e2]
    refine mul_le_mul_of_nonneg_left (jensen_convex hφ c.toFinset (fun i => wt mem k i) ?_) hv
    obtain ⟨x, hx⟩ := List.exists_mem_of_ne_nil c hne
    exact ⟨x, List.mem_toFinset.2 hx⟩

theorem averageSeq_convex {n : Nat} {cells : List (List Nat)} {mem mem' : Nat → List K} (h : AverageSeq cells mem mem')
    (hc : CellsOK n cells) {g : Nat → K} (hg : ∀ c ∈ cells, c ≠ [] ∧ ∃ v, 0 ≤ v ∧ ∀ i ∈ c, g i = v) {φ : K → K} (hφ : ConvexOn K Set.univ φ) (k : Nat) :
    ∑ i ∈ Finset.range n, g i * φ (wt mem' k i) ≤ ∑ i ∈ Finset.range n, g i * φ (wt mem k i) := by
  induction h with
  | nil => exact le_rfl
  | @cons c cs m1 m2 m3 h1 _ ih =>
    obtain ⟨c1, c2⟩ := hc c List.mem_cons_self
    obtain ⟨hne, v, hv, hgv⟩ := hg c List.mem_cons_self
    exact (ih (fun d hd => hc d (List.mem_cons_of_mem _ hd)) fun d hd => hg d (List.mem_cons_of_mem _ hd)).trans
      (average_convex h1 hne c1 c2 hv hgv hφ k)

/-- Resampling, for all interleavings. -/
theorem reachable_convex {cfg : Cfg} {n L : Nat} {nearest : Nat → List (Nat × D)} {seeds : List Nat}
    (hv : ValidInput n nearest seeds) {mem0 : Mem K} (hu : Uniform cfg n L mem0) {s : State D K}
    (h : Reachable cfg n nearest seeds mem0 s) (hf : s.Finished seeds) {g : Nat → K} (hg0 : ∀ i, 0 ≤ g i)
    (hg : ∀ seed ∈ seeds, ∀ i ∈ (nearest seed).map Prod.fst, g i = g seed) {φ : K → K} (hφ : ConvexOn K Set.univ φ) (k : Nat) :
    ∑ i ∈ Finset.range n, g i * φ (wt s.mem k i) ≤ ∑ i ∈ Finset.range n, g i * φ (wt mem0 k i) := by
  obtain ⟨A, hA⟩ := inv_reachable hv hu h
  rw [finished_mem hA hf]
  obtain ⟨h1, h2⟩ := inv_averageSeq hv hu hA
  refine averageSeq_convex h1 h2 ?_ hφ k
  intro c' hc'
  obtain ⟨c, hc, rfl⟩ := List.mem_map.1 hc'
  obtain ⟨t, seed, h3, -, h5⟩ := inv_log_cells hA c hc
  refine ⟨h5.ne_nil, g seed, hg0 _, fun i hi => ?_⟩
  rcases List.mem_cons.1 (h5.near i hi) with rfl | hin
  · rfl
  · exact hg seed (List.mem_of_getElem? h3) i hin

end

section

variable {K V D : Type*} [Zero D] [LinearOrder D] [DistNum D] [ExactComparison D] [Field K] [LinearOrder K]
  [IsStrictOrderedRing K] [LinearOrder V] {s : CresSettings K V D}

/-- Sums of functions of weights in terms of the weights in memory. -/
theorem binSum_written (hc : GoodChoices s) (h0 : s.minWeight = 0) {m : Nat} (hm0 : 0 < m)
    (hm1 : s.program.io.ctx.multi = false → m = 1) {ds : List (EventFile K V)} {events : List (Event K V)}
    (he : EventsRead s.program m ds events) {ws : List (Weights K)} (hcw : s.program.ComputesWeights events (.ok ws))
    {f : Event K V → K} (hf : IsObservable f) {φ : K → K} (hφ : φ 0 = 0) :
    ∃ st : State D K, Reachable s.program.cfg (identified events).length (s.program.nearest (identified events))
        (s.program.seeds (identified events)) (memOf (identified events)) st ∧
      st.Finished (s.program.seeds (identified events)) ∧ ∀ k, ∃ rest,
      binSum k f φ (List.zipWith reweighted ws (allEvents ds)) =
        ∑ j ∈ Finset.range (identified events).length, observed f ds events j * φ (wt st.mem k j) + rest ∧
      binSum k f φ ((allEvents ds).filter (counted s)) =
        ∑ j ∈ Finset.range (identified events).length, observed f ds events j * φ (wt (memOf (identified events)) k j) + rest := by
  have hg := cres_goodComponents hc
  obtain ⟨st, r1, r2, r3⟩ := computesWeights_state hcw
  have hl := (weights_written_all (M := K) hg (cres_unweight h0) hm0 hm1 he r1 r2 r3).1
  have hzl : (List.zipWith reweighted ws (allEvents ds)).length = (allEvents ds).length := by
    rw [List.length_zipWith, hl, Nat.min_self]
  have hids : (events.map Event.id).Perm (List.range events.length) := by rw [he.length_eq]; exact he.ids
  have hnd : (events.map Event.id).Nodup := hids.nodup_iff.2 List.nodup_range
  have key : ∀ e ∈ events, ∃ e0, (allEvents ds)[e.id]? = some e0 ∧ e0.weights = e.weights ∧
      HasParticles s.program e0 = !e.outgoingByPid.isEmpty := by
    intro e hem
    obtain ⟨e0, e1, g1, g2, g3, -⟩ := he.from_file e hem
    refine ⟨e0, g1, ?_, ?_⟩
    · rw [g3]
      exact (hg.cluster _ _ g2).symm
    · rw [HasParticles, g2, g3]
  have hz : ∀ (i : Nat) w e0, ws[i]? = some w → (allEvents ds)[i]? = some e0 →
      (List.zipWith reweighted ws (allEvents ds))[i]? = some (reweighted w e0) := by
    intro i w e0 g1 g2
    rw [List.getElem?_zipWith, g1, g2]
  refine ⟨st, r1, r2, fun k => ⟨((events.filter fun e => e.outgoingByPid.isEmpty).map fun e =>
    if s.program.io.ctx.multi then (((allEvents ds)[e.id]?).map f).getD 0 * φ (weightNo k e) else 0).sum, ?_, ?_⟩⟩
  · unfold binSum
    rw [sum_by_ids (events := events) _ (by rw [hzl]; exact he.ids)]
    refine (sum_identified events _).trans ?_
    congr 1
    · refine sum_positions _ _ _ fun j e hj => ?_
      have hm := List.mem_filter.1 (List.mem_of_getElem? hj)
      obtain ⟨e0, g1, g2, g3⟩ := key e hm.1
      obtain ⟨j', e', b1, ⟨e1, b2, b3⟩, -, b5, b6⟩ := (event_written hg (cres_unweight h0) hm0 hm1 he r1 r2 r3 e.id g1).1
        (by rw [g3]; exact hm.2)
      have hee : e' = e := List.inj_on_of_nodup_map hnd (List.mem_filter.1 (List.mem_of_getElem? b1)).1 hm.1 (by rw [b3])
      subst hee
      have hndi : (identified events).Nodup := (List.Nodup.of_map _ hnd).filter _
      have hjj : j' = j := by
        obtain ⟨q1, q2⟩ := List.getElem?_eq_some_iff.1 b1
        obtain ⟨q3, q4⟩ := List.getElem?_eq_some_iff.1 hj
        exact (List.Nodup.getElem_inj_iff hndi).1 (q2.trans q4.symm)
      subst hjj
      have hne : st.mem j' ≠ [] := by
        intro h0
        rw [h0] at b6
        simp at b6
        omega
      rw [hz _ _ _ b5 g1, observed_eq hj g1]
      simp only [Option.map_some, Option.getD_some]
      rw [reweighted_observable hf]
      simp [reweighted, hne, weightNo, wt]
    · congr 1
      apply List.map_congr_left
      intro e hev
      obtain ⟨hev, hp⟩ := List.mem_filter.1 hev
      obtain ⟨e0, g1, g2, g3⟩ := key e hev
      have hw := (event_written hg (cres_unweight h0) hm0 hm1 he r1 r2 r3 e.id g1).2 (by rw [g3, hp]; rfl)
      rw [hz _ _ _ hw g1, g1]
      simp only [Option.map_some, Option.getD_some]
      rw [reweighted_observable hf]
      cases hm : s.program.io.ctx.multi with
      | true => simp [defaultWeights, Program.cfg, hm, reweighted, weightNo, g2]
      | false => cases k <;> simp [defaultWeights, Program.cfg, hm, reweighted, weightNo, hφ]
  · unfold binSum
    rw [sum_filter_ite, sum_by_ids (events := events) _ he.ids]
    refine (sum_identified events _).trans ?_
    congr 1
    · refine sum_positions _ _ _ fun j e hj => ?_
      have hm := List.mem_filter.1 (List.mem_of_getElem? hj)
      obtain ⟨e0, g1, g2, g3⟩ := key e hm.1
      have h1 : counted s e0 = true := by
        unfold counted
        rw [← visible_eq, g3, hm.2, Bool.or_true]
      rw [g1, observed_eq hj g1]
      simp only [Option.map_some, Option.getD_some, h1, if_true]
      simp [weightNo, wt, memOf, hj, g2]
    · congr 1
      apply List.map_congr_left
      intro e hev
      obtain ⟨hev, hp⟩ := List.mem_filter.1 hev
      obtain ⟨e0, g1, g2, g3⟩ := key e hev
      have h1 : counted s e0 = s.program.io.ctx.multi := by
        unfold counted
        rw [← visible_eq, g3, hp]
        simp
        rfl
      rw [g1]
      simp only [Option.map_some, Option.getD_some, h1, weightNo, g2]

/-- **C134**: if an observable that is not negative is the same within the maximum cell size around each event with negative weight, then the sum of its
values times any convex function of the weights does not increase, if the function vanishes at 0. This holds for all interleavings. -/
theorem C134_bins (hc : GoodChoices s) (h0 : s.minWeight = 0) (hd : IgnoresIds s.distance) {x : Sample K V} (hx : x.Good s)
    {f : Event K V → K} (hf : IsObservable f) (hf0 : ∀ e, 0 ≤ f e) (hv : VariesBy s f 0 x.events) {ws : List (Weights K)}
    {res : Outcome MainError Unit} {fs' : FS (List Bytes)} (h : x.Run s ws res fs') (hw : x.CanWrite s ws) :
    res = .ok () ∧ ∃ out, x.Wrote s fs' out ∧ ∀ k (φ : K → K), ConvexOn K Set.univ φ → φ 0 = 0 →
      binSum k f φ (allEvents out) ≤ binSum k f φ (x.events.filter (counted s)) := by
  obtain ⟨m, hm0, hm1, hmw, -⟩ := supported_weights (p := CresSettings.program { s with io := x.io s }) hx.files hx.weights
  obtain ⟨events, he, hcw⟩ := hx.run hmw h
  obtain ⟨rfl, out, w1, w2⟩ := hx.wrote hc h hw
  refine ⟨rfl, out, w1, fun k φ hφ hφ0 => ?_⟩
  have hg := cres_goodComponents hc
  have hm1 : s.program.io.ctx.multi = false → m = 1 := hm1
  have hu := read_weights hg hm0 hm1 he
  obtain ⟨st, r1, r2, r3⟩ := binSum_written hc h0 hm0 hm1 he hcw hf hφ0
  obtain ⟨rest, q1, q2⟩ := r3 k
  rw [w2]
  change binSum k f φ (List.zipWith reweighted ws (allEvents x.files)) ≤ binSum k f φ ((allEvents x.files).filter (counted s))
  rw [q1, q2]
  have hsd := seeds_spec (strategy := s.strategy) hc.seeds hu
  refine add_le_add_left (reachable_convex (hg.valid _) hu r1 r2 (g := observed f x.files events) ?_ ?_ hφ k) rest
  · intro i
    unfold observed
    cases ((identified events)[i]?.bind fun e => (allEvents x.files)[e.id]?) with
    | none => exact le_rfl
    | some e => exact hf0 e
  · intro seed hseed i hi
    obtain ⟨hlt, hneg⟩ := (hsd.2 seed).1 hseed
    obtain ⟨y, hy, rfl⟩ := List.mem_map.1 hi
    obtain ⟨-, d1, e, e', he1, he2, d2⟩ := C17_event_distances hc (identified events) hlt hy
    have orig : ∀ {j : Nat} {e : Event K V}, (identified events)[j]? = some e → ∃ e0, (allEvents x.files)[e.id]? = some e0 ∧
        e = { Cluster.cluster s.io.ctx.multi s.particles s.clustering e0 with id := e.id } ∧
        centralWeight e0 = centralWeight e ∧ e.outgoingByPid ≠ [] := by
      intro j e hj
      have hm := List.mem_filter.1 (List.mem_of_getElem? hj)
      obtain ⟨e0, e1, g1, g2, g3, -⟩ := he.from_file e hm.1
      refine ⟨e0, g1, ?_, ?_, by simpa using hm.2⟩
      · have g4 := g2
        simp only [CresSettings.program, Outcome.ok.injEq] at g4
        rw [g4]
        exact g3
      · rw [g3]
        unfold centralWeight
        rw [hg.cluster _ _ g2]
    obtain ⟨a0, a1, a2, a3, a4⟩ := orig he1
    obtain ⟨b0, b1, b2, b3, b4⟩ := orig he2
    rw [observed_eq he1 a1, observed_eq he2 b1]
    rw [← sub_eq_zero, ← abs_nonpos_iff]
    refine hv a0 (List.mem_of_getElem? a1) b0 (List.mem_of_getElem? b1) ?_ ?_ ?_ ?_
    · rw [a3, ← wt_central he1]
      exact hneg
    · rw [a2] at a4
      simpa [visible] using a4
    · rw [b2] at b4
      simpa [visible] using b4
    · rw [a2, b2] at d2
      cases hs : s.search with
      | naive mp =>
        rw [hs] at d2
        right
        rw [← hd _ _ e'.id e.id, ← d2]
        exact d1
      | tree a b c d =>
        rw [hs] at d2
        left
        rw [← hd _ _ e.id e'.id, ← d2]
        exact d1

end

section

variable {K : Type*} [Field K] [LinearOrder K] [IsStrictOrderedRing K] {s : CresSettings K FourVector ℝ}

/-- **C134** for the default distance: statistical uncertainties and other convex functions of weights do not increase in any bin of a histogram, if no event
with negative weight is closer to an edge than the maximum cell size, times `L`, for the observables of `C133_histogram`. -/
theorem C134_histogram (hc : GoodChoices s) (hmin : s.minWeight = 0) {km : SquareMatrix ℝ → ℝ} (hkm : SolvesAssignment km) {τ : ℝ}
    (hd : s.distance = euclDistance km τ) (hj : MakesMomenta s.clustering.jets)
    (hl : ∀ alg, s.clustering.leptons = some alg → MakesMomenta alg) {f : ℤ → ℝ → ℝ → ℝ → ℝ} {L : ℝ}
    (hL : 0 ≤ L) (h0 : ∀ t, f t 0 0 0 = 0) (hf : ∀ t x y z x' y' z', |f t x y z - f t x' y' z'| ≤ L * momentumDistance τ x y z x' y' z')
    {x : Sample K FourVector} (hx : x.Good s) (hq : ∀ e x y z, Momentum (s.io.ctx.momentum e x y z))
    (hm : ∀ p, Momentum p → Momentum (s.io.ctx.milli p)) {edges : List ℝ}
    (hedges : ∀ e ∈ x.events, centralWeight e < 0 → visible s e = true → ∀ c ∈ edges,
      L * s.maxCellSize < |eventSum f (Cluster.cluster s.io.ctx.multi s.particles s.clustering e) - c|)
    {ws : List (Weights K)} {res : Outcome MainError Unit} {fs' : FS (List Bytes)} (h : x.Run s ws res fs') (hw : x.CanWrite s ws) :
    res = .ok () ∧ ∃ out, x.Wrote s fs' out ∧ ∀ g : ℝ → K, IsBinned edges g → (∀ y, 0 ≤ g y) → ∀ k (φ : K → K), ConvexOn K Set.univ φ → φ 0 = 0 →
      binSum k (fun e => g (eventSum f (Cluster.cluster s.io.ctx.multi s.particles s.clustering e))) φ (allEvents out) ≤
        binSum k (fun e => g (eventSum f (Cluster.cluster s.io.ctx.multi s.particles s.clustering e))) φ (x.events.filter (counted s)) := by
  have hi : IgnoresIds s.distance := by rw [hd]; exact C89_default_distance km τ
  obtain ⟨rfl, out, w1, w2⟩ := hx.wrote hc h hw
  refine ⟨rfl, out, w1, fun g hg hg0 k φ hφ hφ0 => ?_⟩
  obtain ⟨-, out', v1, v2⟩ := C134_bins hc hmin hi hx
    (f := fun e => g (eventSum f (Cluster.cluster s.io.ctx.multi s.particles s.clustering e))) (fun _ _ => rfl) (fun _ => hg0 _)
    (varies_binned hkm hd hj hl hL h0 hf (good_momenta hx hq hm) hedges hg) h hw
  rw [eventFiles_unique v1.files w1.files] at v2
  exact v2 k φ hφ hφ0

end

/-- The hypotheses of `C134_bins` are met by the example for C111, and the square of the uncertainty of the bin is 100 in the beginning and 2 in the end. -/
example : ∃ res fs' out, exLimitX.Run (exLimit 2) [[-1], [-1], [2], [2]] res fs' ∧ exLimitX.Wrote (exLimit 2) fs' out ∧
    binSum 0 exBin (fun w => w ^ 2) (exLimitX.events.filter (counted (exLimit 2))) = 100 ∧
    binSum 0 exBin (fun w => w ^ 2) (allEvents out) ≤ 100 := by
  obtain ⟨res, fs', -, h⟩ := exLimit_runs exLimit_small
  have hw := exLimit_writable 2 (ws := [[-1], [-1], [2], [2]]) (by decide +kernel)
  have hv : VariesBy (exLimit 2) exBin 0 exLimitX.events := by
    have : ∀ a ∈ exLimitX.events, ∀ b ∈ exLimitX.events, centralWeight a < 0 → visible (exLimit 2) a = true →
        visible (exLimit 2) b = true →
        (exLimit 2).distance (Cluster.cluster (exLimit 2).io.ctx.multi (exLimit 2).particles (exLimit 2).clustering a)
          (Cluster.cluster (exLimit 2).io.ctx.multi (exLimit 2).particles (exLimit 2).clustering b) ≤ (exLimit 2).maxCellSize ∨
        (exLimit 2).distance (Cluster.cluster (exLimit 2).io.ctx.multi (exLimit 2).particles (exLimit 2).clustering b)
          (Cluster.cluster (exLimit 2).io.ctx.multi (exLimit 2).particles (exLimit 2).clustering a) ≤ (exLimit 2).maxCellSize →
        |exBin b - exBin a| ≤ 0 := by decide +kernel
    exact this
  obtain ⟨-, out, h1, h2⟩ := C134_bins (exLimit_choices 2) rfl (fun _ _ _ _ => rfl) (exLimitX_good 2) (fun _ _ => rfl) (fun e => by
    unfold exBin
    split
    · split_ifs <;> norm_num
    · exact le_rfl) hv h hw
  have h3 : binSum 0 exBin (fun w => w ^ 2) (exLimitX.events.filter (counted (exLimit 2))) = 100 := by decide +kernel
  refine ⟨res, fs', out, h, h1, h3, ?_⟩
  rw [← h3]
  exact h2 0 _ (Even.convexOn_pow (by decide)) (by norm_num)

end Cres

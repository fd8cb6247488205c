import Verif.Proofs.Observable
import Verif.Props.Limit
import Verif.Props.Written

/-!
# C111: predictions for observables
-/

set_option linter.unusedSectionVars false

namespace Cres

open Spec CombinedIO Program Cres.Path

section

variable {K V D : Type*} [Zero D] [LinearOrder D] [DistNum D] [ExactComparison D] [Field K] [LinearOrder K]
  [IsStrictOrderedRing K] [LinearOrder V] {s : CresSettings K V D}

theorem visible_eq (e : Event K V) : HasParticles s.program e = visible s e := rfl

/-- The value of an observable for an event in memory. -/
def observed (f : Event K V → K) (ds : List (EventFile K V)) (events : List (Event K V)) (j : Nat) : K :=
  ((((identified events)[j]?).bind fun e => (allEvents ds)[e.id]?).map f).getD 0

theorem observed_eq {f : Event K V → K} {ds : List (EventFile K V)} {events : List (Event K V)} {j : Nat} {e e0 : Event K V}
    (hj : (identified events)[j]? = some e) (h0 : (allEvents ds)[e.id]? = some e0) : observed f ds events j = f e0 := by
  simp [observed, hj, h0]

theorem reweighted_observable {f : Event K V → K} (hf : IsObservable f) (ws : List K) (e : Event K V) : f (reweighted ws e) = f e := by
  unfold reweighted
  split
  · rfl
  · exact hf e ws

/-- Predictions in terms of the weights in memory. -/
theorem prediction_written (hc : GoodChoices s) (h0 : s.minWeight = 0) {m : Nat} (hm0 : 0 < m)
    (hm1 : s.program.io.ctx.multi = false → m = 1) {ds : List (EventFile K V)} {events : List (Event K V)}
    (he : EventsRead s.program m ds events) {ws : List (Weights K)} (hcw : s.program.ComputesWeights events (.ok ws))
    {f : Event K V → K} (hf : IsObservable f) :
    ∃ st : State D K, Reachable s.program.cfg (identified events).length (s.program.nearest (identified events))
        (s.program.seeds (identified events)) (memOf (identified events)) st ∧
      st.Finished (s.program.seeds (identified events)) ∧ ∀ k, ∃ rest,
      prediction k f (List.zipWith reweighted ws (allEvents ds)) =
        ∑ j ∈ Finset.range (identified events).length, observed f ds events j * wt st.mem k j + rest ∧
      prediction k f ((allEvents ds).filter (counted s)) =
        ∑ j ∈ Finset.range (identified events).length, observed f ds events j * wt (memOf (identified events)) k j + rest := by
  have hg := cres_goodComponents hc
  obtain ⟨st, r1, r2, r3⟩ := computesWeights_state hcw
  have hl := (weights_written_all (M := K) hg (cres_unweight h0) hm0 hm1 he r1 r2 r3).1
  have hzl : (List.zipWith reweighted ws (allEvents ds)).length = (allEvents ds).length := by
    rw [List.length_zipWith, hl, Nat.min_self]
  have hids : (events.map Event.id).Perm (List.range events.length) := by rw [he.length_eq]; exact he.ids
  have hnd : (events.map Event.id).Nodup := hids.nodup_iff.2 List.nodup_range
  have key : ∀ e ∈ events, ∃ e0, (allEvents ds)[e.id]? = some e0 ∧ e0.weights = e.weights ∧
      HasParticles s.program e0 = !e.outgoingByPid.isEmpty := by
    intro e hem
    obtain ⟨e0, e1, g1, g2, g3, -⟩ := he.from_file e hem
    refine ⟨e0, g1, ?_, ?_⟩
    · rw [g3]
      exact (hg.cluster _ _ g2).symm
    · rw [HasParticles, g2, g3]
  have hz : ∀ (i : Nat) w e0, ws[i]? = some w → (allEvents ds)[i]? = some e0 →
      (List.zipWith reweighted ws (allEvents ds))[i]? = some (reweighted w e0) := by
    intro i w e0 g1 g2
    rw [List.getElem?_zipWith, g1, g2]
  refine ⟨st, r1, r2, fun k => ⟨((events.filter fun e => e.outgoingByPid.isEmpty).map fun e =>
    if s.program.io.ctx.multi then (((allEvents ds)[e.id]?).map f).getD 0 * weightNo k e else 0).sum, ?_, ?_⟩⟩
  · unfold prediction
    rw [sum_by_ids (events := events) _ (by rw [hzl]; exact he.ids)]
    refine (sum_identified events _).trans ?_
    congr 1
    · refine sum_positions _ _ _ fun j e hj => ?_
      have hm := List.mem_filter.1 (List.mem_of_getElem? hj)
      obtain ⟨e0, g1, g2, g3⟩ := key e hm.1
      obtain ⟨j', e', b1, ⟨e1, b2, b3⟩, -, b5, b6⟩ := (event_written hg (cres_unweight h0) hm0 hm1 he r1 r2 r3 e.id g1).1
        (by rw [g3]; exact hm.2)
      have hee : e' = e := List.inj_on_of_nodup_map hnd (List.mem_filter.1 (List.mem_of_getElem? b1)).1 hm.1 (by rw [b3])
      subst hee
      have hndi : (identified events).Nodup := (List.Nodup.of_map _ hnd).filter _
      have hjj : j' = j := by
        obtain ⟨q1, q2⟩ := List.getElem?_eq_some_iff.1 b1
        obtain ⟨q3, q4⟩ := List.getElem?_eq_some_iff.1 hj
        exact (List.Nodup.getElem_inj_iff hndi).1 (q2.trans q4.symm)
      subst hjj
      have hne : st.mem j' ≠ [] := by
        intro h0
        rw [h0] at b6
        simp at b6
        omega
      rw [hz _ _ _ b5 g1, observed_eq hj g1]
      simp only [Option.map_some, Option.getD_some]
      rw [reweighted_observable hf]
      simp [reweighted, hne, weightNo, wt]
    · congr 1
      apply List.map_congr_left
      intro e hev
      obtain ⟨hev, hp⟩ := List.mem_filter.1 hev
      obtain ⟨e0, g1, g2, g3⟩ := key e hev
      have hw := (event_written hg (cres_unweight h0) hm0 hm1 he r1 r2 r3 e.id g1).2 (by rw [g3, hp]; rfl)
      rw [hz _ _ _ hw g1, g1]
      simp only [Option.map_some, Option.getD_some]
      rw [reweighted_observable hf]
      cases hm : s.program.io.ctx.multi with
      | true => simp [defaultWeights, Program.cfg, hm, reweighted, weightNo, g2]
      | false => cases k <;> simp [defaultWeights, Program.cfg, hm, reweighted, weightNo]
  · unfold prediction
    rw [sum_filter_ite, sum_by_ids (events := events) _ he.ids]
    refine (sum_identified events _).trans ?_
    congr 1
    · refine sum_positions _ _ _ fun j e hj => ?_
      have hm := List.mem_filter.1 (List.mem_of_getElem? hj)
      obtain ⟨e0, g1, g2, g3⟩ := key e hm.1
      have h1 : counted s e0 = true := by
        unfold counted
        rw [← visible_eq, g3, hm.2, Bool.or_true]
      rw [g1, observed_eq hj g1]
      simp only [Option.map_some, Option.getD_some, h1, if_true]
      simp [weightNo, wt, memOf, hj, g2]
    · congr 1
      apply List.map_congr_left
      intro e hev
      obtain ⟨hev, hp⟩ := List.mem_filter.1 hev
      obtain ⟨e0, g1, g2, g3⟩ := key e hev
      have h1 : counted s e0 = s.program.io.ctx.multi := by
        unfold counted
        rw [← visible_eq, g3, hp]
        simp
        rfl
      rw [g1]
      simp only [Option.map_some, Option.getD_some, h1, weightNo, g2]

/-- **C111**: if an observable changes by at most `ε` within the maximum cell size around events with negative weight, then the
prediction for the observable changes by at most `2 ε` times the sum of absolute weights, for each event with negative weight.
This holds for all interleavings. -/
theorem C111_bound (hc : GoodChoices s) (h0 : s.minWeight = 0) (hd : IgnoresIds s.distance) {x : Sample K V} (hx : x.Good s)
    {f : Event K V → K} (hf : IsObservable f) {ε : K} (hε : 0 ≤ ε) (hv : VariesBy s f ε x.events) {ws : List (Weights K)}
    {res : Outcome MainError Unit} {fs' : FS (List Bytes)} (h : x.Run s ws res fs') (hw : x.CanWrite s ws) :
    res = .ok () ∧ ∃ out, x.Wrote s fs' out ∧ ∀ k,
      |prediction k f (allEvents out) - prediction k f (x.events.filter (counted s))| ≤
        ((x.events.filter fun e => visible s e && decide (centralWeight e < 0)).length : K) *
          (2 * ε * absSum k x.events) := by
  obtain ⟨m, hm0, hm1, hmw, -⟩ := supported_weights (p := CresSettings.program { s with io := x.io s }) hx.files hx.weights
  obtain ⟨events, he, hcw⟩ := hx.run hmw h
  obtain ⟨rfl, out, w1, w2⟩ := hx.wrote hc h hw
  refine ⟨rfl, out, w1, fun k => ?_⟩
  have hg := cres_goodComponents hc
  have hm1 : s.program.io.ctx.multi = false → m = 1 := hm1
  have hu := read_weights hg hm0 hm1 he
  obtain ⟨st, r1, r2, r3⟩ := prediction_written hc h0 hm0 hm1 he hcw hf
  obtain ⟨rest, q1, q2⟩ := r3 k
  obtain ⟨st', p1, p2, p3⟩ := computesWeights_state hcw
  have hwa := weights_written_all (M := K) hg (cres_unweight h0) hm0 hm1 he p1 p2 p3
  have hwn := weights_written_all (M := ℕ) hg (cres_unweight h0) hm0 hm1 he p1 p2 p3
  rw [w2]
  change |prediction k f (List.zipWith reweighted ws (allEvents x.files)) -
    prediction k f ((allEvents x.files).filter (counted s))| ≤ _
  rw [q1, q2, add_sub_add_right_eq_sub]
  have hsd := seeds_spec (strategy := s.strategy) hc.seeds hu
  have hbound := reachable_observable (hg.valid _) hu r1 r2 (observed f x.files events) hε ?_ k
  · refine hbound.trans ?_
    have hN : (s.program.seeds (identified events)).length =
        (x.events.filter fun e => visible s e && decide (centralWeight e < 0)).length := by
      have e1 : (s.program.seeds (identified events)).length =
          ((Finset.range (identified events).length).filter fun j => wt (memOf (identified events)) 0 j < 0).card := by
        rw [← List.toFinset_card_of_nodup (l := s.program.seeds (identified events)) hsd.1]
        congr 1
        ext j
        rw [List.mem_toFinset, Finset.mem_filter, Finset.mem_range]
        exact hsd.2 j
      have e2 := (((hwn.2.2 0).1 fun y => if y < 0 then 1 else 0).2.2)
      rw [e1, Finset.card_filter, ← e2]
      change _ = (((allEvents x.files).filter fun e => visible s e && decide (centralWeight e < 0)).length)
      rw [sum_filter_ite]
      induction allEvents x.files with
      | nil => rfl
      | cons e l ih =>
        rw [List.map_cons, List.sum_cons, List.filter_cons, ih]
        have hcw0 : weightNo 0 e = centralWeight e := by simp [weightNo, centralWeight, List.head?_eq_getElem?]
        rw [hcw0, visible_eq]
        by_cases hp : visible s e = true <;> by_cases hn : centralWeight e < 0 <;> simp [hp, hn, Nat.add_comm]
    have hA : ∑ i ∈ Finset.range (identified events).length, |wt (memOf (identified events)) k i| ≤ absSum k x.events := by
      have e2 := (((hwa.2.2 k).1 fun y => |y|).2.1)
      unfold absSum
      change _ ≤ ((allEvents x.files).map _).sum
      rw [e2]
      refine le_add_of_nonneg_right (List.sum_nonneg ?_)
      intro y hy
      obtain ⟨e, -, rfl⟩ := List.mem_map.1 hy
      exact abs_nonneg _
    rw [← hN]
    exact mul_le_mul_of_nonneg_left (mul_le_mul_of_nonneg_left hA (by linarith)) (Nat.cast_nonneg _)
  · intro seed hseed i hi
    obtain ⟨hlt, hneg⟩ := (hsd.2 seed).1 hseed
    obtain ⟨y, hy, rfl⟩ := List.mem_map.1 hi
    obtain ⟨-, d1, e, e', he1, he2, d2⟩ := C17_event_distances hc (identified events) hlt hy
    have orig : ∀ {j : Nat} {e : Event K V}, (identified events)[j]? = some e → ∃ e0, (allEvents x.files)[e.id]? = some e0 ∧
        e = { Cluster.cluster s.io.ctx.multi s.particles s.clustering e0 with id := e.id } ∧
        centralWeight e0 = centralWeight e ∧ e.outgoingByPid ≠ [] := by
      intro j e hj
      have hm := List.mem_filter.1 (List.mem_of_getElem? hj)
      obtain ⟨e0, e1, g1, g2, g3, -⟩ := he.from_file e hm.1
      refine ⟨e0, g1, ?_, ?_, by simpa using hm.2⟩
      · have g4 := g2
        simp only [CresSettings.program, Outcome.ok.injEq] at g4
        rw [g4]
        exact g3
      · rw [g3]
        unfold centralWeight
        rw [hg.cluster _ _ g2]
    obtain ⟨a0, a1, a2, a3, a4⟩ := orig he1
    obtain ⟨b0, b1, b2, b3, b4⟩ := orig he2
    rw [observed_eq he1 a1, observed_eq he2 b1]
    refine hv a0 (List.mem_of_getElem? a1) b0 (List.mem_of_getElem? b1) ?_ ?_ ?_ ?_
    · rw [a3, ← wt_central he1]
      exact hneg
    · rw [a2] at a4
      simpa [visible] using a4
    · rw [b2] at b4
      simpa [visible] using b4
    · rw [a2, b2] at d2
      cases hs : s.search with
      | naive mp =>
        rw [hs] at d2
        right
        rw [← hd _ _ e'.id e.id, ← d2]
        exact d1
      | tree a b c d =>
        rw [hs] at d2
        left
        rw [← hd _ _ e.id e'.id, ← d2]
        exact d1

/-- **C111**: the prediction for an observable does not change if the observable is the same within the maximum cell size around
each event with negative weight: for example, the content of a bin of a histogram if there are no edges of bins between such
events. This holds for all interleavings. -/
theorem C111_unresolved (hc : GoodChoices s) (h0 : s.minWeight = 0) (hd : IgnoresIds s.distance) {x : Sample K V} (hx : x.Good s)
    {f : Event K V → K} (hf : IsObservable f) (hv : VariesBy s f 0 x.events) {ws : List (Weights K)}
    {res : Outcome MainError Unit} {fs' : FS (List Bytes)} (h : x.Run s ws res fs') (hw : x.CanWrite s ws) :
    res = .ok () ∧ ∃ out, x.Wrote s fs' out ∧ ∀ k,
      prediction k f (allEvents out) = prediction k f (x.events.filter (counted s)) := by
  obtain ⟨h1, out, h2, h3⟩ := C111_bound hc h0 hd hx hf le_rfl hv h hw
  refine ⟨h1, out, h2, fun k => ?_⟩
  have := h3 k
  rw [mul_zero, zero_mul, mul_zero] at this
  exact sub_eq_zero.1 (abs_nonpos_iff.1 this)

end

/-- **C111**: the prediction for an observable that changes by at most `L` times the distance between events changes by at most
`2 L` times the maximum cell size times the sum of absolute weights, for each event with negative weight. -/
theorem C111_lipschitz {K V : Type*} [Field K] [LinearOrder K] [IsStrictOrderedRing K] [LinearOrder V] [DistNum K]
    [ExactComparison K] {s : CresSettings K V K} (hc : GoodChoices s) (h0 : s.minWeight = 0) (hd : IgnoresIds s.distance)
    {x : Sample K V} (hx : x.Good s) {f : Event K V → K} (hf : IsObservable f) {L : K} (hL : 0 ≤ L) (hmax : 0 ≤ s.maxCellSize)
    (hv : ∀ a ∈ x.events, ∀ b ∈ x.events, |f b - f a| ≤ L * s.distance
      (Cluster.cluster s.io.ctx.multi s.particles s.clustering a) (Cluster.cluster s.io.ctx.multi s.particles s.clustering b))
    {ws : List (Weights K)} {res : Outcome MainError Unit} {fs' : FS (List Bytes)} (h : x.Run s ws res fs')
    (hw : x.CanWrite s ws) :
    res = .ok () ∧ ∃ out, x.Wrote s fs' out ∧ ∀ k,
      |prediction k f (allEvents out) - prediction k f (x.events.filter (counted s))| ≤
        ((x.events.filter fun e => visible s e && decide (centralWeight e < 0)).length : K) *
          (2 * (L * s.maxCellSize) * absSum k x.events) := by
  refine C111_bound hc h0 hd hx hf (mul_nonneg hL hmax) ?_ h hw
  intro a ha b hb _ _ _ hab
  rcases hab with hab | hab
  · exact (hv a ha b hb).trans (mul_le_mul_of_nonneg_left hab hL)
  · rw [abs_sub_comm]
    exact (hv b hb a ha).trans (mul_le_mul_of_nonneg_left hab hL)

/-- A bin of a histogram: events with a gluon whose number is at most 11. -/
def exBin (e : Event ℚ ℚ) : ℚ :=
  match e.outgoingByPid with
  | [(_, [v])] => if v ≤ 11 then 1 else 0
  | _ => 0

/-- The hypotheses of `C111_unresolved` are met by the example for C110 with the limit 2: there are two events with negative
weight, one in the bin and one outside, and for each there is another event in the same cell. The sum of weights in the bin is
-2 in the end as in the beginning, while the weights change. -/
example : ∃ res fs' out, exLimitX.Run (exLimit 2) [[-1], [-1], [2], [2]] res fs' ∧ exLimitX.Wrote (exLimit 2) fs' out ∧
    exLimitX.events.map (fun e => (exBin e, weightNo 0 e)) = [(1, -8), (1, 6), (0, 11), (0, -7)] ∧
    prediction 0 exBin (allEvents out) = -2 := by
  obtain ⟨res, fs', -, h⟩ := exLimit_runs exLimit_small
  have hw := exLimit_writable 2 (ws := [[-1], [-1], [2], [2]]) (by decide +kernel)
  have hv : VariesBy (exLimit 2) exBin 0 exLimitX.events := by
    have : ∀ a ∈ exLimitX.events, ∀ b ∈ exLimitX.events, centralWeight a < 0 → visible (exLimit 2) a = true →
        visible (exLimit 2) b = true →
        (exLimit 2).distance (Cluster.cluster (exLimit 2).io.ctx.multi (exLimit 2).particles (exLimit 2).clustering a)
          (Cluster.cluster (exLimit 2).io.ctx.multi (exLimit 2).particles (exLimit 2).clustering b) ≤ (exLimit 2).maxCellSize ∨
        (exLimit 2).distance (Cluster.cluster (exLimit 2).io.ctx.multi (exLimit 2).particles (exLimit 2).clustering b)
          (Cluster.cluster (exLimit 2).io.ctx.multi (exLimit 2).particles (exLimit 2).clustering a) ≤ (exLimit 2).maxCellSize →
        |exBin b - exBin a| ≤ 0 := by decide +kernel
    exact this
  obtain ⟨-, out, h1, h2⟩ := C111_unresolved (exLimit_choices 2) rfl (fun _ _ _ _ => rfl) (exLimitX_good 2) (fun _ _ => rfl) hv h hw
  refine ⟨res, fs', out, h, h1, by decide +kernel, ?_⟩
  rw [h2 0]
  decide +kernel

end Cres

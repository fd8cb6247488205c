import Verif.Proofs.SeparateRun
import Verif.Props.Apart
import Verif.Props.Negative

/-!
Lemmas for C110: the negative weight that is left if seeds do not share neighbours.
-/

set_option linter.unusedSectionVars false

namespace Cres

open Spec CombinedIO Program

section

variable {D K : Type*} [Zero D] [Field K] [LinearOrder K] [IsStrictOrderedRing K]

theorem sum_max_zero (l : List Nat) (f : Nat → K) (h : ∀ i ∈ l, 0 ≤ f i) : (l.map fun i => max (-f i) 0).sum = 0 := by
  induction l with
  | nil => rfl
  | cons a l ih =>
    rw [List.map_cons, List.sum_cons, ih fun i hi => h i (List.mem_cons_of_mem _ hi)]
    simp [h a List.mem_cons_self]

theorem sum_nonneg_map (l : List Nat) (f : Nat → K) (h : ∀ i ∈ l, 0 ≤ f i) : 0 ≤ (l.map f).sum := by
  induction l with
  | nil => simp
  | cons a l ih =>
    rw [List.map_cons, List.sum_cons]
    exact add_nonneg (h a List.mem_cons_self) (ih fun i hi => h i (List.mem_cons_of_mem _ hi))

/-- The negative weight near a seed after resampling for this seed, if other weights near it are not negative. -/
theorem resampleSeed_left {cfg : Cfg} {n L : Nat} {nearest : Nat → List (Nat × D)} {mem : Mem K} {seed : Nat}
    (hu : Uniform cfg n L mem) (hneg : wt mem 0 seed < 0) (hpos : ∀ x ∈ nearest seed, 0 ≤ wt mem 0 x.1)
    (hnd : (near nearest seed).Nodup) {r : Mem K × Option (Cell D K)} (h : resampleSeed cfg n nearest mem seed = some r) :
    ((near nearest seed).map fun i => max (-wt r.1 0 i) 0).sum = max (-((near nearest seed).map (wt mem 0)).sum) 0 := by
  obtain ⟨mem', oc⟩ := r
  obtain ⟨hlt, ⟨g0, -⟩ | ⟨-, c, hnew, -, hres⟩⟩ := resampleSeed_cases h
  · exact absurd g0 (not_lt.2 hneg.le)
  obtain ⟨⟨m, hm⟩, hmem, -⟩ := new_isCell hnew
  have hne : c.members ≠ [] := by rw [hm.members_eq]; simp
  have havg := resample_isCellAverage hne (hu.fits fun i hi => (hmem i hi).1) hres
  have hsplit : near nearest seed = c.members ++ ((nearest seed).drop m).map Prod.fst := by
    unfold near
    rw [hm.members_eq, List.cons_append, ← List.map_append, List.take_append_drop]
  have hout : ∀ i ∈ ((nearest seed).drop m).map Prod.fst, wt mem' 0 i = wt mem 0 i ∧ 0 ≤ wt mem 0 i := by
    intro i hi
    refine ⟨?_, ?_⟩
    · unfold wt
      rw [havg.outside i]
      rw [hsplit] at hnd
      exact fun hic => (List.disjoint_of_nodup_append hnd) hic hi
    · obtain ⟨x, hx, rfl⟩ := List.mem_map.1 hi
      exact hpos x (List.mem_of_mem_drop hx)
  have hin : (c.members.map fun i => max (-wt mem' 0 i) 0).sum = max (-(c.members.map (wt mem 0)).sum) 0 := by
    have hl : (0 : K) < (c.members.length : K) := by
      have := List.length_pos_iff.2 hne
      exact_mod_cast this
    rw [List.map_congr_left (g := fun _ => max (-((c.members.map (wt mem 0)).sum / (c.members.length : K))) 0)
      fun i hi => by rw [havg.mean i hi 0], List.map_const', List.sum_replicate, nsmul_eq_mul, mul_max_of_nonneg _ _ hl.le,
      mul_zero, mul_neg, mul_div_cancel₀ _ hl.ne']
  rw [hsplit, List.map_append, List.map_append, List.sum_append, List.sum_append, hin,
    sum_max_zero _ _ fun i hi => by rw [(hout i hi).1]; exact (hout i hi).2, add_zero]
  rcases hm.enough with hml | hs
  · rw [hml]
    simp
  · rw [hm.sum_eq] at hs
    have := sum_nonneg_map _ _ fun i hi => (hout i hi).2
    rw [max_eq_right (by linarith), max_eq_right (by linarith)]

theorem sum_toFinset_near (nearest : Nat → List (Nat × D)) (seed : Nat) (hnd : (near nearest seed).Nodup) (f : Nat → K) :
    ∑ i ∈ (near nearest seed).toFinset, f i = ((near nearest seed).map f).sum := List.sum_toFinset f hnd

/-- The negative weight that is left if seeds do not share neighbours, for all interleavings. -/
theorem separate_left {cfg : Cfg} {n L : Nat} {nearest : Nat → List (Nat × D)} {seeds : List Nat}
    (hv : ValidInput n nearest seeds) {mem0 : Mem K} (hu : Uniform cfg n L mem0) (hsep : Separate nearest seeds)
    (hseeds : ∀ i, i ∈ seeds ↔ i < n ∧ wt mem0 0 i < 0) {s : State D K}
    (h : Reachable cfg n nearest seeds mem0 s) (hf : s.Finished seeds) :
    negativeTotal n s.mem 0 = ∑ i ∈ seeds.toFinset, max (-∑ j ∈ (near nearest i).toFinset, wt mem0 0 j) 0 := by
  obtain ⟨a1, a2⟩ := separate_final hv hu hsep h hf
  have hdis : ∀ i ∈ seeds, ∀ j ∈ seeds, i ≠ j → ∀ k ∈ near nearest i, k ∉ near nearest j := by
    intro i hi j hj hij
    obtain ⟨t, ht⟩ := List.getElem?_of_mem hi
    obtain ⟨t', ht'⟩ := List.getElem?_of_mem hj
    refine hsep.ne ht ht' ?_
    rintro rfl
    rw [ht, Option.some.injEq] at ht'
    exact hij ht'
  have hother : ∀ i < n, i ∉ seeds → 0 ≤ wt mem0 0 i := by
    intro i hi hni
    by_contra hlt
    exact hni ((hseeds i).2 ⟨hi, not_le.1 hlt⟩)
  have hstep : ∀ i ∈ seeds.toFinset, max (-∑ j ∈ (near nearest i).toFinset, wt mem0 0 j) 0 =
      ∑ j ∈ (near nearest i).toFinset, max (-wt s.mem 0 j) 0 := by
    intro i hi
    have hi := List.mem_toFinset.1 hi
    obtain ⟨r, r1, r2⟩ := a1 i hi
    have hnd := hv.neighbours_nodup i hi
    rw [sum_toFinset_near _ _ hnd, sum_toFinset_near _ _ hnd, ← resampleSeed_left hu ((hseeds i).1 hi).2 ?_ hnd r1]
    · refine congrArg List.sum (List.map_congr_left fun j hj => ?_)
      unfold wt
      rw [r2 j hj]
    · intro x hx
      refine hother _ (hv.neighbours_lt i hi x hx) fun hxs => ?_
      have hne : i ≠ x.1 := by
        rintro rfl
        exact (List.nodup_cons.1 hnd).1 (List.mem_map.2 ⟨x, hx, rfl⟩)
      exact hdis i hi x.1 hxs hne x.1 (List.mem_cons_of_mem _ (List.mem_map.2 ⟨x, hx, rfl⟩)) List.mem_cons_self
  rw [Finset.sum_congr rfl hstep, ← Finset.sum_biUnion]
  · unfold negativeTotal
    symm
    refine Finset.sum_subset ?_ ?_
    · intro j hj
      obtain ⟨i, hi, hji⟩ := Finset.mem_biUnion.1 hj
      have hi := List.mem_toFinset.1 hi
      have hji := List.mem_toFinset.1 hji
      rw [Finset.mem_range]
      rcases List.mem_cons.1 hji with rfl | hji
      · exact hv.seeds_lt _ hi
      · obtain ⟨x, hx, rfl⟩ := List.mem_map.1 hji
        exact hv.neighbours_lt i hi x hx
    · intro j hj hnj
      have hout : ∀ i ∈ seeds, j ∉ near nearest i := fun i hi hji =>
        hnj (Finset.mem_biUnion.2 ⟨i, List.mem_toFinset.2 hi, List.mem_toFinset.2 hji⟩)
      have : wt s.mem 0 j = wt mem0 0 j := by unfold wt; rw [a2 j hout]
      rw [this]
      refine max_eq_right (neg_nonpos.2 (hother j (Finset.mem_range.1 hj) fun hjs => hout j hjs List.mem_cons_self))
  · intro i hi j hj hij
    refine Finset.disjoint_left.2 fun k hki hkj => ?_
    exact hdis i (List.mem_toFinset.1 hi) j (List.mem_toFinset.1 hj) hij k (List.mem_toFinset.1 hki) (List.mem_toFinset.1 hkj)

end

section

variable {K V D : Type*} [AddCommGroup D] [LinearOrder D] [IsOrderedAddMonoid D] [Field K] [LinearOrder K]
  [IsStrictOrderedRing K] [LinearOrder V]

/-- For each event with negative weight the negative part of the sum of weights of all events within the distance `limit`. -/
def leftover (dist : Event K V → Event K V → D) (limit : D) (evs : List (Event K V)) : K :=
  ∑ i ∈ (Finset.range evs.length).filter (fun i => wt (memOf evs) 0 i < 0),
    max (-∑ j ∈ (Finset.range evs.length).filter (fun j => j = i ∨ distWrapper dist evs i j ≤ limit), wt (memOf evs) 0 j) 0

variable {s s' : CresSettings K V D} {evs evs' : List (Event K V)}

theorem leftover_eq (hc : GoodChoices s) (hlen : evs.length ≤ usizeMax) (hm : IsMetricOn (· ∈ evs) s.distance)
    (hp : ∀ e ∈ evs, e.outgoingByPid ≠ []) (hn : NegativeApart s.distance s.maxCellSize evs) {L : Nat}
    (hu : Uniform s.program.cfg evs.length L (memOf evs)) {st : State D K}
    (h : Reachable s.program.cfg evs.length (s.program.nearest evs) (s.program.seeds evs) (memOf evs) st)
    (hf : st.Finished (s.program.seeds evs)) :
    negativeTotal evs.length st.mem 0 = leftover s.distance s.maxCellSize evs := by
  have hseeds := (seeds_spec (strategy := s.strategy) hc.seeds hu).2
  change ∀ i, i ∈ s.program.seeds evs ↔ _ at hseeds
  rw [separate_left ((cres_goodComponents hc).valid evs) hu (separate_of_apart hc hlen hm hp hn hu) hseeds h hf]
  unfold leftover
  refine Finset.sum_congr ?_ fun i hi => ?_
  · ext i
    simp [hseeds]
  · simp only [Finset.mem_filter, Finset.mem_range] at hi
    have : (near (s.program.nearest evs) i).toFinset =
        (Finset.range evs.length).filter (fun j => j = i ∨ distWrapper s.distance evs i j ≤ s.maxCellSize) := by
      ext j
      rw [List.mem_toFinset, near_iff hc hlen hm hi.1, Finset.mem_filter, Finset.mem_range]
      constructor
      · rintro (rfl | ⟨h1, -, h3⟩)
        · exact ⟨hi.1, .inl rfl⟩
        · exact ⟨h1, .inr h3⟩
      · rintro ⟨h1, h2⟩
        by_cases hji : j = i
        · exact .inl hji
        · exact .inr ⟨h1, hji, h2.resolve_left hji⟩
    rw [this]

theorem leftover_mono {dist : Event K V → Event K V → D} {limit limit' : D} (hle : limit ≤ limit')
    (hp : ∀ e ∈ evs, e.outgoingByPid ≠ []) (hn : NegativeApart dist limit' evs) :
    leftover dist limit' evs ≤ leftover dist limit evs := by
  unfold leftover
  refine Finset.sum_le_sum fun i hi => ?_
  obtain ⟨hi, hneg⟩ := Finset.mem_filter.1 hi
  have hi := Finset.mem_range.1 hi
  refine max_le_max (neg_le_neg ?_) le_rfl
  refine Finset.sum_le_sum_of_subset_of_nonneg ?_ ?_
  · intro j hj
    simp only [Finset.mem_filter] at hj ⊢
    exact ⟨hj.1, hj.2.imp_right fun h => h.trans hle⟩
  · intro j hj hnj
    simp only [Finset.mem_filter, Finset.mem_range] at hj hnj
    by_contra hlt
    rw [not_le] at hlt
    have hij : i ≠ j := fun h => hnj ⟨hj.1, .inl h.symm⟩
    have h1 := hj.2.resolve_left (Ne.symm hij)
    rw [distWrapper_get hi hj.1] at h1
    rw [memOf_wt hi] at hneg
    rw [memOf_wt hj.1] at hlt
    exact absurd h1 (not_le.2 (hn.negative i j _ _ (List.getElem?_eq_getElem hi) (List.getElem?_eq_getElem hj.1) hij
      (hp _ (List.getElem_mem _)) (hp _ (List.getElem_mem _)) hneg hlt))

theorem leftover_perm {dist : Event K V → Event K V → D} {limit : D} (hp : evs.Perm evs') :
    leftover dist limit evs = leftover dist limit evs' := by
  obtain ⟨σ, s1, s2, s3⟩ := perm_positions hp
  have hσ : Relabels evs.length σ := ⟨s1, s2⟩
  have hl := hp.length_eq
  have hw : ∀ i < evs.length, wt (memOf evs') 0 (σ i) = wt (memOf evs) 0 i := by
    intro i hi
    simp [wt, memOf, s3 i hi]
  have hd : ∀ i < evs.length, ∀ j < evs.length, distWrapper dist evs' (σ i) (σ j) = distWrapper dist evs i j := by
    intro i hi j hj
    simp only [distWrapper, s3 i hi, s3 j hj]
  unfold leftover
  rw [← hl]
  refine Finset.sum_nbij σ ?_ ?_ ?_ ?_
  · intro i hi
    simp only [Finset.mem_filter, Finset.mem_range] at hi ⊢
    exact ⟨s1 i hi.1, by rw [hw i hi.1]; exact hi.2⟩
  · intro i hi j hj hij
    simp only [Finset.coe_filter, Finset.mem_range, Set.mem_ofPred_eq] at hi hj
    exact s2 i hi.1 j hj.1 hij
  · intro j hj
    simp only [Finset.coe_filter, Finset.mem_range, Set.mem_ofPred_eq] at hj
    obtain ⟨i, hi, rfl⟩ := hσ.surj hj.1
    exact ⟨i, by simp only [Finset.coe_filter, Finset.mem_range, Set.mem_ofPred_eq]; exact ⟨hi, by rw [← hw i hi]; exact hj.2⟩, rfl⟩
  · intro i hi
    simp only [Finset.mem_filter, Finset.mem_range] at hi
    congr 2
    refine Finset.sum_nbij σ ?_ ?_ ?_ ?_
    · intro j hj
      simp only [Finset.mem_filter, Finset.mem_range] at hj ⊢
      exact ⟨s1 j hj.1, hj.2.imp (congrArg σ) fun h => by rw [hd i hi.1 j hj.1]; exact h⟩
    · intro j hj k hk hjk
      simp only [Finset.coe_filter, Finset.mem_range, Set.mem_ofPred_eq] at hj hk
      exact s2 j hj.1 k hk.1 hjk
    · intro k hk
      simp only [Finset.coe_filter, Finset.mem_range, Set.mem_ofPred_eq] at hk
      obtain ⟨j, hj, rfl⟩ := hσ.surj hk.1
      refine ⟨j, ?_, rfl⟩
      simp only [Finset.coe_filter, Finset.mem_range, Set.mem_ofPred_eq]
      exact ⟨hj, hk.2.imp (s2 j hj i hi.1) fun h => by rw [← hd i hi.1 j hj]; exact h⟩
    · intro j hj
      simp only [Finset.mem_filter, Finset.mem_range] at hj
      exact (hw j hj.1).symm

/-- The distance is a metric for the events in memory if it is one for those in the files after clustering. -/
theorem metric_read (hd : IgnoresIds s.distance) {m : Nat} {ds : List (EventFile K V)}
    (hm : IsMetricOn (· ∈ clusteredEvents s ds) s.distance) {events : List (Event K V)} (h : EventsRead s.program m ds events) :
    IsMetricOn (· ∈ events) s.distance := by
  have key : ∀ e ∈ events, ∃ e' ∈ clusteredEvents s ds, ∃ k, e = { e' with id := k } := by
    intro e he
    obtain ⟨i, hi⟩ := List.getElem?_of_mem he
    obtain ⟨a', k, h1, h2⟩ := eventsRead_clustered h hi
    exact ⟨a', List.mem_of_getElem? h1, k, h2⟩
  refine ⟨fun x y hx hy => ?_, fun x y z hx hy hz => ?_⟩
  · obtain ⟨x', hx', kx, rfl⟩ := key x hx
    obtain ⟨y', hy', ky, rfl⟩ := key y hy
    exact (hd x' y' kx ky).trans ((hm.symm x' y' hx' hy').trans (hd y' x' ky kx).symm)
  · obtain ⟨x', hx', kx, rfl⟩ := key x hx
    obtain ⟨y', hy', ky, rfl⟩ := key y hy
    obtain ⟨z', hz', kz, rfl⟩ := key z hz
    have h1 := hd x' z' kx kz
    have h2 := hd x' y' kx ky
    have h3 := hd y' z' ky kz
    rw [h1, h2, h3]
    exact hm.triangle x' y' z' hx' hy' hz'

end

end Cres

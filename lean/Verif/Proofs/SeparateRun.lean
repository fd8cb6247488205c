import Verif.Proofs.Separate
import Verif.Proofs.Apart
import Verif.Spec.Separate
import Verif.Props.Determined

/-!
Lemmas for C109 and C110: runs for events with negative weights that do not share neighbours.
-/

set_option linter.unusedSectionVars false

namespace Cres

open Spec CombinedIO Program

section

variable {K V D : Type*} [AddCommGroup D] [LinearOrder D] [IsOrderedAddMonoid D] [Zero K] [One K] [Add K] [Mul K] [Div K]
  [Neg K] [NatCast K] [LinearOrder K] [LinearOrder V]

/-- Events that correspond to different events in another list, except for ids. -/
theorem Spec.NegativeApart.transfer {dist : Event K V → Event K V → D} {limit : D} (hd : IgnoresIds dist)
    {events events' : List (Event K V)} (hn : NegativeApart dist limit events) (f : Nat → Nat)
    (hinj : ∀ i j, i < events'.length → j < events'.length → f i = f j → i = j)
    (hf : ∀ i a, events'[i]? = some a → ∃ a' k, events[f i]? = some a' ∧ a = { a' with id := k }) :
    NegativeApart dist limit events' := by
  have hl : ∀ {i : Nat} {a : Event K V}, events'[i]? = some a → i < events'.length := fun h => (List.getElem?_eq_some_iff.1 h).1
  refine ⟨?_, ?_⟩
  · intro i j a b ha hb hij pa pb na nb
    obtain ⟨a', ka, ha', rfl⟩ := hf i a ha
    obtain ⟨b', kb, hb', rfl⟩ := hf j b hb
    rw [hd]
    exact hn.negative _ _ a' b' ha' hb' (fun h => hij (hinj _ _ (hl ha) (hl hb) h)) pa pb na nb
  · intro i j k a b c ha hb hc hij hik hjk pa pb pc na nb hle
    obtain ⟨a', ka, ha', rfl⟩ := hf i a ha
    obtain ⟨b', kb, hb', rfl⟩ := hf j b hb
    obtain ⟨c', kc, hc', rfl⟩ := hf k c hc
    rw [hd] at hle ⊢
    exact hn.shared _ _ _ a' b' c' ha' hb' hc' (fun h => hij (hinj _ _ (hl ha) (hl hb) h))
      (fun h => hik (hinj _ _ (hl ha) (hl hc) h)) (fun h => hjk (hinj _ _ (hl hb) (hl hc) h)) pa pb pc na nb hle

/-- The events in memory with particles, whatever their order. -/
theorem negativeApart_read {s : CresSettings K V D} (hd : IgnoresIds s.distance) {limit : D} {m : Nat} {ds : List (EventFile K V)}
    (hn : NegativeApart s.distance limit (clusteredEvents s ds)) {events : List (Event K V)}
    (h : EventsRead s.program m ds events) : NegativeApart s.distance limit (identified events) := by
  have h1 : NegativeApart s.distance limit events := by
    refine hn.transfer hd (fun i => (events[i]?.map Event.id).getD 0) ?_ fun i a ha => eventsRead_clustered h ha
    intro i j hi hj hij
    refine eventsRead_injective h hi hj ?_
    simpa [List.getElem?_eq_getElem hi, List.getElem?_eq_getElem hj] using hij
  obtain ⟨f, hf⟩ := List.sublist_iff_exists_orderEmbedding_getElem?_eq.1
    (show (Cres.identified events).Sublist events from List.filter_sublist)
  refine h1.transfer hd f (fun i j _ _ h => f.injective h) fun i a ha => ⟨a, a.id, ?_, rfl⟩
  rw [← hf]
  exact ha

variable {s s' : CresSettings K V D} {evs evs' : List (Event K V)} {σ : Nat → Nat}

theorem memOf_wt {i : Nat} (hi : i < evs.length) : wt (memOf evs) 0 i = centralWeight evs[i] := by
  have := memOf_central evs i
  rw [List.getElem?_eq_getElem hi] at this
  simp only [Option.map_some, Option.getD_some] at this
  rw [← this]
  unfold wt Weights.central
  cases memOf evs i <;> simp

/-- What is near a seed. -/
theorem near_iff (hc : GoodChoices s) (hlen : evs.length ≤ usizeMax) (hm : IsMetricOn (· ∈ evs) s.distance) {i j : Nat}
    (hi : i < evs.length) : j ∈ near (s.program.nearest evs) i ↔
      j = i ∨ (j < evs.length ∧ j ≠ i ∧ distWrapper s.distance evs i j ≤ s.maxCellSize) := by
  have h := (search_neighbours hc hlen hm hi).mem j
  rw [List.mem_range] at h
  unfold near
  rw [List.mem_cons]
  exact or_congr_right h

/-- The seeds do not share neighbours. -/
theorem separate_of_apart (hc : GoodChoices s) (hlen : evs.length ≤ usizeMax) (hm : IsMetricOn (· ∈ evs) s.distance)
    (hp : ∀ e ∈ evs, e.outgoingByPid ≠ []) (hn : NegativeApart s.distance s.maxCellSize evs) {cfg : Cfg} {L : Nat}
    (hu : Uniform cfg evs.length L (memOf evs)) : Separate (s.program.nearest evs) (s.program.seeds evs) := by
  obtain ⟨a1, a2⟩ := seeds_spec (strategy := s.strategy) hc.seeds hu
  change (s.program.seeds evs).Nodup at a1
  change ∀ i, i ∈ s.program.seeds evs ↔ _ at a2
  refine List.Pairwise.imp_of_mem ?_ a1
  intro i j hi hj hij k hki hkj
  obtain ⟨hi, wi⟩ := (a2 i).1 hi
  obtain ⟨hj, wj⟩ := (a2 j).1 hj
  rw [memOf_wt hi] at wi
  rw [memOf_wt hj] at wj
  have g : ∀ {i : Nat} (hi : i < evs.length), evs[i]? = some evs[i] := fun hi => List.getElem?_eq_getElem hi
  have p : ∀ {i : Nat} (hi : i < evs.length), evs[i].outgoingByPid ≠ [] := fun hi => hp _ (List.getElem_mem _)
  rcases (near_iff hc hlen hm hi).1 hki with rfl | ⟨hk, k1, k2⟩
  · rcases (near_iff hc hlen hm hj).1 hkj with h | ⟨-, -, l2⟩
    · exact hij h
    · rw [distWrapper_get hj hi] at l2
      exact absurd l2 (not_le.2 (hn.negative j k _ _ (g hj) (g hi) (Ne.symm hij) (p hj) (p hi) wj wi))
  · rw [distWrapper_get hi hk] at k2
    rcases (near_iff hc hlen hm hj).1 hkj with rfl | ⟨-, l1, l2⟩
    · exact absurd k2 (not_le.2 (hn.negative i k _ _ (g hi) (g hj) hij (p hi) (p hj) wi wj))
    · rw [distWrapper_get hj hk] at l2
      exact absurd l2 (not_le.2 (hn.shared i j k _ _ _ (g hi) (g hj) (g hk) hij (Ne.symm k1) (Ne.symm l1) (p hi) (p hj) (p hk)
        wi wj k2))

end

section

variable {K V D P : Type*} [AddCommGroup D] [LinearOrder D] [IsOrderedAddMonoid D] [Field K] [LinearOrder K]
  [IsStrictOrderedRing K] [LinearOrder V] [DecidableEq P]

/-- The settings with a fixed order of seeds. -/
theorem Spec.SameExceptOrder.next {s s' : CresSettings K V D} (h : SameExceptOrder s s') :
    SameExceptSearch { s with strategy := .next } { s' with strategy := .next } :=
  ⟨h.io, h.particles, h.clustering, h.distance, h.maxCellSize, rfl, h.minWeight, h.rng, h.infoLog⟩

theorem Spec.SameExceptOrder.withIO {s s' : CresSettings K V D} (h : SameExceptOrder s s') (io : IOConfig K V) :
    SameExceptOrder { s with io := io } { s' with io := io } :=
  ⟨rfl, h.particles, h.clustering, h.distance, h.maxCellSize, h.minWeight, h.rng, h.infoLog⟩

theorem SameExceptOrder.readsEvents {s s' : CresSettings K V D} (hs : SameExceptOrder s s') {x : CombinedIO K P} {fs : FS P}
    {r : Outcome (CresError IOError) (List (Event K V))} {y : CombinedIO K P × FS P} (h : s'.program.ReadsEvents x fs r y) :
    s.program.ReadsEvents x fs r y := by
  have hcl : s'.program.cluster = s.program.cluster := by
    simp [CresSettings.program, hs.io, hs.particles, hs.clustering]
  have hio : s'.program.io = s.program.io := hs.io
  cases h with
  | panic h => exact .panic (by rw [← hio]; exact h)
  | done h1 h2 h3 => exact .done (by rw [← hio]; exact h1) (by rw [← hio, ← hcl]; exact h2) h3

/-- The result and the files in the end follow from the weights. -/
theorem run_output_order {s s' : CresSettings K V D} (hs : SameExceptOrder s s') {files : List (P × P)} {fs fs1 fs2 : FS P}
    {events events' : Option (List (Event K V))} {ws : List (Weights K)} {res res' : Outcome (CresError IOError) Unit}
    (h : s.program.Run files fs events (some ws) res fs1) (h' : s'.program.Run files fs events' (some ws) res' fs2) :
    res = res' ∧ fs1 = fs2 := by
  have hio : s'.program.io = s.program.io := hs.io
  generalize hw : some ws = ows at h
  generalize hw' : some ws = ows' at h'
  cases h with
  | createErr _ | createPanic _ | readErr _ _ | readPanic _ _ | weightsErr _ _ _ | weightsPanic _ _ _ => simp at hw
  | update g1 g2 g3 =>
    cases h' with
    | createErr _ | createPanic _ | readErr _ _ | readPanic _ _ | weightsErr _ _ _ | weightsPanic _ _ _ => simp at hw'
    | update g1' g2' g3' =>
      simp only [Option.some.injEq] at hw hw'
      subst hw hw'
      rw [hio, g1] at g1'
      simp only [Prod.mk.injEq, true_and] at g1'
      obtain ⟨rfl, rfl⟩ := g1'
      have := readsEvents_state g2 (SameExceptOrder.readsEvents hs g2')
      subst this
      rw [hio]
      exact ⟨rfl, rfl⟩

/-- The weights in the end are determined by the events in the input, whatever their order and the order of seeds, for all
interleavings. -/
theorem separate_relabel {s s' : CresSettings K V D} (hs : SameExceptOrder s s') (hc : GoodChoices s) (hc' : GoodChoices s')
    (h0 : s.minWeight = 0) (hd : IgnoresIds s.distance) {m m' : Nat} (hm0 : 0 < m) (hm0' : 0 < m')
    (hm1 : s.io.ctx.multi = false → m = 1) (hm1' : s.io.ctx.multi = false → m' = 1)
    {ds ds' : List (EventFile K V)} {events events' : List (Event K V)} (he : EventsRead s.program m ds events)
    (he' : EventsRead s'.program m' ds' events') {τ : Nat → Nat} (hlen : (allEvents ds').length = (allEvents ds).length)
    (hτ : Relabels (allEvents ds).length τ) (hpos : ∀ i < (allEvents ds).length, (allEvents ds')[τ i]? = (allEvents ds)[i]?)
    (hmax : (allEvents ds).length ≤ usizeMax) (hm : IsMetricOn (· ∈ clusteredEvents s ds) s.distance)
    (hn : NoEqualDistances s.distance s.maxCellSize (clusteredEvents s ds))
    (ha : NegativeApart s.distance s.maxCellSize (clusteredEvents s ds)) {ws ws' : List (Weights K)}
    (hcw : s.program.ComputesWeights events (.ok ws)) (hcw' : s'.program.ComputesWeights events' (.ok ws')) :
    ws.length = (allEvents ds).length ∧ ws'.length = (allEvents ds).length ∧
    ∀ i < (allEvents ds).length, ws'[τ i]? = ws[i]? := by
  have hs2 := hs.next
  have he2 : EventsRead (CresSettings.program { s with strategy := .next }) m ds events := ⟨he.ids, he.from_file⟩
  have he2' : EventsRead (CresSettings.program { s' with strategy := .next }) m' ds' events' := ⟨he'.ids, he'.from_file⟩
  have hperm := eventsRead_perm hs2 he2 he2' hlen hτ hpos
  have hiperm : ((identified events).map (Event.reid τ)).Perm (identified events') := by
    rw [← identified_reid]
    exact hperm.filter _
  obtain ⟨hl, hmet, hnc⟩ := noChoice_read (s := { s with strategy := .next }) hd hmax hm ⟨hn, .inl rfl⟩ he2
  have hnc0 : NoChoice { s with strategy := .next } (events.map (Event.reid τ)) := by
    refine Spec.NoChoice.transfer (s := { s with strategy := .next }) hd hnc _root_.id (fun i j _ _ h => h) fun i a ha => ?_
    rw [List.getElem?_map, Option.map_eq_some_iff] at ha
    obtain ⟨a', ha', rfl⟩ := ha
    exact ⟨a', τ a'.id, ha', rfl⟩
  have hmet0 : IsMetricOn (· ∈ events.map (Event.reid τ)) s.distance := by
    refine ⟨fun x y hx hy => ?_, fun x y z hx hy hz => ?_⟩
    · obtain ⟨x, hx', rfl⟩ := List.mem_map.1 hx
      obtain ⟨y, hy', rfl⟩ := List.mem_map.1 hy
      exact (hd x y _ _).trans ((hmet.symm x y hx' hy').trans (hd y x _ _).symm)
    · obtain ⟨x, hx', rfl⟩ := List.mem_map.1 hx
      obtain ⟨y, hy', rfl⟩ := List.mem_map.1 hy
      obtain ⟨z, hz', rfl⟩ := List.mem_map.1 hz
      have h1 := hd x z (τ x.id) (τ z.id)
      have h2 := hd x y (τ x.id) (τ y.id)
      have h3 := hd y z (τ y.id) (τ z.id)
      show s.distance { x with id := _ } { z with id := _ } ≤ s.distance { x with id := _ } { y with id := _ } +
        s.distance { y with id := _ } { z with id := _ }
      rw [h1, h2, h3]
      exact hmet.triangle x y z hx' hy' hz'
  have hnc' := (noChoice_perm (s := { s with strategy := .next }) hd hperm.symm hnc0).identified
  have hmet' := identified_metric (isMetricOn_perm hperm.symm hmet0)
  have hmi := identified_metric hmet
  obtain ⟨σ, s1, s2, s3⟩ := perm_positions hiperm
  rw [List.length_map] at s1 s2 s3
  have hσ : Relabels (identified events).length σ := ⟨s1, s2⟩
  have hil : (identified events').length = (identified events).length := by
    rw [← hiperm.length_eq, List.length_map]
  have hev : ∀ i < (identified events).length, ∃ e k, (identified events)[i]? = some e ∧
      (identified events')[σ i]? = some { e with id := k } := by
    intro i hi
    refine ⟨_, τ ((identified events)[i]).id, List.getElem?_eq_getElem hi, ?_⟩
    rw [s3 i hi, List.getElem?_map, List.getElem?_eq_getElem hi]
    rfl
  have hmem : ∀ i < (identified events).length, memOf (identified events') (σ i) = memOf (identified events) i := by
    intro i hi
    obtain ⟨e, k, h1, h2⟩ := hev i hi
    simp [memOf, h1, h2]
  have hcfg : s'.program.cfg = s.program.cfg := by simp [Program.cfg, CresSettings.program, hs.io]
  have hids : (events.map Event.id).Perm (List.range events.length) := by rw [he.length_eq]; exact he.ids
  have hids' : (events'.map Event.id).Perm (List.range events'.length) := by rw [he'.length_eq]; exact he'.ids
  obtain ⟨st, r1, r2, q2, q3, q4⟩ := computes_state (cres_unweight h0) hids hcw
  obtain ⟨st', r1', r2', q2', q3', q4'⟩ := computes_state (cres_unweight (s := s') (by rw [hs.minWeight]; exact h0)) hids' hcw'
  rw [hcfg, hil] at r1'
  rw [hcfg] at q4'
  have hu := read_weights (cres_goodComponents hc) hm0 hm1 he
  have hu' := read_weights (cres_goodComponents hc') hm0' (by rw [show s'.program.io = s.io from hs.io]; exact hm1') he'
  rw [hcfg] at hu'
  have hilen : (identified events).length ≤ usizeMax := (List.length_filter_le _ _).trans hl
  have hap := negativeApart_read hd ha he
  have hap' : NegativeApart s'.distance s'.maxCellSize (identified events') := by
    rw [hs.distance, hs.maxCellSize]
    obtain ⟨τ', -, t2, t3⟩ := perm_positions hiperm.symm
    refine hap.transfer hd τ' (fun i j hi hj => t2 i hi j hj) fun i a hia => ?_
    have hil' := (List.getElem?_eq_some_iff.1 hia).1
    have := t3 i hil'
    rw [hia, List.getElem?_map, Option.map_eq_some_iff] at this
    obtain ⟨a', ha', rfl⟩ := this
    exact ⟨a', τ a'.id, ha', rfl⟩
  have hsep := separate_of_apart hc hilen hmi identified_particles hap hu
  have hsep' := separate_of_apart hc' (by rw [hil]; exact hilen) (by rw [hs.distance]; exact hmet') identified_particles hap' hu'
  have hv := (cres_goodComponents hc).valid (identified events)
  have hv' := (cres_goodComponents hc').valid (identified events')
  obtain ⟨a1, a2⟩ := separate_final hv hu hsep r1 r2
  rw [hil] at hv' hu'
  obtain ⟨b1, b2⟩ := separate_final hv' hu' hsep' r1' r2'
  have hseeds := (seeds_spec (strategy := s.strategy) hc.seeds hu).2
  have hseeds' := (seeds_spec (strategy := s'.strategy) hc'.seeds hu').2
  have hse : ∀ i < (identified events).length, (σ i ∈ s'.program.seeds (identified events') ↔ i ∈ s.program.seeds (identified events)) := by
    intro i hi
    change σ i ∈ (selectSeeds s'.sortSeeds s'.strategy (identified events').length _).getD [] ↔
      i ∈ (selectSeeds s.sortSeeds s.strategy (identified events).length _).getD []
    rw [hil, hseeds, hseeds']
    unfold wt
    rw [hmem i hi]
    exact ⟨fun h => ⟨hi, h.2⟩, fun h => ⟨s1 i hi, h.2⟩⟩
  have hnear : ∀ i ∈ s.program.seeds (identified events), s'.program.nearest (identified events') (σ i) =
      (s.program.nearest (identified events) i).map fun x => (σ x.1, x.2) := by
    intro i hi
    obtain ⟨hlt, hneg⟩ := selectSeeds_neg hc.seeds hi
    exact nearest_relabel hs2 (s := { s with strategy := .next }) (s' := { s' with strategy := .next }) ⟨hc.search, hc.seeds, hc.rng⟩ ⟨hc'.search, hc'.seeds, hc'.rng⟩ hd hilen hil hmi hmet'
      identified_particles hnc' hσ hev hlt fun e hie => by
        rw [List.getElem?_eq_getElem hlt, Option.some.injEq] at hie
        rw [← hie]
        exact hneg
  have key : ∀ i < (identified events).length, st'.mem (σ i) = st.mem i := by
    intro i hi
    by_cases hex : ∃ seed ∈ s.program.seeds (identified events), i ∈ near (s.program.nearest (identified events)) seed
    · obtain ⟨seed, hsd, hin⟩ := hex
      have hslt := hv.seeds_lt seed hsd
      obtain ⟨r, c1, c2⟩ := a1 seed hsd
      obtain ⟨r', d1, d2⟩ := b1 (σ seed) ((hse seed hslt).2 hsd)
      rw [c2 i hin, d2 (σ i)]
      · exact resampleSeed_relabel hσ hu hmem hslt (hv.neighbours_lt seed hsd) (hnear seed hsd) c1 d1 i hi
      · unfold near at hin ⊢
        rw [hnear seed hsd, List.map_map]
        rcases List.mem_cons.1 hin with rfl | hin
        · exact List.mem_cons_self
        · obtain ⟨x, hx, rfl⟩ := List.mem_map.1 hin
          exact List.mem_cons_of_mem _ (List.mem_map.2 ⟨x, hx, rfl⟩)
    · push Not at hex
      rw [a2 i hex, b2 (σ i), hmem i hi]
      intro seed' hsd' hin
      obtain ⟨seed, hslt, rfl⟩ := hσ.surj (hv'.seeds_lt seed' hsd')
      have hsd := (hse seed hslt).1 hsd'
      refine hex seed hsd ?_
      unfold near at hin ⊢
      rw [hnear seed hsd, List.map_map] at hin
      rcases List.mem_cons.1 hin with h | hin
      · rw [s2 i hi seed hslt h]
        exact List.mem_cons_self
      · obtain ⟨x, hx, hxi⟩ := List.mem_map.1 hin
        refine List.mem_cons_of_mem _ (List.mem_map.2 ⟨x, hx, s2 _ (hv.neighbours_lt seed hsd x hx) _ hi hxi⟩)
  have hle := he.length_eq
  have hle' := he'.length_eq
  refine ⟨by rw [q2, hle], by rw [q2', hle', hlen], fun k hk => ?_⟩
  by_cases hin : ∃ e ∈ identified events, e.id = k
  · obtain ⟨e, hem, rfl⟩ := hin
    obtain ⟨i, hi⟩ := List.getElem?_of_mem hem
    have hil := (List.getElem?_eq_some_iff.1 hi).1
    rw [q3 i e hi]
    have h1 : (identified events')[σ i]? = some (Event.reid τ e) := by rw [s3 i hil, List.getElem?_map, hi]; rfl
    have h2 := q3' (σ i) _ h1
    rw [key i hil] at h2
    exact h2
  · push Not at hin
    rw [q4 k (by rw [hle]; exact hk) hin, q4' (τ k) (by rw [hle', hlen]; exact hτ.lt k hk)]
    intro e' he'm heq
    obtain ⟨e, hem, rfl⟩ := List.mem_map.1 (hiperm.mem_iff.2 he'm)
    have hid : e.id < (allEvents ds).length := by
      obtain ⟨e0, e1, g, -⟩ := he.from_file e (List.mem_of_mem_filter hem)
      exact (List.getElem?_eq_some_iff.1 g).1
    exact hin e hem (hτ.inj _ hid _ hk heq)

end

end Cres

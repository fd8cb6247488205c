import Verif.Proofs.Relabel
import Verif.Props.Choices
import Verif.Proofs.RunTrace

/-!
# C98: what determines the results on one thread
-/

set_option linter.unusedSectionVars false

namespace Cres

open Spec CombinedIO Program Cres.Path

section

variable {K V D P : Type*} [AddCommGroup D] [LinearOrder D] [IsOrderedAddMonoid D] [Field K] [LinearOrder K]
  [IsStrictOrderedRing K] [LinearOrder V] [DecidableEq P]

theorem noChoice_perm {s : CresSettings K V D} (hd : IgnoresIds s.distance) {events events' : List (Event K V)}
    (hp : events'.Perm events) (hn : NoChoice s events) : NoChoice s events' := by
  obtain ⟨τ, -, t2, t3⟩ := perm_positions hp
  refine hn.transfer hd τ (fun i j hi hj => t2 i hi j hj) fun i a ha => ⟨a, a.id, ?_, rfl⟩
  rw [t3 i (List.getElem?_eq_some_iff.1 ha).1, ha]

theorem isMetricOn_perm {dist : Event K V → Event K V → D} {events events' : List (Event K V)} (hp : events'.Perm events)
    (hm : IsMetricOn (· ∈ events) dist) : IsMetricOn (· ∈ events') dist :=
  ⟨fun x y hx hy => hm.symm x y (hp.mem_iff.1 hx) (hp.mem_iff.1 hy),
    fun x y z hx hy hz => hm.triangle x y z (hp.mem_iff.1 hx) (hp.mem_iff.1 hy) (hp.mem_iff.1 hz)⟩

theorem identified_metric {dist : Event K V → Event K V → D} {events : List (Event K V)} (hm : IsMetricOn (· ∈ events) dist) :
    IsMetricOn (· ∈ identified events) dist :=
  ⟨fun x y hx hy => hm.symm x y (List.mem_of_mem_filter hx) (List.mem_of_mem_filter hy),
    fun x y z hx hy hz => hm.triangle x y z (List.mem_of_mem_filter hx) (List.mem_of_mem_filter hy) (List.mem_of_mem_filter hz)⟩

/-- The weights on one thread in terms of sequential resampling. -/
theorem oneThread_weights {s : CresSettings K V D} (hc : GoodChoices s) (h0 : s.minWeight = 0) {m : Nat} (hm0 : 0 < m)
    (hm1 : s.io.ctx.multi = false → m = 1) {ds : List (EventFile K V)} {events : List (Event K V)}
    (he : EventsRead s.program m ds events) {ws : List (Weights K)} (hone : OneThreadWeights s.program events ws) :
    ∃ r, resampleAll s.program.cfg (identified events).length (s.program.nearest (identified events))
        (s.program.seeds (identified events)) (memOf (identified events)) = some r ∧
      ws.length = events.length ∧
      (∀ i e, (identified events)[i]? = some e → ws[e.id]? = some (r.1 i)) ∧
      ∀ k < events.length, (∀ e ∈ identified events, e.id ≠ k) → ws[k]? = some (defaultWeights s.program.cfg) := by
  have hg := cres_goodComponents hc
  have hu := read_weights hg hm0 hm1 he
  obtain ⟨evs, ks, st, rfl, hks, hsched, hfin, hrun⟩ := hone
  change ks.length = (s.program.seeds (identified events)).length at hks
  change runSchedule _ (identified events).length (s.program.nearest (identified events)) (s.program.seeds (identified events))
    (serialSchedule 0 ks) (State.init (memOf (identified events))) = some st at hsched
  change st.Finished (s.program.seeds (identified events)) at hfin
  change runWeights _ _ (fun _ => (.ok (withWeights (identified events) st.mem) : Outcome IOError _)) _ _ = _ at hrun
  refine ⟨_, C05_one_thread_partial (hg.valid _) hu ks hks hsched hfin, ?_⟩
  obtain ⟨resampled, final, g1, g2, g3⟩ := runWeights_form hrun
  rw [cres_unweight h0] at g2
  simp only [Outcome.ok.injEq] at g1 g2
  subst g1 g2
  have hsp := sortById_perm (withWeights (identified events) st.mem)
  have hids : (withWeights (identified events) st.mem).map Event.id = (identified events).map Event.id := by
    apply List.ext_getElem?
    intro i
    simp only [withWeights, List.getElem?_map, List.getElem?_mapIdx, Option.map_map]
    rfl
  have hnd : ((sortById (withWeights (identified events) st.mem)).map Event.id).Nodup := by
    refine (hsp.map Event.id).nodup_iff.2 ?_
    rw [hids]
    exact (he.ids.nodup_iff.2 List.nodup_range).sublist (List.filter_sublist.map _)
  refine ⟨by rw [setWeights_length g3]; simp, fun i e hie => ?_, fun k hk hne => ?_⟩
  · have hmem : { e with weights := st.mem i } ∈ withWeights (identified events) st.mem := by
      refine List.mem_of_getElem? (i := i) ?_
      simp [withWeights, List.getElem?_mapIdx, hie]
    exact setWeights_set g3 hnd _ (hsp.mem_iff.2 hmem)
  · rw [setWeights_other g3 k]
    · simp [hk]
    · intro e hem
      obtain ⟨e', he', hid⟩ := List.mem_map.1 (hids ▸ List.mem_map_of_mem (f := Event.id) (hsp.mem_iff.1 hem))
      rw [← hid]
      exact hne e' he'

/-- On one thread and without ties the weights are determined by the events in the input, whatever their order. -/
theorem oneThread_relabel {s s' : CresSettings K V D} (hs : SameExceptSearch s s') (hc : GoodChoices s) (hc' : GoodChoices s')
    (h0 : s.minWeight = 0) (hst : s.strategy ≠ .next) (hd : IgnoresIds s.distance) {m m' : Nat} (hm0 : 0 < m) (hm0' : 0 < m')
    (hm1 : s.io.ctx.multi = false → m = 1) (hm1' : s.io.ctx.multi = false → m' = 1)
    {ds ds' : List (EventFile K V)} {events events' : List (Event K V)} (he : EventsRead s.program m ds events)
    (he' : EventsRead s'.program m' ds' events') {τ : Nat → Nat} (hlen : (allEvents ds').length = (allEvents ds).length)
    (hτ : Relabels (allEvents ds).length τ) (hpos : ∀ i < (allEvents ds).length, (allEvents ds')[τ i]? = (allEvents ds)[i]?)
    (hmax : (allEvents ds).length ≤ usizeMax) (hm : IsMetricOn (· ∈ clusteredEvents s ds) s.distance)
    (hn : NoChoice s (clusteredEvents s ds)) {ws ws' : List (Weights K)} (hone : OneThreadWeights s.program events ws)
    (hone' : OneThreadWeights s'.program events' ws') :
    ws.length = (allEvents ds).length ∧ ws'.length = (allEvents ds).length ∧
    ∀ i < (allEvents ds).length, ws'[τ i]? = ws[i]? := by
  have hperm := eventsRead_perm hs he he' hlen hτ hpos
  have hiperm : ((identified events).map (Event.reid τ)).Perm (identified events') := by
    rw [← identified_reid]
    exact hperm.filter _
  obtain ⟨hl, hmet, hnc⟩ := noChoice_read hd hmax hm hn he
  have hnc0 : NoChoice s (events.map (Event.reid τ)) := by
    refine hnc.transfer hd _root_.id (fun i j _ _ h => h) fun i a ha => ?_
    rw [List.getElem?_map, Option.map_eq_some_iff] at ha
    obtain ⟨a', ha', rfl⟩ := ha
    exact ⟨a', τ a'.id, ha', rfl⟩
  have hmet0 : IsMetricOn (· ∈ events.map (Event.reid τ)) s.distance := by
    refine ⟨fun x y hx hy => ?_, fun x y z hx hy hz => ?_⟩
    · obtain ⟨x, hx', rfl⟩ := List.mem_map.1 hx
      obtain ⟨y, hy', rfl⟩ := List.mem_map.1 hy
      exact (hd x y _ _).trans ((hmet.symm x y hx' hy').trans (hd y x _ _).symm)
    · obtain ⟨x, hx', rfl⟩ := List.mem_map.1 hx
      obtain ⟨y, hy', rfl⟩ := List.mem_map.1 hy
      obtain ⟨z, hz', rfl⟩ := List.mem_map.1 hz
      have h1 := hd x z (τ x.id) (τ z.id)
      have h2 := hd x y (τ x.id) (τ y.id)
      have h3 := hd y z (τ y.id) (τ z.id)
      show s.distance { x with id := _ } { z with id := _ } ≤ s.distance { x with id := _ } { y with id := _ } +
        s.distance { y with id := _ } { z with id := _ }
      rw [h1, h2, h3]
      exact hmet.triangle x y z hx' hy' hz'
  have hnc' := (noChoice_perm hd hperm.symm hnc0).identified
  have hmet' := identified_metric (isMetricOn_perm hperm.symm hmet0)
  have hmi := identified_metric hmet
  obtain ⟨σ, s1, s2, s3⟩ := perm_positions hiperm
  rw [List.length_map] at s1 s2 s3
  have hσ : Relabels (identified events).length σ := ⟨s1, s2⟩
  have hil : (identified events').length = (identified events).length := by
    rw [← hiperm.length_eq, List.length_map]
  have hev : ∀ i < (identified events).length, ∃ e k, (identified events)[i]? = some e ∧
      (identified events')[σ i]? = some { e with id := k } := by
    intro i hi
    refine ⟨_, τ ((identified events)[i]).id, List.getElem?_eq_getElem hi, ?_⟩
    rw [s3 i hi, List.getElem?_map, List.getElem?_eq_getElem hi]
    rfl
  have hmem : ∀ i < (identified events).length, memOf (identified events') (σ i) = memOf (identified events) i := by
    intro i hi
    obtain ⟨e, k, h1, h2⟩ := hev i hi
    simp [memOf, h1, h2]
  have hcfg : s'.program.cfg = s.program.cfg := by simp [Program.cfg, CresSettings.program, hs.io]
  obtain ⟨r, q1, q2, q3, q4⟩ := oneThread_weights hc h0 hm0 hm1 he hone
  obtain ⟨r', q1', q2', q3', q4'⟩ := oneThread_weights hc' (by rw [hs.minWeight]; exact h0) hm0' (by rw [hs.io]; exact hm1') he' hone'
  rw [hcfg, hil] at q1'
  rw [hcfg] at q4'
  have hu := read_weights (cres_goodComponents hc) hm0 hm1 he
  have hu' := read_weights (cres_goodComponents hc') hm0' (by rw [show s'.program.io = s.io from hs.io]; exact hm1') he'
  rw [hcfg, hil] at hu'
  have hilen : (identified events).length ≤ usizeMax := (List.length_filter_le _ _).trans hl
  have hseeds : s'.program.seeds (identified events') = (s.program.seeds (identified events)).map σ := by
    simp only [CresSettings.program]
    rw [hil, hs.strategy]
    by_cases hz : (identified events).length = 0
    · rw [hz, selectSeeds_some (mem := memOf (identified events)) (cfg := s.program.cfg) (L := m) (by rw [← hz]; exact hu),
        selectSeeds_some (mem := memOf (identified events')) (cfg := s.program.cfg) (L := m') (by rw [← hz]; exact hu')]
      have hsz : ∀ {sort : (Nat → K) → List Nat → List Nat}, SortsByKey sort → ∀ key, sort key [] = [] := fun h key => by
        simpa using (h key []).1.eq_nil
      cases hstr : s.strategy with
      | next => simp
      | mostNegative => simp [hsz hc.seeds, hsz hc'.seeds]
      | leastNegative => simp [hsz hc.seeds, hsz hc'.seeds]
    · have hmm : m' = m := by
        have h1 := hu.length 0 (by omega)
        have h2 := hu'.length (σ 0) (s1 0 (by omega))
        rw [hmem 0 (by omega), h1] at h2
        exact h2.symm
      subst hmm
      rw [seeds_relabel hc.seeds hc'.seeds hst hu hu' hσ hmem]
      · cases selectSeeds s.sortSeeds s.strategy (identified events).length (memOf (identified events)) <;> rfl
      · intro i hi j hj hneg heq
        rw [← hil] at hi hj
        rcases hnc'.seeds with h | h
        · exact absurd h hst
        · have hw : ∀ i (hi : i < (identified events').length), wt (memOf (identified events')) 0 i = centralWeight (identified events')[i] := by
            intro i hi
            have := memOf_central (identified events') i
            rw [List.getElem?_eq_getElem hi] at this
            simp only [Option.map_some, Option.getD_some] at this
            rw [← this]
            unfold wt Weights.central
            cases memOf (identified events') i <;> simp
          rw [hw i hi] at hneg heq
          rw [hw j hj] at heq
          exact h i j _ _ (List.getElem?_eq_getElem hi) (List.getElem?_eq_getElem hj) (identified_particles _ (List.getElem_mem _))
            (identified_particles _ (List.getElem_mem _)) hneg heq
  rw [hseeds] at q1'
  have hv := (cres_goodComponents hc).valid (identified events)
  have key : ∀ i < (identified events).length, r'.1 (σ i) = r.1 i := by
    refine resampleAll_relabel hσ _ hu hmem hv.1 hv.2 hv.3 ?_ q1 q1'
    intro i hi
    obtain ⟨hlt, hneg⟩ := selectSeeds_neg hc.seeds hi
    exact nearest_relabel hs hc hc' hd hilen hil hmi hmet' identified_particles hnc' hσ hev hlt fun e hie => by
      rw [List.getElem?_eq_getElem hlt, Option.some.injEq] at hie
      rw [← hie]
      exact hneg
  have hle := he.length_eq
  have hle' := he'.length_eq
  refine ⟨by rw [q2, hle], by rw [q2', hle', hlen], fun k hk => ?_⟩
  by_cases hin : ∃ e ∈ identified events, e.id = k
  · obtain ⟨e, hem, rfl⟩ := hin
    obtain ⟨i, hi⟩ := List.getElem?_of_mem hem
    have hil := (List.getElem?_eq_some_iff.1 hi).1
    rw [q3 i e hi]
    have h1 : (identified events')[σ i]? = some (Event.reid τ e) := by rw [s3 i hil, List.getElem?_map, hi]; rfl
    have h2 := q3' (σ i) _ h1
    rw [key i hil] at h2
    exact h2
  · push Not at hin
    rw [q4 k (by rw [hle]; exact hk) hin, q4' (τ k) (by rw [hle', hlen]; exact hτ.lt k hk)]
    intro e' he'm heq
    obtain ⟨e, hem, rfl⟩ := List.mem_map.1 (hiperm.mem_iff.2 he'm)
    have hid : e.id < (allEvents ds).length := by
      obtain ⟨e0, e1, g, -⟩ := he.from_file e (List.mem_of_mem_filter hem)
      exact (List.getElem?_eq_some_iff.1 g).1
    exact hin e hem (hτ.inj _ hid _ hk heq)

/-- What is read determines the state of the reader. -/
theorem readsEvents_state {p : Program K V D} {s : CombinedIO K P} {fs : FS P}
    {r r' : Outcome (CresError IOError) (List (Event K V))} {x x' : CombinedIO K P × FS P} (h : p.ReadsEvents s fs r x)
    (h' : p.ReadsEvents s fs r' x') : x = x' := by
  obtain ⟨n, o, g⟩ : ∃ n o, s.recordItems p.io n fs = (some o, x) := by
    cases h with
    | panic h => exact ⟨_, _, h⟩
    | done h _ _ => exact ⟨_, _, h⟩
  obtain ⟨n', o', g'⟩ : ∃ n o, s.recordItems p.io n fs = (some o, x') := by
    cases h' with
    | panic h => exact ⟨_, _, h⟩
    | done h _ _ => exact ⟨_, _, h⟩
  have := recordItems_unique (cfg := p.io) (s := s) (fs := fs) (n := n) (m := n') (by rw [g]; simp) (by rw [g']; simp)
  rw [g, g'] at this
  simp only [Prod.mk.injEq] at this
  exact this.2

/-- The result and the files in the end follow from the weights. -/
theorem run_output {s s' : CresSettings K V D} (hs : SameExceptSearch s s') {files : List (P × P)} {fs fs1 fs2 : FS P}
    {events events' : Option (List (Event K V))} {ws : List (Weights K)} {res res' : Outcome (CresError IOError) Unit}
    (h : s.program.Run files fs events (some ws) res fs1) (h' : s'.program.Run files fs events' (some ws) res' fs2) :
    res = res' ∧ fs1 = fs2 := by
  have hio : s'.program.io = s.program.io := hs.io
  generalize hw : some ws = ows at h
  generalize hw' : some ws = ows' at h'
  cases h with
  | createErr _ | createPanic _ | readErr _ _ | readPanic _ _ | weightsErr _ _ _ | weightsPanic _ _ _ => simp at hw
  | update g1 g2 g3 =>
    cases h' with
    | createErr _ | createPanic _ | readErr _ _ | readPanic _ _ | weightsErr _ _ _ | weightsPanic _ _ _ => simp at hw'
    | update g1' g2' g3' =>
      simp only [Option.some.injEq] at hw hw'
      subst hw hw'
      rw [hio, g1] at g1'
      simp only [Prod.mk.injEq, true_and] at g1'
      obtain ⟨rfl, rfl⟩ := g1'
      have := readsEvents_state g2 (readsEvents_sameSearch hs.symm g2')
      subst this
      rw [hio]
      exact ⟨rfl, rfl⟩

/-- **C98**: if the distance is a metric for the events in the input files after clustering and there are no ties, any two
runs on one thread without unweighting have the same weights, the same result and the same files in the end, in whatever
order events arrive in memory and whatever search is used. -/
theorem C98_determined {s s' : CresSettings K V D} (hs : SameExceptSearch s s') (hc : GoodChoices s) (hc' : GoodChoices s')
    (h0 : s.minWeight = 0) (hst : s.strategy ≠ .next) (hd : IgnoresIds s.distance)
    {cwd : List Bytes} {outdir : Bytes} {ins : List (Bytes × Bytes)} {tags : List (Option (Stripper.XmlTag K))}
    {fs fs1 fs2 : FS (List Bytes)} (hg : GoodInputs s.io cwd outdir ins tags fs)
    {io : IOConfig K V} (hio : io = { s.io with scaling := channelScales tags }) {ds : List (EventFile K V)}
    (hin : EventFiles io fs ((eventInputs ins tags).map fun x => locate cwd x.1 ++ [x.2]) ds) (hsup : WeightsSupported io ds)
    (hlen : (allEvents ds).length ≤ usizeMax) (hm : IsMetricOn (· ∈ clusteredEvents s ds) s.distance)
    (hn : NoChoice s (clusteredEvents s ds))
    {events events' : List (Event K V)} {ws ws' : List (Weights K)} {res res' : Outcome MainError Unit}
    (h : OneThreadRun s cwd outdir (ins.map fun x => x.1 ++ x.2) fs events ws res fs1)
    (h' : OneThreadRun s' cwd outdir (ins.map fun x => x.1 ++ x.2) fs events' ws' res' fs2) :
    ws = ws' ∧ res = res' ∧ fs1 = fs2 := by
  obtain ⟨h1, h2, h3⟩ := hg.files
  obtain ⟨files, io1, r, g1, g2, g3, rfl⟩ := h
  obtain ⟨files', io2, r', g1', g2', g3', rfl⟩ := h'
  rw [hs.io, h1] at g1'
  rw [h1] at g1
  simp only [Outcome.ok.injEq, Prod.mk.injEq] at g1 g1'
  obtain ⟨rfl, rfl⟩ := g1
  obtain ⟨rfl, rfl⟩ := g1'
  have hc1 : GoodChoices { s with io := { s.io with scaling := channelScales tags } } := ⟨hc.search, hc.seeds, hc.rng⟩
  have hc2 : GoodChoices { s' with io := { s.io with scaling := channelScales tags } } := ⟨hc'.search, hc'.seeds, hc'.rng⟩
  have hs1 := hs.withIO { s.io with scaling := channelScales tags }
  subst hio
  rw [← h3] at hin
  obtain ⟨m, hm0, hm1, hmw, -⟩ :=
    supported_weights (p := CresSettings.program { s with io := { s.io with scaling := channelScales tags } }) hin hsup
  have hr := run_reads (p := CresSettings.program { s with io := { s.io with scaling := channelScales tags } }) hmw hin h2 g2
  have hr' := run_reads (p := CresSettings.program { s' with io := { s.io with scaling := channelScales tags } }) hmw hin h2 g2'
  obtain ⟨l1, l2, l3⟩ := oneThread_relabel (s := { s with io := { s.io with scaling := channelScales tags } }) hs1 hc1 hc2 h0 hst hd
    hm0 hm0 hm1 hm1 hr hr' (τ := _root_.id) rfl ⟨fun _ h => h, fun _ _ _ _ h => h⟩ (fun _ _ => rfl) hlen hm ⟨hn.distances, hn.seeds⟩ g3 g3'
  have hws : ws = ws' := by
    apply List.ext_getElem?
    intro i
    by_cases hi : i < (allEvents ds).length
    · exact (l3 i hi).symm
    · rw [List.getElem?_eq_none (by omega), List.getElem?_eq_none (by omega)]
  subst hws
  obtain ⟨rfl, rfl⟩ := run_output hs1 g2 g2'
  exact ⟨rfl, rfl, rfl⟩

/-- **C98** for other input files with the same events in another order: all pairs of runs on one thread have the same
weights for the same events, and the events in the output files are the same up to their order. -/
theorem C98_reordered {s s' : CresSettings K V D} (hs : SameExceptSearch s s') (hc : GoodChoices s) (hc' : GoodChoices s')
    (h0 : s.minWeight = 0) (hst : s.strategy ≠ .next) (hd : IgnoresIds s.distance)
    {cwd : List Bytes} {outdir : Bytes} {ins : List (Bytes × Bytes)} {tags : List (Option (Stripper.XmlTag K))}
    {fs fs1 : FS (List Bytes)} (hg : GoodInputs s.io cwd outdir ins tags fs)
    {io : IOConfig K V} (hio : io = { s.io with scaling := channelScales tags }) {ds : List (EventFile K V)}
    (hin : EventFiles io fs ((eventInputs ins tags).map fun x => locate cwd x.1 ++ [x.2]) ds) (hsup : WeightsSupported io ds)
    {cwd' : List Bytes} {outdir' : Bytes} {ins' : List (Bytes × Bytes)} {tags' : List (Option (Stripper.XmlTag K))}
    {fs' fs2 : FS (List Bytes)} (hg' : GoodInputs s.io cwd' outdir' ins' tags' fs')
    {io' : IOConfig K V} (hio' : io' = { s.io with scaling := channelScales tags' }) {ds' : List (EventFile K V)}
    (hin' : EventFiles io' fs' ((eventInputs ins' tags').map fun x => locate cwd' x.1 ++ [x.2]) ds') (hsup' : WeightsSupported io' ds')
    (hsame : (allEvents ds').Perm (allEvents ds))
    (hlen : (allEvents ds).length ≤ usizeMax) (hm : IsMetricOn (· ∈ clusteredEvents s ds) s.distance)
    (hn : NoChoice s (clusteredEvents s ds))
    {events events' : List (Event K V)} {ws ws' : List (Weights K)} {res res' : Outcome MainError Unit}
    (h : OneThreadRun s cwd outdir (ins.map fun x => x.1 ++ x.2) fs events ws res fs1)
    (h' : OneThreadRun s' cwd' outdir' (ins'.map fun x => x.1 ++ x.2) fs' events' ws' res' fs2) :
    (ws'.zip (allEvents ds')).Perm (ws.zip (allEvents ds)) ∧
    ((∀ w ∈ ws, ∀ x ∈ w, ∀ d ∈ ds, Writable io d.kind x) → (∀ w ∈ ws, ∀ x ∈ w, ∀ d ∈ ds', Writable io' d.kind x) →
      res = .ok () ∧ res' = .ok () ∧
      ∃ out out', EventFiles io fs1 ((eventInputs ins tags).map fun x => locate cwd outdir ++ [x.2]) out ∧
        EventFiles io' fs2 ((eventInputs ins' tags').map fun x => locate cwd' outdir' ++ [x.2]) out' ∧
        List.Forall₂ SameExceptWeights ds out ∧ List.Forall₂ SameExceptWeights ds' out' ∧
        (allEvents out').Perm (allEvents out)) := by
  obtain ⟨h1, h2, h3⟩ := hg.files
  obtain ⟨h1', h2', h3'⟩ := hg'.files
  obtain ⟨files, io1, r, g1, g2, g3, rfl⟩ := h
  obtain ⟨files', io2, r', g1', g2', g3', rfl⟩ := h'
  rw [hs.io, h1'] at g1'
  rw [h1] at g1
  simp only [Outcome.ok.injEq, Prod.mk.injEq] at g1 g1'
  obtain ⟨rfl, rfl⟩ := g1
  obtain ⟨rfl, rfl⟩ := g1'
  have hc1 : GoodChoices { s with io := { s.io with scaling := channelScales tags } } := ⟨hc.search, hc.seeds, hc.rng⟩
  have hc2 : GoodChoices { s' with io := { s.io with scaling := channelScales tags } } := ⟨hc'.search, hc'.seeds, hc'.rng⟩
  have hc3 : GoodChoices { s' with io := { s.io with scaling := channelScales tags' } } := ⟨hc'.search, hc'.seeds, hc'.rng⟩
  have hs1 := hs.withIO { s.io with scaling := channelScales tags }
  subst hio hio'
  rw [← h3] at hin
  rw [← h3'] at hin'
  obtain ⟨m, hm0, hm1, hmw, -⟩ :=
    supported_weights (p := CresSettings.program { s with io := { s.io with scaling := channelScales tags } }) hin hsup
  obtain ⟨m', hm0', hm1', hmw', -⟩ :=
    supported_weights (p := CresSettings.program { s' with io := { s.io with scaling := channelScales tags' } }) hin' hsup'
  have hr := run_reads (p := CresSettings.program { s with io := { s.io with scaling := channelScales tags } }) hmw hin h2 g2
  have hr' := run_reads (p := CresSettings.program { s' with io := { s.io with scaling := channelScales tags' } }) hmw' hin' h2' g2'
  have hr2 : EventsRead (CresSettings.program { s' with io := { s.io with scaling := channelScales tags } }) m' ds' events' :=
    ⟨hr'.ids, hr'.from_file⟩
  obtain ⟨τ, t1, t2, t3⟩ := perm_positions hsame.symm
  obtain ⟨l1, l2, l3⟩ := oneThread_relabel (s := { s with io := { s.io with scaling := channelScales tags } }) hs1 hc1 hc2 h0 hst hd
    hm0 hm0' hm1 hm1' hr hr2 hsame.length_eq ⟨t1, t2⟩ t3 hlen hm ⟨hn.distances, hn.seeds⟩ g3 g3'
  have hzip : (ws'.zip (allEvents ds')).Perm (ws.zip (allEvents ds)) := by
    rw [← l1] at t1 t2 t3 l3
    exact zipWith_perm Prod.mk (by omega) (by omega) hsame.length_eq t1 t2 l3 t3
  refine ⟨hzip, fun hw hw' => ?_⟩
  obtain ⟨rfl, k0, out, k1, k2, k3⟩ := supported_can_write (cres_goodComponents hc1) (unweight_survivors _ _ _) hin h2 hsup g2 hw
  have hsub : ∀ w ∈ ws', w ∈ ws := by
    have g5 := hzip.map Prod.fst
    rw [List.map_fst_zip (by rw [l2, hsame.length_eq]), List.map_fst_zip k0.le] at g5
    exact fun w hw => g5.mem_iff.1 hw
  obtain ⟨rfl, -, out', m1, m2, m3⟩ := supported_can_write (cres_goodComponents hc3) (unweight_survivors _ _ _) hin' h2' hsup' g2'
    fun w hwm => hw' w (hsub w hwm)
  rw [List.map_map] at k1 m1
  refine ⟨rfl, rfl, out, out', k1, m1, k2, m2, ?_⟩
  rw [k3, m3, ← List.map_uncurry_zip_eq_zipWith, ← List.map_uncurry_zip_eq_zipWith]
  exact hzip.map _

end

/-- **C98** with the distance of the command line program, which is a metric for the events in a run. -/
theorem C98_default_distance {K : Type*} [Field K] [LinearOrder K] [IsStrictOrderedRing K] {s s' : CresSettings K FourVector ℝ}
    (hs : SameExceptSearch s s') (hc : GoodChoices s) (hc' : GoodChoices s') (h0 : s.minWeight = 0) (hst : s.strategy ≠ .next)
    {km : SquareMatrix ℝ → ℝ} (hkm : SolvesAssignment km) {τ : ℝ} (hd : s.distance = euclDistance km τ)
    {cwd : List Bytes} {outdir : Bytes} {ins : List (Bytes × Bytes)} {tags : List (Option (Stripper.XmlTag K))}
    {fs fs1 fs2 : FS (List Bytes)} (hg : GoodInputs s.io cwd outdir ins tags fs)
    {io : IOConfig K FourVector} (hio : io = { s.io with scaling := channelScales tags }) {ds : List (EventFile K FourVector)}
    (hin : EventFiles io fs ((eventInputs ins tags).map fun x => locate cwd x.1 ++ [x.2]) ds) (hsup : WeightsSupported io ds)
    (hlen : (allEvents ds).length ≤ usizeMax) (hn : NoChoice s (clusteredEvents s ds))
    {events events' : List (Event K FourVector)} {ws ws' : List (Weights K)} {res res' : Outcome MainError Unit}
    (h : OneThreadRun s cwd outdir (ins.map fun x => x.1 ++ x.2) fs events ws res fs1)
    (h' : OneThreadRun s' cwd outdir (ins.map fun x => x.1 ++ x.2) fs events' ws' res' fs2) :
    ws = ws' ∧ res = res' ∧ fs1 = fs2 := by
  refine C98_determined hs hc hc' h0 hst (by rw [hd]; exact C89_default_distance km τ) hg hio hin hsup hlen ?_ hn h h'
  rw [hd]
  refine (euclDistance_metric hkm τ ?_).2
  intro e he
  obtain ⟨e0, -, rfl⟩ := List.mem_map.1 he
  exact cluster_canonical _ _ _ _

/-! ### example -/

/-- The run of the example for C74 is a run on one thread. -/
theorem exMain_oneThread (multi : Bool) : ∃ res fs', OneThreadRun (exMain multi fun _ => none) [ascii "home"] (ascii "out")
    (exMainIns.map fun x => x.1 ++ x.2) exMainFS exProgEvents [[2], [6], [2]] res fs' := by
  obtain ⟨h1, h2, h3⟩ := (exMain_inputs multi).files
  obtain ⟨s, fs1, x, h4, h5⟩ := exMain_reads multi (channelScales exMainTags) (by rw [h3]; exact exMain_files multi) h2
  exact ⟨_, _, _, _, _, h1, .update h4 h5 (computesWeights_congr (p := (exSettings multi).program)
      (q := (exMain multi (channelScales exMainTags)).program) rfl rfl rfl rfl rfl (exProg_weights multi)), exProg_oneThread multi, rfl⟩

/-- The hypotheses of `C98_determined` and `C98_reordered` are met: whatever happens in a run on one thread with the tree
search for the same events in other files and another order, the events get the same weights. -/
example (multi : Bool) :
    (∃ res fs', ∀ events' ws' res' fs'', OneThreadRun (exTree multi) [ascii "home"] (ascii "out")
      (exMainIns.map fun x => x.1 ++ x.2) exMainFS events' ws' res' fs'' → ws' = [[2], [6], [2]] ∧ res' = res ∧ fs'' = fs') ∧
    ∀ events' ws' res' fs'', OneThreadRun (exTree multi) [] (ascii "/out")
      (exLayoutIns.reverse.map fun x => x.1 ++ x.2) exLayoutFS events' ws' res' fs'' →
      (ws'.zip (allEvents [exLayoutB, exLayoutA])).Perm ([[2], [6], [2]].zip (allEvents [exProgHepmc, exProgLhef])) := by
  obtain ⟨res, fs', h⟩ := exMain_oneThread multi
  obtain ⟨h1, h2⟩ := exTree_noChoice multi
  have hl : (allEvents [exProgHepmc, exProgLhef]).length ≤ usizeMax := by
    have : (allEvents [exProgHepmc, exProgLhef]).length = 3 := by decide +kernel
    rw [this]
    decide
  have hsame : SameExceptSearch (exMain multi fun _ => none) (exTree multi) := ⟨rfl, rfl, rfl, rfl, rfl, rfl, rfl, rfl, rfl⟩
  have hgood : GoodChoices (exMain multi fun _ => none) :=
    ⟨(exSettings_good multi).search, (exSettings_good multi).seeds, (exSettings_good multi).rng⟩
  refine ⟨⟨res, fs', fun events' ws' res' fs'' h' => ?_⟩, fun events' ws' res' fs'' h' => ?_⟩
  · obtain ⟨rfl, rfl, rfl⟩ := C98_determined hsame hgood (exTree_good multi) rfl (by simp [exMain, exSettings])
      (fun _ _ _ _ => rfl) (exMain_inputs multi) rfl (exMain_files multi) (.inl fun _ => rfl) hl h1 h2 h h'
    exact ⟨rfl, rfl, rfl⟩
  · exact (C98_reordered hsame hgood (exTree_good multi) rfl (by simp [exMain, exSettings])
      (fun _ _ _ _ => rfl) (exMain_inputs multi) rfl (exMain_files multi) (.inl fun _ => rfl) (exReorder_inputs multi) rfl
      (exReorder_files multi) (.inl fun _ => rfl) (by decide +kernel) hl h1 h2 h h').1

end Cres

import Verif.Spec.Choices
import Verif.Proofs.Negative
import Verif.Props.Layout
import Mathlib.Data.List.NodupEquivFin

/-!
Lemmas for C97: what is computed depends only on the neighbours of the seeds, which are determined if there are no equal
distances.
-/

set_option linter.unusedSectionVars false

namespace Cres

open Spec CombinedIO Program Cres.Path

section Reach

variable {D K : Type*} [Zero D] [Add K] [Zero K] [One K] [Mul K] [Div K] [NatCast K] [LinearOrder K]

theorem step_congr_nearest {cfg : Cfg} {n : Nat} {nearest nearest' : Nat → List (Nat × D)} {seed : Nat}
    (h : nearest seed = nearest' seed) (s : State D K) (tid : Nat) :
    step cfg n nearest seed s tid = step cfg n nearest' seed s tid := by
  unfold step
  rw [h]

theorem stepAll_congr_nearest {cfg : Cfg} {n : Nat} {nearest nearest' : Nat → List (Nat × D)} {seeds : List Nat}
    (h : ∀ i ∈ seeds, nearest i = nearest' i) (s : State D K) (tid : Nat) :
    stepAll cfg n nearest seeds s tid = stepAll cfg n nearest' seeds s tid := by
  unfold stepAll
  cases hs : seeds[tid]? with
  | none => rfl
  | some seed => exact step_congr_nearest (h seed (List.mem_of_getElem? hs)) s tid

theorem reachable_congr_nearest {cfg : Cfg} {n : Nat} {nearest nearest' : Nat → List (Nat × D)} {seeds : List Nat}
    (h : ∀ i ∈ seeds, nearest i = nearest' i) {mem : Mem K} {s : State D K} (hr : Reachable cfg n nearest seeds mem s) :
    Reachable cfg n nearest' seeds mem s := by
  induction hr with
  | init => exact .init
  | step _ hs ih => exact .step ih (by rw [← stepAll_congr_nearest h]; exact hs)

theorem runSchedule_congr_nearest {cfg : Cfg} {n : Nat} {nearest nearest' : Nat → List (Nat × D)} {seeds : List Nat}
    (h : ∀ i ∈ seeds, nearest i = nearest' i) (sched : List Nat) (s : State D K) :
    runSchedule cfg n nearest seeds sched s = runSchedule cfg n nearest' seeds sched s := by
  induction sched generalizing s with
  | nil => rfl
  | cons tid sched ih =>
    unfold runSchedule
    rw [stepAll_congr_nearest h]
    cases stepAll cfg n nearest' seeds s tid with
    | none => rfl
    | some s' => exact ih s'

variable {V : Type*}

/-- The same neighbours of the seeds, and otherwise the same components. -/
structure SameFor (p q : Program K V D) (events : List (Event K V)) : Prop where
  cfg : q.cfg = p.cfg
  seeds : q.seeds (identified events) = p.seeds (identified events)
  nearest : ∀ i ∈ p.seeds (identified events), q.nearest (identified events) i = p.nearest (identified events) i
  unweight : q.unweight = p.unweight
  infoLog : q.infoLog = p.infoLog

theorem SameFor.symm {p q : Program K V D} {events : List (Event K V)} (h : SameFor p q events) : SameFor q p events :=
  ⟨h.cfg.symm, h.seeds.symm, fun i hi => (h.nearest i (by rw [← h.seeds]; exact hi)).symm, h.unweight.symm, h.infoLog.symm⟩

theorem SameFor.computesWeights {p q : Program K V D} {events : List (Event K V)} (h : SameFor p q events)
    {r : Outcome (CresError IOError) (List (Weights K))} (hr : p.ComputesWeights events r) : q.ComputesWeights events r := by
  cases hr with
  | mk hr =>
    rw [← h.cfg, ← h.infoLog, ← h.unweight]
    refine .mk ?_
    have hn : ∀ i ∈ p.seeds (identified events), p.nearest (identified events) i = q.nearest (identified events) i :=
      fun i hi => (h.nearest i hi).symm
    change p.Resamples (identified events) _ at hr
    change q.Resamples (identified events) _
    cases hr with
    | log g => exact .log (by rw [h.cfg, h.infoLog]; exact g)
    | task g1 g2 g3 =>
      refine .task (by rw [h.cfg, h.infoLog]; exact g1) ?_ g3
      rw [h.cfg, h.seeds]
      exact reachable_congr_nearest hn g2
    | ok g1 g2 =>
      refine .ok (by rw [h.cfg, h.infoLog]; exact g1) ?_
      obtain ⟨s, k1, k2, k3⟩ := g2
      rw [h.cfg, h.seeds]
      exact ⟨s, reachable_congr_nearest hn k1, k2, k3⟩

theorem SameFor.oneThread {p q : Program K V D} {events : List (Event K V)} (h : SameFor p q events)
    {ws : List (Weights K)} (hr : OneThreadWeights p events ws) : OneThreadWeights q events ws := by
  obtain ⟨evs, ks, s, rfl, h1, h2, h3, h4⟩ := hr
  change _ = (p.seeds (identified events)).length at h1
  change runSchedule _ (identified events).length (p.nearest (identified events)) (p.seeds (identified events)) _
    (State.init (memOf (identified events))) = _ at h2
  change s.Finished (p.seeds (identified events)) at h3
  refine ⟨_, ks, s, rfl, ?_, ?_, ?_, ?_⟩
  · change _ = (q.seeds (identified events)).length
    rw [h.seeds]; exact h1
  · change runSchedule _ (identified events).length (q.nearest (identified events)) (q.seeds (identified events)) _
      (State.init (memOf (identified events))) = _
    rw [h.cfg, h.seeds, runSchedule_congr_nearest h.nearest]
    exact h2
  · change s.Finished (q.seeds (identified events))
    rw [h.seeds]; exact h3
  · rw [h.cfg, h.infoLog, h.unweight]; exact h4

end Reach

section Seeds

variable {K V D : Type*} [Zero K] [Neg K] [LinearOrder K]

theorem sorts_same {sort sort' : (Nat → K) → List Nat → List Nat} (h : SortsByKey sort) (h' : SortsByKey sort')
    {key : Nat → K} {l : List Nat} (hk : ∀ i ∈ l, ∀ j ∈ l, key i = key j → i = j) : sort key l = sort' key l := by
  obtain ⟨h1, h2⟩ := h key l
  obtain ⟨h3, h4⟩ := h' key l
  refine List.Perm.eq_of_pairwise (le := fun a b => key a ≤ key b) ?_ h2 h4 (h1.trans h3.symm)
  intro a b ha hb hab hba
  exact hk a (h1.mem_iff.1 ha) b (h3.mem_iff.1 hb) (le_antisymm hab hba)

theorem memOf_central (events : List (Event K V)) (i : Nat) :
    ((memOf events i).central).getD 0 = (events[i]?.map centralWeight).getD 0 := by
  unfold memOf Weights.central centralWeight
  cases events[i]? with
  | none => rfl
  | some e => cases hw : e.weights <;> simp [hw]

theorem selectSeeds_same {sort sort' : (Nat → K) → List Nat → List Nat} (h : SortsByKey sort) (h' : SortsByKey sort')
    (hneg : ∀ a b : K, -a = -b → a = b) {strategy : Strategy} {events : List (Event K V)} (hev : ∀ e ∈ events, e.outgoingByPid ≠ [])
    (hs : strategy = .next ∨ NoEqualNegative events) :
    selectSeeds sort strategy events.length (memOf events) = selectSeeds sort' strategy events.length (memOf events) := by
  unfold selectSeeds
  cases (List.range events.length).mapM (fun i => weightAt events.length (memOf events) i) with
  | none => rfl
  | some x =>
    simp only [Option.some.injEq]
    have key : NoEqualNegative events → ∀ i ∈ (List.range events.length).filter
        (fun i => decide (((memOf events i).central).getD 0 < 0)), ∀ j ∈ (List.range events.length).filter
        (fun i => decide (((memOf events i).central).getD 0 < 0)),
        ((memOf events i).central).getD 0 = ((memOf events j).central).getD 0 → i = j := by
      intro hno i hi j hj hij
      simp only [List.mem_filter, List.mem_range, decide_eq_true_eq] at hi hj
      rw [memOf_central] at hi hj
      rw [memOf_central, memOf_central] at hij
      have e1 := List.getElem?_eq_getElem hi.1
      have e2 := List.getElem?_eq_getElem hj.1
      rw [e1] at hi hij
      rw [e2] at hij
      exact hno i j _ _ e1 e2 (hev _ (List.getElem_mem _)) (hev _ (List.getElem_mem _)) (by simpa using hi.2) (by simpa using hij)
    cases strategy with
    | next => rfl
    | mostNegative =>
      have hno : NoEqualNegative events := by simpa using hs
      exact sorts_same h h' (key hno)
    | leastNegative =>
      have hno : NoEqualNegative events := by simpa using hs
      exact sorts_same h h' fun i hi j hj hij => key hno i hi j hj (hneg _ _ hij)

theorem selectSeeds_neg {sort : (Nat → K) → List Nat → List Nat} (h : SortsByKey sort)
    {strategy : Strategy} {events : List (Event K V)} {i : Nat}
    (hi : i ∈ (selectSeeds sort strategy events.length (memOf events)).getD []) :
    ∃ hl : i < events.length, centralWeight events[i] < 0 := by
  have key : i ∈ (List.range events.length).filter (fun i => decide (((memOf events i).central).getD 0 < 0)) := by
    unfold selectSeeds at hi
    cases hm : (List.range events.length).mapM (fun i => weightAt events.length (memOf events) i) with
    | none => rw [hm] at hi; simp at hi
    | some x =>
      rw [hm] at hi
      simp only [Option.getD_some] at hi
      cases strategy with
      | next => exact hi
      | mostNegative => exact (h _ _).1.mem_iff.1 hi
      | leastNegative => exact (h _ _).1.mem_iff.1 hi
  simp only [List.mem_filter, List.mem_range, decide_eq_true_eq] at key
  rw [memOf_central, List.getElem?_eq_getElem key.1] at key
  exact ⟨key.1, by simpa using key.2⟩

end Seeds

section Search

variable {K V D : Type*} [AddCommGroup D] [LinearOrder D] [IsOrderedAddMonoid D] [Zero K] [LinearOrder K]

/-- Both searches enumerate the neighbours. -/
theorem search_neighbours {s : CresSettings K V D} (hc : GoodChoices s) {events : List (Event K V)}
    (hlen : events.length ≤ usizeMax) (hm : IsMetricOn (· ∈ events) s.distance) {seed : Nat} (hs : seed < events.length) :
    IsNeighbourList (distWrapper s.distance events) (List.range events.length) seed s.maxCellSize
      (s.search.nearest s.distance s.maxCellSize events seed) := by
  have hmet : IsMetricOn (fun p => p = seed ∨ p ∈ List.range events.length) (distWrapper s.distance events) := by
    have hlt : ∀ p, p = seed ∨ p ∈ List.range events.length → p < events.length := by
      rintro p (rfl | hp)
      · exact hs
      · exact List.mem_range.1 hp
    refine ⟨fun x y hx hy => ?_, fun x y z hx hy hz => ?_⟩
    · rw [distWrapper_get (hlt x hx) (hlt y hy), distWrapper_get (hlt y hy) (hlt x hx)]
      exact hm.symm _ _ (List.getElem_mem _) (List.getElem_mem _)
    · rw [distWrapper_get (hlt x hx) (hlt z hz), distWrapper_get (hlt x hx) (hlt y hy), distWrapper_get (hlt y hy) (hlt z hz)]
      exact hm.triangle _ _ _ (List.getElem_mem _) (List.getElem_mem _) (List.getElem_mem _)
  have h := hc.search
  unfold SearchAlgo.nearest
  cases hsr : s.search with
  | naive minPos =>
    rw [hsr] at h
    have h1 := C11_naive_search_exact h events.length (distWrapper s.distance events) s.maxCellSize seed hs
    have hsym : ∀ p ∈ List.range events.length, distWrapper s.distance events p seed = distWrapper s.distance events seed p :=
      fun p hp => hmet.symm _ _ (Or.inr hp) (Or.inl rfl)
    refine ⟨h1.nodup, fun p => ?_, fun x hx => ?_, h1.sorted⟩
    · rw [h1.mem p]
      constructor
      · rintro ⟨g1, g2, g3⟩
        exact ⟨g1, g2, by rw [← hsym p g1]; exact g3⟩
      · rintro ⟨g1, g2, g3⟩
        exact ⟨g1, g2, by rw [hsym p g1]; exact g3⟩
    · rw [h1.dist_eq x hx]
      exact hsym _ ((h1.mem x.1).1 (List.mem_map.2 ⟨x, hx, rfl⟩)).1
  | tree psort sort cornerPt f64Max =>
    rw [hsr] at h
    exact C10_tree_search_exact_on h.1 h.2 cornerPt f64Max (List.range events.length) (by simpa using hlen) s.maxCellSize seed hmet

end Search

section Program

variable {K V D P : Type*} [AddCommGroup D] [LinearOrder D] [IsOrderedAddMonoid D] [Zero K] [One K] [Add K] [Mul K] [Div K]
  [Neg K] [NatCast K] [LinearOrder K] [LinearOrder V] [DecidableEq P]

theorem Spec.SameExceptSearch.symm {s s' : CresSettings K V D} (h : SameExceptSearch s s') : SameExceptSearch s' s :=
  ⟨h.io.symm, h.particles.symm, h.clustering.symm, h.distance.symm, h.maxCellSize.symm, h.strategy.symm, h.minWeight.symm,
    h.rng.symm, h.infoLog.symm⟩

theorem Spec.SameExceptSearch.withIO {s s' : CresSettings K V D} (h : SameExceptSearch s s') (io : IOConfig K V) :
    SameExceptSearch { s with io := io } { s' with io := io } :=
  ⟨rfl, h.particles, h.clustering, h.distance, h.maxCellSize, h.strategy, h.minWeight, h.rng, h.infoLog⟩

theorem Spec.NoChoice.of_same {s s' : CresSettings K V D} (h : SameExceptSearch s s') {events : List (Event K V)}
    (hn : NoChoice s events) : NoChoice s' events :=
  ⟨by rw [h.distance, h.maxCellSize]; exact hn.distances, by rw [h.strategy]; exact hn.seeds⟩

/-- Events that correspond to different events in another list, except for ids. -/
theorem Spec.NoChoice.transfer {s : CresSettings K V D} (hd : IgnoresIds s.distance) {events events' : List (Event K V)}
    (hn : NoChoice s events) (f : Nat → Nat)
    (hinj : ∀ i j, i < events'.length → j < events'.length → f i = f j → i = j)
    (hf : ∀ i a, events'[i]? = some a → ∃ a' k, events[f i]? = some a' ∧ a = { a' with id := k }) : NoChoice s events' := by
  have hl : ∀ {i : Nat} {a : Event K V}, events'[i]? = some a → i < events'.length := fun h => (List.getElem?_eq_some_iff.1 h).1
  refine ⟨?_, hn.seeds.imp_right fun hs => ?_⟩
  · intro i j k a b c ha hb hc hij hik pa pb pc hneg hle heq
    obtain ⟨a', ka, ha', rfl⟩ := hf i a ha
    obtain ⟨b', kb, hb', rfl⟩ := hf j b hb
    obtain ⟨c', kc, hc', rfl⟩ := hf k c hc
    rw [hd] at hle
    have heq : s.distance a' b' = s.distance a' c' := by
      have h1 := hd a' b' ka kb
      have h2 := hd a' c' ka kc
      exact h1.symm.trans (heq.trans h2)
    exact hinj j k (hl hb) (hl hc) (hn.distances _ _ _ a' b' c' ha' hb' hc'
      (fun h => hij (hinj _ _ (hl ha) (hl hb) h)) (fun h => hik (hinj _ _ (hl ha) (hl hc) h)) pa pb pc hneg hle heq)
  · intro i j a b ha hb pa pb hneg heq
    obtain ⟨a', ka, ha', rfl⟩ := hf i a ha
    obtain ⟨b', kb, hb', rfl⟩ := hf j b hb
    exact hinj i j (hl ha) (hl hb) (hs _ _ a' b' ha' hb' pa pb hneg heq)

/-- Only the events with particles matter. -/
theorem Spec.NoChoice.identified {s : CresSettings K V D} {events : List (Event K V)} (hn : NoChoice s events) :
    NoChoice s (identified events) := by
  obtain ⟨f, hf⟩ := List.sublist_iff_exists_orderEmbedding_getElem?_eq.1
    (show (Cres.identified events).Sublist events from List.filter_sublist)
  refine ⟨?_, hn.seeds.imp_right fun hs => ?_⟩
  · intro i j k a b c ha hb hc hij hik pa pb pc hneg hle heq
    rw [hf] at ha hb hc
    exact f.injective (hn.distances _ _ _ a b c ha hb hc (fun h => hij (f.injective h)) (fun h => hik (f.injective h)) pa pb pc
      hneg hle heq)
  · intro i j a b ha hb pa pb hneg heq
    rw [hf] at ha hb
    exact f.injective (hs _ _ a b ha hb pa pb hneg heq)

theorem identified_particles {events : List (Event K V)} : ∀ e ∈ identified events, e.outgoingByPid ≠ [] := by
  intro e he
  have := (List.mem_filter.1 he).2
  simpa using this

/-- Without choice the programs are the same for the events. -/
theorem sameFor_of_noChoice (hneg : ∀ a b : K, -a = -b → a = b) {s s' : CresSettings K V D} (hs : SameExceptSearch s s')
    (hc : GoodChoices s) (hc' : GoodChoices s') {events : List (Event K V)} (hlen : events.length ≤ usizeMax)
    (hm : IsMetricOn (· ∈ events) s.distance) (hn : NoChoice s events) : SameFor s.program s'.program events := by
  have hi := hn.identified
  have hmi : IsMetricOn (· ∈ identified events) s.distance :=
    ⟨fun x y hx hy => hm.symm x y (List.mem_of_mem_filter hx) (List.mem_of_mem_filter hy),
      fun x y z hx hy hz => hm.triangle x y z (List.mem_of_mem_filter hx) (List.mem_of_mem_filter hy) (List.mem_of_mem_filter hz)⟩
  have hli : (identified events).length ≤ usizeMax := le_trans (List.length_filter_le _ _) hlen
  refine ⟨by simp [Program.cfg, CresSettings.program, hs.io], ?_, ?_, ?_, hs.infoLog⟩
  · simp only [CresSettings.program]
    rw [hs.strategy, selectSeeds_same hc'.seeds hc.seeds hneg identified_particles hi.seeds]
  · intro i hsi
    obtain ⟨hil, hiw⟩ := selectSeeds_neg hc.seeds hsi
    have h1 := search_neighbours hc hli hmi hil
    have h2 := search_neighbours (s := s') hc' hli (by rw [hs.distance]; exact hmi) hil
    rw [hs.distance, hs.maxCellSize] at h2
    simp only [CresSettings.program]
    rw [hs.distance, hs.maxCellSize]
    refine C12_same_neighbours h2 h1 ?_
    intro x hx y hy hxi hyi hle heq
    have hx := List.mem_range.1 hx
    have hy := List.mem_range.1 hy
    rw [distWrapper_get hil hx] at hle
    rw [distWrapper_get hil hx, distWrapper_get hil hy] at heq
    exact hi.distances i x y _ _ _ (List.getElem?_eq_getElem hil) (List.getElem?_eq_getElem hx) (List.getElem?_eq_getElem hy)
      (Ne.symm hxi) (Ne.symm hyi) (identified_particles _ (List.getElem_mem _)) (identified_particles _ (List.getElem_mem _))
      (identified_particles _ (List.getElem_mem _)) hiw hle heq
  · simp [CresSettings.program, hs.io, hs.minWeight, hs.rng]

theorem readsEvents_sameSearch {s s' : CresSettings K V D} (hs : SameExceptSearch s s') {x : CombinedIO K P} {fs : FS P}
    {r : Outcome (CresError IOError) (List (Event K V))} {y : CombinedIO K P × FS P} (h : s.program.ReadsEvents x fs r y) :
    s'.program.ReadsEvents x fs r y := by
  have hcl : s'.program.cluster = s.program.cluster := by
    simp [CresSettings.program, hs.io, hs.particles, hs.clustering]
  have hio : s'.program.io = s.program.io := hs.io
  cases h with
  | panic h => exact .panic (by rw [hio]; exact h)
  | done h1 h2 h3 => exact .done (by rw [hio]; exact h1) (by rw [hio, hcl]; exact h2) h3

/-- Runs are the same if programs are the same for the events that are read. -/
theorem run_sameSearch {s s' : CresSettings K V D} (hs : SameExceptSearch s s') {files : List (P × P)} {fs fs' : FS P}
    {events : Option (List (Event K V))} {ws : Option (List (Weights K))} {res : Outcome (CresError IOError) Unit}
    (hsame : ∀ evs, events = some evs → SameFor s.program s'.program evs) (h : s.program.Run files fs events ws res fs') :
    s'.program.Run files fs events ws res fs' := by
  have hio : s'.program.io = s.program.io := hs.io
  cases h with
  | createErr h => exact .createErr (by rw [hio]; exact h)
  | createPanic h => exact .createPanic (by rw [hio]; exact h)
  | readErr h1 h2 => exact .readErr (by rw [hio]; exact h1) (readsEvents_sameSearch hs h2)
  | readPanic h1 h2 => exact .readPanic (by rw [hio]; exact h1) (readsEvents_sameSearch hs h2)
  | weightsErr h1 h2 h3 =>
    exact .weightsErr (by rw [hio]; exact h1) (readsEvents_sameSearch hs h2) ((hsame _ rfl).computesWeights h3)
  | weightsPanic h1 h2 h3 =>
    exact .weightsPanic (by rw [hio]; exact h1) (readsEvents_sameSearch hs h2) ((hsame _ rfl).computesWeights h3)
  | update h1 h2 h3 =>
    have := Program.Run.update (p := s'.program) (by rw [hio]; exact h1) (readsEvents_sameSearch hs h2)
      ((hsame _ rfl).computesWeights h3)
    rw [hio] at this
    exact this

end Program

end Cres

import Verif.Proofs.Project
import Verif.Spec.Apart
import Verif.Props.Choices

/-!
Lemmas for C100: runs for events of which some are isolated from the others.
-/

set_option linter.unusedSectionVars false

namespace Cres

open Spec CombinedIO Program

/-- Positions of the elements that are kept. -/
theorem filterMap_positions {α β : Type*} (g : α → Option β) : ∀ l : List α, ∃ σ : Nat → Nat,
    (∀ i < (l.filterMap g).length, σ i < l.length ∧ ∃ a, l[σ i]? = some a ∧ g a = (l.filterMap g)[i]?) ∧
    (∀ i < (l.filterMap g).length, ∀ j < (l.filterMap g).length, i < j → σ i < σ j) ∧
    ∀ j < l.length, (∀ i < (l.filterMap g).length, σ i ≠ j) → ∀ a, l[j]? = some a → g a = none := by
  intro l
  induction l with
  | nil => exact ⟨id, by simp⟩
  | cons a l ih =>
    obtain ⟨σ, h1, h2, h3⟩ := ih
    cases hg : g a with
    | none =>
      rw [List.filterMap_cons_none hg]
      refine ⟨fun i => σ i + 1, fun i hi => ?_, fun i hi j hj hij => Nat.succ_lt_succ (h2 i hi j hj hij),
        fun j hj hne b hb => ?_⟩
      · obtain ⟨g1, g2⟩ := h1 i hi
        exact ⟨by simp only [List.length_cons]; omega, by simpa using g2⟩
      · cases j with
        | zero => simp only [List.getElem?_cons_zero, Option.some.injEq] at hb; rw [← hb]; exact hg
        | succ j =>
          refine h3 j (by simpa using hj) (fun i hi hij => hne i hi (congrArg (· + 1) hij)) b (by simpa using hb)
    | some b =>
      rw [List.filterMap_cons_some hg]
      refine ⟨fun i => match i with | 0 => 0 | i + 1 => σ i + 1, fun i hi => ?_, fun i hi j hj hij => ?_, fun j hj hne c hc => ?_⟩
      · cases i with
        | zero => exact ⟨by simp, a, by simp, by simp [hg]⟩
        | succ i =>
          obtain ⟨g1, g2⟩ := h1 i (by simpa using hi)
          exact ⟨by simp only [List.length_cons]; omega, by simpa using g2⟩
      · cases j with
        | zero => omega
        | succ j =>
          cases i with
          | zero => simp
          | succ i =>
            have := h2 i (by simpa using hi) j (by simpa using hj) (by omega)
            simpa using this
      · cases j with
        | zero => exact absurd rfl (hne 0 (by simp))
        | succ j =>
          refine h3 j (by simpa using hj) (fun i hi hij => hne (i + 1) (by simpa using hi) (by simpa using hij)) c (by simpa using hc)

section Weights

variable {K V D : Type*} [Zero D] [LinearOrder D] [Zero K] [One K] [Add K] [Mul K] [Div K] [NatCast K] [LinearOrder K]
  [LinearOrder V]

/-- The weights in the end for the weights of events with particles. -/
structure WeightsFrom (cfg : Cfg) (events : List (Event K V)) (mem : Mem K) (ws : List (Weights K)) : Prop where
  length : ws.length = events.length
  set : ∀ i e, (identified events)[i]? = some e → ws[e.id]? = some (mem i)
  other : ∀ k < events.length, (∀ e ∈ identified events, e.id ≠ k) → ws[k]? = some (defaultWeights cfg)

theorem computes_state {p : Program K V D} (hun : p.unweight = .ok) {events : List (Event K V)}
    (hids : (events.map Event.id).Perm (List.range events.length)) {ws : List (Weights K)}
    (h : p.ComputesWeights events (.ok ws)) :
    ∃ s : State D K, Reachable p.cfg (identified events).length (p.nearest (identified events)) (p.seeds (identified events))
      (memOf (identified events)) s ∧ s.Finished (p.seeds (identified events)) ∧ WeightsFrom p.cfg events s.mem ws := by
  generalize ho : (Outcome.ok ws : Outcome (CresError IOError) _) = o at h
  cases h with
  | @mk resampled hres =>
    cases hres with
    | log _ => simp [runWeights, Outcome.mapErr, Outcome.bind] at ho
    | task _ _ _ => simp [runWeights, Outcome.mapErr, Outcome.bind] at ho
    | @ok events' hlog hres =>
      obtain ⟨s, hr, hfin, rfl⟩ := hres
      rw [show (events.filter fun e => !e.outgoingByPid.isEmpty) = identified events from rfl] at hr hfin ho
      obtain ⟨resampled, final, g1, g2, g3, g4, g5⟩ := runWeights_entries hids ho.symm
      simp only [Outcome.ok.injEq] at g1
      subst g1
      rw [hun, Outcome.ok.injEq] at g2
      subst g2
      obtain ⟨-, -, k5⟩ := g4 (withWeights_subCollection _ _) (List.Subperm.refl _)
      refine ⟨s, hr, hfin, g3, fun i e hie => ?_, fun k hk hne => g5 k hk fun e he => ?_⟩
      · refine k5 { e with weights := s.mem i } (List.mem_of_getElem? (i := i) ?_)
        simp [withWeights, List.getElem?_mapIdx, hie]
      · obtain ⟨i, hi⟩ := List.getElem?_of_mem he
        unfold withWeights at hi
        rw [List.getElem?_mapIdx] at hi
        obtain ⟨e0, hi0, rfl⟩ := Option.map_eq_some_iff.1 hi
        exact hne e0 (List.mem_of_getElem? hi0)

theorem state_computes {p : Program K V D} (hun : p.unweight = .ok) (hlog : p.io.ctx.debug = false ∨ p.infoLog = false)
    (hg : GoodComponents p) {m : Nat} {events : List (Event K V)} (hu : Uniform p.cfg (identified events).length m (memOf (identified events)))
    (hids : (events.map Event.id).Perm (List.range events.length)) {s : State D K}
    (hr : Reachable p.cfg (identified events).length (p.nearest (identified events)) (p.seeds (identified events))
      (memOf (identified events)) s) (hfin : s.Finished (p.seeds (identified events))) :
    ∃ ws, p.ComputesWeights events (.ok ws) ∧ WeightsFrom p.cfg events s.mem ws := by
  have hv := hg.valid (identified events)
  obtain ⟨A, hA⟩ := inv_reachable hv hu hr
  have hne : ∀ e ∈ identified events, e.weights ≠ [] := by
    intro e he h0
    obtain ⟨i, hi⟩ := List.getElem?_of_mem he
    have := hu.ne_nil (List.getElem?_eq_some_iff.1 hi).1
    simp [memOf, hi, h0] at this
  have hlog0 : logSumsPanics p.cfg p.infoLog (identified events) = false := by
    rcases hlog with hd | hi
    · exact logSums_ok hd hne
    · have hm : (identified events).mapM Event.weight = some ((identified events).map centralWeight) := by
        generalize identified events = l at hne
        induction l with
        | nil => rfl
        | cons e es ih =>
          rw [List.mapM_cons, weight_eq (hne e List.mem_cons_self), ih (fun x hx => hne x (List.mem_cons_of_mem _ hx))]
          rfl
      unfold logSumsPanics
      rw [hm]
      simp [hi]
  obtain ⟨ws, hws⟩ := runWeights_succeeds (E := IOError) (cfg := p.cfg) (infoLog := p.infoLog)
    (resample := fun _ => .ok (withWeights (identified events) s.mem)) (unweight := p.unweight) (events := events)
    (resampled := withWeights (identified events) s.mem) (final := withWeights (identified events) s.mem)
    hids (withWeights_subCollection _ _) (List.Subperm.refl _) rfl (by rw [hun]) (by
      intro e hev
      obtain ⟨i, hi⟩ := List.getElem?_of_mem hev
      unfold withWeights at hi
      rw [List.getElem?_mapIdx] at hi
      obtain ⟨e0, hi0, rfl⟩ := Option.map_eq_some_iff.1 hi
      have hlt := (List.getElem?_eq_some_iff.1 hi0).1
      simp only
      rw [finished_mem hA hfin]
      exact hA.uniform.ne_nil hlt) (hlog.imp_right Or.inl)
  have hc : p.ComputesWeights events (.ok ws) := by
    rw [← hws]
    exact .mk (.ok hlog0 ⟨s, hr, hfin, rfl⟩)
  refine ⟨ws, hc, ?_⟩
  obtain ⟨resampled, final, g1, g2, g3, g4, g5⟩ := runWeights_entries hids hws
  simp only [Outcome.ok.injEq] at g1
  subst g1
  rw [hun, Outcome.ok.injEq] at g2
  subst g2
  obtain ⟨-, -, k5⟩ := g4 (withWeights_subCollection _ _) (List.Subperm.refl _)
  refine ⟨g3, fun i e hie => ?_, fun k hk hne => g5 k hk fun e he => ?_⟩
  · refine k5 { e with weights := s.mem i } (List.mem_of_getElem? (i := i) ?_)
    simp [withWeights, List.getElem?_mapIdx, hie]
  · obtain ⟨i, hi⟩ := List.getElem?_of_mem he
    unfold withWeights at hi
    rw [List.getElem?_mapIdx] at hi
    obtain ⟨e0, hi0, rfl⟩ := Option.map_eq_some_iff.1 hi
    exact hne e0 (List.mem_of_getElem? hi0)

/-- The events `evs'` are among the events `evs`, in the same order, with other ids. -/
structure SubEvents (τ σ : Nat → Nat) (evs evs' : List (Event K V)) : Prop where
  mono : ∀ i < evs'.length, ∀ j < evs'.length, i < j → σ i < σ j
  event : ∀ i e, evs'[i]? = some e → evs[σ i]? = some (e.reid τ)

theorem SubEvents.lt {τ σ : Nat → Nat} {evs evs' : List (Event K V)} (h : SubEvents τ σ evs evs') {i : Nat} (hi : i < evs'.length) :
    σ i < evs.length := (List.getElem?_eq_some_iff.1 (h.event i _ (List.getElem?_eq_getElem hi))).1

theorem SubEvents.inj {τ σ : Nat → Nat} {evs evs' : List (Event K V)} (h : SubEvents τ σ evs evs') {i j : Nat}
    (hi : i < evs'.length) (hj : j < evs'.length) (hij : σ i = σ j) : i = j := by
  rcases lt_trichotomy i j with hlt | rfl | hlt
  · have := h.mono i hi j hj hlt; omega
  · rfl
  · have := h.mono j hj i hi hlt; omega

theorem SubEvents.memOf {τ σ : Nat → Nat} {evs evs' : List (Event K V)} (h : SubEvents τ σ evs evs') {i : Nat}
    (hi : i < evs'.length) : Cres.memOf evs (σ i) = Cres.memOf evs' i := by
  have h1 := List.getElem?_eq_getElem hi
  simp [Cres.memOf, h.event i _ h1, h1, Event.reid]

theorem WeightsFrom.sub {cfg : Cfg} {τ σ : Nat → Nat} {events events' : List (Event K V)}
    (hs : SubEvents τ σ (identified events) (identified events')) {mem mem' : Mem K} {ws ws' : List (Weights K)}
    (h : WeightsFrom cfg events mem ws) (h' : WeightsFrom cfg events' mem' ws')
    (hm : ∀ i < (identified events').length, mem (σ i) = mem' i) (hτ : ∀ k < events'.length, τ k < events.length)
    (hcov : ∀ k < events'.length, (∀ e ∈ identified events', e.id ≠ k) → ∀ e ∈ identified events, e.id ≠ τ k) :
    ∀ k < events'.length, ws'[k]? = ws[τ k]? := by
  intro k hk
  by_cases hex : ∃ e ∈ identified events', e.id = k
  · obtain ⟨e, he, rfl⟩ := hex
    obtain ⟨i, hi⟩ := List.getElem?_of_mem he
    rw [h'.set i e hi, ← hm i (List.getElem?_eq_some_iff.1 hi).1]
    exact (h.set (σ i) _ (hs.event i e hi)).symm
  · push Not at hex
    rw [h'.other k hk hex, h.other (τ k) (hτ k hk) (hcov k hk hex)]

end Weights

section Events

variable {K V D : Type*} [AddCommGroup D] [LinearOrder D] [IsOrderedAddMonoid D] [Zero K] [One K] [Add K] [Mul K] [Div K]
  [Neg K] [NatCast K] [LinearOrder K] [LinearOrder V]

variable {s : CresSettings K V D} {evs evs' : List (Event K V)} {τ σ : Nat → Nat}

theorem SubEvents.dist (h : SubEvents τ σ evs evs') (hd : IgnoresIds s.distance) {i j : Nat} (hi : i < evs'.length)
    (hj : j < evs'.length) : distWrapper s.distance evs (σ i) (σ j) = distWrapper s.distance evs' i j := by
  have h1 := List.getElem?_eq_getElem hi
  have h2 := List.getElem?_eq_getElem hj
  simp only [distWrapper, h.event i _ h1, h.event j _ h2, h1, h2]
  exact hd _ _ _ _

theorem SubEvents.metric (h : SubEvents τ σ evs evs') (hd : IgnoresIds s.distance) (hm : IsMetricOn (· ∈ evs) s.distance) :
    IsMetricOn (· ∈ evs') s.distance := by
  have key : ∀ e ∈ evs', e.reid τ ∈ evs := by
    intro e he
    obtain ⟨i, hi⟩ := List.getElem?_of_mem he
    exact List.mem_of_getElem? (h.event i e hi)
  refine ⟨fun x y hx hy => ?_, fun x y z hx hy hz => ?_⟩
  · have := hm.symm _ _ (key x hx) (key y hy)
    exact ((hd x y _ _).symm.trans this).trans (hd y x _ _)
  · have := hm.triangle _ _ _ (key x hx) (key y hy) (key z hz)
    rw [show s.distance (x.reid τ) (z.reid τ) = _ from hd x z _ _, show s.distance (x.reid τ) (y.reid τ) = _ from hd x y _ _,
      show s.distance (y.reid τ) (z.reid τ) = _ from hd y z _ _] at this
    exact this

/-- The neighbours of an isolated event. -/
theorem nearest_isolated (hc : GoodChoices s) (hd : IgnoresIds s.distance) (hlen : evs.length ≤ usizeMax)
    (hlen' : evs'.length ≤ usizeMax) (hm : IsMetricOn (· ∈ evs) s.distance) (hp : ∀ e ∈ evs, e.outgoingByPid ≠ [])
    (hn : NoEqualDistances s.distance s.maxCellSize evs) (hs : SubEvents τ σ evs evs')
    (hfar : ∀ i < evs'.length, ∀ j < evs.length, (∀ i' < evs'.length, σ i' ≠ j) →
      s.maxCellSize < distWrapper s.distance evs (σ i) j) {i : Nat} (hi : i < evs'.length)
    (hneg : ∀ e, evs'[i]? = some e → centralWeight e < 0) :
    s.search.nearest s.distance s.maxCellSize evs (σ i) =
      (s.search.nearest s.distance s.maxCellSize evs' i).map fun x => (σ x.1, x.2) := by
  have h1 := search_neighbours hc hlen' (hs.metric hd hm) hi
  have h2 := search_neighbours hc hlen hm (hs.lt hi)
  have hlt : ∀ x ∈ s.search.nearest s.distance s.maxCellSize evs' i, x.1 < evs'.length := fun x hx =>
    List.mem_range.1 ((h1.mem x.1).1 (List.mem_map.2 ⟨x, hx, rfl⟩)).1
  have h3 : IsNeighbourList (distWrapper s.distance evs) (List.range evs.length) (σ i) s.maxCellSize
      ((s.search.nearest s.distance s.maxCellSize evs' i).map fun x => (σ x.1, x.2)) := by
    have hfst : ((s.search.nearest s.distance s.maxCellSize evs' i).map fun x => (σ x.1, x.2)).map Prod.fst =
        ((s.search.nearest s.distance s.maxCellSize evs' i).map Prod.fst).map σ := by
      simp [List.map_map, Function.comp_def]
    refine ⟨?_, fun p => ?_, fun x hx => ?_, ?_⟩
    · rw [hfst]
      refine List.Nodup.map_on (fun a ha b hb hab => ?_) h1.nodup
      obtain ⟨x, hx, rfl⟩ := List.mem_map.1 ha
      obtain ⟨y, hy, rfl⟩ := List.mem_map.1 hb
      exact hs.inj (hlt x hx) (hlt y hy) hab
    · rw [hfst, List.mem_map, List.mem_range]
      constructor
      · rintro ⟨j, hj, rfl⟩
        obtain ⟨g1, g2, g3⟩ := (h1.mem j).1 hj
        have hj := List.mem_range.1 g1
        exact ⟨hs.lt hj, fun h => g2 (hs.inj hj hi h), by rw [hs.dist hd hi hj]; exact g3⟩
      · rintro ⟨g1, g2, g3⟩
        by_cases hex : ∃ j < evs'.length, σ j = p
        · obtain ⟨j, hj, rfl⟩ := hex
          rw [hs.dist hd hi hj] at g3
          exact ⟨j, (h1.mem j).2 ⟨List.mem_range.2 hj, fun h => g2 (by rw [h]), g3⟩, rfl⟩
        · push Not at hex
          exact absurd g3 (not_le.2 (hfar i hi p g1 hex))
    · obtain ⟨y, hy, rfl⟩ := List.mem_map.1 hx
      simp only
      rw [hs.dist hd hi (hlt y hy)]
      exact h1.dist_eq y hy
    · exact h1.sorted.map _ fun _ _ h => h
  refine C12_same_neighbours h2 h3 ?_
  intro x hx y hy hxi hyi hle heq
  have hx := List.mem_range.1 hx
  have hy := List.mem_range.1 hy
  rw [distWrapper_get (hs.lt hi) hx] at hle
  rw [distWrapper_get (hs.lt hi) hx, distWrapper_get (hs.lt hi) hy] at heq
  refine hn (σ i) x y _ _ _ (List.getElem?_eq_getElem (hs.lt hi)) (List.getElem?_eq_getElem hx) (List.getElem?_eq_getElem hy)
    (Ne.symm hxi) (Ne.symm hyi) (hp _ (List.getElem_mem _)) (hp _ (List.getElem_mem _)) (hp _ (List.getElem_mem _)) ?_ hle heq
  have g1 := List.getElem?_eq_getElem hi
  have g2 := hs.event i _ g1
  rw [List.getElem?_eq_getElem (hs.lt hi), Option.some.injEq] at g2
  rw [g2]
  exact (hneg _ g1 : centralWeight evs'[i] < 0)

/-- The seeds are the events with negative weight. -/
theorem seeds_spec {sort : (Nat → K) → List Nat → List Nat} (h : SortsByKey sort) {strategy : Strategy} {cfg : Cfg} {n L : Nat}
    {mem : Mem K} (hu : Uniform cfg n L mem) :
    ((selectSeeds sort strategy n mem).getD []).Nodup ∧
    ∀ i, i ∈ (selectSeeds sort strategy n mem).getD [] ↔ i < n ∧ wt mem 0 i < 0 := by
  have hp : ((selectSeeds sort strategy n mem).getD []).Perm ((List.range n).filter fun i => decide (wt mem 0 i < 0)) := by
    rw [selectSeeds_some hu, Option.getD_some]
    cases strategy with
    | next => exact .refl _
    | mostNegative => exact (h _ _).1
    | leastNegative => exact (h _ _).1
  refine ⟨hp.nodup_iff.2 (List.nodup_range.filter _), fun i => ?_⟩
  rw [hp.mem_iff]
  simp

/-- Events that are far from all others are isolated. -/
theorem isolated_events (hc : GoodChoices s) (hd : IgnoresIds s.distance) (hlen : evs.length ≤ usizeMax)
    (hlen' : evs'.length ≤ usizeMax) (hm : IsMetricOn (· ∈ evs) s.distance) (hp : ∀ e ∈ evs, e.outgoingByPid ≠ [])
    (hn : NoEqualDistances s.distance s.maxCellSize evs) (hs : SubEvents τ σ evs evs')
    (hfar : ∀ i < evs'.length, ∀ j < evs.length, (∀ i' < evs'.length, σ i' ≠ j) →
      s.maxCellSize < distWrapper s.distance evs (σ i) j) {cfg : Cfg} {L : Nat} (hu : Uniform cfg evs.length L (memOf evs)) :
    ∃ θ, Isolated evs.length evs'.length σ θ (s.program.nearest evs) (s.program.nearest evs') (s.program.seeds evs)
      (s.program.seeds evs') := by
  have hu' : Uniform cfg evs'.length L (memOf evs') :=
    ⟨hu.pos, hu.single, fun i hi => by rw [← hs.memOf hi]; exact hu.length _ (hs.lt hi)⟩
  obtain ⟨a1, a2⟩ := seeds_spec (strategy := s.strategy) hc.seeds hu
  obtain ⟨b1, b2⟩ := seeds_spec (strategy := s.strategy) hc.seeds hu'
  change (s.program.seeds evs).Nodup at a1
  change ∀ i, i ∈ s.program.seeds evs ↔ _ at a2
  change (s.program.seeds evs').Nodup at b1
  change ∀ i, i ∈ s.program.seeds evs' ↔ _ at b2
  have hmem : ∀ i < evs'.length, (σ i ∈ s.program.seeds evs ↔ i ∈ s.program.seeds evs') := by
    intro i hi
    rw [a2, b2]
    unfold wt
    rw [hs.memOf hi]
    exact ⟨fun h => ⟨hi, h.2⟩, fun h => ⟨hs.lt hi, h.2⟩⟩
  have hθ : ∀ t i : Nat, (s.program.seeds evs')[t]? = some i →
      (s.program.seeds evs)[(s.program.seeds evs).idxOf (σ (((s.program.seeds evs')[t]?).getD 0))]? = some (σ i) := by
    intro t i hti
    rw [hti, Option.getD_some]
    have hi := List.mem_of_getElem? hti
    exact List.getElem?_idxOf ((hmem i ((b2 i).1 hi).1).2 hi)
  refine ⟨fun t => (s.program.seeds evs).idxOf (σ (((s.program.seeds evs')[t]?).getD 0)), fun i hi => hs.lt hi, hs.mono,
    fun t ht t' ht' htt => ?_, fun t i hti => ?_, fun t i hti hne e he j hj hej => ?_⟩
  · have g1 := hθ t _ (List.getElem?_eq_getElem ht)
    have g2 := hθ t' _ (List.getElem?_eq_getElem ht')
    rw [htt, g2, Option.some.injEq] at g1
    have := hs.inj ((b2 _).1 (List.getElem_mem ht')).1 ((b2 _).1 (List.getElem_mem ht)).1 g1
    exact ((List.Nodup.getElem_inj_iff b1).1 this).symm
  · have hi := (b2 i).1 (List.mem_of_getElem? hti)
    have hneg : ∀ e, evs'[i]? = some e → centralWeight e < 0 := by
      intro e he
      have h0 := hi.2
      have h1 := memOf_central evs' i
      rw [he] at h1
      simp only [Option.map_some, Option.getD_some] at h1
      rw [← h1]
      unfold wt at h0
      unfold Weights.central
      cases hme : Cres.memOf evs' i <;> rw [hme] at h0 <;> simpa using h0
    refine ⟨hi.1, hθ t i hti, nearest_isolated hc hd hlen hlen' hm hp hn hs hfar hi.1 hneg, fun x hx => ?_⟩
    have h1 := search_neighbours hc hlen' (hs.metric hd hm) hi.1
    exact List.mem_range.1 ((h1.mem x.1).1 (List.mem_map.2 ⟨x, hx, rfl⟩)).1
  · have hii := (a2 i).1 (List.mem_of_getElem? hti)
    have hno : ∀ j < evs'.length, σ j ≠ i := by
      rintro j hj rfl
      have hjs := (hmem j hj).1 (List.mem_of_getElem? hti)
      obtain ⟨t', ht'⟩ := List.getElem?_of_mem hjs
      refine hne t' (List.getElem?_eq_some_iff.1 ht').1 ?_
      have g1 := hθ t' j ht'
      have hl := (List.getElem?_eq_some_iff.1 g1).1
      have hl' := (List.getElem?_eq_some_iff.1 hti).1
      rw [← hti, List.getElem?_eq_getElem hl, List.getElem?_eq_getElem hl', Option.some.injEq] at g1
      exact (List.Nodup.getElem_inj_iff a1).1 g1
    subst hej
    rcases List.mem_cons.1 he with he | he
    · exact hno j hj he
    · have h1 := search_neighbours hc hlen hm hii.1
      have h2 := ((h1.mem (σ j)).1 he).2.2
      have h3 := hfar j hj i hii.1 hno
      rw [distWrapper_get hii.1 (hs.lt hj)] at h2
      rw [distWrapper_get (hs.lt hj) hii.1, hm.symm _ _ (List.getElem_mem _) (List.getElem_mem _)] at h3
      exact absurd h2 (not_le.2 h3)

end Events

section Reading

variable {K V D P : Type*} [Zero D] [LinearOrder D] [DistNum D] [Zero K] [One K] [Add K] [Mul K] [Div K]
  [Neg K] [NatCast K] [LinearOrder K] [LinearOrder V] [DecidableEq P]

/-- Events can be read in any order. -/
theorem reads_exist {s : CresSettings K V D} {m : Nat} {fs : FS P} {files : List (P × P)} {ds : List (EventFile K V)}
    (hin : EventFiles s.io fs (files.map Prod.fst) ds) (hf : GoodFiles files) {events : List (Event K V)}
    (he : EventsRead s.program m ds events) :
    ∃ c fs1 x, CombinedIO.new s.program.io files fs = (.ok (), c, fs1) ∧ s.program.ReadsEvents c fs1 (.ok events) x := by
  obtain ⟨c, fs1, g1, g2⟩ := reads_items (p := s.program) hin hf
  have c1 := (files_items hin).2
  refine ⟨c, fs1, ?_⟩
  suffices h : ∃ x, s.program.ReadsEvents c fs1 (.ok events) x by
    obtain ⟨x, hx⟩ := h
    exact ⟨x, g1, hx⟩
  refine (g2 _).2 (read_any_order ?_ ?_ ?_)
  · intro r hr
    have := fileItems_format s.io ds r hr
    simp [this]
  · rw [show (fileItems s.program.io (ds.map EventFile.toFileData)).length = (allEvents ds).length from c1.length_eq]
    exact he.ids
  · intro ev hev
    obtain ⟨e0, e1, q1, q2, q3, -⟩ := he.from_file ev hev
    have hlt : ev.id < (fileItems s.io (ds.map EventFile.toFileData)).length := by
      rw [c1.length_eq]
      exact (List.getElem?_eq_some_iff.1 q1).1
    refine ⟨_, List.getElem?_eq_getElem hlt, ?_⟩
    have m9 := forall₂_get c1 (List.getElem?_eq_getElem hlt) q1
    have hid : e1.id = 0 := by
      have := eventFiles_id hin e0 (List.mem_of_getElem? q1)
      simp only [CresSettings.program, Outcome.ok.injEq] at q2
      rw [← q2]
      exact this
    unfold convertRecord
    rw [show tryConvert s.program.io.ctx _ = _ from m9]
    simp only [Outcome.mapErr, Outcome.bind, q2, hid]
    simp only [ne_eq, not_true_eq_false, if_false]
    exact congrArg _ q3.symm

end Reading

section Runs

variable {K V D P : Type*} [AddCommGroup D] [LinearOrder D] [IsOrderedAddMonoid D] [Zero K] [One K] [Add K] [Mul K] [Div K]
  [Neg K] [NatCast K] [LinearOrder K] [LinearOrder V] [DecidableEq P]

/-- The event with another id, if it belongs to the part. -/
def pick (τ : Nat → Nat) (N : Nat) (e : Event K V) : Option (Event K V) :=
  ((List.range N).find? fun k => decide (τ k = e.id)).map fun k => { e with id := k }

theorem pick_some {τ : Nat → Nat} {N : Nat} (hinj : ∀ i < N, ∀ j < N, τ i = τ j → i = j) {e e' : Event K V} :
    pick τ N e = some e' ↔ ∃ k < N, τ k = e.id ∧ e' = { e with id := k } := by
  unfold pick
  rw [Option.map_eq_some_iff]
  constructor
  · rintro ⟨k, hk, rfl⟩
    have h1 := List.find?_some hk
    exact ⟨k, List.mem_range.1 (List.mem_of_find?_eq_some hk), by simpa using h1, rfl⟩
  · rintro ⟨k, hk, hke, rfl⟩
    refine ⟨k, ?_, rfl⟩
    cases hf : (List.range N).find? fun k => decide (τ k = e.id) with
    | none =>
      have := List.find?_eq_none.1 hf k (List.mem_range.2 hk)
      simp [hke] at this
    | some k' =>
      have h1 := List.find?_some hf
      have h2 := List.mem_range.1 (List.mem_of_find?_eq_some hf)
      rw [hinj k hk k' h2 (by rw [hke]; simpa using (of_decide_eq_true h1).symm)]

theorem identified_pick {τ : Nat → Nat} {N : Nat} (hinj : ∀ i < N, ∀ j < N, τ i = τ j → i = j) (l : List (Event K V)) :
    identified (l.filterMap (pick τ N)) = (identified l).filterMap (pick τ N) := by
  unfold identified
  rw [List.filter_filterMap, List.filterMap_filter]
  refine List.filterMap_congr fun e _ => ?_
  cases hp : pick τ N e with
  | none => simp
  | some e' =>
    obtain ⟨k, -, -, rfl⟩ := (pick_some hinj).1 hp
    simp [Option.filter]

variable {s : CresSettings K V D} {sc : Bytes → Option K}

/-- Leaving out events that are far from the others. -/
theorem part_events (hc : GoodChoices s) (h0 : s.minWeight = 0) (hlog : s.io.ctx.debug = false ∨ s.infoLog = false)
    (hd : IgnoresIds s.distance) {m : Nat} (hm0 : 0 < m) (hm1 : s.io.ctx.multi = false → m = 1)
    {ds ds' : List (EventFile K V)} {events : List (Event K V)} (he : EventsRead s.program m ds events)
    (hlen : (allEvents ds).length ≤ usizeMax) (hm : IsMetricOn (· ∈ clusteredEvents s ds) s.distance)
    (hn : NoEqualDistances s.distance s.maxCellSize (clusteredEvents s ds)) {τ : Nat → Nat}
    (hle : (allEvents ds').length ≤ (allEvents ds).length)
    (hlt : ∀ i < (allEvents ds').length, τ i < (allEvents ds).length)
    (hinj : ∀ i < (allEvents ds').length, ∀ j < (allEvents ds').length, τ i = τ j → i = j)
    (hpos : ∀ i < (allEvents ds').length, (allEvents ds)[τ i]? = (allEvents ds')[i]?)
    (hfar : ∀ k < (allEvents ds').length, ∀ j < (allEvents ds).length, (∀ k' < (allEvents ds').length, τ k' ≠ j) →
      ∀ a b, (clusteredEvents s ds)[τ k]? = some a → (clusteredEvents s ds)[j]? = some b → a.outgoingByPid ≠ [] →
      b.outgoingByPid ≠ [] → s.maxCellSize < s.distance a b) {ws : List (Weights K)}
    (h : s.program.ComputesWeights events (.ok ws)) :
    ∃ events' ws', EventsRead s.program m ds' events' ∧ s.program.ComputesWeights events' (.ok ws') ∧
      ws'.length = (allEvents ds').length ∧ ∀ i < (allEvents ds').length, ws[τ i]? = ws'[i]? := by
  obtain ⟨hl, hmet, hnc⟩ := noChoice_read (s := { s with strategy := .next }) hd hlen hm ⟨hn, Or.inl rfl⟩ ⟨he.ids, he.from_file⟩
  have hnd : NoEqualDistances s.distance s.maxCellSize (identified events) := hnc.identified.distances
  have hids : (events.map Event.id).Perm (List.range events.length) := by rw [he.length_eq]; exact he.ids
  have hg := cres_goodComponents hc
  have hun := cres_unweight h0
  have he' : EventsRead s.program m ds' (events.filterMap (pick τ (allEvents ds').length)) := by
    refine ⟨?_, fun ev hev => ?_⟩
    · have hmap : (events.filterMap (pick τ (allEvents ds').length)).map Event.id =
          (events.map Event.id).filterMap fun j => (List.range (allEvents ds').length).find? fun k => decide (τ k = j) := by
        rw [List.map_filterMap, List.filterMap_map]
        refine List.filterMap_congr fun e _ => ?_
        simp [pick, Option.map_map, Function.comp_def]
      have hfind : ∀ j k, ((List.range (allEvents ds').length).find? fun k => decide (τ k = j)) = some k ↔
          k < (allEvents ds').length ∧ τ k = j := by
        intro j k
        have := pick_some (τ := τ) hinj (e := (⟨j, [], []⟩ : Event K V)) (e' := ⟨k, [], []⟩)
        unfold pick at this
        rw [Option.map_eq_some_iff] at this
        constructor
        · intro hf
          obtain ⟨k', h1, h2, h3⟩ := this.1 ⟨k, hf, rfl⟩
          simp only [Event.mk.injEq, and_true] at h3
          subst h3
          exact ⟨h1, h2⟩
        · rintro ⟨h1, h2⟩
          obtain ⟨k', h3, h4⟩ := this.2 ⟨k, h1, h2, rfl⟩
          simp only [Event.mk.injEq, and_true] at h4
          rw [← h4]
          exact h3
      rw [hmap]
      have hndi : (events.map Event.id).Nodup := he.ids.nodup_iff.2 List.nodup_range
      rw [List.perm_ext_iff_of_nodup (hndi.filterMap ?_) List.nodup_range]
      · intro k
        rw [List.mem_filterMap, List.mem_range]
        constructor
        · rintro ⟨j, -, hj⟩
          exact ((hfind j k).1 hj).1
        · exact fun hk => ⟨τ k, he.ids.mem_iff.2 (List.mem_range.2 (hlt k hk)), (hfind _ k).2 ⟨hk, rfl⟩⟩
      · intro a a' b hb hb'
        rw [← ((hfind a b).1 hb).2, ← ((hfind a' b).1 hb').2]
    · obtain ⟨e, hem, hp⟩ := List.mem_filterMap.1 hev
      obtain ⟨k, hk, hke, rfl⟩ := (pick_some hinj).1 hp
      obtain ⟨e0, e1, q1, q2, q3, q4⟩ := he.from_file e hem
      refine ⟨e0, e1, ?_, q2, ?_, q4⟩
      · simp only
        rw [← hpos k hk, hke]
        exact q1
      · simp only
        rw [q3]
  have hu := read_weights hg hm0 hm1 he
  have hu' := read_weights hg hm0 hm1 he'
  have hidn := identified_pick hinj events
  obtain ⟨σ, p1, p2, p3⟩ := filterMap_positions (pick τ (allEvents ds').length) (identified events)
  rw [← hidn] at p1 p2 p3
  have hsub : SubEvents τ σ (identified events) (identified (events.filterMap (pick τ (allEvents ds').length))) := by
    refine ⟨p2, fun i e hie => ?_⟩
    obtain ⟨-, a, ha, hga⟩ := p1 i (List.getElem?_eq_some_iff.1 hie).1
    rw [hie] at hga
    obtain ⟨k, -, hka, rfl⟩ := (pick_some hinj).1 hga
    rw [ha]
    simp [Event.reid, hka]
  have hli : (identified events).length ≤ usizeMax := (List.length_filter_le _ _).trans hl
  have hli' : (identified (events.filterMap (pick τ (allEvents ds').length))).length ≤ usizeMax := by
    refine (List.length_filter_le _ _).trans ?_
    rw [he'.length_eq]
    omega
  have hmi : IsMetricOn (· ∈ identified events) s.distance :=
    ⟨fun x y hx hy => hmet.symm x y (List.mem_of_mem_filter hx) (List.mem_of_mem_filter hy),
      fun x y z hx hy hz => hmet.triangle x y z (List.mem_of_mem_filter hx) (List.mem_of_mem_filter hy) (List.mem_of_mem_filter hz)⟩
  have hcl : ∀ e ∈ events, ∃ a, (clusteredEvents s ds)[e.id]? = some a ∧ e = { a with id := e.id } := by
    intro e hem
    obtain ⟨e0, e1, q1, q2, q3, -⟩ := he.from_file e hem
    simp only [CresSettings.program, Outcome.ok.injEq] at q2
    exact ⟨e1, by simp [clusteredEvents, q1, q2], q3⟩
  obtain ⟨θ, hiso⟩ := isolated_events hc hd hli hli' hmi identified_particles hnd hsub (by
    intro i hi j hj hno
    obtain ⟨hσ, a, ha, hga⟩ := p1 i hi
    rw [List.getElem?_eq_getElem hi] at hga
    obtain ⟨k, hk, hka, -⟩ := (pick_some hinj).1 hga
    have hb := List.getElem?_eq_getElem hj
    have hgb := p3 j hj hno _ hb
    have hnotin : ∀ k' < (allEvents ds').length, τ k' ≠ (identified events)[j].id := by
      intro k' hk' hk''
      have := (pick_some hinj).2 ⟨k', hk', hk'', rfl⟩
      rw [hgb] at this
      cases this
    have ham := List.mem_of_getElem? ha
    have hbm := List.getElem_mem hj
    obtain ⟨a0, ha0, ha1⟩ := hcl a (List.mem_of_mem_filter ham)
    obtain ⟨b0, hb0, hb1⟩ := hcl _ (List.mem_of_mem_filter hbm)
    have hap := identified_particles a ham
    have hbp := identified_particles _ hbm
    rw [ha1] at hap
    rw [hb1] at hbp
    simp only [distWrapper, ha, hb]
    rw [ha1, hb1]
    refine lt_of_lt_of_eq ?_ (hd a0 b0 _ _).symm
    have hjl := (List.getElem?_eq_some_iff.1 hb0).1
    rw [clusteredEvents, List.length_map] at hjl
    exact hfar k hk _ hjl hnotin a0 b0 (by rw [hka]; exact ha0) hb0 hap hbp) hu
  obtain ⟨st, r1, r2, r3⟩ := computes_state hun hids h
  obtain ⟨st', t1, t2⟩ := reachable_part (mem' := memOf (identified (events.filterMap (pick τ (allEvents ds').length)))) hiso
    (fun i hi => hsub.memOf hi) r1
  obtain ⟨ws', w1, w2⟩ := state_computes hun hlog hg hu' (by rw [he'.length_eq]; exact he'.ids) t1 (t2.finished hiso r2)
  refine ⟨_, ws', he', w1, by rw [w2.length, he'.length_eq], fun k hk => ?_⟩
  rw [← he'.length_eq] at hk
  refine (WeightsFrom.sub hsub r3 w2 t2.mem (fun k hk => ?_) (fun k hk hne e hem hek => ?_) k hk).symm
  · rw [he.length_eq]
    exact hlt k (by rw [← he'.length_eq]; exact hk)
  · rw [he'.length_eq] at hk
    refine hne { e with id := k } ?_ rfl
    rw [hidn]
    exact List.mem_filterMap.2 ⟨e, hem, (pick_some hinj).2 ⟨k, hk, hek.symm, rfl⟩⟩

theorem far_events {ds : List (EventFile K V)} {m : Nat} {events : List (Event K V)} (he : EventsRead s.program m ds events) :
    ∀ e ∈ events, ∃ a ∈ clusteredEvents s ds, e = { a with id := e.id } := by
  intro e hem
  obtain ⟨e0, e1, q1, q2, q3, -⟩ := he.from_file e hem
  simp only [CresSettings.program, Outcome.ok.injEq] at q2
  exact ⟨e1, List.mem_map.2 ⟨e0, List.mem_of_getElem? q1, q2⟩, q3⟩

/-- Putting events together that are far from each other. -/
theorem join_events (hc : GoodChoices s) (h0 : s.minWeight = 0) (hlog : s.io.ctx.debug = false ∨ s.infoLog = false)
    (hd : IgnoresIds s.distance) {m : Nat} (hm0 : 0 < m) (hm1 : s.io.ctx.multi = false → m = 1)
    {ds dsA dsB : List (EventFile K V)} {eventsA eventsB : List (Event K V)} (heA : EventsRead s.program m dsA eventsA)
    (heB : EventsRead s.program m dsB eventsB)
    (hlen : (allEvents ds).length ≤ usizeMax) (hm : IsMetricOn (· ∈ clusteredEvents s ds) s.distance)
    (hn : NoEqualDistances s.distance s.maxCellSize (clusteredEvents s ds)) {τ : Nat → Nat}
    (hN : (allEvents ds).length = (allEvents dsA).length + (allEvents dsB).length)
    (hlt : ∀ i < (allEvents ds).length, τ i < (allEvents ds).length)
    (hinj : ∀ i < (allEvents ds).length, ∀ j < (allEvents ds).length, τ i = τ j → i = j)
    (hpos : ∀ i < (allEvents ds).length, (allEvents ds)[τ i]? = (allEvents dsA ++ allEvents dsB)[i]?)
    (hap : Apart s (clusteredEvents s dsA) (clusteredEvents s dsB))
    (hap' : Apart s (clusteredEvents s dsB) (clusteredEvents s dsA)) {wsA wsB : List (Weights K)}
    (hA : s.program.ComputesWeights eventsA (.ok wsA)) (hB : s.program.ComputesWeights eventsB (.ok wsB)) :
    ∃ events ws, EventsRead s.program m ds events ∧ s.program.ComputesWeights events (.ok ws) ∧
      ws.length = (allEvents ds).length ∧ ∀ i < (allEvents ds).length, ws[τ i]? = (wsA ++ wsB)[i]? := by
  obtain ⟨NA, hNA⟩ : ∃ NA, (allEvents dsA).length = NA := ⟨_, rfl⟩
  obtain ⟨NB, hNB⟩ : ∃ NB, (allEvents dsB).length = NB := ⟨_, rfl⟩
  obtain ⟨N, hN0⟩ : ∃ N, (allEvents ds).length = N := ⟨_, rfl⟩
  have heA' := heA.ids
  have heB' := heB.ids
  have hlA := heA.length_eq
  have hlB := heB.length_eq
  rw [hN0] at hlt hinj hpos hlen
  rw [hNA, hNB, hN0] at hN
  rw [hNA] at heA' hlA
  rw [hNB] at heB' hlB
  have idA : ∀ e ∈ eventsA, e.id < NA := fun e he => List.mem_range.1 (heA'.mem_iff.1 (List.mem_map.2 ⟨e, he, rfl⟩))
  have idB : ∀ e ∈ eventsB, e.id < NB := fun e he => List.mem_range.1 (heB'.mem_iff.1 (List.mem_map.2 ⟨e, he, rfl⟩))
  have he : EventsRead s.program m ds (eventsA.map (Event.reid τ) ++ eventsB.map (Event.reid fun i => τ (NA + i))) := by
    refine ⟨?_, fun ev hev => ?_⟩
    · rw [hN0]
      refine List.Perm.trans ?_ (range_map_perm hlt hinj)
      rw [hN, List.range_add, List.map_append, List.map_append, List.map_map, List.map_map, List.map_map]
      have g1 := heA'.map τ
      have g2 := heB'.map fun i => τ (NA + i)
      rw [List.map_map] at g1 g2
      exact g1.append g2
    · rcases List.mem_append.1 hev with hev | hev
      · obtain ⟨e, hem, rfl⟩ := List.mem_map.1 hev
        obtain ⟨e0, e1, q1, q2, q3, q4⟩ := heA.from_file e hem
        refine ⟨e0, e1, ?_, q2, ?_, q4⟩
        · have := idA e hem
          simp only [Event.reid]
          rw [hpos _ (by omega), List.getElem?_append_left (by omega)]
          exact q1
        · simp only [Event.reid]
          rw [q3]
      · obtain ⟨e, hem, rfl⟩ := List.mem_map.1 hev
        obtain ⟨e0, e1, q1, q2, q3, q4⟩ := heB.from_file e hem
        refine ⟨e0, e1, ?_, q2, ?_, q4⟩
        · have := idB e hem
          simp only [Event.reid]
          rw [hpos _ (by omega), List.getElem?_append_right (by omega), hNA, Nat.add_sub_cancel_left]
          exact q1
        · simp only [Event.reid]
          rw [q3]
  obtain ⟨hl, hmet, hnc⟩ := noChoice_read (s := { s with strategy := .next }) hd (by rw [hN0]; exact hlen) hm ⟨hn, Or.inl rfl⟩
    ⟨he.ids, he.from_file⟩
  have hle := he.length_eq
  rw [hN0] at hle
  have hids := he.ids
  rw [hN0, ← hle] at hids
  have hnd : NoEqualDistances s.distance s.maxCellSize (identified _) := hnc.identified.distances
  have hg := cres_goodComponents hc
  have hun := cres_unweight h0
  have hu := read_weights hg hm0 hm1 he
  have hidn : identified (eventsA.map (Event.reid τ) ++ eventsB.map (Event.reid fun i => τ (NA + i))) =
      (identified eventsA).map (Event.reid τ) ++ (identified eventsB).map (Event.reid fun i => τ (NA + i)) := by
    unfold identified
    rw [List.filter_append, List.filter_map, List.filter_map]
    rfl
  generalize hev : eventsA.map (Event.reid τ) ++ eventsB.map (Event.reid fun i => τ (NA + i)) = events at *
  have hsA : SubEvents τ id (identified events) (identified eventsA) := by
    refine ⟨fun i _ j _ h => h, fun i e hie => ?_⟩
    rw [hidn, id, List.getElem?_append_left (by simpa using (List.getElem?_eq_some_iff.1 hie).1), List.getElem?_map, hie]
    rfl
  have hsB : SubEvents (fun i => τ (NA + i)) (fun i => (identified eventsA).length + i) (identified events) (identified eventsB) := by
    refine ⟨fun i _ j _ h => Nat.add_lt_add_left h _, fun i e hie => ?_⟩
    rw [hidn, List.getElem?_append_right (by simp), List.getElem?_map, List.length_map, Nat.add_sub_cancel_left, hie]
    rfl
  have hli : (identified events).length = (identified eventsA).length + (identified eventsB).length := by
    rw [hidn, List.length_append, List.length_map, List.length_map]
  have hl' : (identified events).length ≤ usizeMax := (List.length_filter_le _ _).trans hl
  have hmi : IsMetricOn (· ∈ identified events) s.distance :=
    ⟨fun x y hx hy => hmet.symm x y (List.mem_of_mem_filter hx) (List.mem_of_mem_filter hy),
      fun x y z hx hy hz => hmet.triangle x y z (List.mem_of_mem_filter hx) (List.mem_of_mem_filter hy) (List.mem_of_mem_filter hz)⟩
  have far : ∀ {dsX dsY : List (EventFile K V)} {eventsX eventsY : List (Event K V)}, EventsRead s.program m dsX eventsX →
      EventsRead s.program m dsY eventsY → Apart s (clusteredEvents s dsX) (clusteredEvents s dsY) →
      ∀ x ∈ identified eventsX, ∀ y ∈ identified eventsY, ∀ i j, s.maxCellSize < s.distance { x with id := i } { y with id := j } := by
    intro dsX dsY eventsX eventsY hX hY hXY x hx y hy i j
    obtain ⟨a, ha, ha'⟩ := far_events hX x (List.mem_of_mem_filter hx)
    obtain ⟨b, hb, hb'⟩ := far_events hY y (List.mem_of_mem_filter hy)
    have h1 := identified_particles x hx
    have h2 := identified_particles y hy
    rw [ha'] at h1
    rw [hb'] at h2
    have := hXY a ha b hb h1 h2
    rw [ha', hb']
    exact lt_of_lt_of_eq this (hd a b _ _).symm
  obtain ⟨θA, isoA⟩ := isolated_events hc hd hl' (by omega) hmi identified_particles hnd hsA (by
    intro i hi j hj hno
    have hji : (identified eventsA).length ≤ j := by
      by_contra hcon
      exact hno j (by omega) rfl
    have g1 := List.getElem?_eq_getElem hi
    obtain ⟨k, rfl⟩ := Nat.exists_eq_add_of_le hji
    have g2 : (identified eventsB)[k]? = some _ := List.getElem?_eq_getElem (by omega)
    simp only [distWrapper, hsA.event i _ g1, hsB.event k _ g2]
    exact far heA heB hap _ (List.mem_of_getElem? g1) _ (List.mem_of_getElem? g2) _ _) hu
  obtain ⟨θB, isoB⟩ := isolated_events hc hd hl' (by omega) hmi identified_particles hnd hsB (by
    intro i hi j hj hno
    have hji : j < (identified eventsA).length := by
      by_contra hcon
      obtain ⟨k, rfl⟩ := Nat.exists_eq_add_of_le (not_lt.1 hcon)
      exact hno k (by omega) rfl
    have g1 := List.getElem?_eq_getElem hi
    have g2 := List.getElem?_eq_getElem hji
    have g3 := hsA.event j _ g2
    simp only [id] at g3
    simp only [distWrapper, hsB.event i _ g1, g3]
    exact far heB heA hap' _ (List.mem_of_getElem? g1) _ (List.mem_of_getElem? g2) _ _) hu
  have hidsA : (eventsA.map Event.id).Perm (List.range eventsA.length) := by rw [hlA]; exact heA'
  have hidsB : (eventsB.map Event.id).Perm (List.range eventsB.length) := by rw [hlB]; exact heB'
  obtain ⟨sA, a1, a2, a3⟩ := computes_state hun hidsA hA
  obtain ⟨sB, b1, b2, b3⟩ := computes_state hun hidsB hB
  obtain ⟨st, t1, t2, t3⟩ := reachable_both (mem := memOf (identified events)) isoA isoB (by
    intro t ht t' ht' htt
    obtain ⟨g1, g2, -⟩ := isoA.seed t _ (List.getElem?_eq_getElem ht)
    obtain ⟨k1, k2, -⟩ := isoB.seed t' _ (List.getElem?_eq_getElem ht')
    rw [htt, k2, Option.some.injEq] at g2
    simp only [id] at g2
    omega) (fun i hi => hsA.memOf hi) (fun i hi => hsB.memOf hi) a1 b1
  have hfin : st.Finished (s.program.seeds (identified events)) := by
    refine finished_both isoA isoB t2 t3 a2 b2 fun t i hti => ?_
    have hi : i < (identified events).length := by
      have := ((seeds_spec (strategy := s.strategy) hc.seeds hu).2 i).1 (List.mem_of_getElem? hti)
      exact this.1
    by_cases h : i < (identified eventsA).length
    · exact Or.inl ⟨i, h, rfl⟩
    · exact Or.inr ⟨i - (identified eventsA).length, by omega, by omega⟩
  obtain ⟨ws, w1, w2⟩ := state_computes hun hlog hg hu hids t1 hfin
  refine ⟨events, ws, he, w1, by rw [w2.length, hle, hN0], fun i hi => ?_⟩
  rw [hN0] at hi
  have hmemA : ∀ e ∈ identified eventsA, e.id < NA := fun e hem => idA e (List.mem_of_mem_filter hem)
  have hmemB : ∀ e ∈ identified eventsB, e.id < NB := fun e hem => idB e (List.mem_of_mem_filter hem)
  by_cases hiA : i < NA
  · rw [List.getElem?_append_left (by rw [a3.length, hlA]; exact hiA)]
    refine (WeightsFrom.sub hsA w2 a3 t2.mem (fun k hk => ?_) (fun k hk hne e hem hek => ?_) i (by omega)).symm
    · rw [hle]
      exact hlt k (by omega)
    · rw [hidn] at hem
      rcases List.mem_append.1 hem with hem | hem
      · obtain ⟨e', he', rfl⟩ := List.mem_map.1 hem
        have := hmemA e' he'
        exact hne e' he' (hinj _ (by omega) _ (by omega) hek)
      · obtain ⟨e', he', rfl⟩ := List.mem_map.1 hem
        have := hmemB e' he'
        have := hinj _ (by omega) _ (by omega) hek
        omega
  · obtain ⟨j, rfl⟩ := Nat.exists_eq_add_of_le (not_lt.1 hiA)
    rw [List.getElem?_append_right (by rw [a3.length, hlA]; omega), a3.length, hlA, Nat.add_sub_cancel_left]
    refine (WeightsFrom.sub hsB w2 b3 t3.mem (fun k hk => ?_) (fun k hk hne e hem hek => ?_) j (by omega)).symm
    · rw [hle]
      exact hlt _ (by omega)
    · rw [hidn] at hem
      rcases List.mem_append.1 hem with hem | hem
      · obtain ⟨e', he', rfl⟩ := List.mem_map.1 hem
        have := hmemA e' he'
        have := hinj _ (by omega) _ (by omega) hek
        omega
      · obtain ⟨e', he', rfl⟩ := List.mem_map.1 hem
        have := hmemB e' he'
        have := hinj _ (by omega) _ (by omega) hek
        exact hne e' he' (by omega)

end Runs

end Cres

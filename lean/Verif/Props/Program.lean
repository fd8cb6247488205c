import Verif.Proofs.Program
import Verif.Props.Reread
import Verif.Props.Search
import Verif.Props.Cluster
import Verif.Proofs.Oracles
import Verif.Proofs.RoundingCells

/-!
# C69: the whole program
-/

namespace Cres

open Spec CombinedIO Program

/-! ### any arithmetic on weights -/

section Any

variable {K V D P : Type*} [Zero D] [LinearOrder D] [Zero K] [One K] [Add K] [Mul K] [Div K] [NatCast K] [LinearOrder K]
  [LinearOrder V] [DecidableEq P]

/-- What is known about the events that were read; `m` is the number of weights. -/
structure EventsRead (p : Program K V D) (m : Nat) (ds : List (EventFile K V)) (events : List (Event K V)) : Prop where
  ids : (events.map Event.id).Perm (List.range (allEvents ds).length)
  from_file : ∀ ev ∈ events, ∃ e0 e1, (allEvents ds)[ev.id]? = some e0 ∧ p.cluster e0 = .ok e1 ∧ ev = { e1 with id := ev.id } ∧
    e0.weights.length = m

theorem EventsRead.length_eq {p : Program K V D} {m : Nat} {ds : List (EventFile K V)} {events : List (Event K V)}
    (h : EventsRead p m ds events) : events.length = (allEvents ds).length := by
  have := h.ids.length_eq
  simpa using this

theorem EventsRead.weights {p : Program K V D} (hg : GoodComponents p) {m : Nat} {ds : List (EventFile K V)}
    {events : List (Event K V)} (h : EventsRead p m ds events) : ∀ ev ∈ events, ev.weights.length = m := by
  intro ev hev
  obtain ⟨e0, e1, -, g2, g3, g4⟩ := h.from_file ev hev
  rw [g3]
  simp only
  rw [hg.cluster _ _ g2, g4]

theorem read_weights {p : Program K V D} (hg : GoodComponents p) {m : Nat} (hm0 : 0 < m) (hm1 : p.io.ctx.multi = false → m = 1)
    {ds : List (EventFile K V)} {events : List (Event K V)} (he : EventsRead p m ds events) :
    Uniform p.cfg (identified events).length m (memOf (identified events)) := by
  refine ⟨hm0, hm1, fun i hi => ?_⟩
  have := he.weights hg _ (List.mem_filter.1 (List.getElem_mem hi)).1
  simp [memOf, List.getElem?_eq_getElem hi, this]

/-- Without names there is one weight. -/
theorem single_weights {io : IOConfig K V} (hn : io.ctx.multi = true → io.ctx.names = []) {fs : FS P} {paths : List P}
    {ds : List (EventFile K V)} (hin : EventFiles io fs paths ds) : ∀ ev ∈ allEvents ds, ev.weights.length = 1 := by
  intro ev hev
  obtain ⟨x, -, hx⟩ := forall₂_mem (files_items hin).2 hev
  obtain ⟨w, hw⟩ := (tryConvert_single io.ctx hn hx).2
  rw [hw]
  rfl

theorem weightNo_zero (ev : Event K V) : weightNo 0 ev = centralWeight ev := by
  simp [weightNo, centralWeight, List.headD_eq_head?_getD, List.head?_eq_getElem?]

theorem default_length {cfg : Cfg} {w : Weights K} (h : w.length = 1 ∨ w = defaultWeights cfg) : w.length ≤ 1 := by
  rcases h with h | rfl
  · omega
  · unfold defaultWeights
    split_ifs <;> simp

/-- Reading from event files. -/
theorem reads_files {p : Program K V D} {m : Nat} {fs : FS P} {files : List (P × P)}
    {ds : List (EventFile K V)} (hm : ∀ ev ∈ allEvents ds, ev.weights.length = m) (hin : EventFiles p.io fs (files.map Prod.fst) ds) (hf : GoodFiles files) :
    ∃ s fs1, CombinedIO.new p.io files fs = (.ok (), s, fs1) ∧
      (∀ res x, p.ReadsEvents s fs1 res x →
        (∃ k, x = (List.replicate k Op.next).foldl (CombinedIO.step p.io) (s, fs1)) ∧
        (∀ events, res = .ok events → EventsRead p m ds events) ∧
        ((∀ ev ∈ allEvents ds, ∃ ev', p.cluster ev = .ok ev' ∧ ev'.id = 0) → ∃ events, res = .ok events)) ∧
      ∃ res x, p.ReadsEvents s fs1 res x := by
  obtain ⟨h1, h2⟩ := files_items hin
  have hps : ∀ d ∈ ds.map EventFile.toFileData, Presentable p.io d.kind d.records := by
    intro d hd
    obtain ⟨d', hd', rfl⟩ := List.mem_map.1 hd
    exact h1 d' hd'
  obtain ⟨s, fs1, h3, h4⟩ := new_ready (eventFiles_inputs hin) hf.disjoint hps
  have hitems := fun n => recordItems_ready _ n s fs1 h4
  refine ⟨s, fs1, h3, ?_, ?_⟩
  · intro res x hr
    cases hr with
    | @panic n x hx =>
      have := hitems n
      rw [hx] at this
      simp only at this
      split_ifs at this
      simp at this
    | @done n items x r hx hreach hfin =>
      have h5 := hitems n
      rw [hx] at h5
      simp only at h5
      split_ifs at h5
      simp only [Option.some.injEq, Outcome.ok.injEq] at h5
      subst h5
      refine ⟨?_, ?_, ?_⟩
      · obtain ⟨k, hk⟩ := recordItems_state p.io n s fs1
        rw [hx] at hk
        exact ⟨k, hk⟩
      · intro events hev
        obtain ⟨h6, h7⟩ := C29_ids_by_position hreach hfin hev
        rw [List.length_map, h2.length_eq] at h6
        refine ⟨h6, fun ev hev => ?_⟩
        obtain ⟨item, h8, r', ev0, ev1, rfl, h10, h11, -, h12⟩ := h7 ev hev
        rw [List.getElem?_map] at h8
        obtain ⟨r'', h13, h14⟩ := Option.map_eq_some_iff.1 h8
        cases h14
        have hlt : ev.id < (allEvents ds).length := by
          rw [← h2.length_eq]
          exact (List.getElem?_eq_some_iff.1 h13).1
        have h15 := forall₂_get h2 h13 (List.getElem?_eq_getElem hlt)
        rw [h10] at h15
        cases h15
        exact ⟨_, ev1, List.getElem?_eq_getElem hlt, h11, h12, hm _ (List.getElem_mem hlt)⟩
      · intro hcl
        refine (C29_succeeds_iff hreach hfin).2 ?_
        intro i item hi
        rw [List.getElem?_map] at hi
        obtain ⟨r', h13, rfl⟩ := Option.map_eq_some_iff.1 hi
        have hlt : i < (allEvents ds).length := by
          rw [← h2.length_eq]
          exact (List.getElem?_eq_some_iff.1 h13).1
        have h15 := forall₂_get h2 h13 (List.getElem?_eq_getElem hlt)
        obtain ⟨ev', h16, h17⟩ := hcl _ (List.getElem_mem hlt)
        exact ⟨_, r', _, ev', rfl, h15, h16, h17, rfl⟩
  · have h5 := hitems ((fileItems p.io (ds.map EventFile.toFileData)).length + 1)
    rw [if_pos (Nat.lt_succ_self _)] at h5
    have hend : ∀ (items : List (Except IOError EventRecord)) (n : Nat) (r : ReadState IOError EventRecord K V),
        ReadReachable (tryConvert p.io.ctx) p.cluster (fun r => r.1 == .ntuple) items r → readMeasure items r ≤ n →
        ∃ r', ReadReachable (tryConvert p.io.ctx) p.cluster (fun r => r.1 == .ntuple) items r' ∧ r'.Finished := by
      intro items n
      induction n with
      | zero =>
        intro r hr hm
        by_cases hfin : r.Finished
        · exact ⟨r, hr, hfin⟩
        · obtain ⟨a, r', hs⟩ := (C29_terminates (convert := tryConvert p.io.ctx) (cluster := p.cluster)
            (sequential := fun r => r.1 == .ntuple) (items := items) r).1 hfin
          have := (C29_terminates r).2 a r' hs
          omega
      | succ n ih =>
        intro r hr hm
        by_cases hfin : r.Finished
        · exact ⟨r, hr, hfin⟩
        · obtain ⟨a, r', hs⟩ := (C29_terminates (convert := tryConvert p.io.ctx) (cluster := p.cluster)
            (sequential := fun r => r.1 == .ntuple) (items := items) r).1 hfin
          have := (C29_terminates r).2 a r' hs
          exact ih r' (.step hr hs) (by omega)
    obtain ⟨r, hr1, hr2⟩ := hend ((fileItems p.io (ds.map EventFile.toFileData)).map .ok) _ .init .init (le_refl _)
    generalize hx : s.recordItems p.io ((fileItems p.io (ds.map EventFile.toFileData)).length + 1) fs1 = y at h5
    obtain ⟨y, x⟩ := y
    simp only at h5
    subst h5
    exact ⟨_, x, .done hx hr1 hr2⟩

/-- As `C30_entry_per_record`, with requirements only for the events that occur. -/
theorem runWeights_entries {E : Type*} {cfg : Cfg} {infoLog : Bool}
    {resample unweight : List (Event K V) → Outcome E (List (Event K V))} {events : List (Event K V)}
    (hids : (events.map Event.id).Perm (List.range events.length))
    {ws : List (Weights K)} (h : runWeights cfg infoLog resample unweight events = .ok ws) :
    ∃ resampled final, resample (identified events) = .ok resampled ∧ unweight resampled = .ok final ∧
      ws.length = events.length ∧
      (IsSubCollection (identified events) resampled → IsSubCollection resampled final →
        (final.map Event.id).Nodup ∧ (∀ e ∈ final, e.id < events.length) ∧ (∀ e ∈ final, ws[e.id]? = some e.weights)) ∧
      (∀ i < events.length, (∀ e ∈ final, e.id ≠ i) → ws[i]? = some (defaultWeights cfg)) := by
  obtain ⟨resampled, final, h1, h2, h3⟩ := runWeights_form h
  refine ⟨resampled, final, h1, h2, ?_, ?_, ?_⟩
  · rw [setWeights_length h3, List.length_replicate]
  · intro hr hu
    have hsub := subCollection_ids hr hu
    have hnd : (final.map Event.id).Nodup := by
      obtain ⟨l, hl1, hl2⟩ := hsub
      have : (events.map Event.id).Nodup := hids.nodup_iff.2 List.nodup_range
      exact hl1.nodup_iff.1 (this.sublist hl2)
    refine ⟨hnd, fun e he => ?_, fun e he => ?_⟩
    · exact List.mem_range.1 (hids.mem_iff.1 (hsub.subset (List.mem_map_of_mem he)))
    · refine setWeights_set h3 ?_ e ((sortById_perm final).mem_iff.2 he)
      exact (((sortById_perm final).map Event.id).nodup_iff).2 hnd
  · intro i hi hne
    rw [setWeights_other h3 i (fun e he => hne e ((sortById_perm final).mem_iff.1 he))]
    rw [List.getElem?_replicate, if_pos hi]

/-- The final state of resampling for a computation of weights. -/
theorem computesWeights_state {p : Program K V D} {events : List (Event K V)} {ws : List (Weights K)}
    (h : p.ComputesWeights events (.ok ws)) :
    ∃ s : State D K, Reachable p.cfg (identified events).length (p.nearest (identified events)) (p.seeds (identified events))
        (memOf (identified events)) s ∧ s.Finished (p.seeds (identified events)) ∧
      runWeights p.cfg p.infoLog (fun _ => (.ok (withWeights (identified events) s.mem) : Outcome IOError _)) p.unweight events =
        .ok ws := by
  generalize ho : (Outcome.ok ws : Outcome (CresError IOError) _) = o at h
  cases h with
  | @mk resampled hres =>
    cases hres with
    | log _ => simp [runWeights, Outcome.mapErr, Outcome.bind] at ho
    | task _ _ _ => simp [runWeights, Outcome.mapErr, Outcome.bind] at ho
    | @ok events' _ hres =>
      obtain ⟨s, hr, hfin, rfl⟩ := hres
      exact ⟨s, hr, hfin, rfl⟩

/-- The weights in the output in terms of those after resampling. -/
theorem weights_written_all {M : Type*} [AddCommMonoid M] {p : Program K V D} (hg : GoodComponents p) (hun : p.unweight = .ok) {m : Nat} (hm0 : 0 < m)
    (hm1 : p.io.ctx.multi = false → m = 1) {ds : List (EventFile K V)}
    {events : List (Event K V)} (he : EventsRead p m ds events) {ws : List (Weights K)} {s : State D K}
    (hr : Reachable p.cfg (identified events).length (p.nearest (identified events)) (p.seeds (identified events))
      (memOf (identified events)) s) (hfin : s.Finished (p.seeds (identified events)))
    (hrun : runWeights p.cfg p.infoLog (fun _ => (.ok (withWeights (identified events) s.mem) : Outcome IOError _)) p.unweight
      events = .ok ws) :
    ws.length = (allEvents ds).length ∧
    (∀ w ∈ ws, (w.length = m ∧ ∃ j < (identified events).length, w = s.mem j) ∨ w = defaultWeights p.cfg) ∧
    ∀ k,
    (∀ φ : K → M,
      ((List.zipWith reweighted ws (allEvents ds)).map fun e => φ (weightNo k e)).sum =
        ∑ j ∈ Finset.range (identified events).length, φ (wt s.mem k j) +
          ((events.filter fun e => e.outgoingByPid.isEmpty).map fun e =>
            φ (if p.io.ctx.multi then weightNo k e else 0)).sum ∧
      ((allEvents ds).map fun e => φ (weightNo k e)).sum =
        ∑ j ∈ Finset.range (identified events).length, φ (wt (memOf (identified events)) k j) +
          ((events.filter fun e => e.outgoingByPid.isEmpty).map fun e => φ (weightNo k e)).sum ∧
      (((allEvents ds).filter (HasParticles p)).map fun e => φ (weightNo k e)).sum =
        ∑ j ∈ Finset.range (identified events).length, φ (wt (memOf (identified events)) k j)) ∧
    ∀ (i : Nat) ev0 ev', (allEvents ds)[i]? = some ev0 → (List.zipWith reweighted ws (allEvents ds))[i]? = some ev' →
      (HasParticles p ev0 = true → ∃ j < (identified events).length, weightNo k ev' = wt s.mem k j) ∧
      (HasParticles p ev0 = false → weightNo k ev' = if p.io.ctx.multi then weightNo k ev0 else 0) := by
  have hids : (events.map Event.id).Perm (List.range events.length) := by rw [he.length_eq]; exact he.ids
  have hu := read_weights hg hm0 hm1 he
  obtain ⟨resampled, final, h1, h2, h3, h4, h5⟩ := runWeights_entries hids hrun
  simp only [Outcome.ok.injEq] at h1
  rw [hun] at h2
  simp only [Outcome.ok.injEq] at h2
  subst h1
  subst h2
  have h4 := (h4 (withWeights_subCollection _ _) (List.Subperm.refl _)).2.2
  have hv := hg.valid (identified events)
  obtain ⟨A, hA⟩ := inv_reachable hv hu hr
  have hlen : ∀ i < (identified events).length, (s.mem i).length = m := by
    intro i hi
    rw [finished_mem hA hfin]
    exact hA.uniform.length i hi
  have hid : ∀ (j : Nat) e, (identified events)[j]? = some e → ws[e.id]? = some (s.mem j) := by
    intro j e hj
    refine h4 { e with weights := s.mem j } (List.mem_of_getElem? (i := j) ?_)
    unfold withWeights
    rw [List.getElem?_mapIdx, hj]
    rfl
  have hno : ∀ e ∈ events, e.outgoingByPid.isEmpty = true → ws[e.id]? = some (defaultWeights p.cfg) := by
    intro e hev hp
    refine h5 e.id ?_ ?_
    · exact List.mem_range.1 (hids.mem_iff.1 (List.mem_map_of_mem hev))
    · intro e' he' hee
      have hm : e.id ∈ (identified events).map Event.id := by
        rw [← hee]
        exact (withWeights_subCollection (identified events) s.mem).subset (List.mem_map_of_mem he')
      obtain ⟨e2, he2, hid2⟩ := List.mem_map.1 hm
      have hnd : (events.map Event.id).Nodup := hids.nodup_iff.2 List.nodup_range
      have hmem := List.mem_filter.1 he2
      have : e2 = e := List.inj_on_of_nodup_map hnd hmem.1 hev hid2
      subst this
      have := hmem.2
      rw [hp] at this
      simp at this
  have hl : ws.length = (allEvents ds).length := by rw [h3, he.length_eq]
  have hzl : (List.zipWith reweighted ws (allEvents ds)).length = (allEvents ds).length := by
    rw [List.length_zipWith, hl, Nat.min_self]
  have hz : ∀ (i : Nat) w e0, ws[i]? = some w → (allEvents ds)[i]? = some e0 →
      (List.zipWith reweighted ws (allEvents ds))[i]? = some (reweighted w e0) := by
    intro i w e0 g1 g2
    rw [List.getElem?_zipWith, g1, g2]
  refine ⟨hl, ?_, fun k => ?_⟩
  · intro w hw
    obtain ⟨i, hi⟩ := List.getElem?_of_mem hw
    have hlt : i < events.length := by
      rw [← h3]
      exact (List.getElem?_eq_some_iff.1 hi).1
    obtain ⟨e, hev, rfl⟩ := List.mem_map.1 (hids.mem_iff.2 (List.mem_range.2 hlt))
    by_cases hp : e.outgoingByPid.isEmpty = true
    · rw [hno e hev hp] at hi
      cases hi
      exact Or.inr rfl
    · obtain ⟨j, hj⟩ := List.getElem?_of_mem (show e ∈ identified events from List.mem_filter.2 ⟨hev, by simpa using hp⟩)
      rw [hid j e hj] at hi
      cases hi
      have hjl := (List.getElem?_eq_some_iff.1 hj).1
      exact Or.inl ⟨hlen j hjl, j, hjl, rfl⟩
  · have hc0 : ∀ ev ∈ events, ∃ e0, (allEvents ds)[ev.id]? = some e0 ∧ weightNo k e0 = weightNo k ev ∧
        HasParticles p e0 = !ev.outgoingByPid.isEmpty := by
      intro ev hev
      obtain ⟨e0, e1, g1, g2, g3, -⟩ := he.from_file ev hev
      refine ⟨e0, g1, ?_, ?_⟩
      · rw [g3]
        simp only [weightNo, hg.cluster _ _ g2]
      · rw [HasParticles, g2, g3]
    have hcell : ∀ (j : Nat) (e0 : Event K V), j < (identified events).length → weightNo k (reweighted (s.mem j) e0) = wt s.mem k j := by
      intro j e0 hj
      have hne : s.mem j ≠ [] := by
        intro h0
        have := hlen j hj
        rw [h0] at this
        simp at this
        omega
      simp [reweighted, hne, weightNo, wt]
    have hdef : ∀ e0 : Event K V, weightNo k (reweighted (defaultWeights p.cfg) e0) =
        if p.io.ctx.multi then weightNo k e0 else 0 := by
      intro e0
      cases hm : p.io.ctx.multi with
      | true => simp [defaultWeights, Program.cfg, hm, reweighted]
      | false => cases k <;> simp [defaultWeights, Program.cfg, hm, reweighted, weightNo]
    have hold : ∀ (j : Nat) e, (identified events)[j]? = some e → weightNo k e = wt (memOf (identified events)) k j := by
      intro j e hj
      simp [wt, memOf, hj, weightNo]
    refine ⟨?_, ?_⟩
    · intro φ
      refine ⟨?_, ?_, ?_⟩
      · rw [sum_by_ids (events := events) (fun e => φ (weightNo k e)) (by rw [hzl]; exact he.ids)]
        refine (sum_identified events _).trans ?_
        congr 1
        · refine sum_positions _ _ _ fun j e hj => ?_
          have hm := List.mem_filter.1 (List.mem_of_getElem? hj)
          obtain ⟨e0, g1, -, -⟩ := hc0 e hm.1
          rw [hz _ _ _ (hid j e hj) g1]
          simp only [Option.map_some, Option.getD_some]
          rw [hcell j e0 (List.getElem?_eq_some_iff.1 hj).1]
        · congr 1
          apply List.map_congr_left
          intro e hev
          obtain ⟨hev, hp⟩ := List.mem_filter.1 hev
          obtain ⟨e0, g1, g2, g3⟩ := hc0 e hev
          rw [hz _ _ _ (hno e hev hp) g1]
          simp only [Option.map_some, Option.getD_some]
          rw [hdef, g2]
      · rw [sum_by_ids (events := events) (fun e => φ (weightNo k e)) he.ids]
        refine (sum_identified events _).trans ?_
        congr 1
        · refine sum_positions _ _ _ fun j e hj => ?_
          have hm := List.mem_filter.1 (List.mem_of_getElem? hj)
          obtain ⟨e0, g1, g2, -⟩ := hc0 e hm.1
          rw [g1]
          simp only [Option.map_some, Option.getD_some]
          rw [g2, hold j e hj]
        · congr 1
          apply List.map_congr_left
          intro e hev
          obtain ⟨hev, hp⟩ := List.mem_filter.1 hev
          obtain ⟨e0, g1, g2, g3⟩ := hc0 e hev
          rw [g1]
          simp only [Option.map_some, Option.getD_some]
          rw [g2]
      · rw [sum_filter_ite, sum_by_ids (events := events) _ he.ids]
        refine (sum_identified events _).trans ?_
        rw [List.sum_eq_zero (l := List.map _ (events.filter fun e => e.outgoingByPid.isEmpty)) ?_, add_zero]
        · refine sum_positions _ _ _ fun j e hj => ?_
          have hm := List.mem_filter.1 (List.mem_of_getElem? hj)
          obtain ⟨e0, g1, g2, g3⟩ := hc0 e hm.1
          have h1 : HasParticles p e0 = true := by rw [g3]; exact hm.2
          rw [g1]
          simp only [Option.map_some, Option.getD_some, h1, if_true]
          rw [g2, hold j e hj]
        · intro x hx
          obtain ⟨e, hem, rfl⟩ := List.mem_map.1 hx
          obtain ⟨hem, hp⟩ := List.mem_filter.1 hem
          obtain ⟨e0, g1, g2, g3⟩ := hc0 e hem
          rw [g1]
          simp [g3, hp]
    · intro i ev0 ev' hi hi'
      have hlt : i < events.length := by rw [he.length_eq]; exact (List.getElem?_eq_some_iff.1 hi).1
      obtain ⟨e, hev, rfl⟩ := List.mem_map.1 (hids.mem_iff.2 (List.mem_range.2 hlt))
      obtain ⟨e0, g1, g2, g3⟩ := hc0 e hev
      rw [g1, Option.some.injEq] at hi
      subst hi
      constructor
      · intro hp
        rw [hp] at g3
        obtain ⟨j, hj⟩ := List.getElem?_of_mem (show e ∈ identified events from List.mem_filter.2 ⟨hev, g3.symm⟩)
        have hjl := (List.getElem?_eq_some_iff.1 hj).1
        rw [hz _ _ _ (hid j e hj) g1, Option.some.injEq] at hi'
        exact ⟨j, hjl, by rw [← hi', hcell j _ hjl]⟩
      · intro hp
        rw [hp] at g3
        have hp' : e.outgoingByPid.isEmpty = true := by simpa using g3.symm
        rw [hz _ _ _ (hno e hev hp') g1, Option.some.injEq] at hi'
        rw [← hi', hdef]

theorem split_events (f : List K → Event K V → Event K V) (g : EventFile K V → List (List K) → FileData K) : ∀ (ds : List (EventFile K V)) (ws : List (List K)),
    (∀ d ∈ ds, d.events.length = d.records.length) →
    allEvents (List.zipWith (fun d w => ⟨g d w, List.zipWith f w d.events⟩) ds (splitWeights ds ws)) = List.zipWith f ws (allEvents ds) := by
  intro ds
  induction ds with
  | nil => intro ws _; simp [allEvents]
  | cons d ds ih =>
    intro ws h
    have h1 := h d (by simp)
    have ih := ih (ws.drop d.records.length) (fun d' hd' => h d' (by simp [hd']))
    unfold allEvents at ih ⊢
    rw [splitWeights, List.zipWith_cons_cons, List.flatMap_cons, ih, List.flatMap_cons]
    simp only
    conv_rhs => rw [← List.take_append_drop d.records.length ws]
    by_cases hl : d.records.length ≤ ws.length
    · rw [List.zipWith_append (by rw [List.length_take, h1]; omega)]
    · rw [List.drop_eq_nil_of_le (by omega), List.take_of_length_le (by omega)]
      simp only [List.append_nil, List.zipWith_nil_left]
      apply List.ext_getElem?
      intro i
      rw [List.getElem?_zipWith, List.getElem?_zipWith]
      by_cases hi : i < ws.length
      · rw [List.getElem?_append_left (by omega)]
      · rw [List.getElem?_eq_none (l := ws) (by omega)]

theorem reweight_events (cfg : IOConfig K V) : ∀ (ds : List (EventFile K V)) (ws : List (List K)),
    (∀ d ∈ ds, d.events.length = d.records.length) →
    allEvents (List.zipWith (EventFile.reweight cfg) ds (splitWeights ds ws)) = List.zipWith reweighted ws (allEvents ds) :=
  split_events reweighted fun d w => ⟨d.kind, d.header, List.zipWith (updated cfg d.kind) w d.records⟩

theorem reweight_same (cfg : IOConfig K V) : ∀ (ds : List (EventFile K V)) (ws : List (List K)),
    (∀ d ∈ ds, d.events.length = d.records.length) → ws.length = (allEvents ds).length →
    List.Forall₂ SameExceptWeights ds (List.zipWith (EventFile.reweight cfg) ds (splitWeights ds ws)) := by
  intro ds
  induction ds with
  | nil => intro ws _ _; exact .nil
  | cons d ds ih =>
    intro ws h hl
    have h1 := h d (by simp)
    have hl' : ws.length = d.records.length + (allEvents ds).length := by
      rw [hl]
      simp [allEvents, h1]
    refine .cons ⟨rfl, rfl, ?_, ?_⟩ (ih _ (fun d' hd' => h d' (by simp [hd'])) ?_)
    · simp only [EventFile.reweight, List.length_zipWith, List.length_take]
      omega
    · simp only [EventFile.reweight]
      refine forall₂_of_get ?_ ?_
      · rw [List.length_zipWith, List.length_take]
        omega
      · intro i e e' g1 g2
        rw [List.getElem?_zipWith, g1] at g2
        cases hw : (ws.take d.records.length)[i]? with
        | none => rw [hw] at g2; simp at g2
        | some w =>
          rw [hw] at g2
          simp only [Option.some.injEq] at g2
          subst g2
          unfold reweighted
          split_ifs <;> rfl
    · rw [List.length_drop]
      omega

theorem store_events (cfg : IOConfig K V) : ∀ (ds : List (EventFile K V)) (ws : List (List K)),
    (∀ d ∈ ds, d.events.length = d.records.length) → ws.length = (allEvents ds).length →
    allEvents (List.zipWith (EventFile.store cfg) ds (splitWeights ds ws)) =
      List.zipWith reweighted (storedWeights ds ws) (allEvents ds) ∧
    List.Forall₂ SameExceptWeights ds (List.zipWith (EventFile.store cfg) ds (splitWeights ds ws)) ∧
    List.Forall₂ (fun w w' => ∃ d ∈ ds, w' = w.map (stored d.kind)) ws (storedWeights ds ws) := by
  intro ds
  induction ds with
  | nil =>
    intro ws _ hl
    have : ws = [] := by simpa [allEvents] using hl
    subst this
    exact ⟨by simp [allEvents], .nil, .nil⟩
  | cons d ds ih =>
    intro ws h hl
    have h1 := h d (by simp)
    have hl' : ws.length = d.records.length + (allEvents ds).length := by
      rw [hl]
      simp [allEvents, h1]
    obtain ⟨ih1, ih2, ih3⟩ := ih (ws.drop d.records.length) (fun d' hd' => h d' (by simp [hd'])) (by rw [List.length_drop]; omega)
    have htl : (ws.take d.records.length).length = d.records.length := by
      rw [List.length_take]
      omega
    refine ⟨?_, .cons ⟨rfl, rfl, ?_, ?_⟩ ih2, ?_⟩
    · unfold allEvents at ih1 ⊢
      rw [splitWeights, List.zipWith_cons_cons, List.flatMap_cons, ih1, List.flatMap_cons, storedWeights,
        List.zipWith_append (by rw [List.length_map, htl, h1]), List.zipWith_map_left]
      rfl
    · simp only [EventFile.store, List.length_zipWith]
      omega
    · simp only [EventFile.store]
      refine forall₂_of_get ?_ ?_
      · rw [List.length_zipWith]
        omega
      · intro i e e' g1 g2
        rw [List.getElem?_zipWith, g1] at g2
        cases hw : (ws.take d.records.length)[i]? with
        | none => rw [hw] at g2; simp at g2
        | some w =>
          rw [hw] at g2
          simp only [Option.some.injEq] at g2
          subst g2
          unfold reweighted
          split_ifs <;> rfl
    · rw [storedWeights]
      conv => arg 2; rw [← List.take_append_drop d.records.length ws]
      refine List.rel_append ?_ (ih3.imp fun w w' ⟨d', hd', e⟩ => ⟨d', by simp [hd'], e⟩)
      rw [List.forall₂_map_right_iff]
      exact List.forall₂_same.2 fun w _ => ⟨d, by simp, rfl⟩

/-- Any run that gets as far as updating the weights. -/
theorem run_files_stored {p : Program K V D} {m : Nat} {fs fs' : FS P}
    {files : List (P × P)} {ds : List (EventFile K V)}
    (hm : ∀ ev ∈ allEvents ds, ev.weights.length = m) (hin : EventFiles p.io fs (files.map Prod.fst) ds) (hf : GoodFiles files)
    {events : Option (List (Event K V))} {ws : List (Weights K)} {res : Outcome (CresError IOError) Unit}
    (h : p.Run files fs events (some ws) res fs') :
    (∀ q, q ∉ files.map Prod.snd → fs' q = fs q) ∧ ws.length = (allEvents ds).length ∧
    ((∀ w ∈ ws, ∀ d ∈ ds, CanWrite p.io d w) →
      res = .ok () ∧
      EventFiles p.io fs' (files.map Prod.snd) (List.zipWith (EventFile.reweight p.io) ds (splitWeights ds ws)) ∧
      List.Forall₂ SameExceptWeights ds (List.zipWith (EventFile.reweight p.io) ds (splitWeights ds ws)) ∧
      allEvents (List.zipWith (EventFile.reweight p.io) ds (splitWeights ds ws)) = List.zipWith reweighted ws (allEvents ds)) ∧
    ((∀ w ∈ ws, ∀ d ∈ ds, CanStore p.io d w) →
      res = .ok () ∧
      EventFiles p.io fs' (files.map Prod.snd) (List.zipWith (EventFile.store p.io) ds (splitWeights ds ws)) ∧
      List.Forall₂ SameExceptWeights ds (List.zipWith (EventFile.store p.io) ds (splitWeights ds ws)) ∧
      allEvents (List.zipWith (EventFile.store p.io) ds (splitWeights ds ws)) =
        List.zipWith reweighted (storedWeights ds ws) (allEvents ds) ∧
      List.Forall₂ (fun w w' => ∃ d ∈ ds, w' = w.map (stored d.kind)) ws (storedWeights ds ws)) := by
  have hel : ∀ d ∈ ds, d.events.length = d.records.length := by
    intro d hd
    obtain ⟨q, -, content, -, hc⟩ := forall₂_mem hin hd
    exact hc.2.length_eq.symm
  have htot : (allEvents ds).length = total (ds.map EventFile.toFileData) := by
    clear hin h hm
    induction ds with
    | nil => rfl
    | cons d ds ih =>
      have ih := ih (fun d' hd' => hel d' (by simp [hd']))
      simp only [allEvents, total, List.flatMap_cons, List.length_append, List.map_cons, List.sum_cons] at ih ⊢
      rw [ih, hel d (by simp)]
  obtain ⟨s0, fs0, hnew, hread, -⟩ := reads_files hm hin hf
  generalize hws : some ws = ows at h
  cases h with
  | createErr _ | createPanic _ | readErr _ _ | readPanic _ _ | weightsErr _ _ _ | weightsPanic _ _ _ => simp at hws
  | @update s fs1 events ws' x h1 h2 h3 =>
    simp only [Option.some.injEq] at hws
    subst hws
    rw [hnew] at h1
    simp only [Prod.mk.injEq, true_and] at h1
    obtain ⟨rfl, rfl⟩ := h1
    obtain ⟨⟨k, hk⟩, h4, -⟩ := hread _ _ h2
    have hev := h4 events rfl
    have hx : x = (List.replicate k Op.next).foldl (CombinedIO.step p.io) (CombinedIO.new p.io files fs).2 := by
      rw [hk, hnew]
    have hl : ws.length = (allEvents ds).length := by
      generalize ho : (Outcome.ok ws : Outcome (CresError IOError) _) = o at h3
      cases h3 with
      | mk _ =>
        obtain ⟨_, _, _, _, h7⟩ := runWeights_form ho.symm
        rw [setWeights_length h7, List.length_replicate, hev.length_eq]
    refine ⟨?_, hl, fun hw => ?_, fun hw => ?_⟩
    · have hinv := history_inv p.io (List.replicate k Op.next) (new_inv p.io files fs)
      rw [← hx] at hinv
      exact (updateAll_inv p.io ws hinv).other
    · obtain ⟨h5, h6⟩ := all_files_rewritten hin hf.disjoint hf.nodup (List.replicate k Op.next) (by rw [hl, htot]) hw hx
      exact ⟨by rw [h5]; rfl, h6, reweight_same p.io ds ws hel hl, reweight_events p.io ds ws hel⟩
    · obtain ⟨h5, h6⟩ := all_files_stored hin hf.disjoint hf.nodup (List.replicate k Op.next) (by rw [hl, htot]) hw hx
      obtain ⟨g1, g2, g3⟩ := store_events p.io ds ws hel hl
      exact ⟨by rw [h5]; rfl, h6, g2, g1, g3⟩

/-- The same for weights that can be read exactly. -/
theorem run_files {p : Program K V D} {m : Nat} {fs fs' : FS P}
    {files : List (P × P)} {ds : List (EventFile K V)}
    (hm : ∀ ev ∈ allEvents ds, ev.weights.length = m) (hin : EventFiles p.io fs (files.map Prod.fst) ds) (hf : GoodFiles files)
    {events : Option (List (Event K V))} {ws : List (Weights K)} {res : Outcome (CresError IOError) Unit}
    (h : p.Run files fs events (some ws) res fs') :
    (∀ q, q ∉ files.map Prod.snd → fs' q = fs q) ∧ ws.length = (allEvents ds).length ∧
    ((∀ w ∈ ws, ∀ d ∈ ds, CanWrite p.io d w) →
      res = .ok () ∧
      EventFiles p.io fs' (files.map Prod.snd) (List.zipWith (EventFile.reweight p.io) ds (splitWeights ds ws)) ∧
      List.Forall₂ SameExceptWeights ds (List.zipWith (EventFile.reweight p.io) ds (splitWeights ds ws)) ∧
      allEvents (List.zipWith (EventFile.reweight p.io) ds (splitWeights ds ws)) = List.zipWith reweighted ws (allEvents ds)) :=
  let ⟨h1, h2, h3, _⟩ := run_files_stored hm hin hf h
  ⟨h1, h2, h3⟩

theorem run_events_all {p : Program K V D} {m : Nat} {fs fs' : FS P}
    {files : List (P × P)} {ds : List (EventFile K V)}
    (hm : ∀ ev ∈ allEvents ds, ev.weights.length = m) (hin : EventFiles p.io fs (files.map Prod.fst) ds) (hf : GoodFiles files)
    {oevents : Option (List (Event K V))} {ws : List (Weights K)} {res : Outcome (CresError IOError) Unit}
    (h : p.Run files fs oevents (some ws) res fs') :
    ∃ events, oevents = some events ∧ EventsRead p m ds events ∧ p.ComputesWeights events (.ok ws) := by
  obtain ⟨s0, fs0, hnew, hread, -⟩ := reads_files hm hin hf
  generalize hws : some ws = ows at h
  cases h with
  | createErr _ | createPanic _ | readErr _ _ | readPanic _ _ | weightsErr _ _ _ | weightsPanic _ _ _ => simp at hws
  | @update s fs1 events ws' x g1 g2 g3 =>
    simp only [Option.some.injEq] at hws
    subst hws
    rw [hnew] at g1
    simp only [Prod.mk.injEq, true_and] at g1
    obtain ⟨rfl, rfl⟩ := g1
    exact ⟨events, rfl, (hread _ _ g2).2.1 events rfl, g3⟩

/-- **C69**, files: any run with any unweighter that gets as far as updating the weights. No file is touched except the
output files. If the weights are central weights that can be written, the run succeeds, the output files are event files
in the same formats, with the same headers and the same particles in each event. The events have the new weights `ws`. -/
theorem C69_files_partial {p : Program K V D} (hn : p.io.ctx.multi = true → p.io.ctx.names = []) {fs fs' : FS P}
    {files : List (P × P)} {ds : List (EventFile K V)} (hin : EventFiles p.io fs (files.map Prod.fst) ds) (hf : GoodFiles files)
    {events : Option (List (Event K V))} {ws : List (Weights K)} {res : Outcome (CresError IOError) Unit}
    (h : p.Run files fs events (some ws) res fs') :
    (∀ q, q ∉ files.map Prod.snd → fs' q = fs q) ∧ ws.length = (allEvents ds).length ∧
    ((∀ w ∈ ws, w.length ≤ 1 ∧ ∀ x ∈ w, ∀ d ∈ ds, Writable p.io d.kind x) →
      res = .ok () ∧ ∃ ds', EventFiles p.io fs' (files.map Prod.snd) ds' ∧ List.Forall₂ SameExceptWeights ds ds' ∧
        allEvents ds' = List.zipWith reweighted ws (allEvents ds)) := by
  obtain ⟨h1, h2, h3⟩ := run_files (single_weights hn hin) hin hf h
  refine ⟨h1, h2, fun hw => ?_⟩
  obtain ⟨h4, h5⟩ := h3 fun w hwm => canWrite_central hn hin (hw w hwm).1 (hw w hwm).2
  exact ⟨h4, _, h5⟩

/-- **C69**: the output files can be read in only one way, so that the statements below are about all events in them. -/
theorem C69_unique_content {io : IOConfig K V} {fs : FS P} {paths : List P} {ds ds' : List (EventFile K V)}
    (h : EventFiles io fs paths ds) (h' : EventFiles io fs paths ds') : ds = ds' := eventFiles_unique h h'

/-- The number of weights that are passed on, without unweighting. -/
theorem weights_length {p : Program K V D} (hg : GoodComponents p) (hun : p.unweight = .ok) {m : Nat} (hm0 : 0 < m)
    (hm1 : p.io.ctx.multi = false → m = 1) {ds : List (EventFile K V)}
    {events : List (Event K V)} (he : EventsRead p m ds events) {ws : List (Weights K)} (h : p.ComputesWeights events (.ok ws)) :
    ws.length = (allEvents ds).length ∧ ∀ w ∈ ws, w.length = m ∨ w = defaultWeights p.cfg := by
  obtain ⟨s, hr, hfin, hrun⟩ := computesWeights_state h
  obtain ⟨h1, h2, -⟩ := weights_written_all (M := ℕ) hg hun hm0 hm1 he hr hfin hrun
  exact ⟨h1, fun w hw => (h2 w hw).imp_left And.left⟩

/-- Weights that are equal for all events stay equal. -/
theorem weights_equal {p : Program K V D} (hg : GoodComponents p) (hun : p.unweight = .ok) {m : Nat} (hm0 : 0 < m)
    (hm1 : p.io.ctx.multi = false → m = 1) {ds : List (EventFile K V)}
    {events : List (Event K V)} (he : EventsRead p m ds events) {ws : List (Weights K)} (h : p.ComputesWeights events (.ok ws))
    {k l : Nat} (hk : k < m) (hl : l < m) (heq : ∀ ev ∈ allEvents ds, weightNo k ev = weightNo l ev) :
    ∀ w ∈ ws, w.getD k 0 = w.getD l 0 := by
  obtain ⟨s, hr, hfin, hrun⟩ := computesWeights_state h
  obtain ⟨-, h2, -⟩ := weights_written_all (M := ℕ) hg hun hm0 hm1 he hr hfin hrun
  intro w hw
  rcases h2 w hw with ⟨-, j, hj, rfl⟩ | rfl
  · have hu := read_weights hg hm0 hm1 he
    obtain ⟨A, hA⟩ := inv_reachable (hg.valid _) hu hr
    rw [finished_mem hA hfin]
    refine applyCells_equal hk hl s.log hu (fun c hc => ?_) hA.log (fun i hi => ?_) j hj
    · obtain ⟨t, seed, g1, -, g3⟩ := inv_log_cells hA c hc
      exact ⟨g3.ne_nil, g3.lt (hg.valid _) (List.mem_of_getElem? g1)⟩
    have hmem : (identified events)[i] ∈ events := (List.mem_filter.1 (List.getElem_mem hi)).1
    obtain ⟨e0, e1, k1, k2, k3, -⟩ := he.from_file _ hmem
    have h4 : ∀ k, wt (memOf (identified events)) k i = weightNo k e0 := by
      intro k
      simp only [wt, memOf, List.getElem?_eq_getElem hi, Option.map_some, Option.getD_some, weightNo]
      rw [k3]
      simp only [hg.cluster _ _ k2]
    rw [h4, h4]
    exact heq e0 (List.mem_of_getElem? k1)
  · unfold defaultWeights
    split_ifs
    · rfl
    · cases k <;> cases l <;> rfl

theorem logSums_ok {cfg : Cfg} (hd : cfg.debug = false) {infoLog : Bool} {events : List (Event K V)}
    (h : ∀ e ∈ events, e.weights ≠ []) : logSumsPanics cfg infoLog events = false := by
  unfold logSumsPanics
  have hm : events.mapM Event.weight = some (events.map centralWeight) := by
    induction events with
    | nil => rfl
    | cons e es ih =>
      rw [List.mapM_cons, weight_eq (h e List.mem_cons_self), ih (fun x hx => h x (List.mem_cons_of_mem _ hx))]
      rfl
  rw [hm]
  simp [hd]

/-- The step between reading and writing. -/
theorem weights_computed {p : Program K V D} (hd : p.io.ctx.debug = false) (hg : GoodComponents p) (hun : p.unweight = .ok)
    {m : Nat} (hm0 : 0 < m) (hm1 : p.io.ctx.multi = false → m = 1) {ds : List (EventFile K V)} {events : List (Event K V)} (he : EventsRead p m ds events) :
    (∀ o, p.ComputesWeights events o → ∃ ws, o = .ok ws) ∧ ∃ o, p.ComputesWeights events o := by
  have hids : (events.map Event.id).Perm (List.range events.length) := by rw [he.length_eq]; exact he.ids
  have hone := he.weights hg
  have hu := read_weights hg hm0 hm1 he
  have hlog : logSumsPanics p.cfg p.infoLog (identified events) = false := by
    refine logSums_ok hd fun e hev => ?_
    intro h0
    have := hone e (List.mem_filter.1 hev).1
    rw [h0] at this
    simp at this
    omega
  have hv := hg.valid (identified events)
  refine ⟨fun o h => ?_, ?_⟩
  · cases h with
    | @mk resampled hres =>
      cases hres with
      | log h => rw [show events.filter _ = identified events from rfl, hlog] at h; simp at h
      | task h hr ht => exact absurd ht (C08_no_panic hd hv hu hr _)
      | @ok events' _ hres =>
        obtain ⟨s, hr, hfin, rfl⟩ := hres
        obtain ⟨A, hA⟩ := inv_reachable hv hu hr
        refine runWeights_succeeds (resampled := withWeights (identified events) s.mem) (final := withWeights (identified events) s.mem)
          hids (withWeights_subCollection _ _) (List.Subperm.refl _) rfl (by rw [hun]) ?_ (Or.inl hd)
        intro e hev
        obtain ⟨i, hi⟩ := List.getElem?_of_mem hev
        unfold withWeights at hi
        rw [List.getElem?_mapIdx] at hi
        obtain ⟨e0, hi0, rfl⟩ := Option.map_eq_some_iff.1 hi
        have hlt := (List.getElem?_eq_some_iff.1 hi0).1
        simp only
        rw [finished_mem hA hfin]
        exact hA.uniform.ne_nil hlt
  · obtain ⟨sched, s, h1, h2⟩ := C08_can_finish hd hv hu (Reachable.init (mem := memOf (identified events)))
    exact ⟨_, .mk (.ok hlog ⟨s, runSchedule_reachable _ Reachable.init h1, h2, rfl⟩)⟩

/-- Every run gets as far as updating the weights, and there is such a run. -/
theorem run_completes {p : Program K V D} (hd : p.io.ctx.debug = false) {m : Nat} (hm0 : 0 < m)
    (hm1 : p.io.ctx.multi = false → m = 1) (hg : GoodComponents p) (hun : p.unweight = .ok) {fs : FS P}
    {files : List (P × P)} {ds : List (EventFile K V)}
    (hm : ∀ ev ∈ allEvents ds, ev.weights.length = m) (hin : EventFiles p.io fs (files.map Prod.fst) ds) (hf : GoodFiles files)
    (hcl : ∀ ev ∈ allEvents ds, ∃ ev', p.cluster ev = .ok ev' ∧ ev'.id = 0) :
    (∀ events ws res fs', p.Run files fs events ws res fs' → ∃ ws', ws = some ws') ∧
    ∃ events ws res fs', p.Run files fs events ws res fs' := by
  obtain ⟨s0, fs0, hnew, hread, hex⟩ := reads_files hm hin hf
  refine ⟨?_, ?_⟩
  · intro events ws res fs' h
    cases h with
    | createErr h => rw [hnew] at h; simp at h
    | createPanic h => rw [hnew] at h; simp at h
    | readErr h1 h2 =>
      rw [hnew] at h1
      simp only [Prod.mk.injEq, true_and] at h1
      obtain ⟨rfl, rfl⟩ := h1
      obtain ⟨evs, h3⟩ := (hread _ _ h2).2.2 hcl
      simp at h3
    | readPanic h1 h2 =>
      rw [hnew] at h1
      simp only [Prod.mk.injEq, true_and] at h1
      obtain ⟨rfl, rfl⟩ := h1
      obtain ⟨evs, h3⟩ := (hread _ _ h2).2.2 hcl
      simp at h3
    | weightsErr h1 h2 h3 =>
      rw [hnew] at h1
      simp only [Prod.mk.injEq, true_and] at h1
      obtain ⟨rfl, rfl⟩ := h1
      obtain ⟨ws, h4⟩ := (weights_computed hd hg hun hm0 hm1 ((hread _ _ h2).2.1 _ rfl)).1 _ h3
      simp at h4
    | weightsPanic h1 h2 h3 =>
      rw [hnew] at h1
      simp only [Prod.mk.injEq, true_and] at h1
      obtain ⟨rfl, rfl⟩ := h1
      obtain ⟨ws, h4⟩ := (weights_computed hd hg hun hm0 hm1 ((hread _ _ h2).2.1 _ rfl)).1 _ h3
      simp at h4
    | @update _ _ _ ws _ _ _ _ => exact ⟨ws, rfl⟩
  · obtain ⟨res, x, h1⟩ := hex
    obtain ⟨events, rfl⟩ := (hread _ _ h1).2.2 hcl
    obtain ⟨h2, o, h3⟩ := weights_computed hd hg hun hm0 hm1 ((hread _ _ h1).2.1 _ rfl)
    obtain ⟨ws, rfl⟩ := h2 o h3
    exact ⟨_, _, _, _, .update hnew h1 h3⟩

/-- **C69**: in release builds, if clustering succeeds for the events in the input files, every run gets as far as updating
the weights, and there is such a run. -/
theorem C69_completes_partial {p : Program K V D} (hd : p.io.ctx.debug = false)
    (hn : p.io.ctx.multi = true → p.io.ctx.names = []) (hg : GoodComponents p) (hun : p.unweight = .ok) {fs : FS P}
    {files : List (P × P)} {ds : List (EventFile K V)} (hin : EventFiles p.io fs (files.map Prod.fst) ds) (hf : GoodFiles files)
    (hcl : ∀ ev ∈ allEvents ds, ∃ ev', p.cluster ev = .ok ev' ∧ ev'.id = 0) :
    (∀ events ws res fs', p.Run files fs events ws res fs' → ∃ ws', ws = some ws') ∧
    ∃ events ws res fs', p.Run files fs events ws res fs' :=
  run_completes hd Nat.one_pos (fun _ => rfl) hg hun (single_weights hn hin) hin hf hcl

end Any

/-! ### exact arithmetic -/

variable {K V D P : Type*} [Zero D] [LinearOrder D] [Field K] [LinearOrder K] [IsStrictOrderedRing K] [LinearOrder V]
  [DecidableEq P]

/-- The weights after resampling, without unweighting. -/
theorem weights_passed_all {p : Program K V D} (hg : GoodComponents p) (hun : p.unweight = .ok) {m : Nat} (hm0 : 0 < m)
    (hm1 : p.io.ctx.multi = false → m = 1) {ds : List (EventFile K V)}
    {events : List (Event K V)} (he : EventsRead p m ds events) {ws : List (Weights K)} (h : p.ComputesWeights events (.ok ws)) :
    ws.length = (allEvents ds).length ∧ (∀ w ∈ ws, w.length = m ∨ w = defaultWeights p.cfg) ∧
    ∀ k, weightSumNo k (List.zipWith reweighted ws (allEvents ds)) =
      weightSumNo k ((allEvents ds).filter fun ev => p.io.ctx.multi || HasParticles p ev) := by
  obtain ⟨s, hr, hfin, hrun⟩ := computesWeights_state h
  obtain ⟨h1, h2, h3⟩ := weights_written_all (M := K) hg hun hm0 hm1 he hr hfin hrun
  refine ⟨h1, fun w hw => (h2 w hw).imp_left And.left, fun k => ?_⟩
  have hcons := C01_weight_sums_conserved_parallel (hg.valid _) (read_weights hg hm0 hm1 he) hr hfin k
  obtain ⟨g1, g2, g3⟩ := (h3 k).1 id
  simp only [id] at g1 g2 g3
  unfold weightSumNo
  change ((List.zipWith reweighted ws (allEvents ds)).map fun e => weightNo k e).sum = _
  rw [g1]
  change ∑ j ∈ _, _ = ∑ j ∈ _, _ at hcons
  rw [hcons]
  cases hm : p.io.ctx.multi with
  | true =>
    simp only [if_true, Bool.true_or, List.filter_true]
    exact g2.symm
  | false =>
    simp only [Bool.false_eq_true, if_false, List.map_const', List.sum_replicate, smul_zero, add_zero, Bool.false_or]
    exact g3.symm

theorem weights_passed {p : Program K V D} (hg : GoodComponents p) (hun : p.unweight = .ok) {ds : List (EventFile K V)}
    {events : List (Event K V)} (he : EventsRead p 1 ds events) {ws : List (Weights K)} (h : p.ComputesWeights events (.ok ws)) :
    ws.length = (allEvents ds).length ∧ (∀ w ∈ ws, w.length ≤ 1) ∧
    ((List.zipWith reweighted ws (allEvents ds)).map centralWeight).sum =
      (((allEvents ds).filter fun ev => p.io.ctx.multi || HasParticles p ev).map centralWeight).sum := by
  obtain ⟨h1, h2, h3⟩ := weights_passed_all hg hun Nat.one_pos (fun _ => rfl) he h
  refine ⟨h1, fun w hw => default_length (h2 w hw), ?_⟩
  have := h3 0
  unfold weightSumNo at this
  rwa [show (weightNo 0 : Event K V → K) = centralWeight from funext weightNo_zero] at this

/-- **C69**, weights: without unweighting. If the new weights can be written the run succeeds, and the sum of the weights in
the output files is the sum of the weights in the input files. Without `multiweight` events without particles are left out
of the sum, since their weights are set to zero (C31). -/
theorem C69_sum_partial {p : Program K V D} (hn : p.io.ctx.multi = true → p.io.ctx.names = []) (hg : GoodComponents p)
    (hun : p.unweight = .ok) {fs fs' : FS P} {files : List (P × P)} {ds : List (EventFile K V)}
    (hin : EventFiles p.io fs (files.map Prod.fst) ds) (hf : GoodFiles files) {events : Option (List (Event K V))}
    {ws : List (Weights K)} {res : Outcome (CresError IOError) Unit} (h : p.Run files fs events (some ws) res fs')
    (hw : ∀ w ∈ ws, ∀ x ∈ w, ∀ d ∈ ds, Writable p.io d.kind x) :
    res = .ok () ∧ ∃ ds', EventFiles p.io fs' (files.map Prod.snd) ds' ∧ List.Forall₂ SameExceptWeights ds ds' ∧
      centralSum (allEvents ds') =
        centralSum ((allEvents ds).filter fun ev => p.io.ctx.multi || HasParticles p ev) := by
  obtain ⟨-, -, h1⟩ := C69_files_partial hn hin hf h
  obtain ⟨s0, fs0, hnew, hread, -⟩ := reads_files (single_weights hn hin) hin hf
  have hpass : (∀ w ∈ ws, w.length ≤ 1) ∧ centralSum (List.zipWith reweighted ws (allEvents ds)) =
      centralSum ((allEvents ds).filter fun ev => p.io.ctx.multi || HasParticles p ev) := by
    generalize hws : some ws = ows at h
    cases h with
    | createErr _ | createPanic _ | readErr _ _ | readPanic _ _ | weightsErr _ _ _ | weightsPanic _ _ _ => simp at hws
    | @update s fs1 events ws' x g1 g2 g3 =>
      simp only [Option.some.injEq] at hws
      subst hws
      rw [hnew] at g1
      simp only [Prod.mk.injEq, true_and] at g1
      obtain ⟨rfl, rfl⟩ := g1
      exact (weights_passed hg hun ((hread _ _ g2).2.1 events rfl) g3).2
  obtain ⟨h2, ds', h3, h4, h5⟩ := h1 fun w hwm => ⟨hpass.1 w hwm, hw w hwm⟩
  exact ⟨h2, ds', h3, h4, by rw [h5, hpass.2]⟩

/-- **C69**: the sum of weights in the output files is the sum of weights in the input files, with `multiweight` or if all
events have particles. -/
theorem C69_conserved_partial {p : Program K V D} (hn : p.io.ctx.multi = true → p.io.ctx.names = []) (hg : GoodComponents p)
    (hun : p.unweight = .ok) {fs fs' : FS P} {files : List (P × P)} {ds : List (EventFile K V)}
    (hin : EventFiles p.io fs (files.map Prod.fst) ds) (hf : GoodFiles files)
    (hpart : p.io.ctx.multi = true ∨ ∀ ev ∈ allEvents ds, HasParticles p ev = true) {events : Option (List (Event K V))}
    {ws : List (Weights K)} {res : Outcome (CresError IOError) Unit} (h : p.Run files fs events (some ws) res fs')
    (hw : ∀ w ∈ ws, ∀ x ∈ w, ∀ d ∈ ds, Writable p.io d.kind x) :
    res = .ok () ∧ ∃ ds', EventFiles p.io fs' (files.map Prod.snd) ds' ∧ List.Forall₂ SameExceptWeights ds ds' ∧
      centralSum (allEvents ds') = centralSum (allEvents ds) := by
  obtain ⟨h1, ds', h2, h3, h4⟩ := C69_sum_partial hn hg hun hin hf h hw
  refine ⟨h1, ds', h2, h3, ?_⟩
  rw [h4]
  congr 1
  rw [List.filter_eq_self]
  intro ev hev
  rcases hpart with h | h
  · simp [h]
  · simp [h ev hev]

/-- The weights that are passed on without `multiweight`: those of the events that are left after unweighting, zero for all
others. -/
theorem weights_unweighted {p : Program K V D} (hg : GoodComponents p) (hm : p.io.ctx.multi = false)
    (hun : ∀ evs out, (∀ e ∈ evs, e.weights.length = 1) → p.unweight evs = .ok out →
      IsSubCollection evs out ∧ ∀ e ∈ out, e.weights.length = 1) {ds : List (EventFile K V)}
    {events : List (Event K V)} (he : EventsRead p 1 ds events) {ws : List (Weights K)} (h : p.ComputesWeights events (.ok ws)) :
    ∃ resampled final, (∀ e ∈ resampled, e.weights.length = 1) ∧ p.unweight resampled = .ok final ∧
      centralSum resampled = centralSum ((allEvents ds).filter (HasParticles p)) ∧
      ws.length = (allEvents ds).length ∧ (∀ w ∈ ws, w.length = 1 ∧ (w = [0] ∨ ∃ e ∈ final, w = e.weights)) ∧
      centralSum (List.zipWith reweighted ws (allEvents ds)) = centralSum final := by
  have hids : (events.map Event.id).Perm (List.range events.length) := by rw [he.length_eq]; exact he.ids
  have hu := read_weights hg Nat.one_pos (fun _ => rfl) he
  generalize ho : (Outcome.ok ws : Outcome (CresError IOError) _) = o at h
  cases h with
  | @mk resampled hres =>
    cases hres with
    | log _ => simp [runWeights, Outcome.mapErr, Outcome.bind] at ho
    | task _ _ _ => simp [runWeights, Outcome.mapErr, Outcome.bind] at ho
    | @ok events' _ hres =>
      obtain ⟨s, hr, hfin, rfl⟩ := hres
      obtain ⟨resampled, final, h1, h2, h3, h4, h5⟩ := runWeights_entries hids ho.symm
      simp only [Outcome.ok.injEq] at h1
      subst h1
      have hv := hg.valid (identified events)
      have hcons := C01_weight_sums_conserved_parallel hv hu hr hfin 0
      obtain ⟨A, hA⟩ := inv_reachable hv hu hr
      have hlen : ∀ i < (identified events).length, (s.mem i).length = 1 := by
        intro i hi
        rw [finished_mem hA hfin]
        exact hA.uniform.length i hi
      have hrl : ∀ e ∈ withWeights (identified events) s.mem, e.weights.length = 1 := by
        intro e hev
        obtain ⟨i, hi⟩ := List.getElem?_of_mem hev
        unfold withWeights at hi
        rw [List.getElem?_mapIdx] at hi
        obtain ⟨e0, hi0, rfl⟩ := Option.map_eq_some_iff.1 hi
        exact hlen i (List.getElem?_eq_some_iff.1 hi0).1
      obtain ⟨hsub, hfl⟩ := hun _ _ hrl h2
      obtain ⟨hnd, hlt, hset⟩ := h4 (withWeights_subCollection _ _) hsub
      have hl : ws.length = (allEvents ds).length := by rw [h3, he.length_eq]
      have hdef : defaultWeights (K := K) p.cfg = [0] := by simp [defaultWeights, Program.cfg, hm]
      refine ⟨_, final, hrl, h2, ?_, hl, ?_, ?_⟩
      · have e1 : centralSum (withWeights (identified events) s.mem) =
            weightTotal (identified events).length s.mem 0 := by
          unfold centralSum weightTotal
          rw [sum_positions _ centralWeight (wt s.mem 0) ?_]
          · simp [withWeights]
          · intro j e hj
            unfold withWeights at hj
            rw [List.getElem?_mapIdx] at hj
            obtain ⟨e0, -, rfl⟩ := Option.map_eq_some_iff.1 hj
            simp [wt, centralWeight, List.headD_eq_head?_getD, List.head?_eq_getElem?]
        rw [e1, hcons]
        unfold centralSum weightTotal
        rw [sum_filter_ite, sum_by_ids (events := events) _ he.ids]
        refine Eq.trans ?_ (sum_identified events _).symm
        have hc0 : ∀ ev ∈ events, ∃ e0, (allEvents ds)[ev.id]? = some e0 ∧ centralWeight e0 = centralWeight ev ∧
            HasParticles p e0 = !ev.outgoingByPid.isEmpty := by
          intro ev hev
          obtain ⟨e0, e1, g1, g2, g3, -⟩ := he.from_file ev hev
          refine ⟨e0, g1, ?_, ?_⟩
          · rw [g3]
            simp only [centralWeight, hg.cluster _ _ g2]
          · rw [HasParticles, g2, g3]
        rw [sum_positions (identified events) _ (wt (memOf (identified events)) 0) ?_, List.sum_eq_zero (l := List.map _ _) ?_,
          add_zero]
        · intro x hx
          obtain ⟨e, hem, rfl⟩ := List.mem_map.1 hx
          obtain ⟨hem, hp⟩ := List.mem_filter.1 hem
          obtain ⟨e0, g1, g2, g3⟩ := hc0 e hem
          rw [g1]
          simp [g3, hp]
        · intro j e hj
          have hm := List.mem_filter.1 (List.mem_of_getElem? hj)
          obtain ⟨e0, g1, g2, g3⟩ := hc0 e hm.1
          have h1 : HasParticles p e0 = true := by rw [g3]; exact hm.2
          rw [g1]
          simp only [Option.map_some, Option.getD_some, h1, if_true, g2]
          simp [wt, memOf, hj, centralWeight, List.headD_eq_head?_getD, List.head?_eq_getElem?]
      · intro w hw
        obtain ⟨i, hi⟩ := List.getElem?_of_mem hw
        by_cases hex : ∃ e ∈ final, e.id = i
        · obtain ⟨e, hem, rfl⟩ := hex
          rw [hset e hem] at hi
          cases hi
          exact ⟨hfl e hem, Or.inr ⟨e, hem, rfl⟩⟩
        · have hlt' : i < events.length := by rw [← h3]; exact (List.getElem?_eq_some_iff.1 hi).1
          rw [h5 i hlt' (fun e hem hid => hex ⟨e, hem, hid⟩), hdef] at hi
          cases hi
          exact ⟨rfl, Or.inl rfl⟩
      · unfold centralSum
        have hz : (List.zipWith reweighted ws (allEvents ds)).length = (allEvents ds).length := by
          rw [List.length_zipWith, hl, Nat.min_self]
        have key : ∀ i < (allEvents ds).length, ((List.zipWith reweighted ws (allEvents ds))[i]?.map centralWeight).getD 0 =
            (ws.getD i []).headD 0 := by
          intro i hi
          have hi' : i < ws.length := by omega
          rw [List.getElem?_zipWith, List.getElem?_eq_getElem hi, List.getElem?_eq_getElem hi']
          simp only [Option.map_some, Option.getD_some, List.getD_eq_getElem?_getD, List.getElem?_eq_getElem hi']
          have : ws[i] ≠ [] := by
            by_cases hex : ∃ e ∈ final, e.id = i
            · obtain ⟨e, hem, rfl⟩ := hex
              have := hset e hem
              rw [List.getElem?_eq_getElem hi', Option.some.injEq] at this
              rw [this]
              intro hc
              have := hfl e hem
              rw [hc] at this
              simp at this
            · have := h5 i (by omega) (fun e hem hid => hex ⟨e, hem, hid⟩)
              rw [List.getElem?_eq_getElem hi', Option.some.injEq, hdef] at this
              rw [this]
              simp
          simp [reweighted, this, centralWeight]
        rw [sum_range_eq, hz]
        rw [List.map_congr_left (g := fun i => (ws.getD i []).headD 0) (fun i hi => key i (List.mem_range.1 hi))]
        have hfs : (final.map centralWeight) = (final.map Event.id).map (fun i => (ws.getD i []).headD 0) := by
          rw [List.map_map]
          apply List.map_congr_left
          intro e hem
          simp [List.getD_eq_getElem?_getD, hset e hem, centralWeight]
        rw [hfs, ← List.sum_toFinset _ hnd, ← List.sum_toFinset _ List.nodup_range]
        symm
        apply Finset.sum_subset
        · intro i hi
          obtain ⟨e, hem, rfl⟩ := List.mem_map.1 (List.mem_toFinset.1 hi)
          have := hlt e hem
          rw [he.length_eq] at this
          simpa using this
        · intro i hi hni
          have hi : i < (allEvents ds).length := by simpa using hi
          rw [List.getD_eq_getElem?_getD, h5 i (by rw [he.length_eq]; exact hi) ?_, hdef]
          · rfl
          · intro e hem hid
            exact hni (List.mem_toFinset.2 (List.mem_map.2 ⟨e, hem, hid⟩))

/-! ### the command line program -/

section CresAny

variable {K V D P : Type*} [Zero D] [LinearOrder D] [DistNum D] [ExactComparison D] [Zero K] [One K] [Add K] [Mul K] [Div K] [Neg K] [NatCast K]
  [LinearOrder K] [LinearOrder V] [DecidableEq P]

theorem search_valid {s : CresSettings K V D} (hc : GoodChoices s) (events : List (Event K V)) (seed : Nat)
    (hs : seed < events.length) :
    (∀ x ∈ s.search.nearest s.distance s.maxCellSize events seed, x.1 < events.length) ∧
    (seed :: (s.search.nearest s.distance s.maxCellSize events seed).map Prod.fst).Nodup := by
  have h := hc.search
  unfold SearchAlgo.nearest
  cases hsr : s.search with
  | naive minPos =>
    rw [hsr] at h
    have h1 := C11_naive_search_exact h events.length (distWrapper s.distance events) s.maxCellSize seed hs
    refine ⟨fun x hx => ?_, List.nodup_cons.2 ⟨fun hm => ?_, h1.nodup⟩⟩
    · have := ((h1.mem x.1).1 (List.mem_map.2 ⟨x, hx, rfl⟩)).1
      simpa using this
    · exact ((h1.mem seed).1 hm).2.1 rfl
  | tree psort sort cornerPt f64Max =>
    rw [hsr] at h
    obtain ⟨h1, h2⟩ := C13_sound_partial ((VPTree.parNew psort sort cornerPt f64Max (List.range events.length)
      (distWrapper s.distance events)).withMaxDist s.maxCellSize) seed
    have h3 := (C15_par_construction h.1 h.2 cornerPt f64Max (List.range events.length) (distWrapper s.distance events)
      usizeMax).1
    refine ⟨fun x hx => ?_, List.nodup_cons.2 ⟨fun hm => ?_, h1⟩⟩
    · have := h3.mem_iff.1 (h2 x hx).1
      simpa using this
    · obtain ⟨x, hx, hx1⟩ := List.mem_map.1 hm
      exact (h2 x hx).2.1 hx1

/-- The components of the command line program are as required. -/
theorem cres_goodComponents {s : CresSettings K V D} (hc : GoodChoices s) : GoodComponents s.program := by
  refine ⟨?_, fun evs => ?_⟩
  · intro ev ev' h
    simp only [CresSettings.program, Outcome.ok.injEq] at h
    subst h
    rfl
  · have hs : ∀ i ∈ s.program.seeds evs, i < evs.length := by
      intro i hi
      simp only [CresSettings.program, selectSeeds] at hi
      cases hm : (List.range evs.length).mapM (fun i => weightAt evs.length (memOf evs) i) with
      | none => rw [hm] at hi; simp at hi
      | some _ =>
        rw [hm] at hi
        simp only [Option.getD_some] at hi
        cases hst : s.strategy with
        | next =>
          rw [hst] at hi
          simpa using List.mem_of_mem_filter hi
        | mostNegative =>
          rw [hst] at hi
          simpa using List.mem_of_mem_filter ((hc.seeds _ _).1.mem_iff.1 hi)
        | leastNegative =>
          rw [hst] at hi
          simpa using List.mem_of_mem_filter ((hc.seeds _ _).1.mem_iff.1 hi)
    exact ⟨hs, fun i hi => (search_valid hc evs i (hs i hi)).1, fun i hi => (search_valid hc evs i (hs i hi)).2⟩

theorem eventFiles_id {io : IOConfig K V} {fs : FS P} {paths : List P}
    {ds : List (EventFile K V)} (hin : EventFiles io fs paths ds) : ∀ ev ∈ allEvents ds, ev.id = 0 := by
  intro ev hev
  obtain ⟨d, hd, hev⟩ := List.mem_flatMap.1 hev
  obtain ⟨q, -, content, -, hc⟩ := forall₂_mem hin hd
  obtain ⟨r, -, hr⟩ := forall₂_mem hc.2 hev
  generalize d.kind = kind at hr
  cases kind with
  | hepmc2 =>
    obtain ⟨w0, ws, rest, b, unit, -, -, -, rfl⟩ := (HepMC.parse_ok _).1 hr
    simp only [EventBuilder.build]
  | lhef => exact (Lhef.parse_single _ hr).1
  | stripperXml s =>
    obtain ⟨ev0, w, h1, -, -, rfl⟩ := hr
    exact (Stripper.parse_single _ h1).1

/-- Without unweighting. -/
theorem cres_unweight {s : CresSettings K V D} (h0 : s.minWeight = 0) : s.program.unweight = .ok := by
  funext evs
  simp only [CresSettings.program, unweightStep]
  rw [C26_trivial _ _ _ _ (Or.inl h0)]

/-- **C69** for the command line program without unweighting: in release builds every run gets as far as updating the
weights, and there is such a run. -/
theorem C69_cres_completes_partial {s : CresSettings K V D} (hc : GoodChoices s) (h0 : s.minWeight = 0)
    (hd : s.io.ctx.debug = false) (hn : s.io.ctx.multi = true → s.io.ctx.names = []) {fs : FS P} {files : List (P × P)}
    {ds : List (EventFile K V)} (hin : EventFiles s.io fs (files.map Prod.fst) ds) (hf : GoodFiles files) :
    (∀ events ws res fs', s.program.Run files fs events ws res fs' → ∃ ws', ws = some ws') ∧
    ∃ events ws res fs', s.program.Run files fs events ws res fs' := by
  exact C69_completes_partial hd hn (cres_goodComponents hc) (cres_unweight h0) hin hf
    fun ev hev => ⟨_, rfl, eventFiles_id hin ev hev⟩

end CresAny

section Cres

variable {K V D P : Type*} [Zero D] [LinearOrder D] [DistNum D] [ExactComparison D] [Field K] [LinearOrder K] [IsStrictOrderedRing K] [LinearOrder V]
  [DecidableEq P]

theorem cres_unweighter {s : CresSettings K V D} (hc : GoodChoices s) (h0 : 0 ≤ s.minWeight) (evs out : List (Event K V))
    (hw : ∀ e ∈ evs, e.weights.length = 1) (h : s.program.unweight evs = .ok out) :
    IsSubCollection evs out ∧ (∀ e ∈ out, e.weights.length = 1) ∧ (out = [] ∨ centralSum out = centralSum evs) := by
  have hne : ∀ e ∈ evs, e.weights ≠ [] := by
    intro e he hc
    have := hw e he
    rw [hc] at this
    simp at this
  have hu : unweight s.io.ctx.debug s.minWeight s.rng evs = .ok out := by
    simp only [CresSettings.program, unweightStep] at h
    split at h
    · rename_i hu
      simp only [Outcome.ok.injEq] at h
      rw [hu, h]
    · cases h
    · cases h
  refine ⟨C30_unweighter_subCollection h0 hc.rng hne h, ?_, ?_⟩
  · rcases h0.eq_or_lt with h1 | h1
    · rw [C26_trivial _ _ _ _ (Or.inl h1.symm)] at hu
      cases hu
      exact hw
    · obtain ⟨survivors, common, g1, g2, -⟩ :=
        C26_survivors h1 (fun i => ⟨(hc.rng i).1, (hc.rng i).2.resolve_left (ne_of_gt h1)⟩) hne hu
      intro e he
      obtain ⟨e0, ge0, g3⟩ := forall₂_mem g2 he
      rw [g3.2.2, List.length_map]
      exact hw _ (g1.subset ge0)
  · by_cases ho : out = []
    · exact Or.inl ho
    · exact Or.inr (C25_sum_preserved_partial h0
        (fun h1 i => ⟨(hc.rng i).1, (hc.rng i).2.resolve_left (ne_of_gt h1)⟩) hne hu (Or.inl ho))

/-- **C69** for the command line program with unweighting, without `multiweight`. If the new weights can be written the run
succeeds. The sum of the weights in the output files is the sum of the weights in the input files of events with particles,
unless all events are rejected by unweighting; then all weights are zero. -/
theorem C69_unweight_partial {s : CresSettings K V D} (hc : GoodChoices s) (h0 : 0 ≤ s.minWeight)
    (hm : s.io.ctx.multi = false) {fs fs' : FS P} {files : List (P × P)} {ds : List (EventFile K V)}
    (hin : EventFiles s.io fs (files.map Prod.fst) ds) (hf : GoodFiles files) {events : Option (List (Event K V))}
    {ws : List (Weights K)} {res : Outcome (CresError IOError) Unit} (h : s.program.Run files fs events (some ws) res fs')
    (hw : ∀ w ∈ ws, ∀ x ∈ w, ∀ d ∈ ds, Writable s.io d.kind x) :
    res = .ok () ∧ ∃ ds', EventFiles s.io fs' (files.map Prod.snd) ds' ∧ List.Forall₂ SameExceptWeights ds ds' ∧
      (centralSum (allEvents ds') = centralSum ((allEvents ds).filter (HasParticles s.program)) ∨
        ∀ ev ∈ allEvents ds', centralWeight ev = 0) := by
  have hn : s.program.io.ctx.multi = true → s.program.io.ctx.names = [] := fun h => by
    rw [show s.program.io.ctx.multi = s.io.ctx.multi from rfl, hm] at h
    cases h
  obtain ⟨-, hl, h1⟩ := C69_files_partial hn hin hf h
  obtain ⟨s0, fs0, hnew, hread, -⟩ := reads_files (p := s.program) (single_weights hn hin) hin hf
  have hpass : ∃ evs, EventsRead s.program 1 ds evs ∧ s.program.ComputesWeights evs (.ok ws) := by
    generalize hws : some ws = ows at h
    cases h with
    | createErr _ | createPanic _ | readErr _ _ | readPanic _ _ | weightsErr _ _ _ | weightsPanic _ _ _ => simp at hws
    | @update s1 fs1 events ws' x g1 g2 g3 =>
      simp only [Option.some.injEq] at hws
      subst hws
      rw [hnew] at g1
      simp only [Prod.mk.injEq, true_and] at g1
      obtain ⟨rfl, rfl⟩ := g1
      exact ⟨events, (hread _ _ g2).2.1 events rfl, g3⟩
  obtain ⟨evs, he, hcw⟩ := hpass
  obtain ⟨resampled, final, g1, g2, g3, g4, g5, g6⟩ := weights_unweighted (cres_goodComponents hc) hm
    (fun evs out h1 h2 => ⟨(cres_unweighter hc h0 evs out h1 h2).1, (cres_unweighter hc h0 evs out h1 h2).2.1⟩) he hcw
  obtain ⟨h2, ds', h3, h4, h5⟩ := h1 fun w hwm => ⟨(g5 w hwm).1.le, hw w hwm⟩
  refine ⟨h2, ds', h3, h4, ?_⟩
  rcases (cres_unweighter hc h0 _ _ g1 g2).2.2 with h6 | h6
  · right
    rw [h5]
    intro ev hev
    obtain ⟨i, hi⟩ := List.getElem?_of_mem hev
    rw [List.getElem?_zipWith] at hi
    cases hwi : ws[i]? with
    | none => rw [hwi] at hi; simp at hi
    | some w =>
      cases hei : (allEvents ds)[i]? with
      | none => rw [hwi, hei] at hi; simp at hi
      | some e0 =>
        rw [hwi, hei] at hi
        simp only [Option.some.injEq] at hi
        subst hi
        rcases (g5 w (List.mem_of_getElem? hwi)).2 with h7 | ⟨e, he, -⟩
        · simp [h7, reweighted, centralWeight]
        · rw [h6] at he
          cases he
  · left
    rw [h5, g6, h6, g3]

/-- **C69** for the command line program without unweighting: if the new weights can be written the run succeeds, the output
files are event files like the input files, and the sum of weights is the same, with `multiweight` or if all events have
particles after clustering. -/
theorem C69_cres_partial {s : CresSettings K V D} (hc : GoodChoices s) (h0 : s.minWeight = 0)
    (hn : s.io.ctx.multi = true → s.io.ctx.names = []) {fs fs' : FS P} {files : List (P × P)}
    {ds : List (EventFile K V)} (hin : EventFiles s.io fs (files.map Prod.fst) ds) (hf : GoodFiles files)
    (hpart : s.io.ctx.multi = true ∨ ∀ ev ∈ allEvents ds, HasParticles s.program ev = true)
    {events : Option (List (Event K V))} {ws : List (Weights K)} {res : Outcome (CresError IOError) Unit}
    (h : s.program.Run files fs events (some ws) res fs') (hw : ∀ w ∈ ws, ∀ x ∈ w, ∀ d ∈ ds, Writable s.io d.kind x) :
    res = .ok () ∧ ∃ ds', EventFiles s.io fs' (files.map Prod.snd) ds' ∧ List.Forall₂ SameExceptWeights ds ds' ∧
      centralSum (allEvents ds') = centralSum (allEvents ds) := by
  exact C69_conserved_partial hn (cres_goodComponents hc) (cres_unweight h0) hin hf hpart h hw

end Cres

/-! ### examples -/

/-- Settings for the examples: the distance is the difference of the total momenta. -/
def exSettings (multi : Bool) : CresSettings ℚ ℚ ℚ where
  io := { exIO false with ctx := ratCtx multi false [], feat := ⟨true, true, true⟩ }
  particles := exampleParticles
  clustering := ⟨id, none, fun _ _ => false, false⟩
  search := .naive firstMin
  distance e e' := |(e.outgoingByPid.flatMap Prod.snd).sum - (e'.outgoingByPid.flatMap Prod.snd).sum|
  maxCellSize := 100
  strategy := .mostNegative
  sortSeeds key l := l.insertionSort fun a b => key a ≤ key b
  minWeight := 0
  rng _ := 0
  infoLog := true

theorem exSettings_good (multi : Bool) : GoodChoices (exSettings multi) := by
  refine ⟨firstMin_isMin, fun key l => ⟨List.perm_insertionSort _ _, ?_⟩, fun i => ⟨le_rfl, Or.inl rfl⟩⟩
  have : Std.Total fun a b : ℕ => key a ≤ key b := ⟨fun a b => le_total _ _⟩
  have : IsTrans ℕ fun a b => key a ≤ key b := ⟨fun a b c => le_trans⟩
  exact List.pairwise_insertionSort _ l

/-- A file with two events. -/
def exProgHepmc : EventFile ℚ ℚ :=
  ⟨⟨.hepmc2, ascii "H\n", [ascii "E 1 2 3 4 5 6 7 8 9 0 0 1 -2\nP 1 21 0 0 0 7 0 1 0 0 0\n",
    ascii "E 1 2 3 4 5 6 7 8 9 0 0 1 6\nP 1 21 0 0 0 9 0 1 0 0 0\n"]⟩,
   [⟨0, [-2], [(21, [7])]⟩, ⟨0, [6], [(21, [9])]⟩]⟩

/-- A file with one event. -/
def exProgLhef : EventFile ℚ ℚ :=
  ⟨⟨.lhef, exLhef.header, [ascii "\n<event>\n3 0 6\n21 -1\n21 -1\n21 1 0 0 0 0 0 0 0 8 0 0 0\n</event>"]⟩, [⟨0, [6], [(21, [8])]⟩]⟩

theorem exProgHepmc_ok (multi : Bool) :
    IsEventFile (exSettings multi).io (exProgHepmc.header ++ exProgHepmc.records.flatten) exProgHepmc := by
  refine ⟨⟨by decide +kernel, ?_, ⟨rfl, by simp [exProgHepmc], by decide +kernel, ?_, ?_, ?_, ?_⟩, ?_⟩, ?_⟩
  · exact fun rest => detectFormat_append _ (b := 72) (h := [10]) (by decide) (Or.inr (by decide)) rest
  · unfold Contains; decide +kernel
  · decide +kernel
  · unfold Contains; decide +kernel
  · decide +kernel
  · decide +kernel
  · refine .cons ?_ (.cons ?_ .nil)
    · show HepMC.parse _ _ = _
      cases multi <;> decide +kernel
    · show HepMC.parse _ _ = _
      cases multi <;> decide +kernel

theorem exProgLhef_ok (multi : Bool) :
    IsEventFile (exSettings multi).io (exProgLhef.header ++ exProgLhef.records.flatten ++ ascii "\n</LesHouchesEvents>\n") exProgLhef := by
  refine ⟨⟨by decide +kernel, ?_, ⟨⟨_, rfl, ?_⟩, by decide +kernel, ?_, ?_, ?_⟩, ?_⟩, ?_⟩
  · exact fun rest => detectFormat_append _ (b := 60) (h := ascii "LesHouchesEvents>\n</init>") (by decide)
      (Or.inl (by decide)) rest
  · unfold Contains; decide +kernel
  · unfold Contains; decide +kernel
  · decide +kernel
  · unfold Contains; decide +kernel
  · intro r hr
    have hr : r = ascii "\n<event>\n3 0 6\n21 -1\n21 -1\n21 1 0 0 0 0 0 0 0 8 0 0 0\n</event>" := by simpa [exProgLhef] using hr
    exact ⟨10, by decide, by rw [hr]; decide +kernel⟩
  · refine .cons ?_ .nil
    show Lhef.parse _ _ = _
    cases multi <;> decide +kernel

/-- The input files. -/
def exProgFS : FS ℕ
  | 0 => some (exProgHepmc.header ++ exProgHepmc.records.flatten)
  | 1 => some (exProgLhef.header ++ exProgLhef.records.flatten ++ ascii "\n</LesHouchesEvents>\n")
  | _ => none

theorem exProgFiles (multi : Bool) : EventFiles (exSettings multi).io exProgFS [0, 1] [exProgHepmc, exProgLhef] :=
  .cons ⟨_, rfl, exProgHepmc_ok multi⟩ (.cons ⟨_, rfl, exProgLhef_ok multi⟩ .nil)

theorem exProgGood : GoodFiles [(0, 10), (1, 11)] := ⟨by decide, by decide⟩

/-- The events read from the files, in a different order. -/
def exProgEvents : List (Event ℚ ℚ) := [⟨1, [6], [(81, [9])]⟩, ⟨2, [6], [(81, [8])]⟩, ⟨0, [-2], [(81, [7])]⟩]

/-- Execution of a list of reading steps for the items in the files. -/
def exProgRead (multi : Bool) : List ReadAction → ReadState IOError EventRecord ℚ ℚ → Option (ReadState IOError EventRecord ℚ ℚ)
  | [], s => some s
  | a :: as, s => (readStep (tryConvert (exSettings multi).io.ctx) (exSettings multi).program.cluster (fun r => r.1 == .ntuple)
      ((fileItems (exSettings multi).io [exProgHepmc.toFileData, exProgLhef.toFileData]).map .ok) s a).bind (exProgRead multi as)

theorem exProgRead_reachable {multi : Bool} {as : List ReadAction} {s s' : ReadState IOError EventRecord ℚ ℚ}
    (h : exProgRead multi as s = some s')
    (hs : ReadReachable (tryConvert (exSettings multi).io.ctx) (exSettings multi).program.cluster (fun r => r.1 == .ntuple)
      ((fileItems (exSettings multi).io [exProgHepmc.toFileData, exProgLhef.toFileData]).map .ok) s) :
    ReadReachable (tryConvert (exSettings multi).io.ctx) (exSettings multi).program.cluster (fun r => r.1 == .ntuple)
      ((fileItems (exSettings multi).io [exProgHepmc.toFileData, exProgLhef.toFileData]).map .ok) s' := by
  induction as generalizing s with
  | nil =>
    simp only [exProgRead, Option.some.injEq] at h
    exact h ▸ hs
  | cons a as ih =>
    simp only [exProgRead] at h
    cases hst : readStep (tryConvert (exSettings multi).io.ctx) (exSettings multi).program.cluster (fun r => r.1 == .ntuple)
        ((fileItems (exSettings multi).io [exProgHepmc.toFileData, exProgLhef.toFileData]).map .ok) s a with
    | none => rw [hst] at h; cases h
    | some s1 =>
      rw [hst] at h
      exact ih h (.step hs hst)

theorem exProg_reads (multi : Bool) : ∃ s fs1 x, CombinedIO.new (exSettings multi).io [((0 : ℕ), 10), (1, 11)] exProgFS = (.ok (), s, fs1) ∧
    (exSettings multi).program.ReadsEvents s fs1 (.ok exProgEvents) x := by
  obtain ⟨h1, -⟩ := files_items (exProgFiles multi)
  obtain ⟨s, fs1, h3, h4⟩ := new_ready (files := [((0 : ℕ), 10), (1, 11)]) (eventFiles_inputs (exProgFiles multi)) exProgGood.disjoint
    (by
      intro d hd
      obtain ⟨d', hd', rfl⟩ := List.mem_map.1 hd
      exact h1 d' hd')
  refine ⟨s, fs1, ?_⟩
  have h5 := recordItems_ready _ 5 s fs1 h4
  rw [if_pos (by simp [fileItems, exProgHepmc, exProgLhef])] at h5
  generalize hx : s.recordItems (exSettings multi).io 5 fs1 = y at h5
  obtain ⟨y, x⟩ := y
  simp only at h5
  subst h5
  refine ⟨x, h3, ?_⟩
  have hdec : (exProgRead multi [.main, .main, .main, .task 1, .main, .task 1, .task 0] .init).map
      (fun s => (s.stopped.isSome, s.pending.isEmpty, s.result)) = some (true, true, .ok exProgEvents) := by
    cases multi <;> decide +kernel
  cases hr : exProgRead multi [.main, .main, .main, .task 1, .main, .task 1, .task 0] .init with
  | none => rw [hr] at hdec; simp at hdec
  | some r =>
    rw [hr] at hdec
    simp only [Option.map_some, Option.some.injEq, Prod.mk.injEq] at hdec
    rw [← hdec.2.2]
    exact .done hx (exProgRead_reachable hr .init) ⟨hdec.1, by simpa using hdec.2.1⟩

/-- The events with weights -2 and 6 are averaged. -/
theorem exProg_resamples (multi : Bool) : (exSettings multi).program.Resamples (exProgEvents.filter fun e => !e.outgoingByPid.isEmpty)
    (.ok [⟨1, [6], [(81, [9])]⟩, ⟨2, [2], [(81, [8])]⟩, ⟨0, [2], [(81, [7])]⟩]) := by
  have hdec : (runSchedule (exSettings multi).program.cfg 3 ((exSettings multi).program.nearest exProgEvents)
      ((exSettings multi).program.seeds exProgEvents) (List.replicate (if multi then 11 else 9) 0) (State.init (memOf exProgEvents))).map
      (fun s => (s.tasks 0, s.mem 0, s.mem 1, s.mem 2)) = some (.done (some ⟨[1, 2], 1, 4⟩), [6], [2], [2]) := by
    cases multi <;> decide +kernel
  cases hr : runSchedule (exSettings multi).program.cfg 3 ((exSettings multi).program.nearest exProgEvents)
      ((exSettings multi).program.seeds exProgEvents) (List.replicate (if multi then 11 else 9) 0) (State.init (memOf exProgEvents)) with
  | none => rw [hr] at hdec; simp at hdec
  | some st =>
    rw [hr] at hdec
    simp only [Option.map_some, Option.some.injEq, Prod.mk.injEq] at hdec
    have hid : identified exProgEvents = exProgEvents := by decide
    have hlog : logSumsPanics (exSettings multi).program.cfg (exSettings multi).program.infoLog exProgEvents = false := by
      cases multi <;> decide +kernel
    have hseeds : (exSettings multi).program.seeds exProgEvents = [2] := by cases multi <;> decide +kernel
    have hres : (exSettings multi).program.Resamples (exProgEvents.filter fun e => !e.outgoingByPid.isEmpty)
        (.ok (withWeights exProgEvents st.mem)) := by
      rw [show exProgEvents.filter (fun e => !e.outgoingByPid.isEmpty) = exProgEvents from hid]
      refine .ok hlog ⟨st, runSchedule_reachable _ Reachable.init hr, ?_, rfl⟩
      intro t ht
      rw [hseeds] at ht
      simp only [List.length_cons, List.length_nil, zero_add, Nat.lt_one_iff] at ht
      subst ht
      exact ⟨_, hdec.1⟩
    have hw : withWeights exProgEvents st.mem = [⟨1, [6], [(81, [9])]⟩, ⟨2, [2], [(81, [8])]⟩, ⟨0, [2], [(81, [7])]⟩] := by
      simp [withWeights, exProgEvents, hdec]
    rw [hw] at hres
    exact hres

theorem exProg_weights (multi : Bool) : (exSettings multi).program.ComputesWeights exProgEvents (.ok [[2], [6], [2]]) := by
    have := ComputesWeights.mk (exProg_resamples multi)
    have hrun : runWeights (exSettings multi).program.cfg (exSettings multi).program.infoLog
        (fun _ => (.ok [⟨1, [6], [(81, [9])]⟩, ⟨2, [2], [(81, [8])]⟩, ⟨0, [2], [(81, [7])]⟩] : Outcome IOError (List (Event ℚ ℚ))))
        (exSettings multi).program.unweight exProgEvents = .ok [[2], [6], [2]] := by
      cases multi <;> decide +kernel
    rw [hrun] at this
    exact this

/-- A run on these files in which the events with weights -2 and 6 are averaged. -/
theorem exProg_run (multi : Bool) : ∃ res fs', (exSettings multi).program.Run [((0 : ℕ), 10), (1, 11)] exProgFS
    (some exProgEvents) (some [[2], [6], [2]]) res fs' := by
  obtain ⟨s, fs1, x, h1, h2⟩ := exProg_reads multi
  exact ⟨_, _, .update h1 h2 (exProg_weights multi)⟩

/-- The hypotheses of `C69_cres_partial` and of `C69_unweight_partial` are met in this run: two files of different formats
with three events, one of which has negative weight. -/
example (multi : Bool) : ∃ res fs', GoodChoices (exSettings multi) ∧ (exSettings multi).minWeight = 0 ∧
    EventFiles (exSettings multi).io exProgFS ([((0 : ℕ), 10), (1, 11)].map Prod.fst) [exProgHepmc, exProgLhef] ∧
    GoodFiles [((0 : ℕ), 10), (1, 11)] ∧
    (∀ ev ∈ allEvents [exProgHepmc, exProgLhef], HasParticles (exSettings multi).program ev = true) ∧
    (exSettings multi).program.Run [((0 : ℕ), 10), (1, 11)] exProgFS (some exProgEvents) (some [[2], [6], [2]]) res fs' ∧
    (∀ w ∈ ([[2], [6], [2]] : List (List ℚ)), ∀ x ∈ w, ∀ d ∈ [exProgHepmc, exProgLhef], Writable (exSettings multi).io d.kind x) := by
  obtain ⟨res, fs', h⟩ := exProg_run multi
  refine ⟨res, fs', exSettings_good multi, rfl, exProgFiles multi, exProgGood, ?_, h, ?_⟩
  · cases multi <;> decide +kernel
  · intro w hw x hx d hd
    have h2 : (exSettings multi).io.ctx.float.finite x = true := by
      simp only [List.mem_cons, List.not_mem_nil, or_false] at hw
      rcases hw with rfl | rfl | rfl <;> simp only [List.mem_cons, List.not_mem_nil, or_false] at hx <;> subst hx <;>
        cases multi <;> decide +kernel
    simp only [List.mem_cons, List.not_mem_nil, or_false] at hd
    rcases hd with rfl | rfl <;> exact ⟨h2, trivial⟩

/-- The output in this case: the weights are those of the output files. -/
example : List.zipWith reweighted [[2], [6], [2]] (allEvents [exProgHepmc, exProgLhef]) =
    [⟨0, [2], [(21, [7])]⟩, ⟨0, [6], [(21, [9])]⟩, ⟨0, [2], [(21, [8])]⟩] := by decide +kernel

/-! ### what does not hold -/

/-- **C69**: in every run of the command line program the sum of weights in the output files is the sum of weights in the
input files, if the new weights can be written. -/
def C69_claim : Prop := ∀ (s : CresSettings ℚ ℚ ℚ), GoodChoices s → 0 ≤ s.minWeight → s.io.ctx.names = [] →
  ∀ (fs fs' : FS ℕ) (files : List (ℕ × ℕ)) (ds : List (EventFile ℚ ℚ)), EventFiles s.io fs (files.map Prod.fst) ds →
    GoodFiles files → ∀ events ws res, s.program.Run files fs events (some ws) res fs' →
    (∀ w ∈ ws, ∀ x ∈ w, ∀ d ∈ ds, Writable s.io d.kind x) →
    res = .ok () ∧ ∃ ds', EventFiles s.io fs' (files.map Prod.snd) ds' ∧ List.Forall₂ SameExceptWeights ds ds' ∧
      centralSum (allEvents ds') = centralSum (allEvents ds)

/-- **C69 is false**: without `multiweight`, the weight of an event without outgoing particles is lost. -/
theorem C69_violated : ¬ C69_claim := by
  intro h
  have hin : EventFiles (exSettings false).io exEventFS ([((1 : ℕ), 11)].map Prod.fst) [exLhefEvents] :=
    .cons ⟨_, rfl, exLhefEvents_ok false⟩ .nil
  have hf : GoodFiles [((1 : ℕ), 11)] := ⟨by decide, by decide⟩
  have hg := cres_goodComponents (exSettings_good false)
  have hn : (exSettings false).program.io.ctx.multi = true → (exSettings false).program.io.ctx.names = [] := fun _ => rfl
  have hun : (exSettings false).program.unweight = .ok := by
    funext evs
    simp only [CresSettings.program, unweightStep]
    rw [C26_trivial _ _ _ _ (Or.inl (show (exSettings false).minWeight = 0 from rfl))]
  obtain ⟨h1, events, ows, res, fs', h2⟩ := C69_cres_completes_partial (exSettings_good false) rfl rfl hn hin hf
  obtain ⟨ws, rfl⟩ := h1 _ _ _ _ h2
  obtain ⟨s0, fs0, hnew, hread, -⟩ := reads_files (p := (exSettings false).program) (single_weights hn hin) hin hf
  have hpass : ws.length = 1 ∧ (∀ w ∈ ws, w.length ≤ 1) ∧
      centralSum (List.zipWith reweighted ws (allEvents [exLhefEvents])) = 0 := by
    generalize hws : some ws = ows at h2
    cases h2 with
    | createErr _ | createPanic _ | readErr _ _ | readPanic _ _ | weightsErr _ _ _ | weightsPanic _ _ _ => simp at hws
    | @update s1 fs1 events ws' x g1 g2 g3 =>
      simp only [Option.some.injEq] at hws
      subst hws
      rw [hnew] at g1
      simp only [Prod.mk.injEq, true_and] at g1
      obtain ⟨rfl, rfl⟩ := g1
      exact weights_passed hg hun ((hread _ _ g2).2.1 events rfl) g3
  obtain ⟨h3, h4, h5⟩ := hpass
  obtain ⟨w, rfl⟩ := List.length_eq_one_iff.1 h3
  have hw : w = [0] := by
    have h4 := h4 w (by simp)
    cases w with
    | nil => norm_num [allEvents, exLhefEvents, reweighted, centralSum, centralWeight] at h5
    | cons x l =>
      have hl : l = [] := by
        cases l with
        | nil => rfl
        | cons _ _ => simp at h4
      subst hl
      simp only [allEvents, exLhefEvents, reweighted, centralSum, centralWeight, List.flatMap_cons, List.flatMap_nil,
        List.append_nil, List.zipWith_cons_cons, List.zipWith_nil_left, List.map_cons, List.map_nil, List.sum_cons,
        List.sum_nil, add_zero, List.cons_ne_nil, if_false, List.headD_cons] at h5
      rw [h5]
  subst hw
  have hwr : ∀ w ∈ ([[0]] : List (List ℚ)), ∀ x ∈ w, ∀ d ∈ [exLhefEvents], Writable (exSettings false).io d.kind x := by
    intro w hw x hx d hd
    simp only [List.mem_cons, List.not_mem_nil, or_false] at hw hd
    subst hw hd
    simp only [List.mem_cons, List.not_mem_nil, or_false] at hx
    subst hx
    exact ⟨by decide +kernel, trivial⟩
  obtain ⟨-, ds', h6, -, h7⟩ := h _ (exSettings_good false) le_rfl rfl _ _ _ _ hin hf _ _ _ h2 hwr
  obtain ⟨-, ds'', h8, -, h9⟩ := (C69_files_partial hn hin hf h2).2.2 fun w hw => ⟨h4 w hw, hwr w hw⟩
  rw [eventFiles_unique h6 h8, h9, h5] at h7
  norm_num [allEvents, exLhefEvents, centralSum, centralWeight] at h7

end Cres

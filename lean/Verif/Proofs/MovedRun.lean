import Verif.Proofs.Moved

/-!
Whole runs with momenta in another frame or in other units.
-/

set_option linter.unusedSectionVars false

namespace Cres

open Spec CombinedIO Program

theorem bind_build {E K V α : Type*} [LinearOrder V] {x : Outcome E α} {f : α → Outcome E (Event K V)} {e : Event K V}
    (hf : ∀ a, f a = .ok e → ∃ parts, HasOutgoing e parts) (h : x.bind f = .ok e) : ∃ parts, HasOutgoing e parts := by
  cases x with
  | ok a => exact hf a h
  | err _ => cases h
  | panic => cases h

theorem ok_build {E K V : Type*} [LinearOrder V] {b : EventBuilder K V} {e : Event K V}
    (h : (Outcome.ok b.build : Outcome E (Event K V)) = .ok e) : ∃ parts, HasOutgoing e parts := by
  cases h
  exact ⟨_, rfl⟩

/-- The particles of events that are read are in canonical form. -/
theorem tryConvert_outgoing {K V : Type*} [Zero K] [LinearOrder V] {ctx : ParseCtx K V} {r : EventRecord} {e : Event K V}
    (h : tryConvert ctx r = .ok e) : ∃ parts, HasOutgoing e parts := by
  have hm : ∀ {o : Outcome ReadError (Event K V)}, o.mapErr IOError.read = .ok e → o = .ok e := by
    intro o ho
    cases o <;> cases ho
    rfl
  obtain ⟨f, r⟩ := r
  cases f with
  | hepmc2 =>
    have h := hm (show (HepMC.parse ctx r).mapErr IOError.read = .ok e from h)
    unfold HepMC.parse at h
    refine bind_build (fun x hx => ?_) h
    refine bind_build (fun y hy => ?_) hx
    refine bind_build (fun z hz => ?_) hy
    simp only at hz
    split_ifs at hz
    · exact ok_build hz
    · exact ok_build hz
  | lhef =>
    have h := hm (show (Lhef.parse ctx r).mapErr IOError.read = .ok e from h)
    unfold Lhef.parse at h
    split at h
    · cases h
    · refine bind_build (fun x hx => ?_) h
      simp only at hx
      split_ifs at hx
      refine bind_build (fun y hy => ?_) hx
      refine bind_build (fun z hz => ?_) hy
      refine bind_build (fun w hw => ?_) hz
      refine bind_build (fun v hv => ?_) hw
      exact ok_build hv
  | stripperXml =>
    have h := hm (show (Stripper.parse ctx r).mapErr IOError.read = .ok e from h)
    unfold Stripper.parse at h
    split at h
    · cases h
    · refine bind_build (fun x hx => ?_) h
      refine bind_build (fun y hy => ?_) hx
      split at hy
      · cases hy
      · exact bind_build (fun w hw => ok_build hw) hy
  | ntuple => cases h

section
variable {D K V : Type*} [LinearOrder V] [Zero D] [Zero K] [One K] [Add K] [Mul K] [Div K] [NatCast K] [Neg K] [LinearOrder K] {h : V → V}

/-- All events have their particles in canonical form. -/
def AllOutgoing (evs : List (Event K V)) : Prop := ∀ e ∈ evs, ∃ parts, HasOutgoing e parts

theorem mapM_weight_moved (l : List (Event K V)) : (l.map (moved h)).mapM Event.weight = l.mapM Event.weight := by
  induction l with
  | nil => rfl
  | cons e l ih =>
    rw [List.map_cons, List.mapM_cons, List.mapM_cons, ih]
    rfl

theorem weightSum_moved (l : List (Event K V)) : weightSum (l.map (moved h)) = weightSum l := by
  unfold weightSum
  rw [mapM_weight_moved]

theorem logSums_moved (cfg : Cfg) (infoLog : Bool) (l : List (Event K V)) :
    logSumsPanics cfg infoLog (l.map (moved h)) = logSumsPanics cfg infoLog l := by
  unfold logSumsPanics
  rw [mapM_weight_moved]

theorem memOf_moved (evs : List (Event K V)) : memOf (evs.map (moved h)) = memOf evs := by
  funext i
  simp only [memOf, List.getElem?_map, Option.map_map]
  rfl

theorem withWeights_moved (evs : List (Event K V)) (mem : Mem K) :
    withWeights (evs.map (moved h)) mem = (withWeights evs mem).map (moved h) := by
  apply List.ext_getElem?
  intro i
  simp only [withWeights, List.getElem?_mapIdx, List.getElem?_map, Option.map_map]
  rfl

theorem identified_moved {evs : List (Event K V)} (hc : AllOutgoing evs) :
    identified (evs.map (moved h)) = (identified evs).map (moved h) := by
  unfold identified
  rw [List.filter_map]
  congr 1
  apply List.filter_congr
  intro e he
  obtain ⟨parts, hp⟩ := hc e he
  simp only [Function.comp_apply]
  rw [moved_isEmpty hp]

theorem sortById_moved (evs : List (Event K V)) : sortById (evs.map (moved h)) = (sortById evs).map (moved h) := by
  unfold sortById
  exact (List.map_insertionSort (r := fun a b : Event K V => a.id ≤ b.id) (s := fun a b : Event K V => a.id ≤ b.id)
    (moved h) evs fun _ _ _ _ => Iff.rfl).symm

theorem setWeights_moved : ∀ (evs : List (Event K V)) (ws : List (Weights K)),
    setWeights (evs.map (moved h)) ws = setWeights evs ws := by
  intro evs
  induction evs with
  | nil => intro ws; rfl
  | cons e es ih =>
    intro ws
    simp only [List.map_cons, setWeights, ih]
    rfl

theorem reweighted_moved (w : Weights K) (e : Event K V) : reweighted w (moved h e) = moved h (reweighted w e) := by
  unfold reweighted
  split_ifs <;> rfl

theorem retainEvents_moved (minWt : K) (rng : Nat → K) : ∀ (evs : List (Event K V)) (n : Nat),
    retainEvents minWt rng n (evs.map (moved h)) = (retainEvents minWt rng n evs).map (List.map (moved h)) := by
  intro evs
  induction evs with
  | nil => intro n; rfl
  | cons e es ih =>
    intro n
    simp only [List.map_cons, retainEvents]
    rw [show (moved h e).weight = e.weight from rfl]
    cases e.weight with
    | none => rfl
    | some wt =>
      simp only [ih, Option.map_map]
      congr 1
      funext rest
      simp only [Function.comp_apply]
      split_ifs <;> rfl

theorem mapM_raise_moved (minWt : K) : ∀ evs : List (Event K V),
    (evs.map (moved h)).mapM (raiseWeight minWt) = (evs.mapM (raiseWeight minWt)).map (List.map (moved h)) := by
  intro evs
  induction evs with
  | nil => rfl
  | cons e es ih =>
    rw [List.map_cons, List.mapM_cons, List.mapM_cons, ih]
    have : raiseWeight minWt (moved h e) = (raiseWeight minWt e).map (moved h) := by
      unfold raiseWeight
      rw [show (moved h e).weight = e.weight from rfl]
      cases e.weight with
      | none => rfl
      | some wt =>
        simp only
        split_ifs <;> rfl
    rw [this]
    cases raiseWeight minWt e with
    | none => rfl
    | some e' => cases es.mapM (raiseWeight minWt) <;> rfl

/-- The result of unweighting with all momenta changed. -/
def UnweightResult.moved (h : V → V) : UnweightResult K V → UnweightResult K V
  | .ok evs => .ok (evs.map (Spec.moved h))
  | .panic => .panic
  | .nonFinite evs => .nonFinite (evs.map (Spec.moved h))

theorem unweight_moved (debug : Bool) (minWt : K) (rng : Nat → K) (evs : List (Event K V)) :
    unweight debug minWt rng (evs.map (moved h)) = (unweight debug minWt rng evs).moved h := by
  unfold unweight
  simp only [weightSum_moved, retainEvents_moved, List.isEmpty_map]
  split_ifs with h1 h2
  · rfl
  · cases weightSum evs <;> rfl
  · cases weightSum evs with
    | none => rfl
    | some sum =>
      cases retainEvents minWt rng 0 evs with
      | none => rfl
      | some kept =>
        simp only [Option.map_some]
        rw [mapM_raise_moved]
        cases kept.mapM (raiseWeight minWt) with
        | none => rfl
        | some raised =>
          simp only [Option.map_some]
          rw [weightSum_moved, List.isEmpty_map]
          cases weightSum raised with
          | none => rfl
          | some total =>
            simp only
            split_ifs
            · rfl
            · rfl
            · rfl
            · simp only [UnweightResult.moved, List.map_map]
              rfl

theorem unweightStep_moved {E : Type*} (debug : Bool) (minWt : K) (rng : Nat → K) (evs : List (Event K V)) :
    (unweightStep debug minWt rng (evs.map (moved h)) : Outcome E _) =
      (unweightStep debug minWt rng evs : Outcome E _).map (List.map (moved h)) := by
  simp only [unweightStep, unweight_moved]
  cases unweight debug minWt rng evs <;> rfl

/-! ### whole runs -/

/-- The same components for momenta that are changed by `h`. -/
structure MovedComponents (h : V → V) (ψ : D → D) (p q : Program K V D) : Prop where
  zero : ψ 0 = 0
  cfg : q.cfg = p.cfg
  infoLog : q.infoLog = p.infoLog
  cluster : ∀ e parts, HasOutgoing e parts → q.cluster (moved h e) = (p.cluster e).map (moved h)
  outgoing : ∀ e e', p.cluster e = .ok e' → ∃ parts, HasOutgoing e' parts
  nearest : ∀ evs, AllOutgoing evs → q.nearest (evs.map (moved h)) = fun i => convertNear ψ (p.nearest evs i)
  seeds : ∀ evs, q.seeds (evs.map (moved h)) = p.seeds evs
  unweight : ∀ evs, q.unweight (evs.map (moved h)) = (p.unweight evs).map (List.map (moved h))

theorem resamples_moved {ψ : D → D} {p q : Program K V D} (hpq : MovedComponents h ψ p q) {events : List (Event K V)}
    (hc : AllOutgoing events) {o : Outcome IOError (List (Event K V))} (hr : p.Resamples events o) :
    q.Resamples (events.map (moved h)) (o.map (List.map (moved h))) := by
  cases hr with
  | log h1 => exact .log (by rw [hpq.cfg, hpq.infoLog, logSums_moved]; exact h1)
  | @task s t h1 h2 h3 =>
    refine .task (s := s.convert ψ) (t := t) (by rw [hpq.cfg, hpq.infoLog, logSums_moved]; exact h1) ?_ ?_
    · rw [hpq.cfg, List.length_map, hpq.nearest _ hc, hpq.seeds, memOf_moved]
      exact reachable_convert hpq.zero h2
    · simp only [State.convert]
      rw [h3]
      rfl
  | ok h1 h2 =>
    obtain ⟨s, g1, g2, rfl⟩ := h2
    refine .ok (by rw [hpq.cfg, hpq.infoLog, logSums_moved]; exact h1) ⟨s.convert ψ, ?_, ?_, (withWeights_moved _ _).symm⟩
    · rw [hpq.cfg, List.length_map, hpq.nearest _ hc, hpq.seeds, memOf_moved]
      exact reachable_convert hpq.zero g1
    · rw [hpq.seeds]
      exact finished_convert g2

theorem computes_moved {ψ : D → D} {p q : Program K V D} (hpq : MovedComponents h ψ p q) {events : List (Event K V)}
    (hc : AllOutgoing events) {o : Outcome (CresError IOError) (List (Weights K))} (hr : p.ComputesWeights events o) :
    q.ComputesWeights (events.map (moved h)) o := by
  cases hr with
  | @mk resampled hr =>
    have h1 := resamples_moved hpq (fun e he => hc e (List.mem_filter.1 he).1) hr
    have h2 : q.Resamples ((events.map (moved h)).filter fun e => !e.outgoingByPid.isEmpty) (resampled.map (List.map (moved h))) := by
      rw [show ((events.map (moved h)).filter fun e => !e.outgoingByPid.isEmpty) = identified (events.map (moved h)) from rfl,
        identified_moved hc]
      exact h1
    have h3 := ComputesWeights.mk h2
    convert h3 using 1
    unfold runWeights
    rw [hpq.cfg, hpq.infoLog]
    cases resampled with
    | err e => rfl
    | panic => rfl
    | ok evs =>
      simp only [Outcome.map, Outcome.mapErr, Outcome.bind]
      rw [hpq.unweight]
      cases p.unweight evs with
      | err e => rfl
      | panic => rfl
      | ok evs =>
        simp only [Outcome.map]
        rw [sortById_moved, logSums_moved, List.length_map, setWeights_moved]

variable {P P' : Type*} [DecidableEq P] [DecidableEq P'] [LinearOrder D]

/-- Reading the same events with changed momenta. -/
theorem reads_moved {ψ : D → D} {p q : Program K V D} (hpq : MovedComponents h ψ p q) {fs : FS P} {files : List (P × P)}
    {ds : List (EventFile K V)} (hin : EventFiles p.io fs (files.map Prod.fst) ds) (hf : GoodFiles files)
    {fs' : FS P'} {files' : List (P' × P')} {ds' : List (EventFile K V)}
    (hin' : EventFiles q.io fs' (files'.map Prod.fst) ds') (hf' : GoodFiles files')
    (hsame : allEvents ds' = (allEvents ds).map (moved h)) :
    ∃ s fs1 s' fs1', CombinedIO.new p.io files fs = (.ok (), s, fs1) ∧ CombinedIO.new q.io files' fs' = (.ok (), s', fs1') ∧
      ∀ events x, p.ReadsEvents s fs1 (.ok events) x → AllOutgoing events ∧
        ∃ x', q.ReadsEvents s' fs1' (.ok (events.map (moved h))) x' := by
  obtain ⟨s, fs1, g1, g2⟩ := reads_items hin hf
  obtain ⟨s', fs1', g3, g4⟩ := reads_items hin' hf'
  refine ⟨s, fs1, s', fs1', g1, g3, fun events x hx => ?_⟩
  obtain ⟨r, k1, k2, k3⟩ := (g2 _).1 ⟨x, hx⟩
  obtain ⟨k4, k5⟩ := C29_ids_by_position k1 k2 k3
  have c1 := (files_items hin).2
  have c2 := (files_items hin').2
  have hl : (allEvents ds').length = (allEvents ds).length := by rw [hsame, List.length_map]
  rw [List.length_map, c1.length_eq] at k4
  refine ⟨?_, ?_⟩
  · intro e he
    obtain ⟨item, m1, r', ev0, ev1, rfl, m2, m3, m4, m5⟩ := k5 e he
    obtain ⟨parts, hp⟩ := hpq.outgoing _ _ m3
    rw [m5]
    exact ⟨parts, hp⟩
  have hperm : ((events.map (moved h)).map Event.id).Perm (List.range (fileItems q.io (ds'.map EventFile.toFileData)).length) := by
    rw [c2.length_eq, hl, List.map_map]
    exact k4
  refine (g4 _).2 (read_any_order ?_ hperm ?_)
  · intro r hr
    have := fileItems_format q.io ds' r hr
    simp [this]
  · intro ev hev
    obtain ⟨e, he, rfl⟩ := List.mem_map.1 hev
    obtain ⟨item, m1, r', ev0, ev1, rfl, m2, m3, m4, m5⟩ := k5 e he
    rw [List.getElem?_map] at m1
    obtain ⟨r'', m6, m7⟩ := Option.map_eq_some_iff.1 m1
    cases m7
    have hlt : e.id < (allEvents ds).length := by
      rw [← c1.length_eq]
      exact (List.getElem?_eq_some_iff.1 m6).1
    have m8 := forall₂_get c1 m6 (List.getElem?_eq_getElem hlt)
    rw [m2] at m8
    cases m8
    have hlt' : e.id < (fileItems q.io (ds'.map EventFile.toFileData)).length := by
      rw [c2.length_eq, hl]
      exact hlt
    refine ⟨_, List.getElem?_eq_getElem hlt', ?_⟩
    have m9 := forall₂_get c2 (List.getElem?_eq_getElem hlt')
      (b := moved h (allEvents ds)[e.id]) (by rw [hsame, List.getElem?_map, List.getElem?_eq_getElem hlt]; rfl)
    show convertRecord _ _ e.id _ = _
    unfold convertRecord
    rw [m9]
    simp only [Outcome.mapErr, Outcome.bind]
    obtain ⟨parts, hparts⟩ := tryConvert_outgoing m2
    rw [hpq.cluster _ _ hparts, m3]
    have m10 : (moved h ev1).id = 0 := m4
    simp only [Outcome.map, m10]
    rw [m5]
    rfl

theorem cres_moved [DistNum D] [ExactComparison D] {ψ : D ≃o D} {s s' : CresSettings K V D} (hs : MovedSettings h ψ s s')
    (scaling scaling' : Bytes → Option K) :
    MovedComponents h ψ (CresSettings.program { s with io := { s.io with scaling := scaling } })
      (CresSettings.program { s' with io := { s'.io with scaling := scaling' } }) := by
  refine ⟨hs.unit.zero, ?_, hs.infoLog, fun e parts he => ?_, fun e e' he => ?_, fun evs hc => ?_, fun evs => ?_, fun evs => ?_⟩
  · simp only [Program.cfg, CresSettings.program, hs.multi, hs.debug]
  · exact congrArg Outcome.ok (cluster_moved hs he)
  · simp only [CresSettings.program, Outcome.ok.injEq] at he
    rw [← he]
    exact ⟨_, rfl⟩
  · have hd : ∀ i j, distWrapper s'.distance (evs.map (moved h)) i j = ψ (distWrapper s.distance evs i j) := by
      intro i j
      unfold distWrapper
      rw [List.getElem?_map, List.getElem?_map]
      cases hi : evs[i]? with
      | none => exact hs.unit.zero.symm
      | some e =>
        cases hj : evs[j]? with
        | none => exact hs.unit.zero.symm
        | some e' =>
          obtain ⟨parts, hp⟩ := hc e (List.mem_of_getElem? hi)
          obtain ⟨parts', hp'⟩ := hc e' (List.mem_of_getElem? hj)
          exact hs.distance e e' parts parts' hp hp'
    show s'.search.nearest s'.distance s'.maxCellSize _ = fun i => convertNear ψ (s.search.nearest s.distance s.maxCellSize _ i)
    funext i
    rw [hs.search, hs.maxCellSize]
    cases s.search with
    | naive minPos =>
      simp only [SearchAlgo.converted, SearchAlgo.nearest, List.length_map]
      exact naiveNearest_convert hs.unit minPos _ hd _ i
    | tree psort sort cornerPt f64Max =>
      simp only [SearchAlgo.converted, SearchAlgo.nearest, List.length_map]
      exact treeNearest_convert hs.unit psort sort cornerPt f64Max _ hd _ i
  · show (selectSeeds s'.sortSeeds s'.strategy _ _).getD [] = (selectSeeds s.sortSeeds s.strategy _ _).getD []
    rw [List.length_map, memOf_moved, hs.sortSeeds, hs.strategy]
  · show unweightStep s'.io.ctx.debug s'.minWeight s'.rng _ = _
    rw [hs.debug, hs.minWeight, hs.rng]
    exact unweightStep_moved _ _ _ _

/-- Sorting and searching work as expected for converted distances. -/
theorem goodChoices_moved [DistNum D] [ExactComparison D] {ψ : D ≃o D} {s s' : CresSettings K V D} (hs : MovedSettings h ψ s s')
    (hc : GoodChoices s) : GoodChoices s' := by
  refine ⟨?_, by rw [hs.sortSeeds]; exact hc.seeds, by rw [hs.rng, hs.minWeight]; exact hc.rng⟩
  have h1 := hc.search
  rw [hs.search]
  cases hsr : s.search with
  | naive minPos =>
    rw [hsr] at h1
    intro cands keys
    obtain ⟨h2, h3⟩ := h1 cands (keys.map ψ.symm)
    refine ⟨fun hn => List.map_eq_nil_iff.1 (h2 hn), fun pos hp => ?_⟩
    obtain ⟨h4, h5⟩ := h3 pos hp
    refine ⟨by rwa [List.length_map] at h4, fun k hk => ?_⟩
    have := h5 (ψ.symm k) (List.mem_map_of_mem hk)
    rw [List.getElem_map] at this
    exact ψ.symm.le_iff_le.1 this
  | tree psort sort cornerPt f64Max =>
    rw [hsr] at h1
    have key : ∀ sort : SortOracle Nat D, SortsByDistance sort → SortsByDistance (convertSort ψ sort) := by
      intro sort hsort call l
      obtain ⟨h2, h3⟩ := hsort call (l.map (convertPoint ψ.symm))
      refine ⟨?_, ?_⟩
      · have := h2.map (convertPoint ψ)
        have hinv := map_convertPoint_inverse ψ.symm l
        rw [OrderIso.symm_symm] at hinv
        rw [hinv] at this
        exact this
      · exact List.pairwise_map.2 (h3.imp fun hab => ψ.le_iff_le.2 hab)
    exact ⟨key psort h1.1, key sort h1.2⟩

end

end Cres

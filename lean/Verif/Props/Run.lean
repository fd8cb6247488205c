import Verif.Proofs.Run
import Verif.Props.Resample
import Verif.Props.Unweight

/-!
# C29–C34: a complete run
-/

set_option linter.unusedSectionVars false

namespace Cres

open Spec

/-! ## C29: reading -/

section C29

variable {E R K V : Type*} {convert : R → Outcome E (Event K V)} {cluster : Event K V → Outcome E (Event K V)}
  {sequential : R → Bool} {items : List (Except E R)}

/-- **C29**: whenever reading has ended, in any order of tasks. If it succeeds, there is exactly one event for each item of
the input; its id is the position of the item and it is the event read from this item. -/
theorem C29_ids_by_position {s : ReadState E R K V} (h : ReadReachable convert cluster sequential items s)
    (hf : s.Finished) {events : List (Event K V)} (hr : s.result = .ok events) :
    (events.map Event.id).Perm (List.range items.length) ∧
      ∀ ev ∈ events, ∃ item, items[ev.id]? = some item ∧ ReadsAs convert cluster ev.id item ev := by
  have hi := readInv_reachable h
  unfold ReadState.result at hr
  split at hr
  · cases hr
  rename_i hp
  cases hst : s.stopped with
  | none => rw [ReadState.Finished, hst] at hf; simp at hf
  | some o =>
    cases o with
    | some e => rw [hst] at hr; cases hr
    | none =>
      rw [hst] at hr
      simp only at hr
      rw [collectEvents_ok] at hr
      have hgood : ∀ ev ∈ events, ∃ item, items[ev.id]? = some item ∧ ReadsAs convert cluster ev.id item ev := by
        intro ev hev
        exact hi.good ev (by rw [hr]; exact List.mem_map_of_mem hev)
      refine ⟨?_, hgood⟩
      have hn : s.next = items.length := (hi.stop_ok hst).resolve_left hp
      rcases hi.ids with h1 | h1
      · rcases h1 with h1 | ⟨e, he⟩
        · exact absurd h1 hp
        · rw [hr] at he
          simp at he
      · rw [hf.2, hr, pushedIds_map_ok, hn] at h1
        simpa using h1

/-- **C29**: reading succeeds, in every order of tasks, exactly if every item can be read, converted and clustered and has
no id yet. -/
theorem C29_succeeds_iff {s : ReadState E R K V} (h : ReadReachable convert cluster sequential items s)
    (hf : s.Finished) :
    (∃ events, s.result = .ok events) ↔
      ∀ i item, items[i]? = some item → ∃ ev, ReadsAs convert cluster i item ev := by
  constructor
  · rintro ⟨events, hr⟩ i item hit
    obtain ⟨h1, h2⟩ := C29_ids_by_position h hf hr
    have hlt : i < items.length := (List.getElem?_eq_some_iff.1 hit).1
    have hmem : i ∈ events.map Event.id := h1.mem_iff.2 (List.mem_range.2 hlt)
    obtain ⟨ev, hev, rfl⟩ := List.mem_map.1 hmem
    obtain ⟨item', h3, h4⟩ := h2 ev hev
    rw [hit] at h3
    cases h3
    exact ⟨ev, h4⟩
  · intro hall
    have hi := readInv_reachable h
    have hnb : ¬ SomeBad convert cluster items := by
      rintro ⟨i, item, h1, h2⟩
      exact h2 (hall i item h1)
    have hp : s.panicked = false := by
      cases hp : s.panicked with
      | false => rfl
      | true => exact absurd (hi.panicked hp) hnb
    obtain ⟨events, hev⟩ := collectEvents_isOk (l := s.pushed) (fun e he => hnb (hi.bad e he))
    refine ⟨events, ?_⟩
    unfold ReadState.result
    rw [hp]
    simp only [Bool.false_eq_true, if_false]
    cases hst : s.stopped with
    | none => rw [ReadState.Finished, hst] at hf; simp at hf
    | some o =>
      cases o with
      | some e => exact absurd (hi.stop_err e hst) hnb
      | none => exact collectEvents_ok.2 hev

/-- **C29**: reading never gets stuck, and every sequence of steps is finite. -/
theorem C29_terminates (s : ReadState E R K V) :
    (¬ s.Finished → ∃ a s', readStep convert cluster sequential items s a = some s') ∧
    ∀ a s', readStep convert cluster sequential items s a = some s' → readMeasure items s' < readMeasure items s :=
  ⟨read_progress s, fun _ _ h => readMeasure_step h⟩

end C29

/-! Example records for this file: a weight and a list of particles, or nothing if the record is malformed. -/

/-- Conversion of an example record. -/
def exConvert (r : ℚ × List (ℤ × ℤ)) : Outcome String (Event ℚ ℤ) :=
  if r.1 = 999 then .err "malformed" else .ok ((EventBuilder.addWeight false ⟨[0], r.2⟩ r.1).build)

/-- Execution of a list of reading steps. -/
def exRead (sequential : ℚ × List (ℤ × ℤ) → Bool) (items : List (Except String (ℚ × List (ℤ × ℤ)))) :
    List ReadAction → ReadState String (ℚ × List (ℤ × ℤ)) ℚ ℤ → Option (ReadState String (ℚ × List (ℤ × ℤ)) ℚ ℤ)
  | [], s => some s
  | a :: as, s => (readStep exConvert .ok sequential items s a).bind (exRead sequential items as)

theorem exRead_reachable {sequential : ℚ × List (ℤ × ℤ) → Bool} {items : List (Except String (ℚ × List (ℤ × ℤ)))}
    {as : List ReadAction} {s s' : ReadState String (ℚ × List (ℤ × ℤ)) ℚ ℤ}
    (h : exRead sequential items as s = some s') (hs : ReadReachable exConvert .ok sequential items s) :
    ReadReachable exConvert .ok sequential items s' := by
  induction as generalizing s with
  | nil =>
    simp only [exRead, Option.some.injEq] at h
    exact h ▸ hs
  | cons a as ih =>
    simp only [exRead] at h
    cases hst : readStep exConvert .ok sequential items s a with
    | none => rw [hst] at h; cases h
    | some s1 =>
      rw [hst] at h
      exact ih h (.step hs hst)

-- two records, the second task finishes first
example : (exRead (fun _ => false) [.ok (1, [(21, 5)]), .ok (2, [])] [.main, .main, .task 1, .main, .task 0] .init).map
    (fun s => (s.stopped.isSome, s.pending.isEmpty, s.result)) =
    some (true, true, .ok [⟨1, [2], []⟩, ⟨0, [1], [(21, [5])]⟩]) := by decide +kernel

-- a malformed record gives an error
example : (exRead (fun _ => false) [.ok (999, [(21, 5)]), .ok (2, [])] [.main, .main, .task 1, .main, .task 0] .init).map
    ReadState.result = some (.err (.conversion "malformed")) := by decide +kernel

/-! ## C30: passing weights to records -/

section C30

variable {E K V : Type*}

theorem setWeights_length {es : List (Event K V)} {ws ws' : List (Weights K)} (h : setWeights es ws = some ws') :
    ws'.length = ws.length := by
  induction es generalizing ws with
  | nil => simp only [setWeights, Option.some.injEq] at h; rw [h]
  | cons e es ih =>
    simp only [setWeights] at h
    split at h
    · rw [ih h, List.length_set]
    · cases h

theorem setWeights_other {es : List (Event K V)} {ws ws' : List (Weights K)} (h : setWeights es ws = some ws') (i : Nat)
    (hi : ∀ e ∈ es, e.id ≠ i) : ws'[i]? = ws[i]? := by
  induction es generalizing ws with
  | nil => simp only [setWeights, Option.some.injEq] at h; rw [h]
  | cons e es ih =>
    simp only [setWeights] at h
    split at h
    · rw [ih h (fun e' he' => hi e' (List.mem_cons_of_mem _ he')), List.getElem?_set_ne (hi e List.mem_cons_self)]
    · cases h

theorem setWeights_set {es : List (Event K V)} {ws ws' : List (Weights K)} (h : setWeights es ws = some ws')
    (hn : (es.map Event.id).Nodup) : ∀ e ∈ es, ws'[e.id]? = some e.weights := by
  induction es generalizing ws with
  | nil => simp
  | cons e es ih =>
    simp only [setWeights] at h
    split at h
    · rename_i hlt
      simp only [List.map_cons, List.nodup_cons] at hn
      intro e' he'
      rcases List.mem_cons.1 he' with rfl | he'
      · rw [setWeights_other h e'.id (fun e'' he'' hid => hn.1 (by rw [← hid]; exact List.mem_map_of_mem he''))]
        rw [List.getElem?_set_self hlt]
      · exact ih h hn.2 e' he'
    · cases h

theorem setWeights_isSome {es : List (Event K V)} {ws : List (Weights K)} (h : ∀ e ∈ es, e.id < ws.length) :
    ∃ ws', setWeights es ws = some ws' := by
  induction es generalizing ws with
  | nil => exact ⟨ws, rfl⟩
  | cons e es ih =>
    simp only [setWeights]
    rw [if_pos (h e List.mem_cons_self)]
    exact ih (fun e' he' => by rw [List.length_set]; exact h e' (List.mem_cons_of_mem _ he'))

variable [Add K] [Zero K] [LinearOrder K]

theorem sortById_perm (events : List (Event K V)) : (sortById events).Perm events := List.perm_insertionSort _ _

/-- The events that take part in resampling. -/
def identified (events : List (Event K V)) : List (Event K V) := events.filter (fun e => !e.outgoingByPid.isEmpty)

theorem runWeights_form {cfg : Cfg} {infoLog : Bool}
    {resample unweight : List (Event K V) → Outcome E (List (Event K V))} {events : List (Event K V)}
    {ws : List (Weights K)} (h : runWeights cfg infoLog resample unweight events = .ok ws) :
    ∃ resampled final, resample (identified events) = .ok resampled ∧ unweight resampled = .ok final ∧
      setWeights (sortById final) (List.replicate events.length (defaultWeights cfg)) = some ws := by
  unfold runWeights at h
  simp only at h
  rw [Outcome.bind_eq_ok] at h
  obtain ⟨resampled, h1, h2⟩ := h
  rw [Outcome.bind_eq_ok] at h2
  obtain ⟨final, h2, h3⟩ := h2
  rw [Outcome.mapErr_eq_ok] at h1 h2
  split at h3
  · cases h3
  · rw [Outcome.ofOption_eq_ok] at h3
    exact ⟨resampled, final, h1, h2, h3⟩

theorem subCollection_ids {events resampled final : List (Event K V)} (hr : IsSubCollection (identified events) resampled)
    (hu : IsSubCollection resampled final) : (final.map Event.id).Subperm (events.map Event.id) :=
  (hu.trans hr).trans ((List.filter_sublist.map Event.id).subperm)

/-- **C30**: for any events with ids given by their positions (as established in C29) and any resampler and unweighter that
return a sub-collection: if the run gets as far as updating the weights, the number of entries is the number of events, the
entry at position `i` holds the final weights of the event with id `i`, if it is still there, and default weights
otherwise. -/
theorem C30_entry_per_record {cfg : Cfg} {infoLog : Bool}
    {resample unweight : List (Event K V) → Outcome E (List (Event K V))} {events : List (Event K V)}
    (hids : (events.map Event.id).Perm (List.range events.length))
    (hres : ∀ evs out, resample evs = .ok out → IsSubCollection evs out)
    (hunw : ∀ evs out, unweight evs = .ok out → IsSubCollection evs out)
    {ws : List (Weights K)} (h : runWeights cfg infoLog resample unweight events = .ok ws) :
    ∃ resampled final, resample (identified events) = .ok resampled ∧ unweight resampled = .ok final ∧
      ws.length = events.length ∧
      (∀ e ∈ final, ws[e.id]? = some e.weights) ∧
      (∀ i < events.length, (∀ e ∈ final, e.id ≠ i) → ws[i]? = some (defaultWeights cfg)) := by
  obtain ⟨resampled, final, h1, h2, h3⟩ := runWeights_form h
  refine ⟨resampled, final, h1, h2, ?_, ?_, ?_⟩
  · rw [setWeights_length h3, List.length_replicate]
  · have hsub := subCollection_ids (hres _ _ h1) (hunw _ _ h2)
    have hnd : (final.map Event.id).Nodup := by
      obtain ⟨l, hl1, hl2⟩ := hsub
      have : (events.map Event.id).Nodup := hids.nodup_iff.2 List.nodup_range
      exact hl1.nodup_iff.1 (this.sublist hl2)
    intro e he
    refine setWeights_set h3 ?_ e ((sortById_perm final).mem_iff.2 he)
    exact (((sortById_perm final).map Event.id).nodup_iff).2 hnd
  · intro i hi hne
    rw [setWeights_other h3 i (fun e he => hne e ((sortById_perm final).mem_iff.1 he))]
    rw [List.getElem?_replicate, if_pos hi]

/-- No index is out of range, for any arithmetic on weights. -/
theorem runWeights_succeeds {cfg : Cfg} {infoLog : Bool}
    {resample unweight : List (Event K V) → Outcome E (List (Event K V))} {events resampled final : List (Event K V)}
    (hids : (events.map Event.id).Perm (List.range events.length))
    (hres : IsSubCollection (identified events) resampled) (hunw : IsSubCollection resampled final)
    (h1 : resample (identified events) = .ok resampled) (h2 : unweight resampled = .ok final)
    (hw : ∀ e ∈ final, e.weights ≠ [])
    (hlog : cfg.debug = false ∨ infoLog = false ∨
      ((sortById final).map fun e => e.weights.headD 0).sum ≠
        (((sortById final).map fun e => e.weights.headD 0).filter (· < 0)).sum +
          (((sortById final).map fun e => e.weights.headD 0).filter (· < 0)).sum) :
    ∃ ws, runWeights cfg infoLog resample unweight events = .ok ws := by
  have hsub := subCollection_ids hres hunw
  have hlt : ∀ e ∈ sortById final, e.id < (List.replicate events.length (defaultWeights cfg (K := K))).length := by
    intro e he
    rw [List.length_replicate]
    have : e.id ∈ events.map Event.id := hsub.subset (List.mem_map_of_mem ((sortById_perm final).mem_iff.1 he))
    exact List.mem_range.1 (hids.mem_iff.1 this)
  obtain ⟨ws, hws⟩ := setWeights_isSome hlt
  refine ⟨ws, ?_⟩
  have hlogp : logSumsPanics cfg infoLog (sortById final) = false := by
    unfold logSumsPanics
    have hm : (sortById final).mapM Event.weight = some ((sortById final).map fun e => e.weights.headD 0) := by
      have hw' : ∀ e ∈ sortById final, e.weights ≠ [] := fun e he => hw e ((sortById_perm final).mem_iff.1 he)
      generalize sortById final = l at hw'
      induction l with
      | nil => rfl
      | cons e es ih =>
        have hwe : e.weight = some (e.weights.headD 0) := by
          have := hw' e List.mem_cons_self
          unfold Event.weight
          cases hwt : e.weights with
          | nil => exact absurd hwt this
          | cons a l => rfl
        rw [List.mapM_cons, hwe, ih (fun x hx => hw' x (List.mem_cons_of_mem _ hx))]
        rfl
    rw [hm]
    simp only
    rcases hlog with h | h | h
    · rw [h]; rfl
    · rw [h]; simp
    · simp only [Bool.and_eq_false_iff, decide_eq_false_iff_not]
      exact Or.inr h
  unfold runWeights
  simp only
  rw [show List.filter (fun e : Event K V => !e.outgoingByPid.isEmpty) events = identified events from rfl, h1,
    Outcome.mapErr_ok, Outcome.bind_ok, h2, Outcome.mapErr_ok, Outcome.bind_ok, hlogp]
  simp only [Bool.false_eq_true, if_false]
  rw [hws]
  rfl

/-- Without unweighting the same events come out. -/
theorem noUnweight_subCollection (evs out : List (Event K V))
    (h : (fun l => (Outcome.ok l : Outcome E (List (Event K V)))) evs = .ok out) : IsSubCollection evs out := by
  simp only [Outcome.ok.injEq] at h
  subst h
  exact List.Subperm.refl _

theorem withWeights_subCollection (events : List (Event K V)) (mem : Mem K) :
    IsSubCollection events (withWeights events mem) := by
  unfold IsSubCollection withWeights
  have : (events.mapIdx (fun i e => { e with weights := mem i })).map Event.id = events.map Event.id := by
    apply List.ext_getElem?
    intro i
    simp [Function.comp_def]
  rw [this]

/-- The default resampler returns a sub-collection. -/
theorem C30_resampler_subCollection {D : Type*} [Zero D] [One K] [Mul K] [Div K] [NatCast K] {cfg : Cfg} {nearest : Nat → List (Nat × D)} {seeds : List Nat}
    {events events' : List (Event K V)} (h : ResampledTo cfg nearest seeds events events') :
    IsSubCollection events events' := by
  obtain ⟨s, _, _, rfl⟩ := h
  exact withWeights_subCollection _ _

end C30

section C30

variable {E K V : Type*} [Field K] [LinearOrder K] [IsStrictOrderedRing K]

/-- **C30**: no index is out of range, that is, if resampler and unweighter succeed and return events with weights, the
run gets as far as updating the weights. (In debug builds with messages at level `info` the fraction of negative weights
must also be defined.) -/
theorem C30_no_panic {cfg : Cfg} {infoLog : Bool}
    {resample unweight : List (Event K V) → Outcome E (List (Event K V))} {events resampled final : List (Event K V)}
    (hids : (events.map Event.id).Perm (List.range events.length))
    (hres : IsSubCollection (identified events) resampled) (hunw : IsSubCollection resampled final)
    (h1 : resample (identified events) = .ok resampled) (h2 : unweight resampled = .ok final)
    (hw : ∀ e ∈ final, e.weights ≠ [])
    (hlog : cfg.debug = false ∨ infoLog = false ∨
      centralSum final - 2 * ((final.map centralWeight).filter (· < 0)).sum ≠ 0) :
    ∃ ws, runWeights cfg infoLog resample unweight events = .ok ws := by
  refine runWeights_succeeds hids hres hunw h1 h2 hw (hlog.imp_right fun h => h.imp_right fun h => ?_)
  have hperm := (sortById_perm final).map centralWeight
  change ((sortById final).map centralWeight).sum ≠ (((sortById final).map centralWeight).filter (· < 0)).sum +
    (((sortById final).map centralWeight).filter (· < 0)).sum
  rw [hperm.sum_eq, (hperm.filter _).sum_eq]
  intro h'
  apply h
  unfold centralSum
  rw [h']
  ring

/-- The default unweighter returns a sub-collection. -/
theorem C30_unweighter_subCollection {debug : Bool} {minWt : K} {rng : Nat → K} (hm : 0 ≤ minWt)
    (hr : ∀ i, 0 ≤ rng i ∧ (minWt = 0 ∨ rng i < minWt)) {events out : List (Event K V)} (hw : ∀ e ∈ events, e.weights ≠ [])
    (h : (unweightStep debug minWt rng events : Outcome E (List (Event K V))) = .ok out) : IsSubCollection events out := by
  unfold unweightStep at h
  cases hu : unweight debug minWt rng events with
  | panic => rw [hu] at h; cases h
  | nonFinite _ => rw [hu] at h; cases h
  | ok evs =>
    rw [hu] at h
    simp only [Outcome.ok.injEq] at h
    subst h
    rcases hm.eq_or_lt with h0 | h0
    · rw [C26_trivial _ _ _ _ (Or.inl h0.symm)] at hu
      cases hu
      exact List.Subperm.refl _
    · obtain ⟨survivors, common, h1, h2, -⟩ :=
        C26_survivors h0 (fun i => ⟨(hr i).1, (hr i).2.resolve_left (ne_of_gt h0)⟩) hw hu
      unfold IsSubCollection
      have : evs.map Event.id = survivors.map Event.id := by
        clear h1 hu
        induction h2 with
        | nil => rfl
        | cons hs _ ih => simp only [List.map_cons, ih, hs.1]
      rw [this]
      exact (h1.map Event.id).subperm

end C30

-- three events in arbitrary order, the one with id 1 has no particles
example : runWeights (E := String) ⟨true, false⟩ true .ok .ok
    [(⟨2, [3, 4], [(21, [0])]⟩ : Event ℚ ℤ), ⟨0, [1, 1], [(21, [5])]⟩, ⟨1, [2, 2], []⟩] = .ok [[1, 1], [], [3, 4]] := by
  decide +kernel
example : runWeights (E := String) ⟨false, true⟩ true .ok .ok
    [(⟨1, [3], [(21, [0])]⟩ : Event ℚ ℤ), ⟨0, [1], []⟩] = .ok [[0], [3]] := by
  decide +kernel

/-- In debug builds that show messages at level `info`, a sample without identified particles panics. -/
theorem C30_debug_log_panics : ∃ events : List (Event ℚ ℤ), (events.map Event.id).Perm (List.range events.length) ∧
    events ≠ [] ∧ runWeights (E := String) ⟨false, true⟩ true .ok .ok events = .panic :=
  ⟨[⟨0, [1], []⟩], by decide, by decide, by decide +kernel⟩

/-! ## C31–C33: what is written -/

theorem sum_range_eq {R M : Type*} [AddCommMonoid M] (l : List R) (f : R → M) :
    (l.map f).sum = ((List.range l.length).map (fun i => ((l[i]?).map f).getD 0)).sum := by
  congr 1
  apply List.ext_getElem?
  intro i
  rw [List.getElem?_map, List.getElem?_map]
  by_cases h : i < l.length
  · rw [List.getElem?_range h, List.getElem?_eq_getElem h]
    simp [h]
  · rw [List.getElem?_eq_none (by omega), List.getElem?_eq_none (by rw [List.length_range]; omega)]
    rfl

theorem sum_by_ids {K V R M : Type*} [AddCommMonoid M] {events : List (Event K V)} {l : List R} (f : R → M)
    (hids : (events.map Event.id).Perm (List.range l.length)) :
    (l.map f).sum = (events.map (fun e => ((l[e.id]?).map f).getD 0)).sum := by
  rw [sum_range_eq]
  have := (hids.map (fun i => ((l[i]?).map f).getD 0)).sum_eq
  rw [← this, List.map_map]
  rfl

section Output

variable {E R K V : Type*} [Field K] [LinearOrder K] [IsStrictOrderedRing K]

/-- Everything that is known after a run on `records`, up to the call of `update_all_weights`: reading succeeded with
`events` (in any order of tasks), the central weight of each event is the one in its record, `final` are the events left
after resampling and unweighting, and `weights` are passed to the records. -/
structure RunResult (F : RecordFormat R K) (cfg : Cfg) (records : List R) (events resampled final : List (Event K V))
    (weights : List (Weights K)) : Prop where
  read : ∃ (E : Type) (convert : R → Outcome E (Event K V)) (cluster : Event K V → Outcome E (Event K V))
    (sequential : R → Bool) (s : ReadState E R K V),
    (∀ r ev0, convert r = .ok ev0 → ev0.weights.head? = some (F.weightOf r)) ∧
    (∀ ev0 ev1, cluster ev0 = .ok ev1 → ev1.weights = ev0.weights) ∧
    ReadReachable convert cluster sequential (records.map Except.ok) s ∧ s.Finished ∧ s.result = .ok events
  run : ∃ (E : Type) (resample unweight : List (Event K V) → Outcome E (List (Event K V))) (infoLog : Bool),
    (∀ evs out, resample evs = .ok out → IsSubCollection evs out) ∧
    (∀ evs out, unweight evs = .ok out → IsSubCollection evs out) ∧
    resample (identified events) = .ok resampled ∧ unweight resampled = .ok final ∧
    runWeights cfg infoLog resample unweight events = .ok weights

variable {F : RecordFormat R K} {cfg : Cfg} {records : List R} {events resampled final : List (Event K V)}
  {weights : List (Weights K)}

theorem RunResult.ids (h : RunResult F cfg records events resampled final weights) :
    (events.map Event.id).Perm (List.range records.length) ∧
    ∀ ev ∈ events, ∃ r, records[ev.id]? = some r ∧ ev.weights.head? = some (F.weightOf r) := by
  obtain ⟨E, convert, cluster, sequential, s, hc, hcl, h1, h2, h3⟩ := h.read
  obtain ⟨h4, h5⟩ := C29_ids_by_position h1 h2 h3
  rw [List.length_map] at h4
  refine ⟨h4, ?_⟩
  intro ev hev
  obtain ⟨item, h6, r, ev0, ev1, h7, h8, h9, _, h10⟩ := h5 ev hev
  subst h7
  rw [List.getElem?_map] at h6
  obtain ⟨r', h11, h12⟩ := Option.map_eq_some_iff.1 h6
  cases h12
  refine ⟨_, h11, ?_⟩
  rw [h10]
  simp only
  rw [hcl _ _ h9]
  exact hc _ _ h8

theorem RunResult.length_eq (h : RunResult F cfg records events resampled final weights) :
    events.length = records.length := by
  have := h.ids.1.length_eq
  simpa using this

theorem RunResult.entries (h : RunResult F cfg records events resampled final weights) :
    weights.length = records.length ∧ (∀ e ∈ final, weights[e.id]? = some e.weights) ∧
    (∀ i < records.length, (∀ e ∈ final, e.id ≠ i) → weights[i]? = some (defaultWeights cfg)) ∧
    IsSubCollection (identified events) resampled ∧ IsSubCollection resampled final := by
  obtain ⟨E, resample, unweight, infoLog, h1, h2, h3, h4, h5⟩ := h.run
  obtain ⟨r', f', h6, h7, h8, h9, h10⟩ := C30_entry_per_record (by rw [h.length_eq]; exact h.ids.1) h1 h2 h5
  rw [h3] at h6
  cases h6
  rw [h4] at h7
  cases h7
  rw [h.length_eq] at h8 h10
  exact ⟨h8, h9, h10, h1 _ _ h3, h2 _ _ h4⟩

/-- The record that is written for position `i`. -/
theorem output_getElem? {weights : List (Weights K)} {i : Nat} {w : Weights K} {r : R} (hw : weights[i]? = some w)
    (hr : records[i]? = some r) : (F.output weights records)[i]? = some (F.update w r) := by
  unfold RecordFormat.output
  rw [List.getElem?_zipWith, hw, hr]

/-- An event that does not take part in resampling does not appear in the final sample. -/
theorem RunResult.not_final (h : RunResult F cfg records events resampled final weights) {ev : Event K V}
    (hev : ev ∈ events) (hp : ev.outgoingByPid = []) : ∀ e ∈ final, e.id ≠ ev.id := by
  obtain ⟨-, -, -, h1, h2⟩ := h.entries
  intro e he hid
  have hm : ev.id ∈ (identified events).map Event.id := by
    rw [← hid]
    exact (h2.trans h1).subset (List.mem_map_of_mem he)
  obtain ⟨e', he', hid'⟩ := List.mem_map.1 hm
  have hnd : (events.map Event.id).Nodup := h.ids.1.nodup_iff.2 List.nodup_range
  have hmem := List.mem_filter.1 he'
  have : e' = ev := List.inj_on_of_nodup_map hnd hmem.1 hev hid'
  subst this
  have := hmem.2
  rw [hp] at this
  simp at this

/-- **C31** as stated in the list: the record of an event without outgoing particles keeps its weight. -/
def C31_claim (F : RecordFormat R K) (V : Type) (cfg : Cfg) : Prop :=
  ∀ (records : List R) (events resampled final : List (Event K V)) (weights : List (Weights K)),
    RunResult F cfg records events resampled final weights → ∀ ev ∈ events, ev.outgoingByPid = [] →
      ∃ r r', records[ev.id]? = some r ∧ (F.output weights records)[ev.id]? = some r' ∧ F.weightOf r' = F.weightOf r

/-- **C31 with `multiweight`**: the record is written without any change. -/
theorem C31_multiweight_partial (hm : cfg.multi = true) (h : RunResult F cfg records events resampled final weights)
    {ev : Event K V} (hev : ev ∈ events) (hp : ev.outgoingByPid = []) :
    ∃ r, records[ev.id]? = some r ∧ (F.output weights records)[ev.id]? = some r := by
  obtain ⟨r, hr, -⟩ := h.ids.2 ev hev
  have hlt := (List.getElem?_eq_some_iff.1 hr).1
  have hw := h.entries.2.2.1 ev.id hlt (h.not_final hev hp)
  refine ⟨r, hr, ?_⟩
  rw [output_getElem? hw hr, defaultWeights, hm, if_pos rfl, F.update_nil]

/-- **C31 without `multiweight`**: the event is not resampled, but its record is written with weight zero. -/
theorem C31_single_weight_zero (hm : cfg.multi = false) (h : RunResult F cfg records events resampled final weights)
    {ev : Event K V} (hev : ev ∈ events) (hp : ev.outgoingByPid = []) :
    ∃ r', (F.output weights records)[ev.id]? = some r' ∧ F.weightOf r' = 0 := by
  obtain ⟨r, hr, -⟩ := h.ids.2 ev hev
  have hlt := (List.getElem?_eq_some_iff.1 hr).1
  have hw := h.entries.2.2.1 ev.id hlt (h.not_final hev hp)
  refine ⟨_, output_getElem? hw hr, ?_⟩
  rw [defaultWeights, hm, if_neg (by simp), F.update_cons]

/-- **C32** as stated in the list: the record of an event that took part in resampling and did not survive unweighting is
written with weight zero. (Records are never dropped.) -/
def C32_claim (F : RecordFormat R K) (V : Type) (cfg : Cfg) : Prop :=
  ∀ (records : List R) (events resampled final : List (Event K V)) (weights : List (Weights K)),
    RunResult F cfg records events resampled final weights → ∀ ev ∈ resampled, (∀ e ∈ final, e.id ≠ ev.id) →
      ∃ r', (F.output weights records)[ev.id]? = some r' ∧ F.weightOf r' = 0

theorem RunResult.resampled_lt (h : RunResult F cfg records events resampled final weights) {ev : Event K V}
    (hev : ev ∈ resampled) : ∃ r, records[ev.id]? = some r := by
  have h1 := h.entries.2.2.2.1.subset (List.mem_map_of_mem hev)
  obtain ⟨e, he, hid⟩ := List.mem_map.1 h1
  obtain ⟨r, hr, -⟩ := h.ids.2 e (List.mem_filter.1 he).1
  exact ⟨r, by rw [← hid]; exact hr⟩

/-- **C32 without `multiweight`**: discarded events are written with weight zero. -/
theorem C32_single_weight_partial (hm : cfg.multi = false) (h : RunResult F cfg records events resampled final weights)
    {ev : Event K V} (hev : ev ∈ resampled) (hd : ∀ e ∈ final, e.id ≠ ev.id) :
    ∃ r', (F.output weights records)[ev.id]? = some r' ∧ F.weightOf r' = 0 := by
  obtain ⟨r, hr⟩ := h.resampled_lt hev
  have hlt := (List.getElem?_eq_some_iff.1 hr).1
  have hw := h.entries.2.2.1 ev.id hlt hd
  refine ⟨_, output_getElem? hw hr, ?_⟩
  rw [defaultWeights, hm, if_neg (by simp), F.update_cons]

/-- **C32 with `multiweight`**: the record of a discarded event is written with its original weight. -/
theorem C32_multiweight_original (hm : cfg.multi = true) (h : RunResult F cfg records events resampled final weights)
    {ev : Event K V} (hev : ev ∈ resampled) (hd : ∀ e ∈ final, e.id ≠ ev.id) :
    (F.output weights records)[ev.id]? = records[ev.id]? := by
  obtain ⟨r, hr⟩ := h.resampled_lt hev
  have hlt := (List.getElem?_eq_some_iff.1 hr).1
  have hw := h.entries.2.2.1 ev.id hlt hd
  rw [output_getElem? hw hr, hr, defaultWeights, hm, if_pos rfl, F.update_nil]

/-- The records of surviving events are written with their new weights, in both builds. -/
theorem C32_survivors (h : RunResult F cfg records events resampled final weights) {e : Event K V} (he : e ∈ final)
    {w : K} (hw : e.weights.head? = some w) :
    ∃ r', (F.output weights records)[e.id]? = some r' ∧ F.weightOf r' = w := by
  have h1 := h.entries
  have hid : e.id ∈ resampled.map Event.id := h1.2.2.2.2.subset (List.mem_map_of_mem he)
  obtain ⟨e', he', hid'⟩ := List.mem_map.1 hid
  obtain ⟨r, hr⟩ := h.resampled_lt he'
  rw [hid'] at hr
  refine ⟨_, output_getElem? (h1.2.1 e he) hr, ?_⟩
  cases hws : e.weights with
  | nil => rw [hws] at hw; simp at hw
  | cons a l =>
    rw [hws] at hw
    simp only [List.head?_cons, Option.some.injEq] at hw
    rw [F.update_cons, hw]

/-! ### the sum of weights -/

/-- Sum of the central weights of all records. -/
def recordSum (F : RecordFormat R K) (records : List R) : K := (records.map F.weightOf).sum

theorem RunResult.output_length (h : RunResult F cfg records events resampled final weights) :
    (F.output weights records).length = records.length := by
  unfold RecordFormat.output
  rw [List.length_zipWith, h.entries.1, Nat.min_self]

/-- The sum over the written records, if unweighting changes nothing and the resampler gives new weights `mem`. -/
theorem RunResult.sums {mem : Mem K} (h : RunResult F cfg records events (withWeights (identified events) mem) final
      weights) (hf : final = withWeights (identified events) mem)
    (hne : ∀ i < (identified events).length, mem i ≠ []) :
    recordSum F (F.output weights records) = weightTotal (identified events).length mem 0 +
      ((events.filter (fun e => e.outgoingByPid.isEmpty)).map
        (fun e => (((F.output weights records)[e.id]?).map F.weightOf).getD 0)).sum := by
  unfold recordSum
  rw [sum_by_ids (events := events) F.weightOf (by rw [h.output_length]; exact h.ids.1)]
  have hsplit : ∀ g : Event K V → K, (events.map g).sum =
      ((identified events).map g).sum + ((events.filter (fun e => e.outgoingByPid.isEmpty)).map g).sum := by
    intro g
    unfold identified
    clear hf hne h
    induction events with
    | nil => simp
    | cons e es ih =>
      simp only [List.map_cons, List.sum_cons, List.filter_cons, ih]
      by_cases hp : e.outgoingByPid.isEmpty
      · simp [hp]; ring
      · simp [hp]; ring
  rw [hsplit]
  congr 1
  unfold weightTotal
  rw [Finset.sum_range, ← List.sum_ofFn]
  congr 1
  apply List.ext_getElem?
  intro i
  rw [List.getElem?_map, List.getElem?_ofFn]
  by_cases hi : i < (identified events).length
  · rw [List.getElem?_eq_getElem hi, dif_pos hi]
    simp only [Option.map_some, Option.some.injEq]
    have hmem : ({ (identified events)[i] with weights := mem i } : Event K V) ∈ final := by
      rw [hf]
      refine List.mem_of_getElem? (i := i) ?_
      unfold withWeights
      rw [List.getElem?_mapIdx, List.getElem?_eq_getElem hi]
      rfl
    have hhead : ({ (identified events)[i] with weights := mem i } : Event K V).weights.head? = some (wt mem 0 i) := by
      simp only
      unfold wt
      cases hm : mem i with
      | nil => exact absurd hm (hne i hi)
      | cons a l => rfl
    obtain ⟨r', h1, h2⟩ := C32_survivors h hmem hhead
    simp only at h1
    rw [h1, Option.map_some, Option.getD_some, h2]
  · rw [List.getElem?_eq_none (by omega), dif_neg hi]
    rfl

theorem RunResult.sum_records (h : RunResult F cfg records events resampled final weights) :
    recordSum F records = weightTotal (identified events).length (memOf (identified events)) 0 +
      ((events.filter (fun e => e.outgoingByPid.isEmpty)).map (fun e => ((records[e.id]?).map F.weightOf).getD 0)).sum := by
  unfold recordSum
  rw [sum_by_ids (events := events) F.weightOf h.ids.1]
  have hsplit : ∀ g : Event K V → K, (events.map g).sum =
      ((identified events).map g).sum + ((events.filter (fun e => e.outgoingByPid.isEmpty)).map g).sum := by
    intro g
    unfold identified
    clear h
    induction events with
    | nil => simp
    | cons e es ih =>
      simp only [List.map_cons, List.sum_cons, List.filter_cons, ih]
      by_cases hp : e.outgoingByPid.isEmpty
      · simp [hp]; ring
      · simp [hp]; ring
  rw [hsplit]
  congr 1
  unfold weightTotal
  rw [Finset.sum_range, ← List.sum_ofFn]
  congr 1
  apply List.ext_getElem?
  intro i
  rw [List.getElem?_map, List.getElem?_ofFn]
  by_cases hi : i < (identified events).length
  · rw [List.getElem?_eq_getElem hi, dif_pos hi]
    simp only [Option.map_some, Option.some.injEq]
    have hmem : (identified events)[i] ∈ events := (List.mem_filter.1 (List.getElem_mem hi)).1
    obtain ⟨r, h1, h2⟩ := h.ids.2 _ hmem
    rw [h1]
    unfold wt memOf
    rw [List.getElem?_eq_getElem hi]
    simp only [Option.map_some, Option.getD_some]
    cases hw : (identified events)[i].weights with
    | nil => rw [hw] at h2; simp at h2
    | cons a l =>
      rw [hw] at h2
      simp only [List.head?_cons, Option.some.injEq] at h2
      rw [← h2]
      rfl
  · rw [List.getElem?_eq_none (by omega), dif_neg hi]
    rfl

/-- **C33** as stated in the list, for events read, resampled in any interleaving and not unweighted. -/
def C33_claim (F : RecordFormat R K) (V : Type) (cfg : Cfg) : Prop :=
  ∀ (records : List R) (events : List (Event K V)) (weights : List (Weights K)) (nearest : Nat → List (Nat × ℤ))
    (seeds : List Nat) (L : Nat) (s : State ℤ K),
    ValidInput (identified events).length nearest seeds →
    Uniform cfg (identified events).length L (memOf (identified events)) →
    Reachable cfg (identified events).length nearest seeds (memOf (identified events)) s → s.Finished seeds →
    RunResult F cfg records events (withWeights (identified events) s.mem) (withWeights (identified events) s.mem)
      weights →
    recordSum F (F.output weights records) = recordSum F records

section C33

variable {D : Type*} [Zero D] [LinearOrder D] {nearest : Nat → List (Nat × D)} {seeds : List Nat} {L : Nat} {s : State D K}

/-- **C33 with `multiweight`**: the sum of weights of all records is conserved in every schedule of reading and
resampling. -/
theorem C33_multiweight_partial (hm : cfg.multi = true) (hv : ValidInput (identified events).length nearest seeds)
    (hu : Uniform cfg (identified events).length L (memOf (identified events)))
    (hr : Reachable cfg (identified events).length nearest seeds (memOf (identified events)) s) (hf : s.Finished seeds)
    (h : RunResult F cfg records events (withWeights (identified events) s.mem) (withWeights (identified events) s.mem)
      weights) :
    recordSum F (F.output weights records) = recordSum F records := by
  obtain ⟨A, hA⟩ := inv_reachable hv hu hr
  have hne : ∀ i < (identified events).length, s.mem i ≠ [] := by
    intro i hi
    rw [finished_mem hA hf]
    exact hA.uniform.ne_nil hi
  rw [h.sums rfl hne, h.sum_records, C01_weight_sums_conserved_parallel hv hu hr hf 0]
  congr 2
  apply List.map_congr_left
  intro ev hev
  obtain ⟨hev, hp⟩ := List.mem_filter.1 hev
  obtain ⟨r, h1, h2⟩ := C31_multiweight_partial hm h hev (List.isEmpty_iff.1 hp)
  rw [h1, h2]

/-- **C33 in any build**, if all events have outgoing particles after clustering. -/
theorem C33_all_identified_partial (hall : ∀ ev ∈ events, ev.outgoingByPid ≠ [])
    (hv : ValidInput (identified events).length nearest seeds)
    (hu : Uniform cfg (identified events).length L (memOf (identified events)))
    (hr : Reachable cfg (identified events).length nearest seeds (memOf (identified events)) s) (hf : s.Finished seeds)
    (h : RunResult F cfg records events (withWeights (identified events) s.mem) (withWeights (identified events) s.mem)
      weights) :
    recordSum F (F.output weights records) = recordSum F records := by
  obtain ⟨A, hA⟩ := inv_reachable hv hu hr
  have hne : ∀ i < (identified events).length, s.mem i ≠ [] := by
    intro i hi
    rw [finished_mem hA hf]
    exact hA.uniform.ne_nil hi
  rw [h.sums rfl hne, h.sum_records, C01_weight_sums_conserved_parallel hv hu hr hf 0]
  have : events.filter (fun e => e.outgoingByPid.isEmpty) = [] := by
    rw [List.filter_eq_nil_iff]
    intro e he hp
    exact hall e he (List.isEmpty_iff.1 hp)
  rw [this]
  rfl

/-- **C33 without `multiweight`**: the output lacks exactly the weights of the events without outgoing particles. -/
theorem C33_single_weight_loss (hm : cfg.multi = false) (hv : ValidInput (identified events).length nearest seeds)
    (hu : Uniform cfg (identified events).length L (memOf (identified events)))
    (hr : Reachable cfg (identified events).length nearest seeds (memOf (identified events)) s) (hf : s.Finished seeds)
    (h : RunResult F cfg records events (withWeights (identified events) s.mem) (withWeights (identified events) s.mem)
      weights) :
    recordSum F (F.output weights records) +
      ((events.filter (fun e => e.outgoingByPid.isEmpty)).map centralWeight).sum = recordSum F records := by
  obtain ⟨A, hA⟩ := inv_reachable hv hu hr
  have hne : ∀ i < (identified events).length, s.mem i ≠ [] := by
    intro i hi
    rw [finished_mem hA hf]
    exact hA.uniform.ne_nil hi
  rw [h.sums rfl hne, h.sum_records, C01_weight_sums_conserved_parallel hv hu hr hf 0]
  have h0 : ((events.filter (fun e => e.outgoingByPid.isEmpty)).map
        (fun e => (((F.output weights records)[e.id]?).map F.weightOf).getD 0)).sum = 0 := by
    apply List.sum_eq_zero
    intro x hx
    obtain ⟨ev, hev, rfl⟩ := List.mem_map.1 hx
    obtain ⟨hev, hp⟩ := List.mem_filter.1 hev
    obtain ⟨r, h1, h2⟩ := C31_single_weight_zero hm h hev (List.isEmpty_iff.1 hp)
    rw [h1, Option.map_some, Option.getD_some, h2]
  rw [h0, add_zero]
  congr 2
  apply List.map_congr_left
  intro ev hev
  obtain ⟨hev, hp⟩ := List.mem_filter.1 hev
  obtain ⟨r, h1, h2⟩ := h.ids.2 ev hev
  rw [h1, Option.map_some, Option.getD_some, centralWeight, List.headD_eq_head?_getD, h2]
  rfl

end C33

end Output

/-! ### examples and violations -/

/-- The format of the example records. -/
def exFormat : RecordFormat (ℚ × List (ℤ × ℤ)) ℚ where
  weightOf := Prod.fst
  update := fun ws r => match ws with
    | [] => r
    | w :: _ => (w, r.2)
  update_nil := fun _ => rfl
  update_cons := fun _ _ _ => rfl

theorem exConvert_weight (r : ℚ × List (ℤ × ℤ)) (ev : Event ℚ ℤ) (h : exConvert r = .ok ev) :
    ev.weights.head? = some (exFormat.weightOf r) := by
  unfold exConvert at h
  split at h
  · cases h
  · cases h
    rfl

/-- A run in the examples, from a list of reading steps. -/
theorem exRunResult {cfg : Cfg} {records : List (ℚ × List (ℤ × ℤ))} {events resampled final : List (Event ℚ ℤ)}
    {weights : List (Weights ℚ)} (as : List ReadAction) (unw : List (Event ℚ ℤ) → Outcome String (List (Event ℚ ℤ)))
    (resample : List (Event ℚ ℤ) → Outcome String (List (Event ℚ ℤ)))
    (h1 : (exRead (fun _ => false) (records.map Except.ok) as .init).map
      (fun s => (s.stopped.isSome, s.pending.isEmpty, s.result)) = some (true, true, .ok events))
    (hres : ∀ evs out, resample evs = .ok out → IsSubCollection evs out)
    (hunw : ∀ evs out, unw evs = .ok out → IsSubCollection evs out)
    (h2 : resample (identified events) = .ok resampled) (h3 : unw resampled = .ok final)
    (h4 : runWeights cfg false resample unw events = .ok weights) :
    RunResult exFormat cfg records events resampled final weights := by
  cases hs : exRead (fun _ => false) (records.map Except.ok) as .init with
  | none => rw [hs] at h1; cases h1
  | some s =>
    rw [hs] at h1
    simp only [Option.map_some, Option.some.injEq, Prod.mk.injEq] at h1
    refine ⟨⟨String, exConvert, .ok, fun _ => false, s, exConvert_weight, ?_, exRead_reachable hs .init, ?_, h1.2.2⟩,
      ⟨String, resample, unw, false, hres, hunw, h2, h3, h4⟩⟩
    · intro ev0 ev1 h
      cases h
      rfl
    · exact ⟨h1.1, List.isEmpty_iff.1 h1.2.1⟩

theorem okSub (evs out : List (Event ℚ ℤ)) (h : (Outcome.ok evs : Outcome String _) = .ok out) :
    IsSubCollection evs out := by
  cases h
  exact List.Subperm.refl _

/-- Unweighting that discards the events with weight below 2. -/
def exDiscard (evs : List (Event ℚ ℤ)) : Outcome String (List (Event ℚ ℤ)) :=
  .ok (evs.filter (fun e => decide (2 ≤ centralWeight e)))

theorem exDiscard_sub (evs out : List (Event ℚ ℤ)) (h : exDiscard evs = .ok out) : IsSubCollection evs out := by
  cases h
  exact ((List.filter_sublist).map _).subperm

/-- A run on two records, of which the first has no particles. -/
theorem exRun_no_particles (multi : Bool) : RunResult exFormat ⟨multi, false⟩ [(1, []), (2, [(21, 5)])]
    [(⟨1, [2], [(21, [5])]⟩ : Event ℚ ℤ), ⟨0, [1], []⟩] [⟨1, [2], [(21, [5])]⟩] [⟨1, [2], [(21, [5])]⟩]
    [if multi then [] else [0], [2]] := by
  cases multi <;>
  refine exRunResult [.main, .main, .task 1, .task 0, .main] .ok .ok ?_ okSub okSub ?_ ?_ ?_ <;>
  decide +kernel

/-- A run on two records, of which the first is discarded by the unweighter. -/
theorem exRun_discarded (multi : Bool) : RunResult exFormat ⟨multi, false⟩ [(1, [(21, 6)]), (2, [(21, 5)])]
    [(⟨0, [1], [(21, [6])]⟩ : Event ℚ ℤ), ⟨1, [2], [(21, [5])]⟩] [⟨0, [1], [(21, [6])]⟩, ⟨1, [2], [(21, [5])]⟩]
    [⟨1, [2], [(21, [5])]⟩] [if multi then [] else [0], [2]] := by
  cases multi <;>
  refine exRunResult [.main, .main, .task 0, .task 0, .main] exDiscard .ok ?_ okSub exDiscard_sub ?_ ?_ ?_ <;>
  decide +kernel

/-- **C31 is false without `multiweight`**: an event without outgoing particles gets weight zero. -/
theorem C31_violated : ¬ C31_claim exFormat ℤ ⟨false, false⟩ := by
  intro h
  obtain ⟨r, r', h1, h2, h3⟩ := h _ _ _ _ _ (exRun_no_particles false) ⟨0, [1], []⟩ (by simp) rfl
  have h1' : r = (1, []) := by simpa using h1.symm
  have h2' : r' = (0, []) := by
    have : (exFormat.output [[0], [2]] [(1, []), (2, [(21, 5)])])[0]? = some (0, []) := by decide +kernel
    simp only [Bool.false_eq_true, if_false] at h2
    rw [this] at h2
    exact (Option.some.inj h2).symm
  rw [h1', h2'] at h3
  exact absurd h3 (by decide +kernel)

/-- **C32 is false with `multiweight`**: the record of a discarded event keeps its original weight. -/
theorem C32_violated : ¬ C32_claim exFormat ℤ ⟨true, false⟩ := by
  intro h
  obtain ⟨r', h1, h2⟩ := h _ _ _ _ _ (exRun_discarded true) ⟨0, [1], [(21, [6])]⟩ (by simp) (by simp)
  have : (exFormat.output [[], [2]] [(1, [(21, 6)]), (2, [(21, 5)])])[0]? = some (1, [(21, 6)]) := by decide +kernel
  simp only [if_true] at h1
  rw [this] at h1
  rw [← Option.some.inj h1] at h2
  exact absurd h2 (by decide +kernel)

/-- **C33 is false without `multiweight`**: the weight of an event without outgoing particles is lost. -/
theorem C33_violated : ¬ C33_claim exFormat ℤ ⟨false, false⟩ := by
  intro h
  have hid : identified [(⟨1, [2], [(21, [5])]⟩ : Event ℚ ℤ), ⟨0, [1], []⟩] = [⟨1, [2], [(21, [5])]⟩] := by
    decide +kernel
  have hw : withWeights [(⟨1, [2], [(21, [5])]⟩ : Event ℚ ℤ)] (memOf [(⟨1, [2], [(21, [5])]⟩ : Event ℚ ℤ)]) =
      [⟨1, [2], [(21, [5])]⟩] := by decide +kernel
  have := h [(1, []), (2, [(21, 5)])] [⟨1, [2], [(21, [5])]⟩, ⟨0, [1], []⟩] [[0], [2]] (fun _ => []) [] 1
    (State.init (memOf [(⟨1, [2], [(21, [5])]⟩ : Event ℚ ℤ)])) ⟨by simp, by simp, by simp⟩
    (by
      rw [hid]
      refine ⟨by norm_num, fun _ => rfl, ?_⟩
      intro i hi
      have : i = 0 := by simpa using hi
      subst this
      rfl)
    (by rw [hid]; exact .init) (by intro t ht; simp at ht)
    (by
      rw [hid]
      simp only [State.init]
      rw [hw]
      exact exRun_no_particles false)
  exact absurd this (by decide +kernel)

-- the partial theorems apply to these runs
example : ∃ r', (exFormat.output [[], [2]] [(1, []), (2, [(21, 5)])])[0]? = some r' ∧ r' = (1, []) := by
  obtain ⟨r, h1, h2⟩ := C31_multiweight_partial (cfg := ⟨true, false⟩) rfl (exRun_no_particles true)
    (ev := ⟨0, [1], []⟩) (by simp) rfl
  exact ⟨r, h2, by simpa using h1.symm⟩
example : ∃ r', (exFormat.output [[0], [2]] [(1, [(21, 6)]), (2, [(21, 5)])])[0]? = some r' ∧ exFormat.weightOf r' = 0 :=
  C32_single_weight_partial (cfg := ⟨false, false⟩) rfl (exRun_discarded false) (ev := ⟨0, [1], [(21, [6])]⟩) (by simp)
    (by simp)

/-! ## C34: reproducibility -/

section C34

variable {E R K V : Type*} [Field K] [LinearOrder K] [IsStrictOrderedRing K]

/-- **C34** as stated in the list, for given components (which include the random numbers of the unweighter): two runs that
read the same input pass the same weights on. -/
def C34_claim (cfg : Cfg) (convert : R → Outcome E (Event K V)) (cluster : Event K V → Outcome E (Event K V))
    (resample unweight : List (Event K V) → Outcome E (List (Event K V))) : Prop :=
  ∀ (records : List R) (s₁ s₂ : ReadState E R K V) (events₁ events₂ : List (Event K V)),
    ReadReachable convert cluster (fun _ => false) (records.map Except.ok) s₁ → s₁.Finished → s₁.result = .ok events₁ →
    ReadReachable convert cluster (fun _ => false) (records.map Except.ok) s₂ → s₂.Finished → s₂.result = .ok events₂ →
    runWeights cfg false resample unweight events₁ = runWeights cfg false resample unweight events₂

/-- States that reading can reach if tasks run in the order in which they were spawned, as is the case with a single worker
thread. -/
inductive ReadReachableFifo (convert : R → Outcome E (Event K V)) (cluster : Event K V → Outcome E (Event K V))
    (sequential : R → Bool) (items : List (Except E R)) : ReadState E R K V → Prop
  | init : ReadReachableFifo convert cluster sequential items .init
  | step {s s' : ReadState E R K V} {a : ReadAction} : ReadReachableFifo convert cluster sequential items s →
      (a = .main ∨ a = .task 0) → readStep convert cluster sequential items s a = some s' →
      ReadReachableFifo convert cluster sequential items s'

variable {convert : R → Outcome E (Event K V)} {cluster : Event K V → Outcome E (Event K V)} {sequential : R → Bool}
  {items : List (Except E R)}

theorem ReadReachableFifo.reachable {s : ReadState E R K V} (h : ReadReachableFifo convert cluster sequential items s) :
    ReadReachable convert cluster sequential items s := by
  induction h with
  | init => exact .init
  | step _ _ hs ih => exact .step ih hs

theorem pushedIds_append_error (l : List (Except (CresError E) (Event K V))) (e : CresError E) :
    pushedIds (l ++ [.error e]) = pushedIds l := by
  simp [pushedIds]

/-- With tasks in order, the ids of the events pushed so far are in order. -/
theorem fifo_sorted (hseq : (∀ r, sequential r = true) ∨ (∀ r, sequential r = false)) {s : ReadState E R K V}
    (h : ReadReachableFifo convert cluster sequential items s) :
    (pushedIds s.pushed ++ s.pending.map Prod.fst).Pairwise (· < ·) ∧
      (∀ i ∈ pushedIds s.pushed ++ s.pending.map Prod.fst, i < s.next) ∧
      ((∀ r, sequential r = true) → s.pending = []) := by
  induction h with
  | init => simp [ReadState.init, pushedIds]
  | @step s s' a _ ha hs ih =>
    obtain ⟨h1, h2, h3⟩ := ih
    rcases ha with rfl | rfl
    · simp only [readStep] at hs
      cases hst : s.stopped with
      | some _ => rw [hst] at hs; cases hs
      | none =>
        rw [hst] at hs
        simp only at hs
        cases hit : items[s.next]? with
        | none =>
          rw [hit] at hs
          simp only [Option.some.injEq] at hs
          subst hs
          exact ⟨h1, h2, h3⟩
        | some item =>
          rw [hit] at hs
          cases item with
          | error e =>
            simp only [Option.some.injEq] at hs
            subst hs
            exact ⟨h1, h2, h3⟩
          | ok record =>
            simp only at hs
            split at hs
            · rename_i hsr
              have hall : ∀ r, sequential r = true := by
                rcases hseq with h | h
                · exact h
                · rw [h record] at hsr; cases hsr
              have hp := h3 hall
              cases hc : convertRecord convert cluster s.next record with
              | ok ev =>
                rw [hc] at hs
                simp only [Option.some.injEq] at hs
                subst hs
                have hid := readsAs_id (convertRecord_ok.1 hc)
                rw [hp] at h1 h2
                simp only [List.map_nil, List.append_nil] at h1 h2
                simp only [hp, List.map_nil, List.append_nil, pushedIds_append_ok, hid]
                refine ⟨?_, ?_, fun _ => trivial⟩
                · rw [List.pairwise_append]
                  exact ⟨h1, by simp, fun a ha b hb => by
                    have : b = s.next := by simpa using hb
                    rw [this]
                    exact h2 a ha⟩
                · intro i hi
                  rcases List.mem_append.1 hi with hi | hi
                  · exact Nat.lt_succ_of_lt (h2 i hi)
                  · have : i = s.next := by simpa using hi
                    omega
              | err e =>
                rw [hc] at hs
                simp only [Option.some.injEq] at hs
                subst hs
                exact ⟨h1, h2, h3⟩
              | panic =>
                rw [hc] at hs
                simp only [Option.some.injEq] at hs
                subst hs
                exact ⟨h1, h2, h3⟩
            · rename_i hsr
              simp only [Option.some.injEq] at hs
              subst hs
              refine ⟨?_, ?_, fun hall => absurd (hall record) hsr⟩
              · simp only [List.map_append, List.map_cons, List.map_nil]
                rw [← List.append_assoc, List.pairwise_append]
                exact ⟨h1, by simp, fun a ha b hb => by
                  have : b = s.next := by simpa using hb
                  rw [this]
                  exact h2 a ha⟩
              · intro i hi
                simp only [List.map_append, List.map_cons, List.map_nil] at hi
                rw [← List.append_assoc] at hi
                rcases List.mem_append.1 hi with hi | hi
                · exact Nat.lt_succ_of_lt (h2 i hi)
                · have : i = s.next := by simpa using hi
                  simp only
                  omega
    · simp only [readStep] at hs
      cases hp : s.pending with
      | nil => rw [hp] at hs; cases hs
      | cons x l =>
        obtain ⟨id, record⟩ := x
        rw [hp] at hs h1 h2
        simp only [List.getElem?_cons_zero, List.eraseIdx_cons_zero] at hs
        have h3' : (∀ r, sequential r = true) → False := fun hall => by
          have := h3 hall
          rw [hp] at this
          cases this
        cases hc : convertRecord convert cluster id record with
        | ok ev =>
          rw [hc] at hs
          simp only [Option.some.injEq] at hs
          subst hs
          have hid := readsAs_id (convertRecord_ok.1 hc)
          simp only [List.map_cons] at h1 h2
          simp only [pushedIds_append_ok, hid, List.append_assoc, List.singleton_append]
          exact ⟨h1, h2, fun hall => (h3' hall).elim⟩
        | err e =>
          rw [hc] at hs
          simp only [Option.some.injEq] at hs
          subst hs
          simp only [List.map_cons] at h1 h2
          simp only [pushedIds_append_error]
          have hsub : (pushedIds s.pushed ++ l.map Prod.fst).Sublist (pushedIds s.pushed ++ id :: l.map Prod.fst) :=
            (List.sublist_cons_self _ _).append_left _
          exact ⟨h1.sublist hsub, fun i hi => h2 i (hsub.subset hi), fun hall => (h3' hall).elim⟩
        | panic =>
          rw [hc] at hs
          simp only [Option.some.injEq] at hs
          subst hs
          simp only [List.map_cons] at h1 h2
          have hsub : (pushedIds s.pushed ++ l.map Prod.fst).Sublist (pushedIds s.pushed ++ id :: l.map Prod.fst) :=
            (List.sublist_cons_self _ _).append_left _
          exact ⟨h1.sublist hsub, fun i hi => h2 i (hsub.subset hi), fun hall => (h3' hall).elim⟩

theorem readsAs_unique {i : Nat} {item : Except E R} {ev ev' : Event K V} (h : ReadsAs convert cluster i item ev)
    (h' : ReadsAs convert cluster i item ev') : ev = ev' := by
  obtain ⟨r, e0, e1, h1, h2, h3, _, h4⟩ := h
  obtain ⟨r', e0', e1', h1', h2', h3', _, h4'⟩ := h'
  rw [h1] at h1'
  cases h1'
  rw [h2] at h2'
  cases h2'
  rw [h3] at h3'
  cases h3'
  rw [h4, h4']

/-- **C34, partial**: with a single worker thread the events are in the order of the records, for every relative timing of
the main thread and the worker. -/
theorem C34_one_worker_order_partial (hseq : (∀ r, sequential r = true) ∨ (∀ r, sequential r = false))
    {s : ReadState E R K V} (h : ReadReachableFifo convert cluster sequential items s) (hf : s.Finished)
    {events : List (Event K V)} (hr : s.result = .ok events) :
    events.map Event.id = List.range items.length := by
  have h1 := (C29_ids_by_position h.reachable hf hr).1
  have h2 := (fifo_sorted hseq h).1
  have hp : s.pushed = events.map Except.ok := by
    unfold ReadState.result at hr
    split at hr
    · cases hr
    · cases hst : s.stopped with
      | none => rw [ReadState.Finished, hst] at hf; simp at hf
      | some o =>
        rw [hst] at hr
        cases o with
        | some e => cases hr
        | none => exact collectEvents_ok.1 hr
  rw [hf.2, hp, pushedIds_map_ok, List.map_nil, List.append_nil] at h2
  exact h1.eq_of_pairwise' (h2.imp le_of_lt) (List.pairwise_lt_range.imp le_of_lt)

/-- **C34, partial**: two runs with a single worker thread each pass the same weights on, if resampler and unweighter are
functions of the list of events. -/
theorem C34_one_worker_partial (hseq : (∀ r, sequential r = true) ∨ (∀ r, sequential r = false)) (cfg : Cfg)
    (infoLog : Bool) (resample unweight : List (Event K V) → Outcome E (List (Event K V)))
    {s₁ s₂ : ReadState E R K V} {events₁ events₂ : List (Event K V)}
    (h₁ : ReadReachableFifo convert cluster sequential items s₁) (hf₁ : s₁.Finished) (hr₁ : s₁.result = .ok events₁)
    (h₂ : ReadReachableFifo convert cluster sequential items s₂) (hf₂ : s₂.Finished) (hr₂ : s₂.result = .ok events₂) :
    runWeights cfg infoLog resample unweight events₁ = runWeights cfg infoLog resample unweight events₂ := by
  have e1 := C34_one_worker_order_partial hseq h₁ hf₁ hr₁
  have e2 := C34_one_worker_order_partial hseq h₂ hf₂ hr₂
  have g1 := (C29_ids_by_position h₁.reachable hf₁ hr₁).2
  have g2 := (C29_ids_by_position h₂.reachable hf₂ hr₂).2
  have : events₁ = events₂ := by
    have hlen : events₁.length = events₂.length := by
      have := congrArg List.length (e1.trans e2.symm)
      simpa using this
    apply List.ext_getElem hlen
    intro i hi hi'
    have hid : (events₁[i]).id = (events₂[i]).id := by
      have := congrArg (fun l => l[i]?) (e1.trans e2.symm)
      simpa [hi, hi'] using this
    obtain ⟨it1, a1, a2⟩ := g1 _ (List.getElem_mem hi)
    obtain ⟨it2, b1, b2⟩ := g2 _ (List.getElem_mem hi')
    rw [← hid] at b1 b2
    rw [a1] at b1
    cases b1
    exact readsAs_unique a2 b2
  rw [this]

end C34

theorem exRead_finished {records : List (ℚ × List (ℤ × ℤ))} {events : List (Event ℚ ℤ)} (as : List ReadAction)
    (h1 : (exRead (fun _ => false) (records.map Except.ok) as .init).map
      (fun s => (s.stopped.isSome, s.pending.isEmpty, s.result)) = some (true, true, .ok events)) :
    ∃ s, ReadReachable exConvert .ok (fun _ => false) (records.map Except.ok) s ∧ s.Finished ∧ s.result = .ok events := by
  cases hs : exRead (fun _ => false) (records.map Except.ok) as .init with
  | none => rw [hs] at h1; cases h1
  | some s =>
    rw [hs] at h1
    simp only [Option.map_some, Option.some.injEq, Prod.mk.injEq] at h1
    exact ⟨s, exRead_reachable hs .init, ⟨h1.1, List.isEmpty_iff.1 h1.2.1⟩, h1.2.2⟩

/-- **C34 is false** with unweighting: the random numbers are assigned to events in the order in which the conversion tasks
finish. Here nothing is to be resampled. -/
theorem C34_violated : ¬ C34_claim ⟨false, false⟩ exConvert .ok .ok
    (unweightStep false 2 (fun n => if n = 0 then 1 / 2 else 3 / 2)) := by
  intro h
  obtain ⟨s₁, a1, a2, a3⟩ := exRead_finished (records := [(1, [(21, 6)]), (1, [(21, 5)])])
    (events := [⟨0, [1], [(21, [6])]⟩, ⟨1, [1], [(21, [5])]⟩]) [.main, .main, .main, .task 0, .task 0] (by decide +kernel)
  obtain ⟨s₂, b1, b2, b3⟩ := exRead_finished (records := [(1, [(21, 6)]), (1, [(21, 5)])])
    (events := [⟨1, [1], [(21, [5])]⟩, ⟨0, [1], [(21, [6])]⟩]) [.main, .main, .main, .task 1, .task 0] (by decide +kernel)
  exact absurd (h _ s₁ s₂ _ _ a1 a2 a3 b1 b2 b3) (by decide +kernel)

/-- The sequential resampler with the default strategy for the example events, which have one particle each. -/
def exResampler (evs : List (Event ℚ ℤ)) : Outcome String (List (Event ℚ ℤ)) :=
  let pos := evs.map (fun e => ((e.outgoingByPid.head?).map (fun x => x.2.headD 0)).getD 0)
  match resampler ⟨false, false⟩ keySort .next evs.length (exNearest pos) (memOf evs) with
  | none => .panic
  | some r => .ok (withWeights evs r.1)

/-- **C34 is false** also without unweighting and with resampling on a single thread: the seeds are treated in the order in
which the conversion tasks finish. -/
theorem C34_violated_resampling : ¬ C34_claim ⟨false, false⟩ exConvert .ok exResampler .ok := by
  intro h
  obtain ⟨s₁, a1, a2, a3⟩ := exRead_finished
    (records := [(-1, [(21, -10)]), (1, [(21, 0)]), (-1, [(21, 10)]), (3, [(21, 25)])])
    (events := [⟨0, [-1], [(21, [-10])]⟩, ⟨1, [1], [(21, [0])]⟩, ⟨2, [-1], [(21, [10])]⟩, ⟨3, [3], [(21, [25])]⟩])
    ([.main, .main, .main, .main, .main, .task 0, .task 0, .task 0, .task 0]) (by decide +kernel)
  obtain ⟨s₂, b1, b2, b3⟩ := exRead_finished
    (records := [(-1, [(21, -10)]), (1, [(21, 0)]), (-1, [(21, 10)]), (3, [(21, 25)])])
    (events := [⟨2, [-1], [(21, [10])]⟩, ⟨0, [-1], [(21, [-10])]⟩, ⟨1, [1], [(21, [0])]⟩, ⟨3, [3], [(21, [25])]⟩])
    ([.main, .main, .main, .main, .main, .task 2, .task 0, .task 0, .task 0]) (by decide +kernel)
  exact absurd (h _ s₁ s₂ _ _ a1 a2 a3 b1 b2 b3) (by decide +kernel)

-- a run with one worker
example : (exRead (fun _ => false) [.ok (1, [(21, 5)]), .ok (2, [])] [.main, .task 0, .main, .main, .task 0] .init).map
    ReadState.result = some (.ok [⟨0, [1], [(21, [5])]⟩, ⟨1, [2], []⟩]) := by decide +kernel

theorem exResampler_sub (evs out : List (Event ℚ ℤ)) (h : exResampler evs = .ok out) : IsSubCollection evs out := by
  unfold exResampler at h
  simp only at h
  split at h
  · cases h
  · cases h
    exact withWeights_subCollection _ _

-- **C33** applies to a run in which a cell is resampled
example : ∃ (events : List (Event ℚ ℤ)) (s : State ℤ ℚ) (weights : List (Weights ℚ)),
    Reachable ⟨false, false⟩ (identified events).length (exNearest [0, 1]) [0] (memOf (identified events)) s ∧
    s.Finished [0] ∧ ValidInput (identified events).length (exNearest [0, 1]) [0] ∧
    Uniform ⟨false, false⟩ (identified events).length 1 (memOf (identified events)) ∧
    RunResult exFormat ⟨false, false⟩ [(-1, [(21, 0)]), (3, [(21, 1)])] events
      (withWeights (identified events) s.mem) (withWeights (identified events) s.mem) weights ∧
    exFormat.output weights [(-1, [(21, 0)]), (3, [(21, 1)])] = [(1, [(21, 0)]), (1, [(21, 1)])] := by
  have hid : identified [(⟨0, [-1], [(21, [0])]⟩ : Event ℚ ℤ), ⟨1, [3], [(21, [1])]⟩] =
    [⟨0, [-1], [(21, [0])]⟩, ⟨1, [3], [(21, [1])]⟩] := by decide +kernel
  have hs : (runSchedule ⟨false, false⟩ 2 (exNearest [0, 1]) [0] (List.replicate 9 0)
      (State.init (memOf [(⟨0, [-1], [(21, [0])]⟩ : Event ℚ ℤ), ⟨1, [3], [(21, [1])]⟩]))).map
      (fun s => (s.tasks 0, s.mem 0, s.mem 1)) = some (.done (some ⟨[0, 1], 1, 2⟩), [1], [1]) := by decide +kernel
  cases hr : runSchedule ⟨false, false⟩ 2 (exNearest [0, 1]) [0] (List.replicate 9 0)
      (State.init (memOf [(⟨0, [-1], [(21, [0])]⟩ : Event ℚ ℤ), ⟨1, [3], [(21, [1])]⟩])) with
  | none => rw [hr] at hs; cases hs
  | some s =>
    rw [hr] at hs
    simp only [Option.map_some, Option.some.injEq, Prod.mk.injEq] at hs
    have hw : withWeights [(⟨0, [-1], [(21, [0])]⟩ : Event ℚ ℤ), ⟨1, [3], [(21, [1])]⟩] s.mem =
        [⟨0, [1], [(21, [0])]⟩, ⟨1, [1], [(21, [1])]⟩] := by
      simp [withWeights, hs.2.1, hs.2.2]
    refine ⟨[⟨0, [-1], [(21, [0])]⟩, ⟨1, [3], [(21, [1])]⟩], s, [[1], [1]], ?_, ?_, ?_, ?_, ?_, by decide +kernel⟩
    · rw [hid]
      exact runSchedule_reachable _ .init hr
    · intro t ht
      have : t = 0 := by simpa using ht
      subst this
      exact ⟨_, hs.1⟩
    · rw [hid]
      exact exValid [0, 1] [0] (by simp)
    · rw [hid]
      refine ⟨by norm_num, fun _ => rfl, ?_⟩
      intro i hi
      have : i = 0 ∨ i = 1 := by simp only [List.length_cons, List.length_nil] at hi; omega
      rcases this with rfl | rfl <;> rfl
    · rw [hid, hw]
      refine exRunResult [.main, .main, .main, .task 0, .task 0] .ok exResampler ?_ exResampler_sub okSub ?_ ?_ ?_ <;>
      decide +kernel

end Cres

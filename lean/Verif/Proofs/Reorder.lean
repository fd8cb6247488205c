import Verif.Proofs.Layout
import Verif.Proofs.Survivors

/-!
Reading events in any order, and runs for events with other ids.
-/

set_option linter.unusedSectionVars false

namespace Cres

open Spec CombinedIO Program

/-! ### permutations -/

/-- Positions in a permuted list. -/
theorem perm_positions {α : Type*} {a b : List α} (h : a.Perm b) : ∃ τ : Nat → Nat,
    (∀ i < a.length, τ i < a.length) ∧ (∀ i < a.length, ∀ j < a.length, τ i = τ j → i = j) ∧ ∀ i < a.length, b[τ i]? = a[i]? := by
  induction h with
  | nil => exact ⟨id, by simp⟩
  | @cons x a b _ ih =>
    obtain ⟨τ, h1, h2, h3⟩ := ih
    refine ⟨fun i => match i with | 0 => 0 | i + 1 => τ i + 1, ?_, ?_, ?_⟩
    · intro i hi
      cases i with
      | zero => simp
      | succ i => simpa using h1 i (by simpa using hi)
    · intro i hi j hj hij
      cases i with
      | zero => cases j with
        | zero => rfl
        | succ j => simp at hij
      | succ i => cases j with
        | zero => simp at hij
        | succ j =>
          have := h2 i (by simpa using hi) j (by simpa using hj) (by simpa using hij)
          omega
    · intro i hi
      cases i with
      | zero => rfl
      | succ i => simpa using h3 i (by simpa using hi)
  | swap x y l =>
    refine ⟨fun i => if i = 0 then 1 else if i = 1 then 0 else i, ?_, ?_, ?_⟩
    · intro i hi
      simp only [List.length_cons] at hi ⊢
      split_ifs <;> omega
    · intro i _ j _ hij
      simp only at hij
      split_ifs at hij <;> omega
    · intro i _
      rcases i with _ | _ | i <;> simp
  | @trans a b c h1 _ ih1 ih2 =>
    obtain ⟨τ, g1, g2, g3⟩ := ih1
    obtain ⟨σ, k1, k2, k3⟩ := ih2
    rw [← h1.length_eq] at k1 k2 k3
    exact ⟨fun i => σ (τ i), fun i hi => k1 _ (g1 i hi), fun i hi j hj hij => g2 i hi j hj (k2 _ (g1 i hi) _ (g1 j hj) hij),
      fun i hi => by rw [k3 _ (g1 i hi), g3 i hi]⟩

theorem range_map_perm {n : Nat} {τ : Nat → Nat} (h1 : ∀ i < n, τ i < n) (h2 : ∀ i < n, ∀ j < n, τ i = τ j → i = j) :
    ((List.range n).map τ).Perm (List.range n) := by
  have hnd : ((List.range n).map τ).Nodup := by
    refine (List.nodup_map_iff_inj_on List.nodup_range).2 ?_
    intro i hi j hj hij
    exact h2 i (List.mem_range.1 hi) j (List.mem_range.1 hj) hij
  refine (List.subperm_of_subset hnd ?_).perm_of_length_le (by simp)
  intro x hx
  obtain ⟨i, hi, rfl⟩ := List.mem_map.1 hx
  exact List.mem_range.2 (h1 i (List.mem_range.1 hi))

theorem list_eq_range {α : Type*} (l : List α) (d : α) : l = (List.range l.length).map fun i => l.getD i d := by
  apply List.ext_getElem
  · simp
  · intro i h1 h2
    simp [List.getD_eq_getElem?_getD, List.getElem?_eq_getElem h1]

/-- A permutation of positions applied to two lists. -/
theorem zipWith_perm {α β γ : Type*} (f : α → β → γ) {a a' : List α} {b b' : List β} (hab : a.length = b.length)
    (ha : a'.length = a.length) (hb : b'.length = b.length) {τ : Nat → Nat} (h1 : ∀ i < a.length, τ i < a.length)
    (h2 : ∀ i < a.length, ∀ j < a.length, τ i = τ j → i = j) (h3 : ∀ i < a.length, a'[τ i]? = a[i]?)
    (h4 : ∀ i < a.length, b'[τ i]? = b[i]?) : (List.zipWith f a' b').Perm (List.zipWith f a b) := by
  have key : (List.zipWith f a b).map some = ((List.range a.length).map τ).map fun i => (List.zipWith f a' b')[i]? := by
    apply List.ext_getElem
    · simp [hab]
    · intro i g1 g2
      have hi : i < a.length := by simpa using g2
      simp only [List.getElem_map, List.getElem_range]
      rw [List.getElem?_zipWith, h3 i hi, h4 i hi, List.getElem?_eq_getElem hi, List.getElem?_eq_getElem (by omega)]
      simp
  have key' : (List.zipWith f a' b').map some = (List.range a.length).map fun i => (List.zipWith f a' b')[i]? := by
    apply List.ext_getElem
    · simp [ha, hb, hab]
    · intro i g1 g2
      have hi : i < (List.zipWith f a' b').length := by simpa using g1
      simp only [List.getElem_map, List.getElem_range]
      rw [List.getElem?_eq_getElem hi]
  have : ((List.zipWith f a' b').map some).Perm ((List.zipWith f a b).map some) := by
    rw [key, key']
    exact ((range_map_perm h1 h2).map _).symm
  exact (List.map_perm_map_iff (Option.some_injective _)).1 this

/-! ### reading -/

section
variable {E R K V : Type*} {convert : R → Outcome E (Event K V)} {cluster : Event K V → Outcome E (Event K V)}
  {sequential : R → Bool}

theorem read_spawned (records : List R) (hseq : ∀ r ∈ records, sequential r = false) : ∀ n ≤ records.length,
    ReadReachable convert cluster sequential (records.map .ok)
      ⟨n, (records.zipIdx.take n).map (fun x => (x.2, x.1)), [], none, false⟩ := by
  intro n
  induction n with
  | zero => exact fun _ => .init
  | succ n ih =>
    intro hn
    refine .step (a := .main) (ih (by omega)) ?_
    have hr : records[n]? = some records[n] := List.getElem?_eq_getElem (by omega)
    simp only [readStep, List.getElem?_map, hr, Option.map_some, hseq _ (List.getElem_mem (show n < records.length by omega))]
    simp only [Bool.false_eq_true, if_false, Option.some.injEq, ReadState.mk.injEq, and_true, true_and]
    rw [List.take_succ, List.map_append]
    congr 1
    rw [List.getElem?_zipIdx, hr]
    simp

/-- Tasks can finish in any order. -/
theorem read_tasks (items : List (Except E R)) : ∀ (todo : List (Nat × R)) (evs : List (Event K V)) (s : ReadState E R K V),
    ReadReachable convert cluster sequential items s → s.pending.Perm todo →
    List.Forall₂ (fun x ev => convertRecord convert cluster x.1 x.2 = .ok ev) todo evs →
    ReadReachable convert cluster sequential items { s with pending := [], pushed := s.pushed ++ evs.map .ok } := by
  intro todo
  induction todo with
  | nil =>
    intro evs s hs hp hf
    cases hf
    have : s.pending = [] := hp.eq_nil
    obtain ⟨next, pending, pushed, stopped, panicked⟩ := s
    simp only at this
    subst this
    simpa using hs
  | cons x todo ih =>
    intro evs s hs hp hf
    cases hf with
    | @cons _ ev _ evs h1 h2 =>
      have hx : x ∈ s.pending := hp.mem_iff.2 (by simp)
      obtain ⟨k, hk⟩ := List.getElem?_of_mem hx
      have hstep : readStep convert cluster sequential items s (.task k) =
          some { s with pending := s.pending.eraseIdx k, pushed := s.pushed ++ [.ok ev] } := by
        simp only [readStep, hk, h1]
      have hperm : (s.pending.eraseIdx k).Perm todo := by
        have hlt := (List.getElem?_eq_some_iff.1 hk).1
        have hget := (List.getElem?_eq_some_iff.1 hk).2
        have g1 := List.getElem_cons_eraseIdx_perm hlt
        rw [hget] at g1
        exact (g1.trans hp).cons_inv
      have := ih evs _ (.step hs hstep) hperm h2
      simpa using this

/-- If all records can be converted on other threads, any order of the events is possible. -/
theorem read_any_order {records : List R} (hseq : ∀ r ∈ records, sequential r = false) {events : List (Event K V)}
    (hids : (events.map Event.id).Perm (List.range records.length))
    (hev : ∀ ev ∈ events, ∃ r, records[ev.id]? = some r ∧ convertRecord convert cluster ev.id r = .ok ev) :
    ∃ s, ReadReachable convert cluster sequential (records.map .ok) s ∧ s.Finished ∧ s.result = .ok events := by
  have h1 := read_spawned (convert := convert) (cluster := cluster) records hseq records.length le_rfl
  have h2 : ReadReachable convert cluster sequential (records.map .ok)
      ⟨records.length, (records.zipIdx.take records.length).map (fun x => (x.2, x.1)), [], some none, false⟩ := by
    refine .step (a := .main) h1 ?_
    simp [readStep]
  have hall : records.zipIdx.take records.length = records.zipIdx := by
    rw [List.take_of_length_le]
    simp
  rw [hall] at h2
  by_cases hne : records = []
  · subst hne
    have : events = [] := by simpa using hids
    subst this
    exact ⟨_, h2, ⟨rfl, by simp⟩, rfl⟩
  obtain ⟨r0, -⟩ := List.exists_mem_of_ne_nil _ hne
  have h3 := read_tasks (convert := convert) (cluster := cluster) (sequential := sequential) (records.map .ok)
    (events.map fun ev => (ev.id, records.getD ev.id r0)) events _ h2 ?_ ?_
  · refine ⟨_, h3, ⟨rfl, rfl⟩, ?_⟩
    have : ∀ evs : List (Event K V), collectEvents (E := E) (evs.map .ok) = .ok evs := by
      intro evs
      induction evs with
      | nil => rfl
      | cons e es ih => simp [collectEvents, ih, Outcome.map]
    simp [ReadState.result, this]
  · have e1 : (events.map fun ev => (ev.id, records.getD ev.id r0)) =
        (events.map Event.id).map fun i => (i, records.getD i r0) := by simp
    have e2 : records.zipIdx.map (fun x => (x.2, x.1)) = (List.range records.length).map fun i => (i, records.getD i r0) := by
      apply List.ext_getElem
      · simp
      · intro i g1 g2
        have hi : i < records.length := by simpa using g2
        simp [List.getD_eq_getElem?_getD, List.getElem?_eq_getElem hi]
    simp only
    rw [e1, e2]
    exact (hids.map _).symm
  · rw [List.forall₂_map_left_iff]
    refine List.forall₂_same.2 fun ev h => ?_
    obtain ⟨r, g1, g2⟩ := hev ev h
    simp only [List.getD_eq_getElem?_getD, g1, Option.getD_some]
    exact g2
end

/-! ### other ids -/

/-- An event with another id. -/
def Event.reid {K V : Type*} (τ : Nat → Nat) (e : Event K V) : Event K V := { e with id := τ e.id }

section
variable {K V D : Type*}

/-- The components do not use the ids of events. -/
structure IdFree (p : Program K V D) : Prop where
  nearest : ∀ τ evs, p.nearest (evs.map (Event.reid τ)) = p.nearest evs
  seeds : ∀ τ evs, p.seeds (evs.map (Event.reid τ)) = p.seeds evs
  unweight : ∀ τ evs out, p.unweight evs = .ok out → p.unweight (evs.map (Event.reid τ)) = .ok (out.map (Event.reid τ))

theorem identified_reid (τ : Nat → Nat) (evs : List (Event K V)) :
    identified (evs.map (Event.reid τ)) = (identified evs).map (Event.reid τ) := by
  unfold identified
  rw [List.filter_map]
  rfl

theorem memOf_reid (τ : Nat → Nat) (evs : List (Event K V)) : memOf (evs.map (Event.reid τ)) = memOf evs := by
  funext i
  simp only [memOf, List.getElem?_map, Option.map_map]
  rfl

theorem withWeights_reid (τ : Nat → Nat) (evs : List (Event K V)) (mem : Mem K) :
    withWeights (evs.map (Event.reid τ)) mem = (withWeights evs mem).map (Event.reid τ) := by
  apply List.ext_getElem?
  intro i
  simp only [withWeights, List.getElem?_mapIdx, List.getElem?_map, Option.map_map]
  rfl

theorem mapM_weight_perm [Zero K] : ∀ {l l' : List (Event K V)}, l.Perm l' →
    (l.mapM Event.weight = none ∧ l'.mapM Event.weight = none) ∨
    ∃ w w', l.mapM Event.weight = some w ∧ l'.mapM Event.weight = some w' ∧ w.Perm w' := by
  intro l l' h
  by_cases hall : ∀ e ∈ l, e.weights ≠ []
  · have key : ∀ {l : List (Event K V)}, (∀ e ∈ l, e.weights ≠ []) → l.mapM Event.weight = some (l.map centralWeight) := by
      intro l h
      induction l with
      | nil => rfl
      | cons e es ih =>
        rw [List.mapM_cons, weight_eq (h e List.mem_cons_self), ih (fun x hx => h x (List.mem_cons_of_mem _ hx))]
        rfl
    exact Or.inr ⟨_, _, key hall, key fun e he => hall e (h.mem_iff.2 he), h.map _⟩
  · push Not at hall
    obtain ⟨e, he, hw⟩ := hall
    have key : ∀ {l : List (Event K V)}, e ∈ l → l.mapM Event.weight = none := by
      intro l hl
      induction l with
      | nil => cases hl
      | cons x es ih =>
        rw [List.mapM_cons]
        rcases List.mem_cons.1 hl with rfl | hl
        · simp [Event.weight, Weights.central, hw]
        · rw [ih hl]
          cases x.weight <;> rfl
    exact Or.inl ⟨key he, key (h.mem_iff.1 he)⟩

theorem logSums_perm [Add K] [Zero K] [LinearOrder K] {cfg : Cfg} {infoLog : Bool}
    (hsum : cfg.debug = true → SumsCommute K) {l l' : List (Event K V)} (h : l.Perm l') :
    logSumsPanics cfg infoLog l = logSumsPanics cfg infoLog l' := by
  unfold logSumsPanics
  rcases mapM_weight_perm h with ⟨h1, h2⟩ | ⟨w, w', h1, h2, h3⟩
  · rw [h1, h2]
  · rw [h1, h2]
    simp only
    cases hd : cfg.debug with
    | false => rfl
    | true => rw [hsum hd _ _ h3, hsum hd _ _ (h3.filter _)]

theorem logSums_reid [Add K] [Zero K] [LinearOrder K] (cfg : Cfg) (infoLog : Bool) (τ : Nat → Nat) (l : List (Event K V)) :
    logSumsPanics cfg infoLog (l.map (Event.reid τ)) = logSumsPanics cfg infoLog l := by
  unfold logSumsPanics
  have : (l.map (Event.reid τ)).mapM Event.weight = l.mapM Event.weight := by
    induction l with
    | nil => rfl
    | cons e l ih =>
      rw [List.map_cons, List.mapM_cons, List.mapM_cons, ih]
      rfl
  rw [this]
end

section
variable {K V D P P' : Type*} [Zero D] [LinearOrder D] [Zero K] [One K] [Add K] [Mul K] [Div K] [NatCast K] [LinearOrder K]
  [LinearOrder V] [DecidableEq P] [DecidableEq P']

/-- The weights computed for events with other ids. -/
theorem computes_reid {p : Program K V D} (hp : IdFree p) (hun : ScalesSurvivors p.unweight)
    (hsum : p.io.ctx.debug = true → SumsCommute K) {events : List (Event K V)}
    (hids : (events.map Event.id).Perm (List.range events.length)) {τ : Nat → Nat} (h1 : ∀ i < events.length, τ i < events.length)
    (h2 : ∀ i < events.length, ∀ j < events.length, τ i = τ j → i = j) {ws : List (Weights K)}
    (h : p.ComputesWeights events (.ok ws)) :
    ∃ ws', p.ComputesWeights (events.map (Event.reid τ)) (.ok ws') ∧ ws.length = events.length ∧ ws'.length = events.length ∧
      ∀ i < events.length, ws'[τ i]? = ws[i]? := by
  generalize ho : (Outcome.ok ws : Outcome (CresError IOError) _) = o at h
  cases h with
  | @mk resampled hres =>
    cases hres with
    | log _ => simp [runWeights, Outcome.mapErr, Outcome.bind] at ho
    | task _ _ _ => simp [runWeights, Outcome.mapErr, Outcome.bind] at ho
    | @ok events' hlog hres =>
      obtain ⟨s, hr, hfin, rfl⟩ := hres
      have hrun := ho.symm
      rw [show (events.filter fun e => !e.outgoingByPid.isEmpty) = identified events from rfl] at hrun hr hfin hlog
      obtain ⟨resampled, final, g1, g2, g3, g4, g5⟩ := runWeights_entries hids hrun
      simp only [Outcome.ok.injEq] at g1
      subst g1
      obtain ⟨survivors, k1, k2⟩ := hun _ _ g2
      obtain ⟨k3, k4, k5⟩ := g4 (withWeights_subCollection _ _) (subCollection_of_survivors k1 k2)
      have hlogf : logSumsPanics p.cfg p.infoLog (sortById final) = false := by
        unfold runWeights at hrun
        simp only [Outcome.mapErr, Outcome.bind] at hrun
        rw [g2] at hrun
        simp only at hrun
        split_ifs at hrun with hc
        simpa using hc
      have hres' : p.Resamples ((events.map (Event.reid τ)).filter fun e => !e.outgoingByPid.isEmpty)
          (.ok ((withWeights (identified events) s.mem).map (Event.reid τ))) := by
        rw [show ((events.map (Event.reid τ)).filter fun e => !e.outgoingByPid.isEmpty) = identified (events.map (Event.reid τ)) from rfl,
          identified_reid, ← withWeights_reid]
        refine .ok (by rw [logSums_reid]; exact hlog) ⟨s, ?_, ?_, rfl⟩
        · rw [List.length_map, hp.nearest, hp.seeds, memOf_reid]
          exact hr
        · rw [hp.seeds]
          exact hfin
      have hfinal := hp.unweight τ _ _ g2
      have hids' : ∀ e ∈ sortById (final.map (Event.reid τ)), e.id < (List.replicate events.length (defaultWeights (K := K) p.cfg)).length := by
        intro e he
        rw [(sortById_perm _).mem_iff] at he
        obtain ⟨e0, he0, rfl⟩ := List.mem_map.1 he
        rw [List.length_replicate]
        exact h1 _ (k4 e0 he0)
      obtain ⟨ws', hws'⟩ := setWeights_isSome hids'
      have hcomp := ComputesWeights.mk hres'
      have hrw : runWeights p.cfg p.infoLog (fun _ => (Outcome.ok ((withWeights (identified events) s.mem).map (Event.reid τ)) : Outcome IOError _))
          p.unweight (events.map (Event.reid τ)) = .ok ws' := by
        unfold runWeights
        simp only [Outcome.mapErr, Outcome.bind]
        rw [hfinal]
        simp only
        rw [logSums_perm hsum (((sortById_perm (final.map (Event.reid τ))).trans ((sortById_perm final).symm.map _))), logSums_reid,
          hlogf, List.length_map, hws']
        rfl
      rw [hrw] at hcomp
      have hnd : ((final.map (Event.reid τ)).map Event.id).Nodup := by
        rw [List.map_map]
        refine (List.nodup_map_iff_inj_on (List.Nodup.of_map _ k3)).2 ?_
        intro a ha b hb hab
        exact List.inj_on_of_nodup_map k3 ha hb (h2 _ (k4 a ha) _ (k4 b hb) hab)
      refine ⟨ws', hcomp, g3, by rw [setWeights_length hws', List.length_replicate], fun i hi => ?_⟩
      by_cases hex : ∃ e ∈ final, e.id = i
      · obtain ⟨e, he, rfl⟩ := hex
        rw [k5 e he]
        exact setWeights_set hws' ((((sortById_perm _).map Event.id).nodup_iff).2 hnd) (e.reid τ)
          ((sortById_perm _).mem_iff.2 (List.mem_map_of_mem he))
      · rw [g5 i hi (fun e he hid => hex ⟨e, he, hid⟩), setWeights_other hws', List.getElem?_replicate, if_pos (h1 i hi)]
        intro e he hid
        rw [(sortById_perm _).mem_iff] at he
        obtain ⟨e0, he0, rfl⟩ := List.mem_map.1 he
        exact hex ⟨e0, he0, h2 _ (k4 e0 he0) _ hi hid⟩

/-- Reading the same events in another order. -/
theorem reads_reordered {p q : Program K V D} (hpq : SameSettings p q) {fs : FS P} {files : List (P × P)}
    {ds : List (EventFile K V)} (hin : EventFiles p.io fs (files.map Prod.fst) ds) (hf : GoodFiles files)
    {fs' : FS P'} {files' : List (P' × P')} {ds' : List (EventFile K V)}
    (hin' : EventFiles q.io fs' (files'.map Prod.fst) ds') (hf' : GoodFiles files') {τ : Nat → Nat}
    (hl : (allEvents ds').length = (allEvents ds).length)
    (h1 : ∀ i < (allEvents ds).length, τ i < (allEvents ds).length)
    (h2 : ∀ i < (allEvents ds).length, ∀ j < (allEvents ds).length, τ i = τ j → i = j)
    (h3 : ∀ i < (allEvents ds).length, (allEvents ds')[τ i]? = (allEvents ds)[i]?) :
    ∃ s fs1 s' fs1', CombinedIO.new p.io files fs = (.ok (), s, fs1) ∧ CombinedIO.new q.io files' fs' = (.ok (), s', fs1') ∧
      ∀ events x, p.ReadsEvents s fs1 (.ok events) x → (events.map Event.id).Perm (List.range events.length) ∧
        events.length = (allEvents ds).length ∧ ∃ x', q.ReadsEvents s' fs1' (.ok (events.map (Event.reid τ))) x' := by
  obtain ⟨s, fs1, g1, g2⟩ := reads_items hin hf
  obtain ⟨s', fs1', g3, g4⟩ := reads_items hin' hf'
  refine ⟨s, fs1, s', fs1', g1, g3, fun events x hx => ?_⟩
  obtain ⟨r, k1, k2, k3⟩ := (g2 _).1 ⟨x, hx⟩
  obtain ⟨k4, k5⟩ := C29_ids_by_position k1 k2 k3
  have c1 := (files_items hin).2
  have c2 := (files_items hin').2
  rw [List.length_map, c1.length_eq] at k4
  have hlen : events.length = (allEvents ds).length := by simpa using k4.length_eq
  have hperm : ((events.map (Event.reid τ)).map Event.id).Perm (List.range (fileItems q.io (ds'.map EventFile.toFileData)).length) := by
    rw [c2.length_eq, hl, List.map_map]
    have : (events.map (Event.id ∘ Event.reid τ)) = (events.map Event.id).map τ := by simp [Event.reid]
    rw [this]
    exact (k4.map τ).trans (range_map_perm h1 h2)
  refine ⟨by rw [hlen]; exact k4, hlen, ?_⟩
  refine (g4 _).2 (read_any_order ?_ hperm ?_)
  · intro r hr
    have := fileItems_format q.io ds' r hr
    simp [this]
  · intro ev hev
    obtain ⟨e, he, rfl⟩ := List.mem_map.1 hev
    obtain ⟨item, m1, r', ev0, ev1, rfl, m2, m3, m4, m5⟩ := k5 e he
    rw [List.getElem?_map] at m1
    obtain ⟨r'', m6, m7⟩ := Option.map_eq_some_iff.1 m1
    cases m7
    have hlt : e.id < (allEvents ds).length := by
      rw [← c1.length_eq]
      exact (List.getElem?_eq_some_iff.1 m6).1
    have m8 := forall₂_get c1 m6 (List.getElem?_eq_getElem hlt)
    rw [m2] at m8
    cases m8
    have hlt' : τ e.id < (fileItems q.io (ds'.map EventFile.toFileData)).length := by
      rw [c2.length_eq, hl]
      exact h1 _ hlt
    refine ⟨_, List.getElem?_eq_getElem hlt', ?_⟩
    have m9 := forall₂_get c2 (List.getElem?_eq_getElem hlt') (by rw [h3 _ hlt]; exact List.getElem?_eq_getElem hlt)
    show convertRecord _ _ (τ e.id) _ = _
    unfold convertRecord
    rw [m9, hpq.cluster]
    simp only [Outcome.mapErr, Outcome.bind, m3, m4]
    rw [m5]
    simp [Event.reid]
end

/-! ### the command line program -/

section
variable {K V : Type*} [Add K] [Zero K] [Mul K] [Div K] [Neg K] [LinearOrder K]

theorem retainEvents_reid (minWt : K) (rng : Nat → K) (τ : Nat → Nat) : ∀ (evs : List (Event K V)) (n : Nat),
    retainEvents minWt rng n (evs.map (Event.reid τ)) = (retainEvents minWt rng n evs).map (List.map (Event.reid τ)) := by
  intro evs
  induction evs with
  | nil => intro n; rfl
  | cons e es ih =>
    intro n
    simp only [List.map_cons, retainEvents]
    rw [show (e.reid τ).weight = e.weight from rfl]
    cases e.weight with
    | none => rfl
    | some wt =>
      simp only [ih, Option.map_map]
      congr 1
      funext rest
      simp only [Function.comp_apply]
      split_ifs <;> rfl

theorem mapM_raise_reid (minWt : K) (τ : Nat → Nat) : ∀ evs : List (Event K V),
    (evs.map (Event.reid τ)).mapM (raiseWeight minWt) = (evs.mapM (raiseWeight minWt)).map (List.map (Event.reid τ)) := by
  intro evs
  induction evs with
  | nil => rfl
  | cons e es ih =>
    rw [List.map_cons, List.mapM_cons, List.mapM_cons, ih]
    have : raiseWeight minWt (e.reid τ) = (raiseWeight minWt e).map (Event.reid τ) := by
      unfold raiseWeight
      rw [show (e.reid τ).weight = e.weight from rfl]
      cases e.weight with
      | none => rfl
      | some wt =>
        simp only
        split_ifs <;> rfl
    rw [this]
    cases raiseWeight minWt e with
    | none => rfl
    | some e' => cases es.mapM (raiseWeight minWt) <;> rfl

theorem weightSum_reid (τ : Nat → Nat) (evs : List (Event K V)) : weightSum (evs.map (Event.reid τ)) = weightSum evs := by
  unfold weightSum
  congr 1
  induction evs with
  | nil => rfl
  | cons e l ih =>
    rw [List.map_cons, List.mapM_cons, List.mapM_cons, ih]
    rfl

theorem unweight_reid {E : Type*} (debug : Bool) (minWt : K) (rng : Nat → K) (τ : Nat → Nat) {evs out : List (Event K V)}
    (h : (unweightStep debug minWt rng evs : Outcome E _) = .ok out) :
    (unweightStep debug minWt rng (evs.map (Event.reid τ)) : Outcome E _) = .ok (out.map (Event.reid τ)) := by
  have hu : unweight debug minWt rng evs = .ok out := by
    simp only [unweightStep] at h
    split at h
    · rename_i hu
      simp only [Outcome.ok.injEq] at h
      rw [hu, h]
    · cases h
    · cases h
  suffices hs : unweight debug minWt rng (evs.map (Event.reid τ)) = .ok (out.map (Event.reid τ)) by
    simp only [unweightStep, hs]
  unfold unweight at hu ⊢
  rw [weightSum_reid, retainEvents_reid, List.isEmpty_map]
  split at hu
  · rename_i hc
    rw [if_pos hc]
    cases hu
    rfl
  · rename_i hc
    rw [if_neg hc]
    cases hsum : weightSum evs with
    | none => rw [hsum] at hu; cases hu
    | some sum =>
      rw [hsum] at hu
      simp only at hu ⊢
      by_cases hneg : minWt < 0
      · rw [if_pos hneg] at hu; cases hu
      · rw [if_neg hneg] at hu ⊢
        cases hk : retainEvents minWt rng 0 evs with
        | none => rw [hk] at hu; cases hu
        | some kept =>
          rw [hk] at hu
          simp only [Option.map_some] at hu ⊢
          rw [mapM_raise_reid]
          cases hr : kept.mapM (raiseWeight minWt) with
          | none => rw [hr] at hu; cases hu
          | some raised =>
            rw [hr] at hu
            simp only [Option.map_some] at hu ⊢
            rw [weightSum_reid, List.isEmpty_map]
            cases ht : weightSum raised with
            | none => rw [ht] at hu; cases hu
            | some total =>
              rw [ht] at hu
              simp only at hu ⊢
              split_ifs at hu ⊢
              · cases hu
                rfl
              · cases hu
                simp [Event.reid, Event.rescaleWeights]
end

theorem cres_idFree {K V D : Type*} [Zero D] [DistNum D] [Add K] [Zero K] [Mul K] [Div K] [Neg K] [LinearOrder K] [LinearOrder V]
    {s : CresSettings K V D} (hd : IgnoresIds s.distance) : IdFree s.program := by
  refine ⟨fun τ evs => ?_, fun τ evs => ?_, fun τ evs out h => unweight_reid _ _ _ τ h⟩
  · have : distWrapper s.distance (evs.map (Event.reid τ)) = distWrapper s.distance evs := by
      funext i j
      unfold distWrapper
      rw [List.getElem?_map, List.getElem?_map]
      cases evs[i]? with
      | none => rfl
      | some e => cases evs[j]? with
        | none => rfl
        | some e' => exact hd e e' _ _
    show s.search.nearest s.distance s.maxCellSize _ = s.search.nearest s.distance s.maxCellSize _
    unfold SearchAlgo.nearest
    rw [this, List.length_map]
  · show (selectSeeds _ _ _ _).getD [] = (selectSeeds _ _ _ _).getD []
    rw [List.length_map, memOf_reid]

end Cres

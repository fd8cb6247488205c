import Verif.Proofs.Negative

/-!
What the unweighter does to events, for any arithmetic, and which weights can be written after unweighting.
-/

set_option linter.unusedSectionVars false

namespace Cres

open Spec CombinedIO Program

section
variable {K V : Type*}

/-- All weights of an event are changed in the same way. -/
def Event.Mapped (e e' : Event K V) : Prop := ∃ f : K → K, e' = { e with weights := e.weights.map f }

theorem Event.Mapped.refl (e : Event K V) : e.Mapped e := ⟨_root_.id, by simp⟩

theorem Event.Mapped.trans {a b c : Event K V} (h : a.Mapped b) (h' : b.Mapped c) : a.Mapped c := by
  obtain ⟨f, rfl⟩ := h
  obtain ⟨g, rfl⟩ := h'
  exact ⟨g ∘ f, by simp⟩

theorem forall₂_mapped_trans {l1 l2 l3 : List (Event K V)} (h : List.Forall₂ Event.Mapped l1 l2)
    (h' : List.Forall₂ Event.Mapped l2 l3) : List.Forall₂ Event.Mapped l1 l3 := by
  induction h generalizing l3 with
  | nil => cases h'; exact .nil
  | cons h _ ih =>
    cases h' with
    | cons h1 h2 => exact .cons (h.trans h1) (ih h2)

/-- The unweighter drops events and changes the weights of others. -/
def ScalesSurvivors {E : Type*} (un : List (Event K V) → Outcome E (List (Event K V))) : Prop :=
  ∀ evs out, un evs = .ok out → ∃ survivors, survivors.Sublist evs ∧ List.Forall₂ Event.Mapped survivors out

theorem scalesSurvivors_ok {E : Type*} : ScalesSurvivors (K := K) (V := V) (E := E) .ok := by
  intro evs out h
  cases h
  exact ⟨_, List.Sublist.refl _, List.forall₂_same.2 fun e _ => .refl e⟩

variable [Add K] [Zero K] [Mul K] [Div K] [Neg K] [LinearOrder K]

theorem retainEvents_sublist {minWt : K} {rng : Nat → K} : ∀ {evs : List (Event K V)} {n : Nat} {kept : List (Event K V)},
    retainEvents minWt rng n evs = some kept → kept.Sublist evs := by
  intro evs
  induction evs with
  | nil =>
    intro n kept h
    cases h
    exact List.Sublist.refl _
  | cons e es ih =>
    intro n kept h
    simp only [retainEvents] at h
    split at h
    · cases h
    · obtain ⟨rest, h1, rfl⟩ := Option.map_eq_some_iff.1 h
      split_ifs
      · exact (ih h1).cons_cons e
      · exact (ih h1).cons e

theorem raise_mapped {minWt : K} : ∀ {evs out : List (Event K V)}, evs.mapM (raiseWeight minWt) = some out →
    List.Forall₂ Event.Mapped evs out := by
  intro evs
  induction evs with
  | nil =>
    intro out h
    cases h
    exact .nil
  | cons e es ih =>
    intro out h
    rw [List.mapM_cons] at h
    obtain ⟨e', h1, h⟩ := Option.bind_eq_some_iff.1 h
    obtain ⟨es', h2, h⟩ := Option.bind_eq_some_iff.1 h
    cases h
    refine .cons ?_ (ih h2)
    unfold raiseWeight at h1
    split at h1
    · cases h1
    · dsimp only at h1
      split_ifs at h1 <;> cases h1
      · exact ⟨_, rfl⟩
      · exact .refl _

theorem unweight_survivors {E : Type*} (debug : Bool) (minWt : K) (rng : Nat → K) :
    ScalesSurvivors (unweightStep (E := E) (V := V) debug minWt rng) := by
  intro evs out h
  have hu : unweight debug minWt rng evs = .ok out := by
    simp only [unweightStep] at h
    split at h
    · rename_i hu
      simp only [Outcome.ok.injEq] at h
      rw [hu, h]
    · cases h
    · cases h
  unfold unweight at hu
  split at hu
  · cases hu
    exact ⟨_, List.Sublist.refl _, List.forall₂_same.2 fun e _ => .refl e⟩
  · split at hu
    · cases hu
    · split at hu
      · cases hu
      · split at hu
        · cases hu
        · rename_i kept hk
          split at hu
          · cases hu
          · rename_i raised hr
            split at hu
            · cases hu
            · rename_i total ht
              refine ⟨kept, retainEvents_sublist hk, ?_⟩
              split_ifs at hu with c1 c2 c3
              · cases hu
                have : raised = [] := by simpa using c3
                rw [this] at hr
                exact raise_mapped hr
              · cases hu
                refine forall₂_mapped_trans (raise_mapped hr) ?_
                rw [List.forall₂_map_right_iff]
                exact List.forall₂_same.2 fun e _ => ⟨_, rfl⟩
end

theorem subCollection_of_survivors {K V : Type*} {evs survivors out : List (Event K V)} (h1 : survivors.Sublist evs)
    (h2 : List.Forall₂ Event.Mapped survivors out) : IsSubCollection evs out := by
  have : out.map Event.id = survivors.map Event.id := by
    clear h1
    induction h2 with
    | nil => rfl
    | cons h _ ih =>
      obtain ⟨f, rfl⟩ := h
      simp [ih]
  unfold IsSubCollection
  rw [this]
  exact (h1.map _).subperm

section
variable {K V D P : Type*} [Zero D] [LinearOrder D] [Zero K] [One K] [Add K] [Mul K] [Div K] [NatCast K] [LinearOrder K]
  [LinearOrder V] [DecidableEq P]

/-- The weights that are passed on, for any unweighter that drops events and changes the weights of others. -/
theorem weights_any {p : Program K V D} (hg : GoodComponents p) (hun : ScalesSurvivors p.unweight) {m : Nat} (hm0 : 0 < m)
    (hm1 : p.io.ctx.multi = false → m = 1) {ds : List (EventFile K V)}
    {events : List (Event K V)} (he : EventsRead p m ds events) {ws : List (Weights K)} (h : p.ComputesWeights events (.ok ws)) :
    ws.length = (allEvents ds).length ∧ ∀ w ∈ ws, (w.length = m ∨ w = defaultWeights p.cfg) ∧
      ∀ k < m, ∀ l < m, (∀ ev ∈ allEvents ds, weightNo k ev = weightNo l ev) → w.getD k 0 = w.getD l 0 := by
  obtain ⟨s, hr, hfin, hrun⟩ := computesWeights_state h
  have hids : (events.map Event.id).Perm (List.range events.length) := by rw [he.length_eq]; exact he.ids
  have hu := read_weights hg hm0 hm1 he
  obtain ⟨resampled, final, h1, h2, h3, h4, h5⟩ := runWeights_entries hids hrun
  simp only [Outcome.ok.injEq] at h1
  subst h1
  obtain ⟨survivors, g1, g2⟩ := hun _ _ h2
  have h4 := (h4 (withWeights_subCollection _ _) (subCollection_of_survivors g1 g2)).2.2
  have hv := hg.valid (identified events)
  obtain ⟨A, hA⟩ := inv_reachable hv hu hr
  have hlen : ∀ i < (identified events).length, (s.mem i).length = m := by
    intro i hi
    rw [finished_mem hA hfin]
    exact hA.uniform.length i hi
  refine ⟨by rw [h3, he.length_eq], fun w hw => ?_⟩
  obtain ⟨i, hi⟩ := List.getElem?_of_mem hw
  have hlt : i < events.length := by
    rw [← h3]
    exact (List.getElem?_eq_some_iff.1 hi).1
  by_cases hex : ∃ e ∈ final, e.id = i
  · obtain ⟨e, hem, rfl⟩ := hex
    rw [h4 e hem] at hi
    cases hi
    obtain ⟨e0, he0, f, rfl⟩ := forall₂_mem g2 hem
    obtain ⟨j, hj⟩ := List.getElem?_of_mem (g1.subset he0)
    unfold withWeights at hj
    rw [List.getElem?_mapIdx] at hj
    obtain ⟨e1, hj1, rfl⟩ := Option.map_eq_some_iff.1 hj
    have hjl := (List.getElem?_eq_some_iff.1 hj1).1
    refine ⟨Or.inl (by simpa using hlen j hjl), fun k hk l hl heq => ?_⟩
    have hkl : (s.mem j).getD k 0 = (s.mem j).getD l 0 := by
      rw [finished_mem hA hfin]
      refine applyCells_equal hk hl s.log hu (fun c hc => ?_) hA.log (fun i hi => ?_) j hjl
      · obtain ⟨t, seed, g1, -, g3⟩ := inv_log_cells hA c hc
        exact ⟨g3.ne_nil, g3.lt (hg.valid _) (List.mem_of_getElem? g1)⟩
      have hmem : (identified events)[i] ∈ events := (List.mem_filter.1 (List.getElem_mem hi)).1
      obtain ⟨e0, e1, k1, k2, k3, -⟩ := he.from_file _ hmem
      have h4 : ∀ k, wt (memOf (identified events)) k i = weightNo k e0 := by
        intro k
        simp only [wt, memOf, List.getElem?_eq_getElem hi, Option.map_some, Option.getD_some, weightNo]
        rw [k3]
        simp only [hg.cluster _ _ k2]
      rw [h4, h4]
      exact heq e0 (List.mem_of_getElem? k1)
    have hl' := hlen j hjl
    simp only [List.getD_eq_getElem?_getD, List.getElem?_map] at hkl ⊢
    rw [List.getElem?_eq_getElem (by omega), List.getElem?_eq_getElem (by omega)] at hkl ⊢
    simp only [Option.map_some, Option.getD_some] at hkl ⊢
    rw [hkl]
  · rw [h5 i hlt (fun e hem hid => hex ⟨e, hem, hid⟩)] at hi
    cases hi
    refine ⟨Or.inr rfl, fun k hk l hl _ => ?_⟩
    unfold defaultWeights
    split_ifs
    · rfl
    · cases k <;> cases l <;> rfl

/-- If the new weights can be written as numbers they can be written to the files. -/
theorem supported_can_write {p : Program K V D} (hg : GoodComponents p) (hun : ScalesSurvivors p.unweight) {fs fs' : FS P}
    {files : List (P × P)} {ds : List (EventFile K V)} (hin : EventFiles p.io fs (files.map Prod.fst) ds) (hf : GoodFiles files)
    (hs : WeightsSupported p.io ds) {oevents : Option (List (Event K V))} {ws : List (Weights K)}
    {res : Outcome (CresError IOError) Unit} (h : p.Run files fs oevents (some ws) res fs')
    (hw : ∀ w ∈ ws, ∀ x ∈ w, ∀ d ∈ ds, Writable p.io d.kind x) :
    res = .ok () ∧ ws.length = (allEvents ds).length ∧
      ∃ ds', EventFiles p.io fs' (files.map Prod.snd) ds' ∧ List.Forall₂ SameExceptWeights ds ds' ∧
        allEvents ds' = List.zipWith reweighted ws (allEvents ds) := by
  obtain ⟨m, hm0, hm1, hm, hcan⟩ := supported_weights hin hs
  obtain ⟨-, hl, h1⟩ := run_files hm hin hf h
  obtain ⟨events, h2, he, hcw⟩ := run_events_all hm hin hf h
  have hany := (weights_any hg hun hm0 hm1 he hcw).2
  obtain ⟨h3, h4⟩ := h1 fun w hwm => hcan w (hany w hwm).1 (hw w hwm) fun hlt h => (hany w hwm).2 0 hm0 1 hlt h
  exact ⟨h3, hl, _, h4⟩
end

end Cres

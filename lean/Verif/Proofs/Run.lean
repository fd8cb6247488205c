import Verif.Model.Run
import Verif.Spec.Run

/-!
Invariants of reading events.
-/

namespace Cres

open Spec

variable {E R K V : Type*}

theorem convertRecord_ok {convert : R → Outcome E (Event K V)} {cluster : Event K V → Outcome E (Event K V)} {i : Nat}
    {r : R} {ev : Event K V} :
    convertRecord convert cluster i r = .ok ev ↔ ReadsAs convert cluster i (.ok r : Except E R) ev := by
  unfold convertRecord ReadsAs
  rw [Outcome.bind_eq_ok]
  constructor
  · rintro ⟨a, h1, h2⟩
    rw [Outcome.bind_eq_ok] at h2
    obtain ⟨b, h2, h3⟩ := h2
    rw [Outcome.mapErr_eq_ok] at h1 h2
    split at h3
    · cases h3
    · rename_i h4
      injection h3 with h3
      exact ⟨r, a, b, rfl, h1, h2, not_not.1 h4, h3.symm⟩
  · rintro ⟨r', a, b, h0, h1, h2, h3, h4⟩
    injection h0 with h0
    subst h0
    refine ⟨a, Outcome.mapErr_eq_ok.2 h1, ?_⟩
    rw [Outcome.bind_eq_ok]
    refine ⟨b, Outcome.mapErr_eq_ok.2 h2, ?_⟩
    rw [if_neg (not_not.2 h3), h4]

theorem readsAs_id {convert : R → Outcome E (Event K V)} {cluster : Event K V → Outcome E (Event K V)} {i : Nat}
    {item : Except E R} {ev : Event K V} (h : ReadsAs convert cluster i item ev) : ev.id = i := by
  obtain ⟨_, _, _, _, _, _, _, rfl⟩ := h
  rfl

/-- Some item cannot be read. -/
def SomeBad (convert : R → Outcome E (Event K V)) (cluster : Event K V → Outcome E (Event K V))
    (items : List (Except E R)) : Prop :=
  ∃ i item, items[i]? = some item ∧ ¬ ∃ ev, ReadsAs convert cluster i item ev

/-- Ids of the events that were pushed. -/
def pushedIds (l : List (Except (CresError E) (Event K V))) : List Nat :=
  l.filterMap (fun x => match x with
    | .ok ev => some ev.id
    | .error _ => none)

structure ReadInv (convert : R → Outcome E (Event K V)) (cluster : Event K V → Outcome E (Event K V))
    (items : List (Except E R)) (s : ReadState E R K V) : Prop where
  next_le : s.next ≤ items.length
  pending : ∀ x ∈ s.pending, items[x.1]? = some (.ok x.2)
  good : ∀ ev, .ok ev ∈ s.pushed → ∃ item, items[ev.id]? = some item ∧ ReadsAs convert cluster ev.id item ev
  bad : ∀ e, .error e ∈ s.pushed → SomeBad convert cluster items
  panicked : s.panicked = true → SomeBad convert cluster items
  ids : (s.panicked = true ∨ ∃ e, .error e ∈ s.pushed) ∨ (pushedIds s.pushed ++ s.pending.map Prod.fst).Perm (List.range s.next)
  stop_ok : s.stopped = some none → s.panicked = true ∨ s.next = items.length
  stop_err : ∀ e, s.stopped = some (some e) → SomeBad convert cluster items

theorem pushedIds_append_ok (l : List (Except (CresError E) (Event K V))) (ev : Event K V) :
    pushedIds (l ++ [.ok ev]) = pushedIds l ++ [ev.id] := by
  simp [pushedIds]

theorem not_ok_bad {convert : R → Outcome E (Event K V)} {cluster : Event K V → Outcome E (Event K V)}
    {items : List (Except E R)} {i : Nat} {r : R} (h : items[i]? = some (.ok r))
    (hn : ∀ ev, convertRecord convert cluster i r ≠ .ok ev) : SomeBad convert cluster items :=
  ⟨i, .ok r, h, fun ⟨ev, hev⟩ => hn ev (convertRecord_ok.2 hev)⟩

theorem perm_eraseIdx_move {α : Type*} (f : α → Nat) (p : List Nat) (l : List α) (k : Nat) (x : α) (h : l[k]? = some x) :
    (p ++ [f x] ++ (l.eraseIdx k).map f).Perm (p ++ l.map f) := by
  obtain ⟨hk, hx⟩ := List.getElem?_eq_some_iff.1 h
  have h1 : l.Perm (l[k] :: l.eraseIdx k) := (List.getElem_cons_eraseIdx_perm hk).symm
  have h2 := h1.map f
  rw [hx] at h2
  rw [List.append_assoc]
  exact (h2.symm.append_left p)

theorem readInv_step {convert : R → Outcome E (Event K V)} {cluster : Event K V → Outcome E (Event K V)}
    {sequential : R → Bool} {items : List (Except E R)} {s s' : ReadState E R K V} {a : ReadAction}
    (hi : ReadInv convert cluster items s) (h : readStep convert cluster sequential items s a = some s') :
    ReadInv convert cluster items s' := by
  cases a with
  | main =>
    simp only [readStep] at h
    cases hs : s.stopped with
    | some _ => rw [hs] at h; cases h
    | none =>
      rw [hs] at h
      simp only at h
      cases hit : items[s.next]? with
      | none =>
        rw [hit] at h
        simp only [Option.some.injEq] at h
        subst h
        exact { hi with
          stop_ok := fun _ => Or.inr (le_antisymm hi.next_le (List.getElem?_eq_none_iff.1 hit))
          stop_err := fun e he => by simp at he }
      | some item =>
        rw [hit] at h
        have hlt : s.next < items.length := (List.getElem?_eq_some_iff.1 hit).1
        cases item with
        | error e =>
          simp only [Option.some.injEq] at h
          subst h
          have hbad : SomeBad convert cluster items := ⟨s.next, _, hit, by
            rintro ⟨ev, r, _, _, h0, _⟩
            cases h0⟩
          exact { hi with
            stop_ok := fun he => by simp at he
            stop_err := fun _ _ => hbad }
        | ok record =>
          simp only at h
          split at h
          · cases hc : convertRecord convert cluster s.next record with
            | ok ev =>
              rw [hc] at h
              simp only [Option.some.injEq] at h
              subst h
              have hr := convertRecord_ok.1 hc
              have hid := readsAs_id hr
              refine ⟨hlt, hi.pending, ?_, ?_, hi.panicked, ?_, ?_, ?_⟩
              · intro ev' hev'
                rcases List.mem_append.1 hev' with h1 | h1
                · exact hi.good ev' h1
                · have : ev' = ev := by simpa using h1
                  subst this
                  rw [hid]
                  exact ⟨_, hit, hr⟩
              · intro e he
                rcases List.mem_append.1 he with h1 | h1
                · exact hi.bad e h1
                · simp at h1
              · rcases hi.ids with h1 | h1
                · exact Or.inl (h1.imp_right (fun ⟨e, he⟩ => ⟨e, List.mem_append_left _ he⟩))
                · right
                  simp only [pushedIds_append_ok, hid, List.range_succ]
                  have : (pushedIds s.pushed ++ [s.next] ++ s.pending.map Prod.fst).Perm
                      (pushedIds s.pushed ++ s.pending.map Prod.fst ++ [s.next]) := by
                    rw [List.append_assoc, List.append_assoc]
                    exact (List.perm_append_comm).append_left _
                  exact this.trans (h1.append_right _)
              · intro he
                cases he
              · intro e he
                cases he
            | err e =>
              rw [hc] at h
              simp only [Option.some.injEq] at h
              subst h
              have hbad := not_ok_bad hit (fun ev hev => by rw [hc] at hev; cases hev)
              exact { hi with
                stop_ok := fun he => by simp at he
                stop_err := fun _ _ => hbad }
            | panic =>
              rw [hc] at h
              simp only [Option.some.injEq] at h
              subst h
              have hbad := not_ok_bad hit (fun ev hev => by rw [hc] at hev; cases hev)
              exact { hi with
                stop_ok := fun _ => Or.inl rfl
                ids := Or.inl (Or.inl rfl)
                panicked := fun _ => hbad
                stop_err := fun _ _ => hbad }
          · simp only [Option.some.injEq] at h
            subst h
            refine ⟨hlt, ?_, hi.good, hi.bad, hi.panicked, ?_, ?_, ?_⟩
            · intro x hx
              rcases List.mem_append.1 hx with h1 | h1
              · exact hi.pending x h1
              · have : x = (s.next, record) := by simpa using h1
                subst this
                exact hit
            · rcases hi.ids with h1 | h1
              · exact Or.inl h1
              · right
                simp only [List.map_append, List.map_cons, List.map_nil, List.range_succ]
                rw [← List.append_assoc]
                exact h1.append_right _
            · intro he
              cases he
            · intro e he
              cases he
  | task k =>
    simp only [readStep] at h
    cases hp : s.pending[k]? with
    | none => rw [hp] at h; cases h
    | some x =>
      obtain ⟨id, record⟩ := x
      rw [hp] at h
      simp only at h
      have hit : items[id]? = some (.ok record) := hi.pending _ (List.mem_of_getElem? hp)
      have hpend : ∀ x ∈ s.pending.eraseIdx k, items[x.1]? = some (.ok x.2) :=
        fun x hx => hi.pending x (List.mem_of_mem_eraseIdx hx)
      cases hc : convertRecord convert cluster id record with
      | ok ev =>
        rw [hc] at h
        simp only [Option.some.injEq] at h
        subst h
        have hr := convertRecord_ok.1 hc
        have hid := readsAs_id hr
        refine ⟨hi.next_le, hpend, ?_, ?_, hi.panicked, ?_, hi.stop_ok, hi.stop_err⟩
        · intro ev' hev'
          rcases List.mem_append.1 hev' with h1 | h1
          · exact hi.good ev' h1
          · have : ev' = ev := by simpa using h1
            subst this
            rw [hid]
            exact ⟨_, hit, hr⟩
        · intro e he
          rcases List.mem_append.1 he with h1 | h1
          · exact hi.bad e h1
          · simp at h1
        · rcases hi.ids with h1 | h1
          · exact Or.inl (h1.imp_right (fun ⟨e, he⟩ => ⟨e, List.mem_append_left _ he⟩))
          · right
            simp only [pushedIds_append_ok, hid]
            exact (perm_eraseIdx_move Prod.fst _ s.pending k _ hp).trans h1
      | err e =>
        rw [hc] at h
        simp only [Option.some.injEq] at h
        subst h
        have hbad := not_ok_bad hit (fun ev hev => by rw [hc] at hev; cases hev)
        refine ⟨hi.next_le, hpend, ?_, fun _ _ => hbad, hi.panicked,
          Or.inl (Or.inr ⟨e, List.mem_append_right _ List.mem_cons_self⟩), hi.stop_ok, hi.stop_err⟩
        intro ev' hev'
        rcases List.mem_append.1 hev' with h1 | h1
        · exact hi.good ev' h1
        · simp at h1
      | panic =>
        rw [hc] at h
        simp only [Option.some.injEq] at h
        subst h
        have hbad := not_ok_bad hit (fun ev hev => by rw [hc] at hev; cases hev)
        exact ⟨hi.next_le, hpend, hi.good, hi.bad, fun _ => hbad, Or.inl (Or.inl rfl), fun _ => Or.inl rfl,
          hi.stop_err⟩

theorem readInv_reachable {convert : R → Outcome E (Event K V)} {cluster : Event K V → Outcome E (Event K V)}
    {sequential : R → Bool} {items : List (Except E R)} {s : ReadState E R K V}
    (h : ReadReachable convert cluster sequential items s) : ReadInv convert cluster items s := by
  induction h with
  | init => exact ⟨Nat.zero_le _, by simp [ReadState.init], by simp [ReadState.init], by simp [ReadState.init],
      by simp [ReadState.init], Or.inr (by simp [ReadState.init, pushedIds]), by simp [ReadState.init],
      by simp [ReadState.init]⟩
  | step _ hs ih => exact readInv_step ih hs

/-- The result of collecting. -/
theorem collectEvents_ok {l : List (Except (CresError E) (Event K V))} {events : List (Event K V)} :
    collectEvents l = .ok events ↔ l = events.map Except.ok := by
  induction l generalizing events with
  | nil =>
    simp only [collectEvents, Outcome.ok.injEq]
    constructor
    · rintro rfl; rfl
    · intro h
      cases events with
      | nil => rfl
      | cons => cases h
  | cons x l ih =>
    cases x with
    | error e =>
      simp only [collectEvents]
      constructor
      · intro h; cases h
      · intro h
        cases events with
        | nil => cases h
        | cons => simp at h
    | ok ev =>
      simp only [collectEvents, Outcome.map_eq_ok]
      constructor
      · rintro ⟨a, h1, rfl⟩
        rw [ih] at h1
        rw [h1]
        rfl
      · intro h
        cases events with
        | nil => cases h
        | cons e es =>
          simp only [List.map_cons, List.cons.injEq, Except.ok.injEq] at h
          exact ⟨es, ih.2 h.2, by rw [h.1]⟩

theorem collectEvents_isOk {l : List (Except (CresError E) (Event K V))} (h : ∀ e, .error e ∉ l) :
    ∃ events : List (Event K V), l = events.map Except.ok := by
  induction l with
  | nil => exact ⟨[], rfl⟩
  | cons x l ih =>
    obtain ⟨es, hes⟩ := ih (fun e he => h e (List.mem_cons_of_mem _ he))
    cases x with
    | error e => exact absurd List.mem_cons_self (h e)
    | ok ev => exact ⟨ev :: es, by rw [hes]; rfl⟩

theorem pushedIds_map_ok (events : List (Event K V)) :
    pushedIds (E := E) (events.map Except.ok) = events.map Event.id := by
  induction events with
  | nil => rfl
  | cons e es ih => simp [pushedIds]

/-- Every item not yet treated by the main thread counts twice, every pending task once, an unstopped loop once. -/
def readMeasure (items : List (Except E R)) (s : ReadState E R K V) : Nat :=
  2 * (items.length - s.next) + s.pending.length + (if s.stopped.isNone then 1 else 0)

theorem readMeasure_step {convert : R → Outcome E (Event K V)} {cluster : Event K V → Outcome E (Event K V)}
    {sequential : R → Bool} {items : List (Except E R)} {s s' : ReadState E R K V} {a : ReadAction}
    (h : readStep convert cluster sequential items s a = some s') : readMeasure items s' < readMeasure items s := by
  cases a with
  | main =>
    simp only [readStep] at h
    cases hs : s.stopped with
    | some _ => rw [hs] at h; cases h
    | none =>
      rw [hs] at h
      simp only at h
      cases hit : items[s.next]? with
      | none =>
        rw [hit] at h
        simp only [Option.some.injEq] at h
        subst h
        simp [readMeasure, hs]
      | some item =>
        rw [hit] at h
        have hlt : s.next < items.length := (List.getElem?_eq_some_iff.1 hit).1
        cases item with
        | error e =>
          simp only [Option.some.injEq] at h
          subst h
          simp [readMeasure, hs]
        | ok record =>
          simp only at h
          split at h
          · cases hc : convertRecord convert cluster s.next record with
            | ok ev =>
              rw [hc] at h
              simp only [Option.some.injEq] at h
              subst h
              simp only [readMeasure, hs]
              omega
            | err e =>
              rw [hc] at h
              simp only [Option.some.injEq] at h
              subst h
              simp [readMeasure, hs]
            | panic =>
              rw [hc] at h
              simp only [Option.some.injEq] at h
              subst h
              simp [readMeasure, hs]
          · simp only [Option.some.injEq] at h
            subst h
            simp only [readMeasure, hs, List.length_append, List.length_cons, List.length_nil]
            omega
  | task k =>
    simp only [readStep] at h
    cases hp : s.pending[k]? with
    | none => rw [hp] at h; cases h
    | some x =>
      obtain ⟨id, record⟩ := x
      rw [hp] at h
      simp only at h
      have hk : k < s.pending.length := (List.getElem?_eq_some_iff.1 hp).1
      have hl : (s.pending.eraseIdx k).length = s.pending.length - 1 := List.length_eraseIdx_of_lt hk
      cases hc : convertRecord convert cluster id record <;>
      · rw [hc] at h
        simp only [Option.some.injEq] at h
        subst h
        simp only [readMeasure, hl]
        omega

/-- A state in which something is left to do allows a step. -/
theorem read_progress {convert : R → Outcome E (Event K V)} {cluster : Event K V → Outcome E (Event K V)}
    {sequential : R → Bool} {items : List (Except E R)} (s : ReadState E R K V) (h : ¬ s.Finished) :
    ∃ a s', readStep convert cluster sequential items s a = some s' := by
  by_cases hs : s.stopped = none
  · refine ⟨.main, ?_⟩
    simp only [readStep, hs]
    cases hit : items[s.next]? with
    | none => exact ⟨_, rfl⟩
    | some item =>
      cases item with
      | error e => exact ⟨_, rfl⟩
      | ok r =>
        simp only
        split
        · cases convertRecord convert cluster s.next r <;> exact ⟨_, rfl⟩
        · exact ⟨_, rfl⟩
  · cases hp : s.pending with
    | nil =>
      exact absurd ⟨by cases h' : s.stopped with
        | none => exact absurd h' hs
        | some _ => rfl, hp⟩ h
    | cons x l =>
      refine ⟨.task 0, ?_⟩
      simp only [readStep, hp, List.getElem?_cons_zero]
      cases convertRecord convert cluster x.1 x.2 <;> exact ⟨_, rfl⟩

end Cres

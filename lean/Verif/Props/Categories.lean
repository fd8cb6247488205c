import Verif.Spec.Categories
import Verif.Proofs.Negative

/-!
# C107: event categories in the log
-/

set_option linter.unusedSectionVars false

namespace Cres

open Spec CombinedIO Program

section

variable {K V D P : Type*}

/-- What the hash map contains. -/
structure IsCount (f : Category → ℕ) (t : List (Category × ℕ)) : Prop where
  nodup : (t.map Prod.fst).Nodup
  mem : ∀ c n, (c, n) ∈ t ↔ 0 < n ∧ n = f c

theorem mem_countCategory (c : Category) (t : List (Category × ℕ)) (hn : (t.map Prod.fst).Nodup) (c' : Category) (n : ℕ) :
    (c', n) ∈ countCategory c t ↔
      (c' ≠ c ∧ (c', n) ∈ t) ∨ (c' = c ∧ ((∃ k, (c, k) ∈ t ∧ n = k + 1) ∨ ((∀ k, (c, k) ∉ t) ∧ n = 1))) := by
  induction t with
  | nil => simp [countCategory]
  | cons x t ih =>
    obtain ⟨d, k⟩ := x
    rw [List.map_cons, List.nodup_cons] at hn
    have ih := ih hn.2
    have hd : ∀ k', (d, k') ∉ t := fun k' h => hn.1 (List.mem_map.2 ⟨_, h, rfl⟩)
    rw [countCategory]
    by_cases hdc : d = c
    · subst hdc
      rw [if_pos rfl]
      by_cases hc : c' = d
      · subst hc
        simp [hd]
      · simp [hc]
    · rw [if_neg hdc]
      by_cases hc : c' = c
      · subst hc
        simp only [List.mem_cons, Prod.mk.injEq, Ne.symm hdc, false_and, false_or, ih]
      · by_cases hc' : c' = d
        · subst hc'
          simp [hc, ih]
        · simp [hc, hc', ih]

theorem keys_countCategory (c : Category) (t : List (Category × ℕ)) (c' : Category) :
    c' ∈ (countCategory c t).map Prod.fst ↔ c' = c ∨ c' ∈ t.map Prod.fst := by
  induction t with
  | nil => simp [countCategory]
  | cons x t ih =>
    obtain ⟨d, k⟩ := x
    rw [countCategory]
    by_cases hdc : d = c
    · subst hdc
      simp only [if_true, List.map_cons, List.mem_cons]
      tauto
    · rw [if_neg hdc, List.map_cons, List.mem_cons, ih, List.map_cons, List.mem_cons]
      tauto

theorem nodup_countCategory (c : Category) (t : List (Category × ℕ)) (hn : (t.map Prod.fst).Nodup) :
    ((countCategory c t).map Prod.fst).Nodup := by
  induction t with
  | nil => simp [countCategory]
  | cons x t ih =>
    obtain ⟨d, k⟩ := x
    rw [countCategory]
    rw [List.map_cons, List.nodup_cons] at hn
    by_cases hdc : d = c
    · rw [if_pos hdc, List.map_cons, List.nodup_cons]
      exact hn
    · rw [if_neg hdc, List.map_cons, List.nodup_cons, keys_countCategory]
      exact ⟨fun h => h.elim hdc hn.1, ih hn.2⟩

theorem countCategories_spec (events : List (Event K V)) :
    IsCount (fun c => events.countP fun e => e.category = c) (countCategories events) := by
  induction events using List.reverseRecOn with
  | nil => exact ⟨List.nodup_nil, fun c n => by simp [countCategories]; omega⟩
  | append_singleton es e ih =>
    have heq : countCategories (es ++ [e]) = countCategory e.category (countCategories es) := by
      rw [countCategories, List.foldl_append]
      rfl
    rw [heq]
    refine ⟨nodup_countCategory _ _ ih.nodup, fun c n => ?_⟩
    rw [mem_countCategory _ _ ih.nodup, List.countP_append, List.countP_singleton]
    by_cases hc : c = e.category
    · subst hc
      simp only [ih.mem, ne_eq, not_true_eq_false, false_and, true_and, false_or, decide_true, if_true]
      constructor
      · rintro (⟨k, ⟨-, rfl⟩, rfl⟩ | ⟨h, rfl⟩)
        · exact ⟨Nat.succ_pos _, rfl⟩
        · refine ⟨one_pos, ?_⟩
          have := h (es.countP fun e' => e'.category = e.category)
          simp only [and_true, not_lt, Nat.le_zero] at this
          rw [this]
      · rintro ⟨-, rfl⟩
        by_cases h0 : (es.countP fun e' => decide (e'.category = e.category)) = 0
        · refine Or.inr ⟨fun k hk => ?_, by rw [h0]⟩
          rw [h0] at hk
          omega
        · exact Or.inl ⟨_, ⟨Nat.pos_of_ne_zero h0, rfl⟩, rfl⟩
    · simp [ih.mem, hc, Ne.symm hc]

/-- Sorted tables are unique. -/
theorem categoryTable_unique {p : Program K V D} {events events' : List (Event K V)}
    (heq : ∀ c, eventsIn p c events = eventsIn p c events') {t t' : List (Category × ℕ)}
    (h : IsCategoryTable p events t) (h' : IsCategoryTable p events' t') : t = t' := by
  have hn : ∀ {es : List (Event K V)} {t : List (Category × ℕ)}, IsCategoryTable p es t → t.Nodup := by
    intro es t h
    refine h.sorted.imp ?_
    rintro a b (h | ⟨-, h⟩) rfl
    · exact lt_irrefl _ h
    · exact lt_irrefl _ h
  have hp : t.Perm t' := (List.perm_ext_iff_of_nodup (hn h) (hn h')).2 fun ⟨c, n⟩ => by rw [h.mem, h'.mem, heq]
  refine hp.eq_of_pairwise ?_ h.sorted h'.sorted
  rintro ⟨c, n⟩ ⟨c', n'⟩ - - h1 h2
  exfalso
  rcases h1 with h1 | ⟨h1, h1'⟩ <;> rcases h2 with h2 | ⟨h2, h2'⟩
  · exact lt_asymm h1 h2
  · simp only at h1 h2; omega
  · simp only at h1 h2; omega
  · exact lt_asymm h1' h2'

end

section

variable {K V D P : Type*} [Zero D] [LinearOrder D] [Zero K] [One K] [Add K] [Mul K] [Div K] [NatCast K] [LinearOrder K]
  [LinearOrder V] [DecidableEq P]

theorem category_isEmpty (e : Event K V) : e.outgoingByPid.isEmpty = decide (e.category = []) := by
  unfold Event.category
  cases e.outgoingByPid <;> simp

/-- The categories of the events that were read are those in the files. -/
theorem read_categories {p : Program K V D} {m : Nat} {ds : List (EventFile K V)} {events : List (Event K V)}
    (he : EventsRead p m ds events) : (events.map Event.category).Perm ((allEvents ds).map (categoryOf p)) := by
  have h1 : events.map Event.category =
      (events.map Event.id).map fun i => ((allEvents ds)[i]?.map (categoryOf p)).getD [] := by
    rw [List.map_map]
    apply List.map_congr_left
    intro ev hev
    obtain ⟨e0, e1, g1, g2, g3, -⟩ := he.from_file ev hev
    rw [Function.comp_apply, g1, Option.map_some, Option.getD_some, categoryOf, g2, g3]
    rfl
  have h2 : (List.range (allEvents ds).length).map (fun i => ((allEvents ds)[i]?.map (categoryOf p)).getD []) =
      (allEvents ds).map (categoryOf p) := by
    apply List.ext_getElem?
    intro i
    by_cases hi : i < (allEvents ds).length
    · simp [hi]
    · simp [hi]
  rw [h1, ← h2]
  exact he.ids.map _

theorem read_eventsIn {p : Program K V D} {m : Nat} {ds : List (EventFile K V)} {events : List (Event K V)}
    (he : EventsRead p m ds events) (c : Category) : events.countP (fun e => e.category = c) = eventsIn p c (allEvents ds) := by
  have h := (read_categories he).countP_eq fun x => x = c
  rw [List.countP_map, List.countP_map] at h
  exact h

/-- The events read in a run. -/
theorem run_events_read {p : Program K V D} {m : Nat} {fs fs' : FS P} {files : List (P × P)} {ds : List (EventFile K V)}
    (hm : ∀ ev ∈ allEvents ds, ev.weights.length = m) (hin : EventFiles p.io fs (files.map Prod.fst) ds) (hf : GoodFiles files)
    {events : List (Event K V)} {ws : Option (List (Weights K))} {res : Outcome (CresError IOError) Unit}
    (h : p.Run files fs (some events) ws res fs') : EventsRead p m ds events := by
  obtain ⟨s0, fs0, hnew, hread, -⟩ := reads_files hm hin hf
  generalize hev : some events = oevents at h
  cases h with
  | createErr _ | createPanic _ | readErr _ _ | readPanic _ _ => simp at hev
  | weightsErr g1 g2 _ | weightsPanic g1 g2 _ | update g1 g2 _ =>
    rw [hnew] at g1
    cases g1
    cases hev
    exact (hread _ _ g2).2.1 _ rfl

/-- The messages for events that were read from files. -/
theorem logged_categories {p : Program K V D} {m : Nat} {ds : List (EventFile K V)} {events : List (Event K V)}
    (he : EventsRead p m ds events) {ms : List LogMessage} (h : LogsEvents events ms) :
    ∃ t, IsCategoryTable p (allEvents ds) t ∧ (t.map Prod.snd).sum + eventsIn p [] (allEvents ds) = (allEvents ds).length ∧
      ms = [.read (allEvents ds).length] ++
        (if 0 < eventsIn p [] (allEvents ds) then [.ignoring (eventsIn p [] (allEvents ds))] else []) ++
        (t.take 1000).map (fun x => .category x.2 x.1) ++
        (if 1000 < t.length then [.manyCategories t.length] else []) := by
  cases h with
  | @mk retained ms hret h =>
    cases h with
    | @mk order sorted h1 h2 h3 =>
      subst hret
      have hperm := h2.trans h1
      have hcount := countCategories_spec (events.filter fun e => !e.outgoingByPid.isEmpty)
      have hf : ∀ c, (events.filter fun e => !e.outgoingByPid.isEmpty).countP (fun e => decide (e.category = c)) =
          if c = [] then 0 else eventsIn p c (allEvents ds) := by
        intro c
        rw [List.countP_filter]
        split_ifs with hc
        · subst hc
          rw [List.countP_eq_zero]
          intro e _
          rw [category_isEmpty]
          simp
        · rw [← read_eventsIn he]
          apply List.countP_congr
          intro e _
          rw [category_isEmpty]
          constructor
          · intro h
            exact (Bool.and_eq_true_iff.1 h).1
          · intro h
            have : e.category = c := of_decide_eq_true h
            simp [this, hc]
      have hmem : ∀ c n, (c, n) ∈ sorted ↔ c ≠ [] ∧ 0 < n ∧ n = eventsIn p c (allEvents ds) := by
        intro c n
        rw [hperm.mem_iff, hcount.mem, hf]
        split_ifs with hc
        · simp only [hc, ne_eq, not_true_eq_false, false_and, iff_false, not_and]
          omega
        · simp [hc]
      have hnd : (sorted.map Prod.fst).Nodup := (hperm.map _).nodup_iff.2 hcount.nodup
      have hlen : events.length = (allEvents ds).length := he.length_eq
      have hret : events.length = (events.filter fun e => !e.outgoingByPid.isEmpty).length + eventsIn p [] (allEvents ds) := by
        rw [← read_eventsIn he, ← List.countP_eq_length_filter]
        have := List.length_eq_countP_add_countP (fun e : Event K V => !e.outgoingByPid.isEmpty) (l := events)
        rw [this]
        congr 1
        apply List.countP_congr
        intro e _
        rw [category_isEmpty]
        simp
      refine ⟨sorted, ⟨hmem, ?_⟩, ?_, ?_⟩
      · have : sorted.Pairwise fun a b => a.1 ≠ b.1 := List.pairwise_map.1 hnd
        refine (h3.and this).imp ?_
        rintro a b ⟨h | ⟨h, h'⟩, hne⟩
        · exact Or.inl h
        · exact Or.inr ⟨h, lt_of_le_of_ne h' hne⟩
      · have hs : (sorted.map Prod.snd).sum = (events.filter fun e => !e.outgoingByPid.isEmpty).length := by
          rw [(hperm.map Prod.snd).sum_eq]
          clear hmem hnd hperm h1 h2 h3 hf hcount hret
          have key : ∀ (c : Category) t, ((countCategory c t).map Prod.snd).sum = (t.map Prod.snd).sum + 1 := by
            intro c t
            induction t with
            | nil => rfl
            | cons x t ih =>
              obtain ⟨d, k⟩ := x
              rw [countCategory]
              split_ifs
              · simp only [List.map_cons, List.sum_cons]; omega
              · simp only [List.map_cons, List.sum_cons, ih]; omega
          generalize events.filter (fun e => !e.outgoingByPid.isEmpty) = es
          induction es using List.reverseRecOn with
          | nil => rfl
          | append_singleton es e ih =>
            have heq : countCategories (es ++ [e]) = countCategory e.category (countCategories es) := by
              rw [countCategories, List.foldl_append]
              rfl
            rw [heq, key, ih, List.length_append, List.length_singleton]
        rw [hs, ← hlen, hret]
      · have hcat : ∀ x ∈ sorted.take 1000, (if x.1.isEmpty then LogMessage.withoutParticles x.2 else LogMessage.category x.2 x.1) =
            LogMessage.category x.2 x.1 := by
          intro x hx
          have := ((hmem x.1 x.2).1 (List.mem_of_mem_take hx)).1
          rw [if_neg (by simpa using this)]
        simp only [categoryMessages, maxMultShown]
        rw [List.map_congr_left hcat, ← hlen]
        have e1 : (events.filter fun e => !e.outgoingByPid.isEmpty).length < events.length ↔ 0 < eventsIn p [] (allEvents ds) := by
          omega
        have e2 : events.length - (events.filter fun e => !e.outgoingByPid.isEmpty).length = eventsIn p [] (allEvents ds) := by
          omega
        simp only [e1, e2]
        simp only [List.cons_append, List.nil_append, List.append_assoc]
        congr!

/-- **C107**: in a run in which events are read, the messages state the number of events in the input files, the number of
events without particles, and for at most 1000 categories of events with particles the number of events in the input files. If there are
at most 1000 categories, all of them are shown. Otherwise those with most events are shown, and their number is stated. All
categories together with the events without particles contain all events. -/
theorem C107_messages {p : Program K V D} {fs fs' : FS P} {files : List (P × P)} {ds : List (EventFile K V)}
    (hin : EventFiles p.io fs (files.map Prod.fst) ds) (hf : GoodFiles files) (hs : WeightsSupported p.io ds)
    {events : List (Event K V)} {ws : Option (List (Weights K))} {res : Outcome (CresError IOError) Unit}
    (h : p.Run files fs (some events) ws res fs') {ms : List LogMessage} (hms : LogsEvents events ms) :
    ∃ t, IsCategoryTable p (allEvents ds) t ∧ (t.map Prod.snd).sum + eventsIn p [] (allEvents ds) = (allEvents ds).length ∧
      ms = [.read (allEvents ds).length] ++
        (if 0 < eventsIn p [] (allEvents ds) then [.ignoring (eventsIn p [] (allEvents ds))] else []) ++
        (t.take 1000).map (fun x => .category x.2 x.1) ++
        (if 1000 < t.length then [.manyCategories t.length] else []) := by
  obtain ⟨m, -, -, hm, -⟩ := supported_weights hin hs
  exact logged_categories (run_events_read hm hin hf h) hms

/-- **C107** (determined): all runs on the same input files print the same messages, for all interleavings of threads and
any order in which hash maps are traversed. -/
theorem C107_determined {p : Program K V D} {fs fs₁ fs₂ : FS P} {files : List (P × P)} {ds : List (EventFile K V)}
    (hin : EventFiles p.io fs (files.map Prod.fst) ds) (hf : GoodFiles files) (hs : WeightsSupported p.io ds)
    {events₁ events₂ : List (Event K V)} {ws₁ ws₂ : Option (List (Weights K))} {res₁ res₂ : Outcome (CresError IOError) Unit}
    (h₁ : p.Run files fs (some events₁) ws₁ res₁ fs₁) (h₂ : p.Run files fs (some events₂) ws₂ res₂ fs₂)
    {ms₁ ms₂ : List LogMessage} (hms₁ : LogsEvents events₁ ms₁) (hms₂ : LogsEvents events₂ ms₂) : ms₁ = ms₂ := by
  obtain ⟨t₁, g1, -, rfl⟩ := C107_messages hin hf hs h₁ hms₁
  obtain ⟨t₂, g2, -, rfl⟩ := C107_messages hin hf hs h₂ hms₂
  rw [categoryTable_unique (fun _ => rfl) g1 g2]

/-- **C107** (not empty): there are messages for all events. -/
theorem C107_printed (events : List (Event K V)) : ∃ ms, LogsEvents events ms := by
  classical
  have ht : Std.Total CategoryLE := ⟨fun a b => by
    unfold CategoryLE
    rcases lt_trichotomy a.2 b.2 with h | h | h
    · exact Or.inr (Or.inl h)
    · rcases le_total a.1 b.1 with h' | h'
      · exact Or.inl (Or.inr ⟨h.symm, h'⟩)
      · exact Or.inr (Or.inr ⟨h, h'⟩)
    · exact Or.inl (Or.inl h)⟩
  have htr : IsTrans _ CategoryLE := ⟨fun a b c => by
    unfold CategoryLE
    rintro (h | ⟨h, h'⟩) (g | ⟨g, g'⟩)
    · exact Or.inl (g.trans h)
    · exact Or.inl (g ▸ h)
    · exact Or.inl (h ▸ g)
    · exact Or.inr ⟨g.trans h, h'.trans g'⟩⟩
  exact ⟨_, .mk rfl (.mk (List.Perm.refl _) (List.perm_insertionSort CategoryLE _) (List.pairwise_insertionSort CategoryLE _))⟩

end

/-! ### example -/

/-- Three events, two of which are in the same category, and one event without particles. -/
def exCategoryEvents : List (Event ℚ ℚ) :=
  [⟨1, [6], [(81, [9, 2])]⟩, ⟨3, [1], []⟩, ⟨2, [6], [(81, [8]), (11, [3])]⟩, ⟨0, [-2], [(81, [7, 7])]⟩]

example : LogsEvents exCategoryEvents
    [.read 4, .ignoring 1, .category 2 [toLex (81, 2)], .category 1 [toLex (81, 1), toLex (11, 1)]] := by
  refine .mk (retained := exCategoryEvents.filter fun e => !e.outgoingByPid.isEmpty) rfl (.mk (order := [([toLex (81, 1), toLex (11, 1)], 1), ([toLex (81, 2)], 2)])
    (sorted := [([toLex (81, 2)], 2), ([toLex (81, 1), toLex (11, 1)], 1)]) ?_ (.swap _ _ _) ?_)
  · exact (List.Perm.swap _ _ _).trans (by decide +kernel)
  · simp [CategoryLE]

/-- The hypotheses of `C107_messages` and of `C107_determined` are met in the run of the example for C69. -/
example (multi : Bool) : (∃ ws res fs', (exSettings multi).program.Run [((0 : ℕ), 10), (1, 11)] exProgFS (some exProgEvents)
      ws res fs') ∧ LogsEvents exProgEvents [.read 3, .category 3 [toLex (81, 1)]] ∧
    WeightsSupported (exSettings multi).io [exProgHepmc, exProgLhef] := by
  obtain ⟨res, fs', h⟩ := exProg_run multi
  refine ⟨⟨_, res, fs', h⟩, ?_, Or.inl fun _ => rfl⟩
  exact .mk (retained := exProgEvents.filter fun e => !e.outgoingByPid.isEmpty) rfl
    (.mk (order := [([toLex (81, 1)], 3)]) (sorted := [([toLex (81, 1)], 3)]) (by decide +kernel) (.refl _) (by simp))

end Cres

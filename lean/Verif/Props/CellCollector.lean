import Mathlib.Data.Prod.Lex
import Mathlib.Data.List.Sort
import Mathlib.Algebra.BigOperators.Group.List.Basic
import Mathlib.Data.Rat.Defs
import Verif.Model.CellCollector
import Verif.Spec.CellCollector

/-!
Properties C50 to C53: the cells of interest, and the statistics on all cells.
-/

namespace Cres

variable {κ α X D K : Type*}

/-! ### `BTreeMap` -/

/-- The keys are in strictly ascending order. -/
abbrev BMap.Sorted [LT κ] (m : BMap κ α) : Prop := m.Pairwise (fun a b => a.1 < b.1)

theorem BMap.mem_insert [LinearOrder κ] {k : κ} {v : α} {m : BMap κ α} (hm : BMap.Sorted m) {e : κ × α} :
    e ∈ BMap.insert k v m ↔ e = (k, v) ∨ (e ∈ m ∧ e.1 ≠ k) := by
  induction m with
  | nil => simp [BMap.insert]
  | cons a m ih =>
    obtain ⟨k', v'⟩ := a
    rw [BMap.Sorted, List.pairwise_cons] at hm
    obtain ⟨h1, h2⟩ := hm
    rw [BMap.insert]
    split_ifs with hlt heq
    · simp only [List.mem_cons]
      constructor
      · rintro (h | h | h)
        · exact Or.inl h
        · subst h; exact Or.inr ⟨Or.inl rfl, ne_of_gt hlt⟩
        · exact Or.inr ⟨Or.inr h, ne_of_gt (hlt.trans (h1 _ h))⟩
      · rintro (h | ⟨h | h, -⟩)
        · exact Or.inl h
        · exact Or.inr (Or.inl h)
        · exact Or.inr (Or.inr h)
    · subst heq
      simp only [List.mem_cons]
      constructor
      · rintro (h | h)
        · exact Or.inl h
        · exact Or.inr ⟨Or.inr h, ne_of_gt (h1 _ h)⟩
      · rintro (h | ⟨h | h, h'⟩)
        · exact Or.inl h
        · subst h; exact absurd rfl h'
        · exact Or.inr h
    · simp only [List.mem_cons, ih h2]
      constructor
      · rintro (h | h | h)
        · subst h; exact Or.inr ⟨Or.inl rfl, fun h => heq h.symm⟩
        · exact Or.inl h
        · exact Or.inr ⟨Or.inr h.1, h.2⟩
      · rintro (h | ⟨h | h, h'⟩)
        · exact Or.inr (Or.inl h)
        · exact Or.inl h
        · exact Or.inr (Or.inr ⟨h, h'⟩)

theorem BMap.sorted_insert [LinearOrder κ] {k : κ} {v : α} {m : BMap κ α} (hm : BMap.Sorted m) :
    BMap.Sorted (BMap.insert k v m) := by
  induction m with
  | nil => simp [BMap.insert, BMap.Sorted]
  | cons a m ih =>
    obtain ⟨k', v'⟩ := a
    have hm' := hm
    rw [BMap.Sorted, List.pairwise_cons] at hm
    obtain ⟨h1, h2⟩ := hm
    rw [BMap.insert]
    split_ifs with hlt heq
    · rw [BMap.Sorted, List.pairwise_cons]
      refine ⟨?_, hm'⟩
      rintro e he
      rcases List.mem_cons.1 he with rfl | he
      · exact hlt
      · exact hlt.trans (h1 _ he)
    · subst heq
      rw [BMap.Sorted, List.pairwise_cons]
      exact ⟨h1, h2⟩
    · rw [BMap.Sorted, List.pairwise_cons]
      refine ⟨?_, ih h2⟩
      intro e he
      rcases (BMap.mem_insert h2).1 he with rfl | he
      · exact lt_of_le_of_ne (not_lt.1 hlt) (fun h => heq h.symm)
      · exact h1 _ he.1

theorem BMap.length_insert [LinearOrder κ] {k : κ} {v : α} {m : BMap κ α} (hk : ∀ e ∈ m, e.1 ≠ k) :
    (BMap.insert k v m).length = m.length + 1 := by
  induction m with
  | nil => rfl
  | cons a m ih =>
    obtain ⟨k', v'⟩ := a
    rw [BMap.insert]
    split_ifs with hlt heq
    · rfl
    · exact absurd heq.symm (hk (k', v') (by simp))
    · rw [List.length_cons, List.length_cons, ih (fun e he => hk e (by simp [he]))]

theorem BMap.remove_head [LinearOrder κ] {k : κ} {v : α} {m : BMap κ α} (hm : BMap.Sorted ((k, v) :: m)) :
    BMap.remove k ((k, v) :: m) = m := by
  rw [BMap.Sorted, List.pairwise_cons] at hm
  rw [BMap.remove, List.filter_cons]
  simp only [ne_eq, not_true_eq_false, decide_false, Bool.false_eq_true, if_false]
  rw [List.filter_eq_self]
  intro e he
  simpa using ne_of_gt (hm.1 e he)

/-! ### One of the maps -/

/-- The numbers of the cells in a map. -/
def CellMap.numbers (m : CellMap X) : List Nat := m.map fun e => (ofLex e.1).2

/-- What a map contains after `n` cells with sizes `size` and events `events`. -/
structure CellMap.Good [LinearOrder X] (size : Nat → X) (events : Nat → List Nat) (n : Nat) (m : CellMap X) : Prop where
  sorted : BMap.Sorted m
  entry : ∀ e ∈ m, e = (toLex (size (ofLex e.1).2, (ofLex e.1).2), events (ofLex e.1).2)
  keeps : Spec.KeepsLargest nCells n size (CellMap.numbers m)

theorem CellMap.mem_numbers {m : CellMap X} {i : Nat} : i ∈ CellMap.numbers m ↔ ∃ e ∈ m, (ofLex e.1).2 = i := by
  simp [CellMap.numbers]

theorem CellMap.numbers_nodup [LinearOrder X] {size : Nat → X} {events : Nat → List Nat} {m : CellMap X} (hs : BMap.Sorted m)
    (he : ∀ e ∈ m, e = (toLex (size (ofLex e.1).2, (ofLex e.1).2), events (ofLex e.1).2)) : (CellMap.numbers m).Nodup := by
  rw [CellMap.numbers, List.Nodup, List.pairwise_map]
  refine hs.imp_of_mem ?_
  intro a b ha hb hab heq
  have h1 := he a ha
  have h2 := he b hb
  rw [heq] at h1
  have : a.1 = b.1 := congrArg Prod.fst (h1.trans h2.symm)
  exact absurd this (ne_of_lt hab)

theorem CellMap.good_empty [LinearOrder X] (size : Nat → X) (events : Nat → List Nat) : CellMap.Good size events 0 ([] : CellMap X) :=
  ⟨List.Pairwise.nil, by simp, ⟨by simp [CellMap.numbers], by simp [CellMap.numbers], by simp [CellMap.numbers],
    by simp [CellMap.numbers]⟩⟩

theorem CellMap.good_insert [LinearOrder X] {size : Nat → X} {events : Nat → List Nat} {n : Nat} {m : CellMap X}
    (h : CellMap.Good size events n m) (hn : n < nCells) :
    CellMap.Good size events (n + 1) (BMap.insert (toLex (size n, n)) (events n) m) := by
  have hnew : ∀ e ∈ m, e.1 ≠ toLex (size n, n) := by
    intro e he heq
    have := h.keeps.known (ofLex e.1).2 (CellMap.mem_numbers.2 ⟨e, he, rfl⟩)
    rw [heq] at this
    exact absurd this (lt_irrefl n)
  have hlen : (CellMap.numbers m).length = n := by rw [h.keeps.number]; omega
  have hsorted := BMap.sorted_insert (k := toLex (size n, n)) (v := events n) h.sorted
  have hentry : ∀ e ∈ BMap.insert (toLex (size n, n)) (events n) m,
      e = (toLex (size (ofLex e.1).2, (ofLex e.1).2), events (ofLex e.1).2) := by
    intro e he
    rcases (BMap.mem_insert h.sorted).1 he with rfl | he
    · rfl
    · exact h.entry e he.1
  have hknown : ∀ i ∈ CellMap.numbers (BMap.insert (toLex (size n, n)) (events n) m), i < n + 1 := by
    intro i hi
    obtain ⟨e, he, rfl⟩ := CellMap.mem_numbers.1 hi
    rcases (BMap.mem_insert h.sorted).1 he with rfl | he
    · exact Nat.lt_succ_self n
    · exact Nat.lt_succ_of_lt (h.keeps.known _ (CellMap.mem_numbers.2 ⟨e, he.1, rfl⟩))
  have hnodup := CellMap.numbers_nodup hsorted hentry
  have hl : (CellMap.numbers (BMap.insert (toLex (size n, n)) (events n) m)).length = n + 1 := by
    rw [CellMap.numbers, List.length_map, BMap.length_insert hnew, ← hlen, CellMap.numbers, List.length_map]
  refine ⟨hsorted, hentry, hknown, hnodup, by rw [hl]; omega, ?_⟩
  -- nothing has been dropped so far
  intro i hi j hj hj'
  exfalso
  have hsub : (CellMap.numbers (BMap.insert (toLex (size n, n)) (events n) m)).Subperm (List.range (n + 1)) :=
    List.subperm_of_subset hnodup (fun i hi => List.mem_range.2 (hknown i hi))
  have hperm := hsub.perm_of_length_le (by rw [hl, List.length_range])
  exact hj' (hperm.mem_iff.2 (List.mem_range.2 hj))

theorem lex_le_fst [LinearOrder X] {a b : X ×ₗ ℕ} (h : a ≤ b) : (ofLex a).1 ≤ (ofLex b).1 := by
  rcases Prod.Lex.le_iff.1 h with h | h
  · exact h.le
  · exact h.1.le

theorem CellMap.good_replace [LinearOrder X] {size : Nat → X} {events : Nat → List Nat} {n : Nat} {m : CellMap X}
    (h : CellMap.Good size events n m) (hn : nCells ≤ n) :
    ∃ m', replaceSmallest (size n) n (events n) m = some m' ∧ CellMap.Good size events (n + 1) m' := by
  cases m with
  | nil =>
    have := h.keeps.number
    simp only [CellMap.numbers, List.map_nil, List.length_nil] at this
    rw [min_eq_left hn] at this
    exact absurd this (by decide)
  | cons a m =>
    obtain ⟨k, v⟩ := a
    have hs := h.sorted
    rw [BMap.Sorted, List.pairwise_cons] at hs
    obtain ⟨hs1, hs2⟩ := hs
    have hk : (k, v) = (toLex (size (ofLex k).2, (ofLex k).2), events (ofLex k).2) := h.entry (k, v) (by simp)
    have hk1 : (ofLex k).1 = size (ofLex k).2 := by
      have := congrArg (fun e : (X ×ₗ ℕ) × List ℕ => (ofLex e.1).1) hk
      exact this
    have hsize : ∀ e ∈ (k, v) :: m, (ofLex e.1).1 = size (ofLex e.1).2 := by
      intro e he
      have := congrArg (fun e : (X ×ₗ ℕ) × List ℕ => (ofLex e.1).1) (h.entry e he)
      exact this
    have hmin : ∀ e ∈ (k, v) :: m, (ofLex k).1 ≤ (ofLex e.1).1 := by
      intro e he
      rcases List.mem_cons.1 he with rfl | he
      · exact le_refl _
      · exact lex_le_fst (hs1 e he).le
    rw [replaceSmallest]
    split_ifs with hlt
    · refine ⟨_, rfl, ?_⟩
      rw [BMap.remove_head h.sorted]
      have hnew : ∀ e ∈ m, e.1 ≠ toLex (size n, n) := by
        intro e he heq
        have := h.keeps.known (ofLex e.1).2 (CellMap.mem_numbers.2 ⟨e, by simp [he], rfl⟩)
        rw [heq] at this
        exact absurd this (lt_irrefl n)
      have hsorted := BMap.sorted_insert (k := toLex (size n, n)) (v := events n) hs2
      have hmem : ∀ {e}, e ∈ BMap.insert (toLex (size n, n)) (events n) m ↔ e = (toLex (size n, n), events n) ∨ e ∈ m := by
        intro e
        rw [BMap.mem_insert hs2]
        constructor
        · rintro (h | h)
          · exact Or.inl h
          · exact Or.inr h.1
        · rintro (h | h)
          · exact Or.inl h
          · exact Or.inr ⟨h, hnew e h⟩
      have hentry : ∀ e ∈ BMap.insert (toLex (size n, n)) (events n) m,
          e = (toLex (size (ofLex e.1).2, (ofLex e.1).2), events (ofLex e.1).2) := by
        intro e he
        rcases hmem.1 he with rfl | he
        · rfl
        · exact h.entry e (by simp [he])
      refine ⟨hsorted, hentry, ?_, CellMap.numbers_nodup hsorted hentry, ?_, ?_⟩
      · intro i hi
        obtain ⟨e, he, rfl⟩ := CellMap.mem_numbers.1 hi
        rcases hmem.1 he with rfl | he
        · exact Nat.lt_succ_self n
        · exact Nat.lt_succ_of_lt (h.keeps.known _ (CellMap.mem_numbers.2 ⟨e, by simp [he], rfl⟩))
      · rw [CellMap.numbers, List.length_map, BMap.length_insert hnew]
        have := h.keeps.number
        rw [CellMap.numbers, List.length_map, List.length_cons] at this
        omega
      · intro i hi j hj hj'
        obtain ⟨e, he, rfl⟩ := CellMap.mem_numbers.1 hi
        have hjn : j ≠ n := by
          rintro rfl
          exact hj' (CellMap.mem_numbers.2 ⟨_, hmem.2 (Or.inl rfl), rfl⟩)
        -- a dropped cell is not larger than the previous smallest one
        have hjk : size j ≤ (ofLex k).1 := by
          by_cases hjm : j ∈ CellMap.numbers ((k, v) :: m)
          · obtain ⟨e', he', rfl⟩ := CellMap.mem_numbers.1 hjm
            rcases List.mem_cons.1 he' with rfl | he'
            · exact hk1.ge
            · exact absurd (CellMap.mem_numbers.2 ⟨e', hmem.2 (Or.inr he'), rfl⟩) hj'
          · have := h.keeps.largest (ofLex k).2 (CellMap.mem_numbers.2 ⟨(k, v), by simp, rfl⟩) j (by omega) hjm
            rwa [hk1]
        rcases hmem.1 he with rfl | he
        · exact hjk.trans hlt.le
        · have h1 := hmin e (by simp [he])
          rw [hsize e (by simp [he])] at h1
          exact hjk.trans h1
    · refine ⟨_, rfl, h.sorted, h.entry, ?_, h.keeps.distinct, ?_, ?_⟩
      · intro i hi
        exact Nat.lt_succ_of_lt (h.keeps.known i hi)
      · rw [h.keeps.number]
        omega
      · intro i hi j hj hj'
        by_cases hjn : j = n
        · subst hjn
          obtain ⟨e, he, rfl⟩ := CellMap.mem_numbers.1 hi
          rw [← hsize e he]
          exact (not_lt.1 hlt).trans (hmin e he)
        · exact h.keeps.largest i hi j (by omega) hj'

theorem Spec.KeepsLargest.congr [LE X] {limit n : Nat} {size size' : Nat → X} {kept : List Nat}
    (h : Spec.KeepsLargest limit n size kept) (hs : ∀ i < n, size i = size' i) : Spec.KeepsLargest limit n size' kept :=
  ⟨h.known, h.distinct, h.number, fun i hi j hj hj' => by
    rw [← hs i (h.known i hi), ← hs j hj]; exact h.largest i hi j hj hj'⟩

/-! ### C50 -/

theorem collectAll_append [LinearOrder D] [LinearOrder K] (eventId : Nat → Nat) (l l' : List (Cell D K × Nat))
    (s : CellCollector D K) :
    CellCollector.collectAll eventId (l ++ l') s = (CellCollector.collectAll eventId l s).bind (CellCollector.collectAll eventId l') := by
  induction l generalizing s with
  | nil => rfl
  | cons a l ih =>
    obtain ⟨c, i⟩ := a
    simp only [List.cons_append, CellCollector.collectAll]
    cases h : s.collect eventId c i with
    | none => rfl
    | some s' => simp only [Option.bind_some]; exact ih s'

/-- The events of a cell, as the collector stores them. -/
def cellEvents (eventId : Nat → Nat) (cell : Nat → Cell D K) (i : Nat) : List Nat := (cell i).members.map eventId

/-- The state of a collector that has seen `n` cells. -/
structure CellCollector.Seen [LinearOrder D] [LinearOrder K] (eventId : Nat → Nat) (cell : Nat → Cell D K) (n : Nat)
    (s : CellCollector D K) : Prop where
  count : s.count = n
  first : s.first = (List.range (min nCells n)).map fun i => (i, cellEvents eventId cell i)
  randomEntry : ∀ e ∈ s.random, e.1 < n ∧ e.2 = cellEvents eventId cell e.1
  randomNodup : (s.random.map Prod.fst).Nodup
  randomLength : s.random.length = min nCells n
  radius : CellMap.Good (fun i => (cell i).radius) (cellEvents eventId cell) n s.byRadius
  members : CellMap.Good (fun i => (cell i).members.length) (cellEvents eventId cell) n s.byMembers
  weight : CellMap.Good (fun i => (cell i).weightSum) (cellEvents eventId cell) n s.byWeight

theorem nodup_set {l : List (Nat × List Nat)} {i n : Nat} {x : List Nat} (hl : (l.map Prod.fst).Nodup)
    (hn : ∀ e ∈ l, e.1 < n) : ((l.set i (n, x)).map Prod.fst).Nodup := by
  rw [List.map_set]
  rw [List.nodup_iff_injective_getElem] at hl ⊢
  have hne : ∀ (k : Nat) (hk : k < (l.map Prod.fst).length), (l.map Prod.fst)[k] ≠ n := by
    intro k hk h
    rw [List.getElem_map] at h
    rw [List.length_map] at hk
    have := hn (l[k]'hk) (List.getElem_mem _)
    omega
  rintro ⟨a, ha⟩ ⟨b, hb⟩ hab
  rw [List.length_set] at ha hb
  simp only [List.getElem_set] at hab
  rw [Fin.mk.injEq]
  split_ifs at hab with h1 h2 h2
  · omega
  · exact absurd hab.symm (hne b hb)
  · exact absurd hab (hne a ha)
  · have := @hl ⟨a, ha⟩ ⟨b, hb⟩ hab
    simpa using this

theorem collect_seen [LinearOrder D] [LinearOrder K] {eventId : Nat → Nat} {cell : Nat → Cell D K} {n : Nat}
    {s : CellCollector D K} (h : s.Seen eventId cell n) (idx : Nat) :
    ∃ s', s.collect eventId (cell n) idx = some s' ∧ s'.Seen eventId cell (n + 1) := by
  rw [CellCollector.collect]
  by_cases hn : n < nCells
  · rw [if_pos (by rw [h.count]; exact hn)]
    refine ⟨_, rfl, ?_⟩
    refine ⟨by rw [h.count], ?_, ?_, ?_, ?_, ?_, ?_, ?_⟩
    · simp only [h.first, h.count]
      rw [min_eq_right hn.le, min_eq_right (by omega), List.range_succ, List.map_append]
      rfl
    · intro e he
      rcases List.mem_append.1 he with he | he
      · exact ⟨Nat.lt_succ_of_lt (h.randomEntry e he).1, (h.randomEntry e he).2⟩
      · rw [List.mem_singleton] at he
        subst he
        simp only [h.count]
        exact ⟨Nat.lt_succ_self n, rfl⟩
    · simp only [List.map_append, h.count]
      rw [List.nodup_append]
      refine ⟨h.randomNodup, by simp, ?_⟩
      intro a ha b hb hab
      obtain ⟨e, he, rfl⟩ := List.mem_map.1 ha
      have := (h.randomEntry e he).1
      simp only [List.map_cons, List.map_nil, List.mem_singleton] at hb
      omega
    · simp only [List.length_append, List.length_singleton, h.randomLength]
      omega
    · simp only [h.count]
      exact CellMap.good_insert h.radius hn
    · simp only [h.count]
      exact CellMap.good_insert h.members hn
    · simp only [h.count]
      exact CellMap.good_insert h.weight hn
  · have hn' := not_lt.1 hn
    rw [if_neg (by rw [h.count]; exact hn)]
    obtain ⟨m1, e1, h1⟩ := CellMap.good_replace h.radius hn'
    obtain ⟨m2, e2, h2⟩ := CellMap.good_replace h.members hn'
    obtain ⟨m3, e3, h3⟩ := CellMap.good_replace h.weight hn'
    rw [cellEvents] at e1 e2 e3
    rw [h.count, e1, e2, e3]
    refine ⟨_, rfl, ?_⟩
    refine ⟨rfl, ?_, ?_, ?_, ?_, h1, h2, h3⟩
    · simp only [h.first]
      rw [min_eq_left hn', min_eq_left (by omega)]
    · intro e he
      simp only at he
      split_ifs at he with hi
      · rcases List.mem_or_eq_of_mem_set he with he | rfl
        · exact ⟨Nat.lt_succ_of_lt (h.randomEntry e he).1, (h.randomEntry e he).2⟩
        · exact ⟨Nat.lt_succ_self n, rfl⟩
      · exact ⟨Nat.lt_succ_of_lt (h.randomEntry e he).1, (h.randomEntry e he).2⟩
    · simp only
      split_ifs with hi
      · exact nodup_set h.randomNodup (fun e he => (h.randomEntry e he).1)
      · exact h.randomNodup
    · simp only
      split_ifs <;> simp only [List.length_set, h.randomLength] <;> omega

theorem new_seen [LinearOrder D] [LinearOrder K] (eventId : Nat → Nat) (cell : Nat → Cell D K) :
    (CellCollector.new : CellCollector D K).Seen eventId cell 0 :=
  ⟨rfl, rfl, by simp [CellCollector.new], by simp [CellCollector.new], rfl, CellMap.good_empty _ _, CellMap.good_empty _ _,
    CellMap.good_empty _ _⟩

/-- The first `n` cells of a sequence, with the random numbers drawn for them. -/
def cellsSeen (cell : Nat → Cell D K) (idx : Nat → Nat) (n : Nat) : List (Cell D K × Nat) :=
  (List.range n).map fun i => (cell i, idx i)

theorem collectAll_seen [LinearOrder D] [LinearOrder K] (eventId : Nat → Nat) (cell : Nat → Cell D K) (idx : Nat → Nat) (n : Nat) :
    ∃ s, CellCollector.collectAll eventId (cellsSeen cell idx n) CellCollector.new = some s ∧ s.Seen eventId cell n := by
  induction n with
  | zero => exact ⟨_, rfl, new_seen eventId cell⟩
  | succ n ih =>
    obtain ⟨s, hs, h⟩ := ih
    obtain ⟨s', hs', h'⟩ := collect_seen h (idx n)
    refine ⟨s', ?_, h'⟩
    rw [cellsSeen, List.range_succ, List.map_append, ← cellsSeen, collectAll_append, hs]
    simp [CellCollector.collectAll, hs']

theorem CellMap.Good.entry_spec [LinearOrder X] {size : Nat → X} {events : Nat → List Nat} {n : Nat} {m : CellMap X}
    (h : CellMap.Good size events n m) {e} (he : e ∈ m) :
    (ofLex e.1).2 < n ∧ (ofLex e.1).1 = size (ofLex e.1).2 ∧ e.2 = events (ofLex e.1).2 := by
  refine ⟨h.keeps.known _ (CellMap.mem_numbers.2 ⟨e, he, rfl⟩), ?_, ?_⟩
  · exact congrArg (fun e : (X ×ₗ ℕ) × List ℕ => (ofLex e.1).1) (h.entry e he)
  · exact congrArg Prod.snd (h.entry e he)

theorem seen_allCells [LinearOrder D] [LinearOrder K] {eventId : Nat → Nat} {cell : Nat → Cell D K} {n : Nat}
    {s : CellCollector D K} (h : s.Seen eventId cell n) :
    ∀ e ∈ s.allCells, e.1 < n ∧ e.2 = (cell e.1).members.map eventId := by
  intro e he
  simp only [CellCollector.allCells, List.mem_append, List.mem_map] at he
  rcases he with (((he | he) | ⟨a, ha, rfl⟩) | ⟨a, ha, rfl⟩) | ⟨a, ha, rfl⟩
  · rw [h.first, List.mem_map] at he
    obtain ⟨i, hi, rfl⟩ := he
    rw [List.mem_range] at hi
    exact ⟨by simp only; omega, rfl⟩
  · exact h.randomEntry e he
  · exact ⟨(h.radius.entry_spec ha).1, (h.radius.entry_spec ha).2.2⟩
  · exact ⟨(h.members.entry_spec ha).1, (h.members.entry_spec ha).2.2⟩
  · exact ⟨(h.weight.entry_spec ha).1, (h.weight.entry_spec ha).2.2⟩

/-- **C50**: for every sequence of cells and all random numbers, the collector has after `n` cells the `min 10 n` largest
cells by radius, by number of members and by weight, the first `min 10 n` cells, and `min 10 n` different random cells.
Every stored cell number is below `n` and comes with the events in this cell and the size of this cell. Collecting never
panics. -/
theorem C50_collect [LinearOrder D] [LinearOrder K] (eventId : Nat → Nat) (cell : Nat → Cell D K) (idx : Nat → Nat) (n : Nat) :
    ∃ s, CellCollector.collectAll eventId (cellsSeen cell idx n) CellCollector.new = some s ∧
      s.count = n ∧
      s.first = (List.range (min 10 n)).map (fun i => (i, (cell i).members.map eventId)) ∧
      Spec.KeepsLargest 10 n (fun i => (cell i).radius) (s.byRadius.map fun e => (ofLex e.1).2) ∧
      Spec.KeepsLargest 10 n (fun i => (cell i).members.length) (s.byMembers.map fun e => (ofLex e.1).2) ∧
      Spec.KeepsLargest 10 n (fun i => (cell i).weightSum) (s.byWeight.map fun e => (ofLex e.1).2) ∧
      (s.random.map Prod.fst).Nodup ∧ s.random.length = min 10 n ∧
      (∀ e ∈ s.allCells, e.1 < n ∧ e.2 = (cell e.1).members.map eventId) ∧
      (∀ e ∈ s.byRadius, (ofLex e.1).1 = (cell (ofLex e.1).2).radius) ∧
      (∀ e ∈ s.byMembers, (ofLex e.1).1 = (cell (ofLex e.1).2).members.length) ∧
      (∀ e ∈ s.byWeight, (ofLex e.1).1 = (cell (ofLex e.1).2).weightSum) := by
  obtain ⟨s, hs, h⟩ := collectAll_seen eventId cell idx n
  exact ⟨s, hs, h.count, h.first, h.radius.keeps, h.members.keeps, h.weight.keeps, h.randomNodup, h.randomLength,
    seen_allCells h, fun e he => (h.radius.entry_spec he).2.1, fun e he => (h.members.entry_spec he).2.1,
    fun e he => (h.weight.entry_spec he).2.1⟩

/-- Twelve cells of which the last one is the largest. -/
example :
    ((CellCollector.collectAll (D := Nat) (K := Int) (fun i => 100 + i)
      (cellsSeen (fun i => ⟨[i], i + 1, -i⟩) (fun _ => 3) 12) CellCollector.new).map fun s =>
        (s.byRadius.map fun e => (ofLex e.1).2, s.random.map Prod.fst, s.byWeight.map fun e => (ofLex e.1).2)) =
      some ([2, 3, 4, 5, 6, 7, 8, 9, 10, 11], [0, 1, 2, 11, 4, 5, 6, 7, 8, 9], [9, 8, 7, 6, 5, 4, 3, 2, 1, 0]) := by
  decide +kernel

end Cres

import Mathlib.Data.List.Perm.Basic
import Mathlib.Tactic.Linarith
import Verif.Props.CellCollector

/-!
Properties C51 to C53: combining cell collectors, the statistics on all cells, and the map returned by `event_cells`.
-/

namespace Cres

variable {κ α X D K : Type*}

/-! ### C51 -/

theorem BMap.extend_spec [LinearOrder κ] (es : List (κ × α)) : ∀ {m : BMap κ α}, BMap.Sorted m →
    (es.map Prod.fst).Nodup → (∀ e ∈ m, ∀ e' ∈ es, e.1 ≠ e'.1) →
    BMap.Sorted (m.extend es) ∧ (∀ e, e ∈ m.extend es ↔ e ∈ m ∨ e ∈ es) ∧ (m.extend es).length = m.length + es.length := by
  induction es with
  | nil => intro m hm _ _; exact ⟨hm, by simp [BMap.extend], rfl⟩
  | cons a es ih =>
    intro m hm hes hdis
    rw [List.map_cons, List.nodup_cons] at hes
    have hnew : ∀ e ∈ m, e.1 ≠ a.1 := fun e he => hdis e he a (by simp)
    have hmem : ∀ e, e ∈ BMap.insert a.1 a.2 m ↔ e = a ∨ e ∈ m := by
      intro e
      rw [BMap.mem_insert hm]
      constructor
      · rintro (h | h)
        · exact Or.inl h
        · exact Or.inr h.1
      · rintro (h | h)
        · exact Or.inl h
        · exact Or.inr ⟨h, hnew e h⟩
    obtain ⟨h1, h2, h3⟩ := ih (m := BMap.insert a.1 a.2 m) (BMap.sorted_insert hm) hes.2 (by
      intro e he e' he'
      rcases (hmem e).1 he with rfl | he
      · intro heq
        exact hes.1 (heq ▸ List.mem_map_of_mem he')
      · exact hdis e he e' (by simp [he']))
    refine ⟨h1, ?_, ?_⟩
    · intro e
      refine (h2 e).trans ?_
      rw [hmem, List.mem_cons]
      tauto
    · refine h3.trans ?_
      rw [BMap.length_insert hnew, List.length_cons]
      omega

/-- The sizes of the cells seen by two collectors, when those seen by the second one are counted after those seen by the first one. -/
def afterwards (n : Nat) (f g : Nat → α) (i : Nat) : α := if i < n then f i else g (i - n)

/-- The entries of a map with the numbers shifted. -/
def CellMap.shift (n : Nat) (m : CellMap X) : CellMap X := m.map fun e => (toLex ((ofLex e.1).1, (ofLex e.1).2 + n), e.2)

theorem CellMap.union_spec [LinearOrder X] {f g : Nat → X} {ev ev' : Nat → List Nat} {n n' : Nat} {m m' : CellMap X}
    (h : CellMap.Good f ev n m) (h' : CellMap.Good g ev' n' m') :
    BMap.Sorted (m.extend (CellMap.shift n m')) ∧
      (∀ e, e ∈ m.extend (CellMap.shift n m') ↔ e ∈ m ∨ e ∈ CellMap.shift n m') ∧
      (m.extend (CellMap.shift n m')).length = m.length + m'.length ∧
      (∀ e ∈ m.extend (CellMap.shift n m'), (ofLex e.1).2 < n + n' ∧
        e = (toLex (afterwards n f g (ofLex e.1).2, (ofLex e.1).2), afterwards n ev ev' (ofLex e.1).2)) := by
  have hnodup : ((CellMap.shift n m').map Prod.fst).Nodup := by
    have := h'.keeps.distinct
    rw [CellMap.shift, List.map_map]
    rw [CellMap.numbers] at this
    have h2 : (List.map (fun i => i + n) (m'.map fun e => (ofLex e.1).2)).Nodup :=
      this.map (fun a b hab => by simpa using hab)
    rw [List.map_map] at h2
    refine List.Nodup.of_map (fun k : X ×ₗ ℕ => (ofLex k).2) ?_
    rw [List.map_map]
    exact h2
  have hdis : ∀ e ∈ m, ∀ e' ∈ CellMap.shift n m', e.1 ≠ e'.1 := by
    intro e he e' he' heq
    rw [CellMap.shift, List.mem_map] at he'
    obtain ⟨b, hb, rfl⟩ := he'
    have h1 := (h.entry_spec he).1
    rw [heq] at h1
    simp only [ofLex_toLex] at h1
    omega
  obtain ⟨h1, h2, h3⟩ := BMap.extend_spec (CellMap.shift n m') h.sorted hnodup hdis
  refine ⟨h1, h2, by rw [h3, CellMap.shift, List.length_map], ?_⟩
  intro e he
  rcases (h2 e).1 he with he | he
  · obtain ⟨ha, hb, hc⟩ := h.entry_spec he
    refine ⟨by omega, ?_⟩
    rw [afterwards, afterwards, if_pos ha, if_pos ha, ← hb, ← hc]
    rfl
  · rw [CellMap.shift, List.mem_map] at he
    obtain ⟨b, hb, rfl⟩ := he
    obtain ⟨ha, hb', hc⟩ := h'.entry_spec hb
    simp only [ofLex_toLex]
    refine ⟨by omega, ?_⟩
    rw [afterwards, afterwards, if_neg (by omega), if_neg (by omega), Nat.add_sub_cancel, ← hb', ← hc]

/-- What one of the maps contains after combining: `min 10 (n + n')` cells with their sizes and events. All cells that were kept
are at most as large as all cells in one of the two collectors that were dropped. -/
structure CellMap.Combined [LinearOrder X] (size : Nat → X) (events : Nat → List Nat) (n : Nat) (m : CellMap X)
    (candidates : List Nat) : Prop where
  entry : ∀ e ∈ m, (ofLex e.1).2 < n ∧ (ofLex e.1).1 = size (ofLex e.1).2 ∧ e.2 = events (ofLex e.1).2
  distinct : (CellMap.numbers m).Nodup
  number : (CellMap.numbers m).length = min nCells n
  smallest : ∀ i ∈ CellMap.numbers m, i ∈ candidates ∧ ∀ j ∈ candidates, j ∉ CellMap.numbers m → size i ≤ size j

theorem CellMap.combined [LinearOrder X] {f g : Nat → X} {ev ev' : Nat → List Nat} {n n' : Nat} {m m' : CellMap X}
    (h : CellMap.Good f ev n m) (h' : CellMap.Good g ev' n' m') :
    CellMap.Combined (afterwards n f g) (afterwards n ev ev') (n + n') (combineMaps n m m')
      (CellMap.numbers m ++ (CellMap.numbers m').map (· + n)) := by
  obtain ⟨h1, h2, h3, h4⟩ := CellMap.union_spec h h'
  rw [combineMaps, truncateMap]
  change CellMap.Combined _ _ _ (List.take nCells (m.extend (CellMap.shift n m'))) _
  generalize hu : m.extend (CellMap.shift n m') = u at h1 h2 h3 h4 ⊢
  have hnod := CellMap.numbers_nodup (size := afterwards n f g) (events := afterwards n ev ev') h1 (fun e he => (h4 e he).2)
  have hsz : ∀ e ∈ u, (ofLex e.1).1 = afterwards n f g (ofLex e.1).2 := fun e he =>
    congrArg (fun e : (X ×ₗ ℕ) × List ℕ => (ofLex e.1).1) (h4 e he).2
  have hcand : ∀ i, i ∈ CellMap.numbers m ++ (CellMap.numbers m').map (· + n) ↔ i ∈ CellMap.numbers u := by
    intro i
    simp only [CellMap.numbers, List.mem_append, List.mem_map, h2]
    constructor
    · rintro (⟨e, he, rfl⟩ | ⟨k, ⟨e, he, rfl⟩, rfl⟩)
      · exact ⟨e, Or.inl he, rfl⟩
      · exact ⟨(toLex ((ofLex e.1).1, (ofLex e.1).2 + n), e.2), Or.inr (List.mem_map.2 ⟨e, he, rfl⟩), rfl⟩
    · rintro ⟨e, he | he, rfl⟩
      · exact Or.inl ⟨e, he, rfl⟩
      · rw [CellMap.shift, List.mem_map] at he
        obtain ⟨b, hb, rfl⟩ := he
        exact Or.inr ⟨(ofLex b.1).2, ⟨b, hb, rfl⟩, rfl⟩
  refine ⟨?_, ?_, ?_, ?_⟩
  · intro e he
    have he' := List.mem_of_mem_take he
    exact ⟨(h4 e he').1, hsz e he', congrArg Prod.snd (h4 e he').2⟩
  · rw [CellMap.numbers, List.map_take]
    exact hnod.sublist (List.take_sublist _ _)
  · have e1 := h.keeps.number
    have e2 := h'.keeps.number
    rw [CellMap.numbers, List.length_map] at e1 e2 ⊢
    rw [List.length_take, h3]
    omega
  · intro i hi
    obtain ⟨e, he, rfl⟩ := CellMap.mem_numbers.1 hi
    have he' := List.mem_of_mem_take he
    refine ⟨(hcand _).2 (CellMap.mem_numbers.2 ⟨e, he', rfl⟩), ?_⟩
    intro j hj hj'
    obtain ⟨b, hb, rfl⟩ := CellMap.mem_numbers.1 ((hcand j).1 hj)
    rw [← List.take_append_drop nCells u, List.mem_append] at hb
    rcases hb with hb | hb
    · exact absurd (CellMap.mem_numbers.2 ⟨b, hb, rfl⟩) hj'
    · have hp := h1
      rw [BMap.Sorted, ← List.take_append_drop nCells u, List.pairwise_append] at hp
      have hle := lex_le_fst (hp.2.2 e he b hb).le
      rwa [hsz e he', hsz b (List.mem_of_mem_drop hb)] at hle

theorem CellMap.Combined.keeps [LinearOrder X] {size : Nat → X} {events : Nat → List Nat} {n : Nat} {m : CellMap X}
    {candidates : List Nat} (h : CellMap.Combined size events n m candidates) (hn : n ≤ nCells) :
    Spec.KeepsLargest nCells n size (CellMap.numbers m) := by
  have hk : ∀ i ∈ CellMap.numbers m, i < n := by
    intro i hi
    obtain ⟨e, he, rfl⟩ := CellMap.mem_numbers.1 hi
    exact (h.entry e he).1
  refine ⟨hk, h.distinct, h.number, ?_⟩
  intro i _ j hj hj'
  exfalso
  have hsub : (CellMap.numbers m).Subperm (List.range n) :=
    List.subperm_of_subset h.distinct (fun i hi => List.mem_range.2 (hk i hi))
  have hperm := hsub.perm_of_length_le (by rw [h.number, List.length_range]; omega)
  exact hj' (hperm.mem_iff.2 (List.mem_range.2 hj))

theorem trySwapRemove_perm {i : Nat} {l l' : List α} (h : trySwapRemove i l = some l') : l'.Perm (l.eraseIdx i) := by
  rw [trySwapRemove] at h
  cases hx : l.getLast? with
  | none => rw [hx] at h; cases h
  | some x =>
    rw [hx] at h
    simp only at h
    split_ifs at h with hi
    cases h
    obtain ⟨init, rfl⟩ := List.getLast?_eq_some_iff.1 hx
    rw [List.length_append, List.length_singleton] at hi
    by_cases hi' : i < init.length
    · rw [List.set_append_left _ _ hi', List.dropLast_concat, List.eraseIdx_append_of_lt_length hi']
      exact (List.set_perm_cons_eraseIdx hi' x).trans (List.perm_append_singleton x _).symm
    · have : i = init.length := by omega
      subst this
      rw [List.set_append_right _ _ (le_refl _), List.eraseIdx_append_of_length_le (le_refl _)]
      simp

theorem shrinkRandom_subperm (idxs : List Nat) : ∀ {l l' : List (Nat × List Nat)}, shrinkRandom idxs l = some l' →
    l'.Subperm l ∧ l'.length = min nCells l.length := by
  induction idxs with
  | nil =>
    intro l l' h
    rw [shrinkRandom] at h
    split_ifs at h with hl
    cases h
    exact ⟨List.Subperm.refl _, by omega⟩
  | cons i idxs ih =>
    intro l l' h
    rw [shrinkRandom] at h
    split_ifs at h with hl
    · cases h
      exact ⟨List.Subperm.refl _, by omega⟩
    · cases hs : trySwapRemove i l with
      | none => rw [hs] at h; cases h
      | some l1 =>
        rw [hs] at h
        obtain ⟨h1, h2⟩ := ih h
        have hp := trySwapRemove_perm hs
        have hi : i < l.length := by
          rw [trySwapRemove] at hs
          cases hx : l.getLast? with
          | none => rw [hx] at hs; cases hs
          | some x =>
            rw [hx] at hs
            simp only at hs
            split_ifs at hs with hi
            exact hi
        refine ⟨h1.trans (hp.subperm.trans (List.eraseIdx_sublist _ _).subperm), ?_⟩
        rw [h2, hp.length_eq, List.length_eraseIdx_of_lt hi]
        omega

theorem shrinkRandom_total (idxs : List Nat) : ∀ {l : List (Nat × List Nat)},
    (∀ k, k + nCells < l.length → ∃ i, idxs[k]? = some i ∧ i + k < l.length) → ∃ l', shrinkRandom idxs l = some l' := by
  induction idxs with
  | nil =>
    intro l h
    rw [shrinkRandom]
    split_ifs with hl
    · exact ⟨l, rfl⟩
    · obtain ⟨i, hi, -⟩ := h 0 (by omega)
      cases hi
  | cons i idxs ih =>
    intro l h
    rw [shrinkRandom]
    split_ifs with hl
    · exact ⟨l, rfl⟩
    · obtain ⟨i', hi', hlt⟩ := h 0 (by omega)
      cases hi'
      rw [Nat.add_zero] at hlt
      have hs : ∃ l1, trySwapRemove i l = some l1 := by
        rw [trySwapRemove]
        cases hx : l.getLast? with
        | none =>
          rw [List.getLast?_eq_none_iff] at hx
          subst hx
          simp at hl
        | some x =>
          simp only
          rw [if_pos hlt]
          exact ⟨_, rfl⟩
      obtain ⟨l1, hs⟩ := hs
      simp only [hs, Option.bind_some]
      apply ih
      intro k hk
      have hlen : l1.length = l.length - 1 := by
        rw [(trySwapRemove_perm hs).length_eq, List.length_eraseIdx_of_lt hlt]
      obtain ⟨i', hi', hlt'⟩ := h (k + 1) (by omega)
      exact ⟨i', by simpa using hi', by omega⟩

/-- Combined are two collectors that have seen `n` and `n'` cells. -/
structure CombineRun [LinearOrder D] [LinearOrder K] (eventId : Nat → Nat) (cell cell' : Nat → Cell D K) (n n' : Nat)
    (s : CellCollector D K) : Prop where
  run : ∃ idx idx' idxs s1 s2, CellCollector.collectAll eventId (cellsSeen cell idx n) CellCollector.new = some s1 ∧
    CellCollector.collectAll eventId (cellsSeen cell' idx' n') CellCollector.new = some s2 ∧
    CellCollector.combine idxs s1 s2 = some s

/-- **C51** as stated: after combining, the largest ten cells of both collectors are kept. The cells seen by the second
collector are counted after those seen by the first one. -/
def C51_claim : Prop :=
  ∀ (eventId : Nat → Nat) (cell cell' : Nat → Cell Nat Int) (n n' : Nat) (s : CellCollector Nat Int),
    CombineRun eventId cell cell' n n' s →
    Spec.KeepsLargest 10 (n + n') (fun i => (afterwards n cell cell' i).radius) (s.byRadius.map fun e => (ofLex e.1).2) ∧
    Spec.KeepsLargest 10 (n + n') (fun i => (afterwards n cell cell' i).members.length)
      (s.byMembers.map fun e => (ofLex e.1).2) ∧
    Spec.KeepsLargest 10 (n + n') (fun i => (afterwards n cell cell' i).weightSum) (s.byWeight.map fun e => (ofLex e.1).2)

/-- A small cell: radius 1, one member, weight 1. -/
def smallCell (i : Nat) : Cell Nat Int := ⟨[i], 1, 1⟩

/-- A large cell: radius 2, two members, weight 2. -/
def largeCell (i : Nat) : Cell Nat Int := ⟨[i, i + 1], 2, 2⟩

/-- Combining a collector with ten small cells with one with a single large cell drops the large one. -/
theorem combine_drops_large :
    ((CellCollector.collectAll id (cellsSeen smallCell id 10) CellCollector.new).bind fun s1 =>
      (CellCollector.collectAll id (cellsSeen largeCell id 1) CellCollector.new).bind fun s2 =>
        (CellCollector.combine [0] s1 s2).map fun s => (s.byRadius.map fun e => (ofLex e.1).2,
          s.byMembers.map fun e => (ofLex e.1).2, s.byWeight.map fun e => (ofLex e.1).2)) =
      some (List.range 10, List.range 10, List.range 10) := by
  decide +kernel

theorem combine_drops_run : ∃ s, CombineRun id smallCell largeCell 10 1 s ∧
    (s.byRadius.map fun e => (ofLex e.1).2) = List.range 10 ∧ (s.byMembers.map fun e => (ofLex e.1).2) = List.range 10 ∧
    (s.byWeight.map fun e => (ofLex e.1).2) = List.range 10 := by
  have h := combine_drops_large
  cases h1 : CellCollector.collectAll id (cellsSeen smallCell id 10) CellCollector.new with
  | none => rw [h1] at h; cases h
  | some s1 =>
    rw [h1, Option.bind_some] at h
    cases h2 : CellCollector.collectAll id (cellsSeen largeCell id 1) CellCollector.new with
    | none => rw [h2] at h; cases h
    | some s2 =>
      rw [h2, Option.bind_some] at h
      cases h3 : CellCollector.combine [0] s1 s2 with
      | none => rw [h3] at h; cases h
      | some s =>
        rw [h3, Option.map_some, Option.some.injEq, Prod.mk.injEq, Prod.mk.injEq] at h
        exact ⟨s, ⟨⟨id, id, [0], s1, s2, h1, h2, h3⟩⟩, h.1, h.2.1, h.2.2⟩

/-- **C51** does not hold for the cells with the largest radius: combining keeps the smallest cells. -/
theorem C51_violated : ¬ C51_claim := by
  intro h
  obtain ⟨s, hs, h1, -, -⟩ := combine_drops_run
  have := (h id smallCell largeCell 10 1 s hs).1.largest 0 (by rw [h1]; decide) 10 (by decide) (by rw [h1]; decide)
  exact absurd this (by decide)

/-- **C51** does not hold for the cells with most members either. -/
theorem C51_members_violated : ¬ ∀ (eventId : Nat → Nat) (cell cell' : Nat → Cell Nat Int) (n n' : Nat) (s : CellCollector Nat Int),
    CombineRun eventId cell cell' n n' s → Spec.KeepsLargest 10 (n + n') (fun i => (afterwards n cell cell' i).members.length)
      (s.byMembers.map fun e => (ofLex e.1).2) := by
  intro h
  obtain ⟨s, hs, -, h1, -⟩ := combine_drops_run
  have := (h id smallCell largeCell 10 1 s hs).largest 0 (by rw [h1]; decide) 10 (by decide) (by rw [h1]; decide)
  exact absurd this (by decide)

/-- **C51** does not hold for the cells with the largest weight either. -/
theorem C51_weight_violated : ¬ ∀ (eventId : Nat → Nat) (cell cell' : Nat → Cell Nat Int) (n n' : Nat) (s : CellCollector Nat Int),
    CombineRun eventId cell cell' n n' s → Spec.KeepsLargest 10 (n + n') (fun i => (afterwards n cell cell' i).weightSum)
      (s.byWeight.map fun e => (ofLex e.1).2) := by
  intro h
  obtain ⟨s, hs, -, -, h1⟩ := combine_drops_run
  have := (h id smallCell largeCell 10 1 s hs).largest 0 (by rw [h1]; decide) 10 (by decide) (by rw [h1]; decide)
  exact absurd this (by decide)

theorem afterwards_apply (n : Nat) (f g : Nat → α) (p : α → X) :
    afterwards n (fun i => p (f i)) (fun i => p (g i)) = fun i => p (afterwards n f g i) := by
  funext i
  rw [afterwards, afterwards]
  split_ifs <;> rfl

/-- **C51**, what holds for all collectors: combining does not panic as long as the random numbers are in the requested range.
The count is the sum of the counts. All stored cells are different, known and come with their events, and there are
`min 10 (n + n')` of them. Nothing is lost, and therefore the largest cells are kept, if there are at most ten cells in total.
In general the *smallest* ones among the cells in both collectors are kept. -/
theorem C51_combine_partial [LinearOrder D] [LinearOrder K] (eventId : Nat → Nat) (cell cell' : Nat → Cell D K)
    (idx idx' : Nat → Nat) (n n' : Nat) {s1 s2 : CellCollector D K}
    (h1 : CellCollector.collectAll eventId (cellsSeen cell idx n) CellCollector.new = some s1)
    (h2 : CellCollector.collectAll eventId (cellsSeen cell' idx' n') CellCollector.new = some s2) :
    (∀ idxs : List Nat, (∀ k, k + 10 < min 10 n + min 10 n' → ∃ i, idxs[k]? = some i ∧ i + k < min 10 n + min 10 n') →
      ∃ s, CellCollector.combine idxs s1 s2 = some s) ∧
    ∀ idxs s, CellCollector.combine idxs s1 s2 = some s →
      s.count = n + n' ∧
      (∀ e ∈ s.allCells, e.1 < n + n' ∧ e.2 = (afterwards n cell cell' e.1).members.map eventId) ∧
      ((s.byRadius.map fun e => (ofLex e.1).2).Nodup ∧ s.byRadius.length = min 10 (n + n')) ∧
      ((s.byMembers.map fun e => (ofLex e.1).2).Nodup ∧ s.byMembers.length = min 10 (n + n')) ∧
      ((s.byWeight.map fun e => (ofLex e.1).2).Nodup ∧ s.byWeight.length = min 10 (n + n')) ∧
      ((s.random.map Prod.fst).Nodup ∧ s.random.length = min 10 (n + n')) ∧
      (∀ i ∈ s.byRadius.map (fun e => (ofLex e.1).2), ∀ j ∈ s1.byRadius.map (fun e => (ofLex e.1).2) ++
        (s2.byRadius.map fun e => (ofLex e.1).2).map (· + n), j ∉ s.byRadius.map (fun e => (ofLex e.1).2) →
          (afterwards n cell cell' i).radius ≤ (afterwards n cell cell' j).radius) ∧
      (n + n' ≤ 10 →
        Spec.KeepsLargest 10 (n + n') (fun i => (afterwards n cell cell' i).radius) (s.byRadius.map fun e => (ofLex e.1).2) ∧
        Spec.KeepsLargest 10 (n + n') (fun i => (afterwards n cell cell' i).members.length)
          (s.byMembers.map fun e => (ofLex e.1).2) ∧
        Spec.KeepsLargest 10 (n + n') (fun i => (afterwards n cell cell' i).weightSum)
          (s.byWeight.map fun e => (ofLex e.1).2)) := by
  obtain ⟨s1', hs1, g1⟩ := collectAll_seen eventId cell idx n
  rw [h1] at hs1
  cases hs1
  obtain ⟨s2', hs2, g2⟩ := collectAll_seen eventId cell' idx' n'
  rw [h2] at hs2
  cases hs2
  have hlen : (s1.random ++ s2.random.map fun e => (e.1 + s1.count, e.2)).length = min nCells n + min nCells n' := by
    rw [List.length_append, List.length_map, g1.randomLength, g2.randomLength]
  refine ⟨?_, ?_⟩
  · intro idxs hidx
    obtain ⟨l, hl⟩ := shrinkRandom_total idxs (l := s1.random ++ s2.random.map fun e => (e.1 + s1.count, e.2)) (by
      intro k hk
      rw [hlen] at hk ⊢
      exact hidx k hk)
    rw [CellCollector.combine, hl]
    exact ⟨_, rfl⟩
  · intro idxs s hs
    rw [CellCollector.combine, g1.count] at hs
    rw [g1.count] at hlen
    cases hr : shrinkRandom idxs (s1.random ++ s2.random.map fun e => (e.1 + n, e.2)) with
    | none => rw [hr] at hs; cases hs
    | some l =>
      rw [hr, Option.map_some, Option.some.injEq] at hs
      subst hs
      obtain ⟨hsub, hll⟩ := shrinkRandom_subperm idxs hr
      have c1 := CellMap.combined g1.radius g2.radius
      have c2 := CellMap.combined g1.members g2.members
      have c3 := CellMap.combined g1.weight g2.weight
      rw [afterwards_apply n cell cell' (fun c => c.radius)] at c1
      rw [afterwards_apply n cell cell' (fun c => c.members.length)] at c2
      rw [afterwards_apply n cell cell' (fun c => c.weightSum)] at c3
      have hev : afterwards n (cellEvents eventId cell) (cellEvents eventId cell') =
          fun i => (afterwards n cell cell' i).members.map eventId :=
        afterwards_apply n cell cell' (fun c => c.members.map eventId)
      rw [hev] at c1 c2 c3
      have hrand : ∀ e ∈ s1.random ++ s2.random.map (fun e => (e.1 + n, e.2)),
          e.1 < n + n' ∧ e.2 = (afterwards n cell cell' e.1).members.map eventId := by
        intro e he
        rcases List.mem_append.1 he with he | he
        · obtain ⟨ha, hb⟩ := g1.randomEntry e he
          exact ⟨by omega, by rw [hb, afterwards, if_pos ha]; rfl⟩
        · obtain ⟨b, hb, rfl⟩ := List.mem_map.1 he
          obtain ⟨ha, hb⟩ := g2.randomEntry b hb
          refine ⟨by simp only; omega, ?_⟩
          simp only
          rw [hb, afterwards, if_neg (by omega), Nat.add_sub_cancel]
          rfl
      have hnod : ((s1.random ++ s2.random.map fun e => (e.1 + n, e.2)).map Prod.fst).Nodup := by
        rw [List.map_append, List.nodup_append, List.map_map]
        refine ⟨g1.randomNodup, ?_, ?_⟩
        · have := g2.randomNodup.map (f := fun i => i + n) (fun a b hab => by simpa using hab)
          rw [List.map_map] at this
          exact this
        · intro a ha b hb hab
          obtain ⟨e, he, rfl⟩ := List.mem_map.1 ha
          obtain ⟨e', he', rfl⟩ := List.mem_map.1 hb
          have := (g1.randomEntry e he).1
          simp only [Function.comp] at hab
          omega
      have n1 := c1.number
      have n2 := c2.number
      have n3 := c3.number
      rw [CellMap.numbers, List.length_map] at n1 n2 n3
      refine ⟨by simp only [g2.count], ?_, ⟨c1.distinct, n1⟩, ⟨c2.distinct, n2⟩, ⟨c3.distinct, n3⟩, ⟨?_, ?_⟩, ?_, ?_⟩
      · intro e he
        simp only [CellCollector.allCells, List.mem_append, List.mem_map] at he
        rcases he with (((he | he) | ⟨a, ha, rfl⟩) | ⟨a, ha, rfl⟩) | ⟨a, ha, rfl⟩
        · rw [g1.first, List.mem_map] at he
          obtain ⟨i, hi, rfl⟩ := he
          rw [List.mem_range] at hi
          refine ⟨by simp only; omega, ?_⟩
          simp only
          rw [afterwards, if_pos (by omega)]
          rfl
        · exact hrand e (hsub.subset he)
        · exact ⟨(c1.entry a ha).1, (c1.entry a ha).2.2⟩
        · exact ⟨(c2.entry a ha).1, (c2.entry a ha).2.2⟩
        · exact ⟨(c3.entry a ha).1, (c3.entry a ha).2.2⟩
      · obtain ⟨l2, hp, hsl⟩ := hsub
        exact (hp.map Prod.fst).nodup_iff.1 (hnod.sublist (hsl.map Prod.fst))
      · simp only
        rw [hll, hlen]
        change min 10 (min 10 n + min 10 n') = _
        omega
      · intro i hi j hj hj'
        exact (c1.smallest i hi).2 j hj hj'
      · intro hn
        exact ⟨c1.keeps hn, c2.keeps hn, c3.keeps hn⟩

/-- Two collectors with six and four cells. -/
example : ∃ s1 s2 : CellCollector Nat Int,
    CellCollector.collectAll id (cellsSeen smallCell id 6) CellCollector.new = some s1 ∧
    CellCollector.collectAll id (cellsSeen largeCell id 4) CellCollector.new = some s2 := by
  obtain ⟨s1, h1, -⟩ := collectAll_seen (id : Nat → Nat) smallCell id 6
  obtain ⟨s2, h2, -⟩ := collectAll_seen (id : Nat → Nat) largeCell id 4
  exact ⟨s1, s2, h1, h2⟩

/-! ### C52 -/

theorem observe_foldl [Zero K] [LT K] [DecidableLT K] (cells : List (Cell D K)) (d : ObserverData D) :
    cells.foldl (fun d c => d.observe c) d =
      ⟨d.radii ++ cells.map (fun c => c.radius), d.nneg + cells.countP (fun c => c.weightSum < 0)⟩ := by
  induction cells generalizing d with
  | nil => simp
  | cons c cells ih =>
    rw [List.foldl_cons, ih, ObserverData.observe]
    simp only [List.append_assoc, List.map_cons, List.singleton_append, List.countP_cons, ObserverData.mk.injEq, true_and,
      decide_eq_true_eq]
    split_ifs <;> omega

theorem combine_foldl (ds : List (ObserverData D)) (d : ObserverData D) :
    ds.foldl ObserverData.combine d = ⟨d.radii ++ (ds.map fun e => e.radii).flatten, d.nneg + (ds.map fun e => e.nneg).sum⟩ := by
  induction ds generalizing d with
  | nil => simp
  | cons e ds ih =>
    rw [List.foldl_cons, ih, ObserverData.combine]
    simp [Nat.add_assoc]

theorem finishObserver_eq [LinearOrder D] [Zero K] [LT K] [DecidableLT K] (threads : List (List (Cell D K))) (hne : threads ≠ []) :
    finishObserver ⟨[], 0⟩ threads = (medianRadius (threads.flatten.map fun c => c.radius)).map fun m =>
      some (threads.flatten.length, threads.flatten.countP (fun c => c.weightSum < 0), m) := by
  cases threads with
  | nil => exact absurd rfl hne
  | cons t ts =>
    rw [finishObserver]
    simp only [List.map_cons, combine_foldl, observe_foldl, List.nil_append, Nat.zero_add, List.map_map, Function.comp_def]
    have h1 : t.map (fun c => c.radius) ++ (ts.map fun cells => cells.map fun c => c.radius).flatten =
        (t :: ts).flatten.map fun c => c.radius := by
      simp [List.map_flatten]
    have h2 : t.countP (fun c => decide (c.weightSum < 0)) + (ts.map fun cells => cells.countP fun c => decide (c.weightSum < 0)).sum =
        (t :: ts).flatten.countP fun c => decide (c.weightSum < 0) := by
      simp [List.countP_flatten]
    rw [h1, h2, List.length_map]

theorem medianRadius_spec [LinearOrder D] {radii : List D} {m : D} : medianRadius radii = some m ↔ Spec.IsMedian radii m := by
  constructor
  · intro h
    exact ⟨_, List.perm_insertionSort _ _, List.pairwise_insertionSort (· ≤ ·) radii, h⟩
  · rintro ⟨ys, hp, hs, hm⟩
    rw [medianRadius]
    have : radii.insertionSort (· ≤ ·) = ys :=
      ((List.perm_insertionSort _ _).trans hp.symm).eq_of_pairwise (fun a b _ _ h1 h2 => le_antisymm h1 h2)
        (List.pairwise_insertionSort (· ≤ ·) radii) hs
    rw [this]
    exact hm

theorem medianRadius_exists [LinearOrder D] {radii : List D} (h : radii ≠ []) : ∃ m, medianRadius radii = some m := by
  rw [medianRadius]
  have : radii.length / 2 < (radii.insertionSort (· ≤ ·)).length := by
    rw [List.length_insertionSort]
    have := List.length_pos_iff.2 h
    omega
  exact ⟨_, List.getElem?_eq_getElem this⟩

/-- **C52**: however the cells are distributed over threads, and in whichever order the data of the threads are combined, the
number of cells, the number of cells with negative weight and the median radius of all cells are reported. Data exist for
threads that have observed a cell. Without cells nothing is reported. There is no panic. -/
theorem C52_statistics [LinearOrder D] [Zero K] [LT K] [DecidableLT K] (cells : List (Cell D K)) (threads : List (List (Cell D K)))
    (hp : threads.flatten.Perm cells) (hne : ∀ t ∈ threads, t ≠ []) :
    (cells = [] → finishObserver ⟨[], 0⟩ threads = some none) ∧
    (cells ≠ [] → ∃ m, Spec.IsMedian (cells.map fun c => c.radius) m ∧ finishObserver ⟨[], 0⟩ threads =
      some (some (cells.length, cells.countP (fun c => c.weightSum < 0), m))) := by
  constructor
  · rintro rfl
    cases threads with
    | nil => rfl
    | cons t ts =>
      have := hp.eq_nil
      rw [List.flatten_cons, List.append_eq_nil_iff] at this
      exact absurd this.1 (hne t (by simp))
  · intro hc
    have hth : threads ≠ [] := by
      rintro rfl
      exact hc (List.Perm.nil_eq hp).symm
    rw [finishObserver_eq threads hth]
    have hpr := hp.map fun c => c.radius
    obtain ⟨m, hm⟩ := medianRadius_exists (radii := cells.map fun c => c.radius) (by simpa using hc)
    obtain ⟨ys, hy, hs, hm'⟩ := medianRadius_spec.1 hm
    have hm2 : medianRadius (threads.flatten.map fun c => c.radius) = some m := by
      refine medianRadius_spec.2 ⟨ys, hy.trans hpr.symm, hs, ?_⟩
      rw [hpr.length_eq]
      exact hm'
    refine ⟨m, medianRadius_spec.1 hm, ?_⟩
    rw [hm2, Option.map_some, hp.length_eq, hp.countP_eq]

/-- **C52**, stated for two distributions of the same cells. -/
theorem C52_independent [LinearOrder D] [Zero K] [LT K] [DecidableLT K] (threads threads' : List (List (Cell D K)))
    (hp : threads.flatten.Perm threads'.flatten) (hne : ∀ t ∈ threads, t ≠ []) (hne' : ∀ t ∈ threads', t ≠ []) :
    finishObserver ⟨[], 0⟩ threads = finishObserver ⟨[], 0⟩ threads' := by
  obtain ⟨h1, h2⟩ := C52_statistics threads'.flatten threads hp hne
  obtain ⟨h3, h4⟩ := C52_statistics threads'.flatten threads' (List.Perm.refl _) hne'
  by_cases hc : threads'.flatten = []
  · rw [h1 hc, h3 hc]
  · obtain ⟨m, hm, e⟩ := h2 hc
    obtain ⟨m', hm', e'⟩ := h4 hc
    have : m = m' := by
      have a := medianRadius_spec.2 hm
      rw [medianRadius_spec.2 hm'] at a
      exact (Option.some.inj a).symm
    rw [e, e', this]

/-- Three cells, one of them with negative weight, observed by two threads. -/
example : finishObserver (D := Nat) (K := Int) ⟨[], 0⟩ [[⟨[0], 5, 1⟩, ⟨[1, 2], 1, -1⟩], [⟨[3], 2, 0⟩]] = some (some (3, 1, 2)) := by
  decide +kernel

/-! ### C53 -/

theorem push_foldl (events : List Nat) (c : Nat) (m : NatMap) (e : Nat) :
    (events.foldl (fun result eventId => result.push eventId c) m) e = m e ++ List.replicate (events.count e) c := by
  induction events generalizing m with
  | nil => simp
  | cons a events ih =>
    rw [List.foldl_cons, ih, NatMap.push, List.count_cons]
    by_cases h : a = e
    · subst h
      simp [Function.update_self, List.replicate_succ]
    · rw [Function.update_of_ne (Ne.symm h)]
      simp [h]

theorem eventCells_foldl (cells : List (Nat × List Nat)) (m : NatMap) (e : Nat) :
    (cells.foldl (fun result c => c.2.foldl (fun (result : NatMap) eventId => result.push eventId c.1) result) m) e =
      m e ++ cells.flatMap fun c => List.replicate (c.2.count e) c.1 := by
  induction cells generalizing m with
  | nil => simp
  | cons c cells ih =>
    rw [List.foldl_cons, ih, push_foldl]
    simp

/-- **C53** as stated: the keys are the numbers of the stored cells, and the value for a cell contains the identifiers of its
events. -/
def C53_claim : Prop :=
  ∀ (s : CellCollector Nat Int) (number id : Nat), id ∈ s.eventCells number ↔ ∃ c ∈ s.allCells, c.1 = number ∧ id ∈ c.2

/-- **C53** does not hold: with a single cell that contains the event 7, the only key is 7. -/
theorem C53_violated : ¬ C53_claim := by
  intro h
  have := (h ⟨[(0, [7])], [], [], [], [], 1⟩ 7 0).1 (by decide)
  revert this
  decide

/-- **C53**, what holds instead: the keys are the identifiers of the events in a stored cell, and the value for an event
contains the numbers of the stored cells it is in (as often as it occurs in the stored cells). -/
theorem C53_event_cells_partial (s : CellCollector D K) (event : Nat) :
    s.eventCells event = (s.allCells.flatMap fun c => List.replicate (c.2.count event) c.1) ∧
    (∀ number, number ∈ s.eventCells event ↔ ∃ c ∈ s.allCells, c.1 = number ∧ event ∈ c.2) ∧
    (s.eventCells event ≠ [] ↔ ∃ c ∈ s.allCells, event ∈ c.2) := by
  have h : s.eventCells event = s.allCells.flatMap fun c => List.replicate (c.2.count event) c.1 := by
    rw [CellCollector.eventCells, eventCells_foldl]
    rfl
  have hmem : ∀ number, number ∈ s.eventCells event ↔ ∃ c ∈ s.allCells, c.1 = number ∧ event ∈ c.2 := by
    intro number
    rw [h, List.mem_flatMap]
    constructor
    · rintro ⟨c, hc, hn⟩
      rw [List.mem_replicate] at hn
      exact ⟨c, hc, hn.2.symm, List.count_pos_iff.1 (Nat.pos_of_ne_zero hn.1)⟩
    · rintro ⟨c, hc, rfl, he⟩
      exact ⟨c, hc, List.mem_replicate.2 ⟨(List.count_pos_iff.2 he).ne', rfl⟩⟩
  refine ⟨h, hmem, ?_⟩
  constructor
  · intro hne
    obtain ⟨n, hn⟩ := List.exists_mem_of_ne_nil _ hne
    obtain ⟨c, hc, -, he⟩ := (hmem n).1 hn
    exact ⟨c, hc, he⟩
  · rintro ⟨c, hc, he⟩
    exact List.ne_nil_of_mem ((hmem c.1).2 ⟨c, hc, rfl, he⟩)

/-- A collector that has seen two cells with a common event. -/
example : ((CellCollector.collectAll id (cellsSeen largeCell id 2) CellCollector.new).map fun s => s.eventCells 1) =
    some [0, 1, 0, 1, 0, 1, 0, 1, 0, 1] := by
  decide +kernel

end Cres

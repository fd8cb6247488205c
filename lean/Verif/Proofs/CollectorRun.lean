import Verif.Model.CollectorRun
import Verif.Spec.CollectorRun
import Verif.Props.CombineCells

/-!
What a cell collector contains after any sequence of resamplings (C105).
-/

namespace Cres

variable {κ α X D K : Type*}

/-- Cells together with the identifiers of their events, in the order in which they are counted. -/
abbrev KnownCells (D K : Type*) := List (Cell D K × List Nat)

/-! ### One of the maps -/

/-- The entries of a map are cells in the list `known` with their numbers, sizes and events. -/
structure CellMap.Holds [LinearOrder X] (size : Cell D K → X) (known : KnownCells D K) (m : CellMap X) : Prop where
  sorted : BMap.Sorted m
  entry : ∀ e ∈ m, ∃ c, known[(ofLex e.1).2]? = some (c, e.2) ∧ size c = (ofLex e.1).1
  number : m.length = min nCells known.length

theorem CellMap.Holds.lt [LinearOrder X] {size : Cell D K → X} {known : KnownCells D K} {m : CellMap X}
    (h : CellMap.Holds size known m) {e} (he : e ∈ m) : (ofLex e.1).2 < known.length := by
  obtain ⟨c, hc, -⟩ := h.entry e he
  exact (List.getElem?_eq_some_iff.1 hc).1

theorem CellMap.Holds.nodup [LinearOrder X] {size : Cell D K → X} {known : KnownCells D K} {m : CellMap X}
    (h : CellMap.Holds size known m) : (CellMap.numbers m).Nodup := by
  rw [CellMap.numbers, List.Nodup, List.pairwise_map]
  refine h.sorted.imp_of_mem ?_
  intro a b ha hb hab heq
  obtain ⟨c, hc, hs⟩ := h.entry a ha
  obtain ⟨c', hc', hs'⟩ := h.entry b hb
  rw [heq, hc', Option.some.injEq, Prod.mk.injEq] at hc
  rw [hc.1] at hs'
  have : ofLex a.1 = ofLex b.1 := Prod.ext (hs.symm.trans hs') heq
  exact absurd (ofLex.injective this) (ne_of_lt hab)

theorem CellMap.holds_empty [LinearOrder X] (size : Cell D K → X) : CellMap.Holds size [] ([] : CellMap X) :=
  ⟨List.Pairwise.nil, by simp, by simp⟩

theorem getElem?_append_some {l l' : List α} {i : Nat} {a : α} (h : l[i]? = some a) : (l ++ l')[i]? = some a := by
  rw [List.getElem?_append_left (List.getElem?_eq_some_iff.1 h).1]
  exact h

theorem CellMap.holds_insert [LinearOrder X] {size : Cell D K → X} {known : KnownCells D K} {m : CellMap X}
    (hs : BMap.Sorted m)
    (he : ∀ e ∈ m, ∃ c, known[(ofLex e.1).2]? = some (c, e.2) ∧ size c = (ofLex e.1).1)
    (hn : m.length + 1 = min nCells (known.length + 1)) (c : Cell D K) (ev : List Nat) :
    CellMap.Holds size (known ++ [(c, ev)]) (BMap.insert (toLex (size c, known.length)) ev m) := by
  refine ⟨BMap.sorted_insert hs, ?_, ?_⟩
  · intro e hmem
    rcases (BMap.mem_insert hs).1 hmem with rfl | hmem
    · refine ⟨c, ?_, rfl⟩
      simp only [ofLex_toLex]
      rw [List.getElem?_append_right (le_refl _)]
      simp
    · obtain ⟨c', h1, h2⟩ := he e hmem.1
      exact ⟨c', getElem?_append_some h1, h2⟩
  · rw [BMap.length_insert, List.length_append, List.length_singleton, hn]
    intro e hmem heq
    obtain ⟨c', h1, -⟩ := he e hmem
    rw [heq] at h1
    simp only [ofLex_toLex] at h1
    exact absurd (List.getElem?_eq_some_iff.1 h1).1 (lt_irrefl _)

theorem CellMap.holds_replace [LinearOrder X] {size : Cell D K → X} {known : KnownCells D K} {m : CellMap X}
    (h : CellMap.Holds size known m) (hn : nCells ≤ known.length) (c : Cell D K) (ev : List Nat) :
    ∃ m', replaceSmallest (size c) known.length ev m = some m' ∧ CellMap.Holds size (known ++ [(c, ev)]) m' := by
  have hnum := h.number
  cases m with
  | nil =>
    rw [min_eq_left hn] at hnum
    rw [List.length_nil, nCells] at hnum
    omega
  | cons a m =>
    obtain ⟨k, v⟩ := a
    rw [replaceSmallest]
    have hs := h.sorted
    rw [BMap.Sorted, List.pairwise_cons] at hs
    split_ifs with hlt
    · refine ⟨_, rfl, ?_⟩
      rw [BMap.remove_head h.sorted]
      refine CellMap.holds_insert hs.2 (fun e he => h.entry e (by simp [he])) ?_ c ev
      rw [List.length_cons] at hnum
      omega
    · refine ⟨_, rfl, h.sorted, ?_, ?_⟩
      · intro e he
        obtain ⟨c', h1, h2⟩ := h.entry e he
        exact ⟨c', getElem?_append_some h1, h2⟩
      · rw [hnum, List.length_append, List.length_singleton]
        omega

theorem CellMap.holds_combine [LinearOrder X] {size : Cell D K → X} {known known' : KnownCells D K} {m m' : CellMap X}
    (h : CellMap.Holds size known m) (h' : CellMap.Holds size known' m') :
    CellMap.Holds size (known ++ known') (combineMaps known.length m m') := by
  have hnodup : ((CellMap.shift known.length m').map Prod.fst).Nodup := by
    have := h'.nodup
    rw [CellMap.shift, List.map_map]
    rw [CellMap.numbers] at this
    have h2 : (List.map (fun i => i + known.length) (m'.map fun e => (ofLex e.1).2)).Nodup :=
      this.map (fun a b hab => by simpa using hab)
    rw [List.map_map] at h2
    refine List.Nodup.of_map (fun k : X ×ₗ ℕ => (ofLex k).2) ?_
    rw [List.map_map]
    exact h2
  have hdis : ∀ e ∈ m, ∀ e' ∈ CellMap.shift known.length m', e.1 ≠ e'.1 := by
    intro e he e' he' heq
    rw [CellMap.shift, List.mem_map] at he'
    obtain ⟨b, hb, rfl⟩ := he'
    have h1 := h.lt he
    rw [heq] at h1
    simp only [ofLex_toLex] at h1
    omega
  obtain ⟨h1, h2, h3⟩ := BMap.extend_spec (CellMap.shift known.length m') h.sorted hnodup hdis
  rw [combineMaps, truncateMap]
  change CellMap.Holds _ _ (List.take nCells (m.extend (CellMap.shift known.length m')))
  refine ⟨h1.sublist (List.take_sublist _ _), ?_, ?_⟩
  · intro e he
    rcases (h2 e).1 (List.mem_of_mem_take he) with he | he
    · obtain ⟨c, hc, hs⟩ := h.entry e he
      exact ⟨c, getElem?_append_some hc, hs⟩
    · rw [CellMap.shift, List.mem_map] at he
      obtain ⟨b, hb, rfl⟩ := he
      obtain ⟨c, hc, hs⟩ := h'.entry b hb
      refine ⟨c, ?_, hs⟩
      simp only [ofLex_toLex]
      rw [List.getElem?_append_right (by omega), Nat.add_sub_cancel]
      exact hc
  · have e1 := h.number
    have e2 := h'.number
    rw [List.length_take, h3, CellMap.shift, List.length_map, List.length_append]
    omega

theorem CellMap.Holds.selection [LinearOrder X] {size : Cell D K → X} {known : KnownCells D K} {m : CellMap X}
    (h : CellMap.Holds size known m) :
    Spec.Selection 10 (known.map Prod.snd) (m.map fun e => ((ofLex e.1).2, e.2)) := by
  refine ⟨?_, ?_, ?_⟩
  · intro e he
    obtain ⟨a, ha, rfl⟩ := List.mem_map.1 he
    obtain ⟨c, hc, -⟩ := h.entry a ha
    simp [hc]
  · rw [List.map_map]
    exact h.nodup
  · rw [List.length_map, List.length_map, h.number]
    rfl

theorem CellMap.Holds.size_eq [LinearOrder X] {size : Cell D K → X} {cells : List (Cell D K × Nat)} {ev : Cell D K → List Nat}
    {m : CellMap X} (h : CellMap.Holds size (cells.map fun c => (c.1, ev c.1)) m) :
    ∀ e ∈ m, (cells[(ofLex e.1).2]?.map fun c => size c.1) = some (ofLex e.1).1 := by
  intro e he
  obtain ⟨c, hc, hs⟩ := h.entry e he
  rw [List.getElem?_map, Option.map_eq_some_iff] at hc
  obtain ⟨c', hc', heq⟩ := hc
  rw [hc', Option.map_some, ← hs, ← (Prod.mk.inj heq).1]

/-! ### The collector -/

/-- What a collector contains that has counted the cells in `known`. -/
structure CellCollector.Knows [LinearOrder D] [LinearOrder K] (known : KnownCells D K) (s : CellCollector D K) : Prop where
  count : s.count = known.length
  first : ∀ e ∈ s.first, ∃ c, known[e.1]? = some (c, e.2)
  random : ∀ e ∈ s.random, ∃ c, known[e.1]? = some (c, e.2)
  randomNodup : (s.random.map Prod.fst).Nodup
  randomLength : s.random.length = min nCells known.length
  radius : CellMap.Holds (fun c => c.radius) known s.byRadius
  members : CellMap.Holds (fun c => c.members.length) known s.byMembers
  weight : CellMap.Holds (fun c => c.weightSum) known s.byWeight

variable [LinearOrder D] [LinearOrder K]

theorem new_knows : (CellCollector.new : CellCollector D K).Knows [] :=
  ⟨rfl, by simp [CellCollector.new], by simp [CellCollector.new], by simp [CellCollector.new], rfl, CellMap.holds_empty _,
    CellMap.holds_empty _, CellMap.holds_empty _⟩

theorem collect_knows {eventId : Nat → Nat} {known : KnownCells D K} {s : CellCollector D K} (h : s.Knows known)
    (c : Cell D K) (idx : Nat) :
    ∃ s', s.collect eventId c idx = some s' ∧ s'.Knows (known ++ [(c, c.members.map eventId)]) := by
  have hold : ∀ {l : List (Nat × List Nat)}, (∀ e ∈ l, ∃ c, known[e.1]? = some (c, e.2)) →
      ∀ e ∈ l, ∃ c', (known ++ [(c, c.members.map eventId)])[e.1]? = some (c', e.2) := by
    intro l hl e he
    obtain ⟨c', hc'⟩ := hl e he
    exact ⟨c', getElem?_append_some hc'⟩
  have hnew : ∃ c', (known ++ [(c, c.members.map eventId)])[known.length]? = some (c', c.members.map eventId) := by
    refine ⟨c, ?_⟩
    rw [List.getElem?_append_right (le_refl _)]
    simp
  have hlt : ∀ e ∈ s.random, e.1 < known.length := by
    intro e he
    obtain ⟨c', hc'⟩ := h.random e he
    exact (List.getElem?_eq_some_iff.1 hc').1
  have hl1 : (known ++ [(c, c.members.map eventId)]).length = known.length + 1 := by simp
  rw [CellCollector.collect]
  by_cases hn : known.length < nCells
  · rw [if_pos (by rw [h.count]; exact hn)]
    refine ⟨_, rfl, ?_⟩
    simp only [h.count]
    refine ⟨hl1.symm, ?_, ?_, ?_, ?_, ?_, ?_, ?_⟩
    · intro e he
      rcases List.mem_append.1 he with he | he
      · exact hold h.first e he
      · rw [List.mem_singleton] at he
        subst he
        exact hnew
    · intro e he
      rcases List.mem_append.1 he with he | he
      · exact hold h.random e he
      · rw [List.mem_singleton] at he
        subst he
        exact hnew
    · simp only [List.map_append]
      rw [List.nodup_append]
      refine ⟨h.randomNodup, by simp, ?_⟩
      intro a ha b hb hab
      obtain ⟨e, he, rfl⟩ := List.mem_map.1 ha
      have := hlt e he
      simp only [List.map_cons, List.map_nil, List.mem_singleton] at hb
      omega
    · rw [hl1, List.length_append, List.length_singleton, h.randomLength]
      omega
    · refine CellMap.holds_insert h.radius.sorted h.radius.entry ?_ c _
      rw [h.radius.number]; omega
    · refine CellMap.holds_insert (size := fun c : Cell D K => c.members.length) h.members.sorted h.members.entry ?_ c _
      rw [h.members.number]; omega
    · refine CellMap.holds_insert h.weight.sorted h.weight.entry ?_ c _
      rw [h.weight.number]; omega
  · have hn' := not_lt.1 hn
    rw [if_neg (by rw [h.count]; exact hn)]
    obtain ⟨m1, e1, h1⟩ := CellMap.holds_replace h.radius hn' c (c.members.map eventId)
    obtain ⟨m2, e2, h2⟩ := CellMap.holds_replace h.members hn' c (c.members.map eventId)
    obtain ⟨m3, e3, h3⟩ := CellMap.holds_replace h.weight hn' c (c.members.map eventId)
    rw [h.count, e1, e2, e3]
    refine ⟨_, rfl, ?_⟩
    refine ⟨hl1.symm, hold h.first, ?_, ?_, ?_, h1, h2, h3⟩
    · intro e he
      simp only at he
      split_ifs at he with hi
      · rcases List.mem_or_eq_of_mem_set he with he | rfl
        · exact hold h.random e he
        · exact hnew
      · exact hold h.random e he
    · simp only
      split_ifs with hi
      · exact nodup_set h.randomNodup hlt
      · exact h.randomNodup
    · simp only
      split_ifs <;> simp only [List.length_set, h.randomLength, hl1] <;> omega

/-- The cells of a thread with the identifiers of their events. -/
def withEvents (eventId : Nat → Nat) (cells : List (Cell D K × Nat)) : KnownCells D K :=
  cells.map fun c => (c.1, c.1.members.map eventId)

theorem collectAll_knows (eventId : Nat → Nat) (cells : List (Cell D K × Nat)) {known : KnownCells D K} {s : CellCollector D K}
    (h : s.Knows known) :
    ∃ s', CellCollector.collectAll eventId cells s = some s' ∧ s'.Knows (known ++ withEvents eventId cells) := by
  induction cells generalizing s known with
  | nil => exact ⟨s, rfl, by simpa [withEvents] using h⟩
  | cons a cells ih =>
    obtain ⟨c, i⟩ := a
    obtain ⟨s', hs', h'⟩ := collect_knows (eventId := eventId) h c i
    obtain ⟨s2, hs2, h2⟩ := ih h'
    refine ⟨s2, ?_, ?_⟩
    · rw [CellCollector.collectAll, hs', Option.bind_some]
      exact hs2
    · simpa [withEvents] using h2

theorem combine_knows {known known' : KnownCells D K} {s s' : CellCollector D K} (h : s.Knows known) (h' : s'.Knows known') :
    (∀ idxs : List Nat, (∀ k, k + 10 < min 10 known.length + min 10 known'.length →
      ∃ i, idxs[k]? = some i ∧ i + k < min 10 known.length + min 10 known'.length) → ∃ r, s.combine idxs s' = some r) ∧
    ∀ idxs r, s.combine idxs s' = some r → r.Knows (known ++ known') ∧ r.first = s.first := by
  have hlen : (s.random ++ s'.random.map fun e => (e.1 + s.count, e.2)).length =
      min nCells known.length + min nCells known'.length := by
    rw [List.length_append, List.length_map, h.randomLength, h'.randomLength]
  refine ⟨?_, ?_⟩
  · intro idxs hidx
    obtain ⟨l, hl⟩ := shrinkRandom_total idxs (l := s.random ++ s'.random.map fun e => (e.1 + s.count, e.2)) (by
      intro k hk
      rw [hlen] at hk ⊢
      exact hidx k hk)
    rw [CellCollector.combine, hl]
    exact ⟨_, rfl⟩
  · intro idxs r hr
    rw [CellCollector.combine, h.count] at hr
    rw [h.count] at hlen
    cases hr' : shrinkRandom idxs (s.random ++ s'.random.map fun e => (e.1 + known.length, e.2)) with
    | none => rw [hr'] at hr; cases hr
    | some l =>
      rw [hr', Option.map_some, Option.some.injEq] at hr
      subst hr
      obtain ⟨hsub, hll⟩ := shrinkRandom_subperm idxs hr'
      have hlt : ∀ e ∈ s.random, e.1 < known.length := by
        intro e he
        obtain ⟨c', hc'⟩ := h.random e he
        exact (List.getElem?_eq_some_iff.1 hc').1
      refine ⟨⟨?_, ?_, ?_, ?_, ?_, CellMap.holds_combine h.radius h'.radius, CellMap.holds_combine h.members h'.members,
        CellMap.holds_combine h.weight h'.weight⟩, rfl⟩
      · simp [h'.count]
      · intro e he
        obtain ⟨c, hc⟩ := h.first e he
        exact ⟨c, getElem?_append_some hc⟩
      · intro e he
        rcases List.mem_append.1 (hsub.subset he) with he | he
        · obtain ⟨c, hc⟩ := h.random e he
          exact ⟨c, getElem?_append_some hc⟩
        · obtain ⟨b, hb, rfl⟩ := List.mem_map.1 he
          obtain ⟨c, hc⟩ := h'.random b hb
          refine ⟨c, ?_⟩
          simp only
          rw [List.getElem?_append_right (by omega), Nat.add_sub_cancel]
          exact hc
      · have hnod : ((s.random ++ s'.random.map fun e => (e.1 + known.length, e.2)).map Prod.fst).Nodup := by
          rw [List.map_append, List.nodup_append, List.map_map]
          refine ⟨h.randomNodup, ?_, ?_⟩
          · have := h'.randomNodup.map (f := fun i => i + known.length) (fun a b hab => by simpa using hab)
            rw [List.map_map] at this
            exact this
          · intro a ha b hb hab
            obtain ⟨e, he, rfl⟩ := List.mem_map.1 ha
            obtain ⟨e', he', rfl⟩ := List.mem_map.1 hb
            have := hlt e he
            simp only [Function.comp] at hab
            omega
        obtain ⟨l2, hp, hsl⟩ := hsub
        exact (hp.map Prod.fst).nodup_iff.1 (hnod.sublist (hsl.map Prod.fst))
      · simp only
        rw [hll, hlen, List.length_append]
        omega

/-! ### All threads -/

/-- The random numbers drawn when the collectors of threads are combined are in the requested range. Before, `n` cells have been
counted. The threads start with `n₀` cells. -/
def DrawsInRange (n₀ : Nat) : Nat → List (CollectingThread D K) → Prop
  | _, [] => True
  | n, t :: ts =>
    (∀ k, k + 10 < min 10 n + min 10 (n₀ + t.cells.length) →
      ∃ i, t.draws[k]? = some i ∧ i + k < min 10 n + min 10 (n₀ + t.cells.length)) ∧
    DrawsInRange n₀ (n + (n₀ + t.cells.length)) ts

theorem joins_knows (eventId : Nat → Nat) {known : KnownCells D K} {central : CellCollector D K} (h : central.Knows known)
    (ts : List (CollectingThread D K)) : ∀ {ka : KnownCells D K} {acc : CellCollector D K}, acc.Knows ka →
      (DrawsInRange known.length ka.length ts → ∃ r, ts.foldlM (CellCollector.join eventId central) acc = some r) ∧
      ∀ r, ts.foldlM (CellCollector.join eventId central) acc = some r →
        r.Knows (ka ++ ts.flatMap fun t => known ++ withEvents eventId t.cells) ∧ r.first = acc.first := by
  induction ts with
  | nil =>
    intro ka acc ha
    refine ⟨fun _ => ⟨acc, rfl⟩, ?_⟩
    intro r hr
    cases hr
    exact ⟨by simpa using ha, rfl⟩
  | cons t ts ih =>
    intro ka acc ha
    obtain ⟨c, hc, hk⟩ := collectAll_knows eventId t.cells h
    obtain ⟨h1, h2⟩ := combine_knows ha hk
    have hlen : (known ++ withEvents eventId t.cells).length = known.length + t.cells.length := by simp [withEvents]
    have hj : CellCollector.join eventId central acc t = acc.combine t.draws c := by
      rw [CellCollector.join, hc, Option.bind_some]
    refine ⟨?_, ?_⟩
    · rintro ⟨hd, hds⟩
      rw [hlen] at h1
      obtain ⟨r, hr⟩ := h1 t.draws hd
      obtain ⟨hr1, -⟩ := h2 _ _ hr
      rw [List.foldlM_cons, hj, hr]
      refine (ih hr1).1 ?_
      rw [List.length_append, hlen]
      exact hds
    · intro r hr
      rw [List.foldlM_cons, hj] at hr
      cases hcomb : acc.combine t.draws c with
      | none => rw [hcomb] at hr; cases hr
      | some a =>
        rw [hcomb] at hr
        obtain ⟨ha1, ha2⟩ := h2 _ _ hcomb
        obtain ⟨hr1, hr2⟩ := (ih ha1).2 r hr
        exact ⟨by simpa [List.append_assoc] using hr1, hr2.trans ha2⟩

/-- The cells that a collector has counted after a resampling. -/
def knownAfter (eventId : Nat → Nat) (known : KnownCells D K) : List (CollectingThread D K) → KnownCells D K
  | [] => known
  | t :: ts => (t :: ts).flatMap fun t => known ++ withEvents eventId t.cells

/-- The random numbers drawn in a resampling are in the requested range. -/
def ResampleDraws (n₀ : Nat) : List (CollectingThread D K) → Prop
  | [] => True
  | t :: ts => DrawsInRange n₀ (n₀ + t.cells.length) ts

theorem afterResample_knows (eventId : Nat → Nat) {known : KnownCells D K} {central : CellCollector D K} (h : central.Knows known)
    (ts : List (CollectingThread D K)) :
    (ResampleDraws known.length ts → ∃ r, central.afterResample eventId ts = some r) ∧
    ∀ r, central.afterResample eventId ts = some r → r.Knows (knownAfter eventId known ts) := by
  cases ts with
  | nil =>
    refine ⟨fun _ => ⟨central, rfl⟩, ?_⟩
    intro r hr
    cases hr
    exact h
  | cons t ts =>
    obtain ⟨c, hc, hk⟩ := collectAll_knows eventId t.cells h
    obtain ⟨h1, h2⟩ := joins_knows eventId h ts hk
    rw [CellCollector.afterResample, hc, Option.bind_some]
    refine ⟨?_, ?_⟩
    · intro hd
      refine h1 ?_
      rw [List.length_append, withEvents, List.length_map]
      exact hd
    · intro r hr
      exact (h2 r hr).1

theorem afterResample_first (eventId : Nat → Nat) {known : KnownCells D K} {central : CellCollector D K} (h : central.Knows known)
    (t : CollectingThread D K) (ts : List (CollectingThread D K)) {c r : CellCollector D K}
    (hc : CellCollector.collectAll eventId t.cells central = some c) (hr : central.afterResample eventId (t :: ts) = some r) :
    r.first = c.first := by
  obtain ⟨c', hc', hk⟩ := collectAll_knows eventId t.cells h
  rw [hc] at hc'
  cases hc'
  rw [CellCollector.afterResample, hc, Option.bind_some] at hr
  exact ((joins_knows eventId h ts hk).2 r hr).2

theorem afterResamplings_knows (rs : List ((Nat → Nat) × List (CollectingThread D K))) :
    ∀ {known : KnownCells D K} {central s : CellCollector D K}, central.Knows known → central.afterResamplings rs = some s →
      s.Knows (rs.foldl (fun known r => knownAfter r.1 known r.2) known) := by
  induction rs with
  | nil =>
    intro known central s h hs
    cases hs
    exact h
  | cons r rs ih =>
    intro known central s h hs
    rw [CellCollector.afterResamplings] at hs
    cases hc : central.afterResample r.1 r.2 with
    | none => rw [hc] at hs; cases hs
    | some c =>
      rw [hc, Option.bind_some] at hs
      exact ih ((afterResample_knows r.1 h r.2).2 c hc) hs

/-! ### One thread -/

/-- A cell whose members are given by identifiers. -/
def relabel (eventId : Nat → Nat) (c : Cell D K) : Cell D K := { c with members := c.members.map eventId }

theorem collect_relabel (eventId : Nat → Nat) (c : Cell D K) (idx : Nat) (s : CellCollector D K) :
    s.collect eventId c idx = s.collect id (relabel eventId c) idx := by
  simp [CellCollector.collect, relabel]

theorem collectAll_relabel (eventId : Nat → Nat) (cells : List (Cell D K × Nat)) (s : CellCollector D K) :
    CellCollector.collectAll eventId cells s = CellCollector.collectAll id (cells.map fun c => (relabel eventId c.1, c.2)) s := by
  induction cells generalizing s with
  | nil => rfl
  | cons a cells ih =>
    obtain ⟨c, i⟩ := a
    rw [List.map_cons, CellCollector.collectAll, CellCollector.collectAll, collect_relabel]
    congr 1
    funext s
    exact ih s

/-- All cells of resamplings on one thread each. -/
def allCellsOf (rs : List ((Nat → Nat) × List (CollectingThread D K))) : List (Cell D K × Nat) :=
  rs.flatMap fun r => r.2.flatMap fun t => t.cells.map fun c => (relabel r.1 c.1, c.2)

theorem afterResamplings_one (rs : List ((Nat → Nat) × List (CollectingThread D K))) (h1 : ∀ r ∈ rs, r.2.length ≤ 1)
    (central : CellCollector D K) :
    central.afterResamplings rs = CellCollector.collectAll id (allCellsOf rs) central := by
  induction rs generalizing central with
  | nil => rfl
  | cons r rs ih =>
    obtain ⟨eventId, ts⟩ := r
    have ht := h1 (eventId, ts) (by simp)
    rw [CellCollector.afterResamplings, allCellsOf, List.flatMap_cons, ← allCellsOf, collectAll_append]
    have hrest : (fun c : CellCollector D K => c.afterResamplings rs) = CellCollector.collectAll id (allCellsOf rs) :=
      funext fun c => ih (fun r hr => h1 r (by simp [hr])) c
    rw [hrest]
    congr 1
    match ts, ht with
    | [], _ => rfl
    | [t], _ =>
      simp only [CellCollector.afterResample, List.foldlM_nil, List.flatMap_cons, List.flatMap_nil, List.append_nil]
      rw [collectAll_relabel]
      cases CellCollector.collectAll id (t.cells.map fun c => (relabel eventId c.1, c.2)) central <;> rfl
    | _ :: _ :: _, ht => simp at ht

omit [LinearOrder D] [LinearOrder K] in
theorem exists_cellsSeen (l : List (Cell D K × Nat)) (a : Cell D K × Nat) :
    l = cellsSeen (fun i => (l.getD i a).1) (fun i => (l.getD i a).2) l.length := by
  rw [cellsSeen]
  apply List.ext_getElem?
  intro i
  by_cases hi : i < l.length
  · simp [hi]
  · simp [hi]

end Cres

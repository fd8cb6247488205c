import Verif.Proofs.CollectorRun

/-!
Property C105: the contents of a cell collector after resampling on several threads, once or repeatedly.
-/

namespace Cres

variable {D K : Type*}

/-- The identifiers of the events in each of the cells of a resampling, thread by thread. -/
def cellIds (eventId : Nat → Nat) (threads : List (CollectingThread D K)) : List (List Nat) :=
  threads.flatMap fun t => t.cells.map fun c => c.1.members.map eventId

/-- The number of cells of several resamplings. -/
def totalCells (rs : List ((Nat → Nat) × List (CollectingThread D K))) : Nat :=
  (rs.map fun r => (r.2.map fun t => t.cells.length).sum).sum

/-- **C105** as stated: a collector that is used for any number of resamplings counts each cell once. Only threads that create
cells take part. -/
def C105_claim : Prop :=
  ∀ (rs : List ((Nat → Nat) × List (CollectingThread Nat Int))) (s : CellCollector Nat Int),
    (∀ r ∈ rs, ∀ t ∈ r.2, t.cells ≠ []) → CellCollector.new.afterResamplings rs = some s → s.count = totalCells rs

/-- One cell, and afterwards two more cells on two threads. -/
def reuseExample : List ((Nat → Nat) × List (CollectingThread Nat Int)) :=
  [(id, [⟨[(smallCell 0, 0)], []⟩]), (id, [⟨[(smallCell 1, 0)], []⟩, ⟨[(largeCell 2, 0)], []⟩])]

theorem reuseExample_counts : (CellCollector.new.afterResamplings reuseExample).map (fun s => s.count) = some 4 ∧
    totalCells reuseExample = 3 := by
  decide +kernel

/-- **C105** does not hold: each thread starts with a copy of the collector, so that earlier cells are counted once for each
thread. -/
theorem C105_violated : ¬ C105_claim := by
  intro h
  obtain ⟨h1, h2⟩ := reuseExample_counts
  cases hs : CellCollector.new.afterResamplings reuseExample with
  | none => rw [hs] at h1; cases h1
  | some s =>
    rw [hs, Option.map_some, Option.some.injEq] at h1
    have := h reuseExample s (by
      intro r hr t ht
      simp only [reuseExample, List.mem_cons, List.not_mem_nil, or_false] at hr
      rcases hr with rfl | rfl <;> simp only [List.mem_cons, List.not_mem_nil, or_false] at ht
      · subst ht; simp
      · rcases ht with rfl | rfl <;> simp) hs
    omega

variable [LinearOrder D] [LinearOrder K]

/-- **C105**, what holds for the first resampling with a new collector, on any number of threads: all cells are counted once.
At random and by each of the three sizes, ten different cells are kept, or all cells if there are not more, with their numbers and
events and, where they are selected by size, with the right sizes. The cells by creation order are the first ten of one of the
threads. -/
theorem C105_contents_partial (eventId : Nat → Nat) (t : CollectingThread D K) (ts : List (CollectingThread D K))
    {s : CellCollector D K} (hs : CellCollector.new.afterResample eventId (t :: ts) = some s) :
    s.count = ((t :: ts).map fun t => t.cells.length).sum ∧
    Spec.FirstOf 10 (cellIds eventId [t]) s.first ∧
    Spec.Selection 10 (cellIds eventId (t :: ts)) s.random ∧
    Spec.Selection 10 (cellIds eventId (t :: ts)) (s.byRadius.map fun e => ((ofLex e.1).2, e.2)) ∧
    Spec.Selection 10 (cellIds eventId (t :: ts)) (s.byMembers.map fun e => ((ofLex e.1).2, e.2)) ∧
    Spec.Selection 10 (cellIds eventId (t :: ts)) (s.byWeight.map fun e => ((ofLex e.1).2, e.2)) ∧
    (∀ e ∈ s.byRadius, (((t :: ts).flatMap fun t => t.cells)[(ofLex e.1).2]?.map fun c => c.1.radius) = some (ofLex e.1).1) ∧
    (∀ e ∈ s.byMembers, (((t :: ts).flatMap fun t => t.cells)[(ofLex e.1).2]?.map fun c => c.1.members.length) =
      some (ofLex e.1).1) ∧
    (∀ e ∈ s.byWeight, (((t :: ts).flatMap fun t => t.cells)[(ofLex e.1).2]?.map fun c => c.1.weightSum) =
      some (ofLex e.1).1) := by
  have hk := (afterResample_knows eventId new_knows (t :: ts)).2 s hs
  have hkn : knownAfter eventId [] (t :: ts) = ((t :: ts).flatMap fun t => t.cells).map fun c => (c.1, c.1.members.map eventId) := by
    simp only [knownAfter, List.nil_append, withEvents, List.map_flatMap]
  have hids : (knownAfter eventId [] (t :: ts)).map Prod.snd = cellIds eventId (t :: ts) := by
    simp only [knownAfter, List.nil_append, withEvents, List.map_flatMap, cellIds, List.map_map, Function.comp_def]
  refine ⟨?_, ?_, ?_, hids ▸ hk.radius.selection, hids ▸ hk.members.selection, hids ▸ hk.weight.selection, CellMap.Holds.size_eq (ev := fun c => c.members.map eventId) (hkn ▸ hk.radius),
    CellMap.Holds.size_eq (ev := fun c => c.members.map eventId) (hkn ▸ hk.members), CellMap.Holds.size_eq (ev := fun c => c.members.map eventId) (hkn ▸ hk.weight)⟩
  · rw [hk.count, hkn, List.length_map, List.length_flatMap]
  · obtain ⟨c, hc, hkc⟩ := collectAll_knows eventId t.cells (new_knows (D := D) (K := K))
    rw [afterResample_first eventId new_knows t ts hc hs]
    have hcells : cellIds eventId [t] = t.cells.map fun c => c.1.members.map eventId := by simp [cellIds]
    refine ⟨?_, ?_⟩
    · cases hl : t.cells with
      | nil =>
        rw [hl] at hc
        cases hc
        simp [hcells, hl, CellCollector.new]
      | cons a l =>
        obtain ⟨c', hc', hseen⟩ := collectAll_seen eventId (fun i => (t.cells.getD i a).1) (fun i => (t.cells.getD i a).2)
          t.cells.length
        rw [← exists_cellsSeen, hc] at hc'
        cases hc'
        rw [hseen.first, List.map_map, hcells, List.length_map]
        change List.map (fun i => i) _ = _
        rw [List.map_id']
        rfl
    · intro e he
      obtain ⟨c', hc'⟩ := hkc.first e he
      rw [List.nil_append, withEvents, List.getElem?_map, Option.map_eq_some_iff] at hc'
      obtain ⟨b, hb, heq⟩ := hc'
      rw [hcells, List.getElem?_map, hb, Option.map_some]
      exact congrArg some (Prod.mk.inj heq).2
  · refine ⟨?_, hk.randomNodup, ?_⟩
    · intro e he
      obtain ⟨c, hc⟩ := hk.random e he
      rw [← hids, List.getElem?_map, hc]
      rfl
    · rw [hk.randomLength, ← hids, List.length_map]
      rfl

/-- **C105**, what holds if all resamplings create their cells on one thread: the collector contains the largest ten of all cells
of all resamplings, and each cell is counted once. -/
theorem C105_one_thread_partial (rs : List ((Nat → Nat) × List (CollectingThread D K))) (h1 : ∀ r ∈ rs, r.2.length ≤ 1)
    (a : Cell D K × Nat) :
    ∃ s, CellCollector.new.afterResamplings rs = some s ∧ s.count = totalCells rs ∧
      Spec.KeepsLargest 10 (totalCells rs) (fun i => ((allCellsOf rs).getD i a).1.radius) (s.byRadius.map fun e => (ofLex e.1).2) ∧
      Spec.KeepsLargest 10 (totalCells rs) (fun i => ((allCellsOf rs).getD i a).1.members.length)
        (s.byMembers.map fun e => (ofLex e.1).2) ∧
      Spec.KeepsLargest 10 (totalCells rs) (fun i => ((allCellsOf rs).getD i a).1.weightSum)
        (s.byWeight.map fun e => (ofLex e.1).2) ∧
      Spec.Selection 10 (rs.flatMap fun r => cellIds r.1 r.2) s.random ∧
      Spec.FirstOf 10 (rs.flatMap fun r => cellIds r.1 r.2) s.first := by
  obtain ⟨s, hs, h⟩ := collectAll_seen id (fun i => ((allCellsOf rs).getD i a).1) (fun i => ((allCellsOf rs).getD i a).2)
    (allCellsOf rs).length
  rw [← exists_cellsSeen] at hs
  have hlen : (allCellsOf rs).length = totalCells rs := by
    simp [allCellsOf, totalCells, List.length_flatMap]
  have hids : (rs.flatMap fun r => cellIds r.1 r.2) = (allCellsOf rs).map fun c => c.1.members := by
    simp only [allCellsOf, cellIds, List.map_flatMap, List.map_map, Function.comp_def, relabel]
  have hev : ∀ i, i < totalCells rs → (rs.flatMap fun r => cellIds r.1 r.2)[i]? =
      some (cellEvents id (fun i => ((allCellsOf rs).getD i a).1) i) := by
    intro i hi
    rw [← hlen] at hi
    rw [hids, List.getElem?_map, List.getElem?_eq_getElem hi, cellEvents, List.map_id]
    simp [hi]
  rw [hlen] at h
  refine ⟨s, ?_, h.count, h.radius.keeps, h.members.keeps, h.weight.keeps, ⟨?_, h.randomNodup, ?_⟩, ?_, ?_⟩
  · rw [afterResamplings_one rs h1]
    exact hs
  · intro e he
    obtain ⟨h2, h3⟩ := h.randomEntry e he
    rw [hev _ h2, h3]
  · rw [h.randomLength, hids, List.length_map, hlen]
    rfl
  · rw [h.first, List.map_map, hids, List.length_map, hlen]
    change List.map (fun i => i) _ = _
    rw [List.map_id']
    rfl
  · intro e he
    rw [h.first, List.mem_map] at he
    obtain ⟨i, hi, rfl⟩ := he
    rw [List.mem_range] at hi
    exact hev i (by omega)

/-- **C105**, what happens otherwise: if a collector that has counted `n` cells takes part in a resampling on `k` threads, these
cells are counted `k` times. If no cells are created then nothing changes. -/
theorem C105_reused_partial (rs : List ((Nat → Nat) × List (CollectingThread D K))) {s s' : CellCollector D K}
    (hs : CellCollector.new.afterResamplings rs = some s) (eventId : Nat → Nat) :
    (s.afterResample eventId [] = some s) ∧
    ∀ threads, threads ≠ [] → s.afterResample eventId threads = some s' →
      s'.count = threads.length * s.count + (threads.map fun t => t.cells.length).sum := by
  refine ⟨rfl, ?_⟩
  intro threads hne hs'
  have hk := afterResamplings_knows rs new_knows hs
  have hk' := (afterResample_knows eventId hk threads).2 s' hs'
  rw [hk'.count, hk.count]
  cases threads with
  | nil => exact absurd rfl hne
  | cons t ts =>
    rw [knownAfter, List.length_flatMap]
    generalize t :: ts = l
    induction l with
    | nil => simp
    | cons t l ih =>
      rw [List.map_cons, List.sum_cons, ih, List.map_cons, List.sum_cons, List.length_append, withEvents, List.length_map,
        List.length_cons, Nat.add_mul]
      omega

/-- **C105**: whatever the collector has been used for, a resampling does not fail because of it, as long as random numbers are in
the requested range. -/
theorem C105_no_panic (rs : List ((Nat → Nat) × List (CollectingThread D K))) {s : CellCollector D K}
    (hs : CellCollector.new.afterResamplings rs = some s) (eventId : Nat → Nat) (threads : List (CollectingThread D K))
    (hd : ResampleDraws s.count threads) : ∃ s', s.afterResample eventId threads = some s' := by
  have hk := afterResamplings_knows rs new_knows hs
  rw [hk.count] at hd
  exact (afterResample_knows eventId hk threads).1 hd

/-- Two threads with one cell each. -/
example : ∃ s : CellCollector Nat Int,
    CellCollector.new.afterResample id [⟨[(smallCell 1, 0)], []⟩, ⟨[(largeCell 2, 0)], []⟩] = some s :=
  C105_no_panic [] rfl id _ ⟨by intro k hk; simp [CellCollector.new] at hk; omega, trivial⟩

/-- Two threads with eleven cells in total: the random number in the requested range decides which one is dropped. -/
example : ∃ s : CellCollector Nat Int, CellCollector.new.afterResample id
    [⟨(List.range 10).map fun i => (smallCell i, 0), []⟩, ⟨[(largeCell 2, 0)], [7]⟩] = some s ∧
      s.random.map Prod.fst = [0, 1, 2, 3, 4, 5, 6, 10, 8, 9] := by
  decide +kernel

/-- Two resamplings on one thread. -/
example : ∃ s : CellCollector Nat Int, CellCollector.new.afterResamplings
    [(id, [⟨[(smallCell 0, 0), (largeCell 3, 0)], []⟩]), ((· + 7), [⟨[(largeCell 1, 0)], []⟩])] = some s ∧ s.count = 3 ∧
      s.first = [(0, [0]), (1, [3, 4]), (2, [8, 9])] := by
  decide +kernel

end Cres

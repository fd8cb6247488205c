import Verif.Proofs.ConcurrentSerial
import Verif.Spec.Neighbours

/-!
Lemmas for the theorems about resampling: consequences of the invariant, removal of negative weights.
-/

set_option linter.unusedSectionVars false

namespace Cres

open Spec

section

variable {D K : Type*} [Zero D] [Add K] [Zero K] [One K] [Mul K] [Div K] [NatCast K] [LinearOrder K]

/-- The logged cells are cells of seeds. -/
theorem inv_log_cells {cfg : Cfg} {n L : Nat} {nearest : Nat → List (Nat × D)} {seeds : List Nat} {mem0 : Mem K}
    {s : State D K} {A : Mem K} (h : Inv cfg n L nearest seeds mem0 s A) :
    ∀ c ∈ s.log, ∃ t seed, seeds[t]? = some seed ∧ (s.tasks t).committed = some c ∧ CellFrom nearest seed c := by
  intro c hc
  have := h.logged.mem_iff.1 hc
  obtain ⟨t, ht, htc⟩ := List.mem_filterMap.1 this
  have hlt := List.mem_range.1 ht
  have hs : seeds[t]? = some seeds[t] := List.getElem?_eq_getElem hlt
  refine ⟨t, _, hs, htc, ?_⟩
  have hok := h.ok t _ hs
  cases hst : s.tasks t with
  | reading c' _ _ => rw [hst] at hok htc; simp only [Task.committed, Option.some.injEq] at htc; subst htc; exact hok.1
  | writing c' _ _ => rw [hst] at hok htc; simp only [Task.committed, Option.some.injEq] at htc; subst htc; exact hok.1
  | releasing c' _ => rw [hst] at hok htc; simp only [Task.committed, Option.some.injEq] at htc; subst htc; exact hok.1
  | done c' =>
    rw [hst] at hok htc
    simp only [Task.committed] at htc
    subst htc
    exact hok
  | waiting => rw [hst] at htc; simp [Task.committed] at htc
  | checked => rw [hst] at htc; simp [Task.committed] at htc
  | growing _ _ => rw [hst] at htc; simp [Task.committed] at htc
  | locking _ _ _ => rw [hst] at htc; simp [Task.committed] at htc
  | panicked => rw [hst] at htc; simp [Task.committed] at htc

/-- No locks are held when all tasks have ended. -/
theorem finished_mem {cfg : Cfg} {n L : Nat} {nearest : Nat → List (Nat × D)} {seeds : List Nat} {mem0 : Mem K}
    {s : State D K} {A : Mem K} (h : Inv cfg n L nearest seeds mem0 s A) (hf : s.Finished seeds) : s.mem = A := by
  funext e
  refine h.free e ?_
  cases ho : s.owner e with
  | none => rfl
  | some u =>
    have := (h.owner e u).1 ho
    by_cases hu : u < seeds.length
    · obtain ⟨c, hc⟩ := hf u hu
      rw [hc] at this; simp [heldBy] at this
    · rw [h.idle u (List.getElem?_eq_none (by omega))] at this; simp [heldBy] at this

end

section

variable {D K : Type*} [Zero D] [Field K] [LinearOrder K]

theorem applyCells_averageSeq {cfg : Cfg} {n L : Nat} (cells : List (Cell D K)) :
    ∀ {mem mem' : Mem K}, Uniform cfg n L mem → (∀ c ∈ cells, c.members ≠ [] ∧ ∀ i ∈ c.members, i < n) →
      applyCells cfg cells mem = some mem' → AverageSeq (cells.map Cell.members) mem mem' := by
  induction cells with
  | nil =>
    intro mem mem' _ _ h
    simp only [applyCells, List.foldlM_nil] at h
    obtain rfl : mem = mem' := by simpa using h
    exact AverageSeq.nil _
  | cons c cells ih =>
    intro mem mem' hu hc h
    simp only [applyCells, List.foldlM_cons] at h
    cases hr : c.resample cfg mem with
    | none => rw [hr] at h; simp at h
    | some m1 =>
      rw [hr] at h
      obtain ⟨hne, hlt⟩ := hc c List.mem_cons_self
      have ha := resample_isCellAverage hne (hu.fits hlt) hr
      exact AverageSeq.cons ha (ih (uniform_of_average hu ha) (fun c' hc' => hc c' (List.mem_cons_of_mem _ hc')) h)

theorem inv_averageSeq {cfg : Cfg} {n L : Nat} {nearest : Nat → List (Nat × D)} {seeds : List Nat}
    (hv : ValidInput n nearest seeds) {mem0 : Mem K} (hu : Uniform cfg n L mem0) {s : State D K} {A : Mem K}
    (h : Inv cfg n L nearest seeds mem0 s A) :
    AverageSeq (s.log.map Cell.members) mem0 A ∧ CellsOK n (s.log.map Cell.members) := by
  constructor
  · refine applyCells_averageSeq _ hu ?_ h.log
    intro c hc
    obtain ⟨t, seed, h1, -, h3⟩ := inv_log_cells h c hc
    exact ⟨h3.ne_nil, h3.lt hv (List.mem_of_getElem? h1)⟩
  · intro c' hc'
    obtain ⟨c, hc, rfl⟩ := List.mem_map.1 hc'
    obtain ⟨t, seed, h1, -, h3⟩ := inv_log_cells h c hc
    exact ⟨h3.nodup, h3.lt hv (List.mem_of_getElem? h1)⟩

theorem resampleAll_cellsOK {cfg : Cfg} {n L : Nat} {nearest : Nat → List (Nat × D)} {seeds : List Nat}
    (hv : ValidInput n nearest seeds) {mem mem' : Mem K} {cells : List (Cell D K)} (hu : Uniform cfg n L mem)
    (h : resampleAll cfg n nearest seeds mem = some (mem', cells)) :
    AverageSeq (cells.map Cell.members) mem mem' ∧ CellsOK n (cells.map Cell.members) := by
  obtain ⟨h1, h2⟩ := resampleAll_averageSeq seeds hu h
  refine ⟨h1, ?_⟩
  intro c' hc'
  obtain ⟨c, hc, rfl⟩ := List.mem_map.1 hc'
  obtain ⟨hlt, seed, hs, m, hm⟩ := h2 c hc
  refine ⟨?_, hlt⟩
  rw [hm.nodup_iff]
  exact (hv.neighbours_nodup seed hs).sublist (List.Sublist.cons_cons _ ((List.take_sublist _ _).map _))

end

section

variable {D K : Type*} [Zero D] [Field K] [LinearOrder K] [IsStrictOrderedRing K]

/-- One seed: a cell with non-negative sum leaves no negative member. -/
theorem resampleSeed_neg {cfg : Cfg} {n L : Nat} {nearest : Nat → List (Nat × D)} {mem mem' : Mem K} {seed : Nat}
    {oc : Option (Cell D K)} (hu : Uniform cfg n L mem) (htot : 0 ≤ weightTotal n mem 0)
    (hnd : (seed :: (nearest seed).map Prod.fst).Nodup)
    (hall : ∀ i, i ∈ (nearest seed).map Prod.fst ↔ i < n ∧ i ≠ seed)
    (h : resampleSeed cfg n nearest mem seed = some (mem', oc)) :
    (∀ i, i < n → wt mem' 0 i < 0 → wt mem 0 i < 0 ∧ i ≠ seed) ∧ weightTotal n mem' 0 = weightTotal n mem 0 ∧
      Uniform cfg n L mem' := by
  obtain ⟨hlt, ⟨h0, rfl, -⟩ | ⟨h0, c, hnew, -, hres⟩⟩ := resampleSeed_cases h
  · refine ⟨fun i _ hi => ⟨hi, ?_⟩, rfl, hu⟩
    rintro rfl
    exact absurd hi (not_lt.2 h0.le)
  · obtain ⟨⟨m, hm⟩, hmem, -⟩ := new_isCell hnew
    have hne : c.members ≠ [] := by rw [hm.members_eq]; simp
    have hcl : ∀ i ∈ c.members, i < n := fun i hi => (hmem i hi).1
    have ha := resample_isCellAverage hne (hu.fits hcl) hres
    have hcnd : c.members.Nodup := by
      rw [hm.members_eq]
      exact hnd.sublist (List.Sublist.cons_cons _ ((List.take_sublist _ _).map _))
    have hsum : 0 ≤ (c.members.map (wt mem 0)).sum := by
      rcases hm.enough with hml | hs
      · have hperm : c.members.Perm (List.range n) := by
          rw [List.perm_ext_iff_of_nodup hcnd List.nodup_range]
          intro i
          rw [hm.members_eq, hml, List.take_length, List.mem_cons, hall, List.mem_range]
          constructor
          · rintro (rfl | ⟨h, -⟩)
            · exact hlt
            · exact h
          · intro h
            by_cases hi : i = seed
            · exact Or.inl hi
            · exact Or.inr ⟨h, hi⟩
        rw [(hperm.map _).sum_eq]
        have : weightTotal n mem 0 = ((List.range n).map (wt mem 0)).sum := by
          unfold weightTotal
          rw [← List.sum_toFinset _ List.nodup_range]
          refine Finset.sum_congr ?_ (fun _ _ => rfl)
          ext i; simp
        rw [← this]
        exact htot
      · rw [← hm.sum_eq]; exact hs
    refine ⟨?_, total_step ha hcnd hcl 0, uniform_of_average hu ha⟩
    intro i hi hneg
    by_cases him : i ∈ c.members
    · exfalso
      rw [ha.mean i him 0] at hneg
      have : 0 ≤ (c.members.map (wt mem 0)).sum / (c.members.length : K) :=
        div_nonneg hsum (Nat.cast_nonneg _)
      exact absurd hneg (not_lt.2 this)
    · have := ha.outside i him
      refine ⟨by unfold wt at hneg ⊢; rw [← this]; exact hneg, ?_⟩
      rintro rfl
      exact him (by rw [hm.members_eq]; simp)

theorem resampleAll_neg {cfg : Cfg} {n L : Nat} {nearest : Nat → List (Nat × D)} (seeds : List Nat) :
    ∀ {mem mem' : Mem K} {cells : List (Cell D K)}, Uniform cfg n L mem → 0 ≤ weightTotal n mem 0 →
      (∀ s ∈ seeds, (s :: (nearest s).map Prod.fst).Nodup) →
      (∀ s ∈ seeds, ∀ i, i ∈ (nearest s).map Prod.fst ↔ i < n ∧ i ≠ s) →
      (∀ i, i < n → wt mem 0 i < 0 → i ∈ seeds) →
      resampleAll cfg n nearest seeds mem = some (mem', cells) → ∀ i, i < n → 0 ≤ wt mem' 0 i := by
  induction seeds with
  | nil =>
    intro mem mem' cells _ _ _ _ hneg h i hi
    simp only [resampleAll, Option.some.injEq, Prod.mk.injEq] at h
    rw [← h.1]
    by_contra hcon
    have := hneg i hi (not_le.1 hcon)
    simp at this
  | cons seed seeds ih =>
    intro mem mem' cells hu htot hnd hall hneg h
    rw [resampleAll] at h
    cases hr : resampleSeed cfg n nearest mem seed with
    | none => rw [hr] at h; simp at h
    | some r =>
      obtain ⟨m1, oc⟩ := r
      rw [hr] at h
      simp only at h
      obtain ⟨h1, h2, h3⟩ := resampleSeed_neg hu htot (hnd seed List.mem_cons_self) (hall seed List.mem_cons_self) hr
      cases hra : resampleAll cfg n nearest seeds m1 with
      | none => rw [hra] at h; simp at h
      | some r2 =>
        obtain ⟨m2, cs⟩ := r2
        rw [hra] at h
        simp only [Option.map_some, Option.some.injEq, Prod.mk.injEq] at h
        rw [← h.1]
        refine ih h3 (by rw [h2]; exact htot) (fun s hs => hnd s (List.mem_cons_of_mem _ hs))
          (fun s hs => hall s (List.mem_cons_of_mem _ hs)) ?_ hra
        intro i hi hw
        obtain ⟨hw', hne⟩ := h1 i hi hw
        rcases List.mem_cons.1 (hneg i hi hw') with h | h
        · exact absurd h hne
        · exact h

end

section

variable {D K : Type*} [Zero D] [LinearOrder D] [Field K] [LinearOrder K]

theorem validInput_of_neighbourList {n : Nat} {dist : Nat → Nat → D} {maxDist : D} {nearest : Nat → List (Nat × D)}
    {seeds : List Nat} (hs : ∀ s ∈ seeds, s < n)
    (hn : ∀ s ∈ seeds, IsNeighbourList dist (List.range n) s maxDist (nearest s)) : ValidInput n nearest seeds := by
  refine ⟨hs, ?_, ?_⟩
  · intro s h x hx
    have := ((hn s h).mem x.1).1 (List.mem_map.2 ⟨x, hx, rfl⟩)
    simpa using this.1
  · intro s h
    refine List.nodup_cons.2 ⟨?_, (hn s h).nodup⟩
    intro hm
    exact (((hn s h).mem s).1 hm).2.1 rfl

/-- Cell with a correct neighbour search: no duplicates, radius is the largest distance. -/
theorem isCell_radius {n : Nat} {dist : Nat → Nat → D} {maxDist : D} {w : Nat → K} {seed m : Nat}
    {neighbours : List (Nat × D)} {members : List Nat} {radius : D} {weightSum : K}
    (hc : IsCell w seed neighbours m members radius weightSum)
    (hn : IsNeighbourList dist (List.range n) seed maxDist neighbours) :
    members.Nodup ∧ (∀ i ∈ members, i ≠ seed → dist seed i ≤ radius) ∧
      ((members = [seed] ∧ radius = 0) ∨ ∃ i ∈ members, i ≠ seed ∧ radius = dist seed i ∧ radius ≤ maxDist) := by
  refine ⟨?_, ?_, ?_⟩
  · rw [hc.members_eq]
    refine List.nodup_cons.2 ⟨?_, hn.nodup.sublist ((List.take_sublist _ _).map _)⟩
    intro hm
    have : seed ∈ neighbours.map Prod.fst := ((List.take_sublist m neighbours).map Prod.fst).subset hm
    exact ((hn.mem seed).1 this).2.1 rfl
  · intro i hi hne
    rw [hc.members_eq] at hi
    rcases List.mem_cons.1 hi with h | h
    · exact absurd h hne
    · obtain ⟨x, hx, rfl⟩ := List.mem_map.1 h
      have hx2 := hn.dist_eq x (List.mem_of_mem_take hx)
      rw [← hx2, hc.radius_eq]
      have hs : (neighbours.take m).Pairwise (fun a b => a.2 ≤ b.2) := hn.sorted.sublist (List.take_sublist _ _)
      generalize neighbours.take m = l at hx hs
      cases hl : l.getLast? with
      | none => rw [List.getLast?_eq_none_iff] at hl; subst hl; simp at hx
      | some y =>
        simp only [Option.map_some, Option.getD_some]
        obtain ⟨l', rfl⟩ := List.getLast?_eq_some_iff.1 hl
        rcases List.mem_append.1 hx with h | h
        · exact (List.pairwise_append.1 hs).2.2 x h y (by simp)
        · simp only [List.mem_singleton] at h; subst h; exact le_refl _
  · cases hl : (neighbours.take m).getLast? with
    | none =>
      left
      have : neighbours.take m = [] := List.getLast?_eq_none_iff.1 hl
      refine ⟨by rw [hc.members_eq, this]; rfl, by rw [hc.radius_eq, hl]; rfl⟩
    | some y =>
      right
      have hy : y ∈ neighbours.take m := List.mem_of_getLast? hl
      have hy2 := List.mem_of_mem_take hy
      have hym := (hn.mem y.1).1 (List.mem_map.2 ⟨y, hy2, rfl⟩)
      have hr : radius = y.2 := by rw [hc.radius_eq, hl]; rfl
      refine ⟨y.1, by rw [hc.members_eq]; exact List.mem_cons_of_mem _ (List.mem_map.2 ⟨y, hy, rfl⟩), hym.2.1, ?_, ?_⟩
      · rw [hr, hn.dist_eq y hy2]
      · rw [hr, hn.dist_eq y hy2]; exact hym.2.2

end

end Cres

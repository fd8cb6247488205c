import Verif.Proofs.Resample
import Verif.Spec.Neighbours

/-!
Lemmas on cells and on resampling one cell after the other.
-/

set_option linter.unusedSectionVars false

namespace Cres

open Spec

/-! ### any arithmetic -/

section Any

variable {D K : Type*} [Zero D] [Add K] [Zero K] [One K] [Mul K] [Div K] [NatCast K] [LinearOrder K]

/-- The loop in `Cell::new`, for any arithmetic: weights are added up in the order of the neighbours. -/
theorem grow_fold (weight : Nat → Option K) (neigh : List (Nat × D)) : ∀ (c c' : Cell D K),
    Cell.grow weight neigh c = some c' →
    ∃ m, m ≤ neigh.length ∧ c'.members = c.members ++ (neigh.take m).map Prod.fst ∧
      (∀ x ∈ neigh.take m, (weight x.1).isSome) ∧
      c'.weightSum = (neigh.take m).foldl (fun s x => s + (weight x.1).getD 0) c.weightSum ∧
      c'.radius = (((neigh.take m).getLast?).map Prod.snd).getD c.radius ∧
      (m = neigh.length ∨ 0 ≤ c'.weightSum) ∧
      (∀ j, 1 ≤ j → j < m → (neigh.take j).foldl (fun s x => s + (weight x.1).getD 0) c.weightSum < 0) ∧
      (neigh ≠ [] → 1 ≤ m) := by
  induction neigh with
  | nil =>
    intro c c' h
    simp only [Cell.grow, Option.some.injEq] at h
    subst h
    exact ⟨0, by simp⟩
  | cons x neigh ih =>
    intro c c' h
    obtain ⟨i, d⟩ := x
    rw [Cell.grow] at h
    cases hw : weight i with
    | none => rw [hw] at h; simp at h
    | some w =>
      rw [hw] at h
      simp only at h
      by_cases hs : 0 ≤ c.weightSum + w
      · rw [if_pos hs] at h
        simp only [Option.some.injEq] at h
        subst h
        refine ⟨1, by simp, by simp, by simp [hw], by simp [hw], by simp, Or.inr hs, by omega, by simp⟩
      · rw [if_neg hs] at h
        obtain ⟨m, h1, h2, h3, h4, h5, h6, h7, h8⟩ := ih _ _ h
        refine ⟨m + 1, by simpa using h1, ?_, ?_, ?_, ?_, ?_, ?_, by simp⟩
        · simp [h2]
        · intro y hy
          rw [List.take_succ_cons] at hy
          rcases List.mem_cons.1 hy with rfl | hy
          · simp [hw]
          · exact h3 y hy
        · rw [h4, List.take_succ_cons, List.foldl_cons, hw]; rfl
        · rw [h5, List.take_succ_cons]
          cases hl : neigh.take m with
          | nil => simp
          | cons y l =>
            rw [List.getLast?_cons_cons]
            cases hz : (y :: l).getLast? with
            | none => rw [List.getLast?_eq_none_iff] at hz; simp at hz
            | some z => rfl
        · rcases h6 with h6 | h6
          · left; simpa using h6
          · right; exact h6
        · intro j hj1 hj2
          obtain ⟨j, rfl⟩ : ∃ j', j = j' + 1 := ⟨j - 1, by omega⟩
          rw [List.take_succ_cons, List.foldl_cons, hw]
          rcases Nat.eq_zero_or_pos j with rfl | hj
          · simpa using lt_of_not_ge hs
          · exact h7 j (by omega) (by omega)

theorem weightAt_some {n : Nat} {mem : Mem K} {i : Nat} {w : K} (h : weightAt n mem i = some w) :
    i < n ∧ wt mem 0 i = w ∧ mem i ≠ [] := by
  unfold weightAt at h
  split at h
  · next hi =>
    refine ⟨hi, ?_⟩
    unfold wt
    unfold Weights.central at h
    cases hm : mem i with
    | nil => rw [hm] at h; simp at h
    | cons x l => rw [hm] at h; simp at h; simp [h]
  · simp at h

theorem weightAt_isSome {n : Nat} {mem : Mem K} {i : Nat} (hi : i < n) (hne : mem i ≠ []) :
    weightAt n mem i = some (wt mem 0 i) := by
  unfold weightAt
  rw [if_pos hi]
  unfold Weights.central wt
  cases hm : mem i with
  | nil => exact absurd hm hne
  | cons x l => simp

/-- `Cell::new` yields a cell, all of whose members are events; for any arithmetic. -/
theorem new_isOrderedCell {cfg : Cfg} {n : Nat} {mem : Mem K} {seed : Nat} {neigh : List (Nat × D)} {c : Cell D K}
    (h : Cell.new cfg n mem seed neigh = some c) :
    (∃ m, IsOrderedCell (wt mem 0) seed neigh m c.members c.radius c.weightSum) ∧ (∀ i ∈ c.members, i < n ∧ mem i ≠ []) ∧
      (cfg.debug = true → wt mem 0 seed < 0) := by
  unfold Cell.new at h
  cases hw : weightAt n mem seed with
  | none => rw [hw] at h; simp at h
  | some w =>
    rw [hw] at h
    simp only at h
    split at h
    · simp at h
    · next hd =>
      obtain ⟨hseed, hws, hne⟩ := weightAt_some hw
      obtain ⟨m, h1, h2, h3, h4, h5, h6, h7, h8⟩ := grow_fold _ _ _ _ h
      have hget : ∀ x ∈ neigh.take m, (weightAt n mem x.1).getD 0 = wt mem 0 x.1 ∧ x.1 < n ∧ mem x.1 ≠ [] := by
        intro x hx
        obtain ⟨v, hv⟩ := Option.isSome_iff_exists.1 (h3 x hx)
        obtain ⟨a, b, c⟩ := weightAt_some hv
        exact ⟨by rw [hv]; simpa using b.symm, a, c⟩
      have hsum : ∀ j ≤ m, (neigh.take j).foldl (fun s x => s + (weightAt n mem x.1).getD 0) w =
          addUp (wt mem 0) (seed :: (neigh.take j).map Prod.fst) := by
        intro j hj
        simp only [addUp]
        rw [List.foldl_map, hws]
        refine List.foldl_ext _ _ _ ?_
        intro s x hx
        rw [(hget x (List.mem_of_mem_take (by
          rw [List.take_take, Nat.min_eq_left hj]; exact hx : x ∈ (neigh.take m).take j))).1]
      refine ⟨⟨m, h1, by simpa using h2, ?_, h5, h6, ?_, h8⟩, ?_, ?_⟩
      · rw [h4, h2]
        exact hsum m (le_refl _)
      · intro j hj1 hj2
        rw [← hsum j (by omega)]
        exact h7 j hj1 hj2
      · intro i hi
        rw [h2] at hi
        rcases List.mem_append.1 hi with hi | hi
        · simp only [List.mem_singleton] at hi; subst hi; exact ⟨hseed, hne⟩
        · obtain ⟨x, hx, rfl⟩ := List.mem_map.1 hi
          exact (hget x hx).2
      · intro hdb
        rw [hws]
        by_contra hcon
        exact hd ⟨hdb, hcon⟩

theorem grow_isSome (weight : Nat → Option K) (neigh : List (Nat × D)) : ∀ (c : Cell D K),
    (∀ x ∈ neigh, (weight x.1).isSome) → ∃ c', Cell.grow weight neigh c = some c' := by
  induction neigh with
  | nil => intro c _; exact ⟨c, rfl⟩
  | cons x neigh ih =>
    intro c h
    obtain ⟨i, d⟩ := x
    obtain ⟨w, hw⟩ := Option.isSome_iff_exists.1 (h (i, d) List.mem_cons_self)
    rw [Cell.grow]
    simp only at hw
    rw [hw]
    simp only
    split
    · exact ⟨_, rfl⟩
    · exact ih _ (fun y hy => h y (List.mem_cons_of_mem _ hy))

/-- The weights of all `n` events have `L ≥ 1` entries, one without `multiweight`. -/
structure Uniform (cfg : Cfg) (n : Nat) (L : Nat) (mem : Mem K) : Prop where
  pos : 0 < L
  single : cfg.multi = false → L = 1
  length : ∀ i < n, (mem i).length = L

theorem Uniform.ne_nil {cfg : Cfg} {n L : Nat} {mem : Mem K} (h : Uniform cfg n L mem) {i : Nat} (hi : i < n) :
    mem i ≠ [] := by
  intro h0
  have := h.length i hi
  rw [h0] at this
  have := h.pos
  simp at *
  omega

theorem Uniform.fits {cfg : Cfg} {n L : Nat} {mem : Mem K} (h : Uniform cfg n L mem) {l : List Nat}
    (hl : ∀ i ∈ l, i < n) : FitsBuild cfg (l.map mem) := by
  intro hm w hw
  obtain ⟨i, hi, rfl⟩ := List.mem_map.1 hw
  rw [h.length i (hl i hi), h.single hm]

theorem uniform_of_resample {cfg : Cfg} {n L : Nat} {mem mem' : Mem K} (hu : Uniform cfg n L mem) {c : Cell D K}
    (hne : c.members ≠ []) (hlt : ∀ i ∈ c.members, i < n) (h : c.resample cfg mem = some mem') : Uniform cfg n L mem' :=
  ⟨hu.pos, hu.single, fun i hi => by rw [resample_length hne (hu.fits hlt) h, hu.length i hi]⟩

/-- One seed: either nothing happens (positive weight) or a cell around the seed is averaged. -/
theorem resampleSeed_cases {cfg : Cfg} {n : Nat} {nearest : Nat → List (Nat × D)} {mem mem' : Mem K} {seed : Nat}
    {oc : Option (Cell D K)} (h : resampleSeed cfg n nearest mem seed = some (mem', oc)) :
    seed < n ∧ ((0 < wt mem 0 seed ∧ mem' = mem ∧ oc = none) ∨
      (wt mem 0 seed ≤ 0 ∧ ∃ c, Cell.new cfg n mem seed (nearest seed) = some c ∧ oc = some c.sortMembers ∧
        c.resample cfg mem = some mem')) := by
  unfold resampleSeed at h
  cases hw : weightAt n mem seed with
  | none => rw [hw] at h; simp at h
  | some w =>
    obtain ⟨h1, h2, -⟩ := weightAt_some hw
    rw [hw] at h
    simp only at h
    refine ⟨h1, ?_⟩
    rw [h2]
    by_cases hpos : 0 < w
    · rw [if_pos hpos] at h
      simp only [Option.some.injEq, Prod.mk.injEq] at h
      exact Or.inl ⟨hpos, h.1.symm, h.2.symm⟩
    · rw [if_neg hpos] at h
      right
      refine ⟨le_of_not_gt hpos, ?_⟩
      cases hc : Cell.new cfg n mem seed (nearest seed) with
      | none => rw [hc] at h; simp at h
      | some c =>
        rw [hc] at h
        simp only at h
        obtain ⟨m, hm, he⟩ := Option.map_eq_some_iff.1 h
        simp only [Prod.mk.injEq] at he
        exact ⟨c, rfl, he.2.symm, by rw [hm, he.1]⟩

/-- No panic in release builds if all indices are valid. -/
theorem resampleAll_isSome {cfg : Cfg} (hd : cfg.debug = false) {n L : Nat} {nearest : Nat → List (Nat × D)}
    (seeds : List Nat) : ∀ {mem : Mem K}, Uniform cfg n L mem → (∀ s ∈ seeds, s < n) →
      (∀ s ∈ seeds, ∀ x ∈ nearest s, x.1 < n) → ∃ r, resampleAll cfg n nearest seeds mem = some r := by
  induction seeds with
  | nil => intro mem _ _ _; exact ⟨_, rfl⟩
  | cons seed seeds ih =>
    intro mem hu hs hn
    have hseed := hs seed List.mem_cons_self
    have hw := weightAt_isSome hseed (hu.ne_nil hseed)
    have hrest : ∀ mem1 : Mem K, Uniform cfg n L mem1 → ∃ r, resampleAll cfg n nearest seeds mem1 = some r := fun m hm =>
      ih hm (fun s h => hs s (List.mem_cons_of_mem _ h)) (fun s h => hn s (List.mem_cons_of_mem _ h))
    have hone : ∃ mem1 oc, resampleSeed cfg n nearest mem seed = some (mem1, oc) ∧ Uniform cfg n L mem1 := by
      by_cases hpos : 0 < wt mem 0 seed
      · exact ⟨mem, none, by unfold resampleSeed; rw [hw]; simp [hpos], hu⟩
      · obtain ⟨c, hc⟩ : ∃ c, Cell.new cfg n mem seed (nearest seed) = some c := by
          unfold Cell.new
          rw [hw]
          simp only [hd, Bool.false_eq_true, false_and, if_false]
          refine grow_isSome _ _ _ ?_
          intro x hx
          have hxn := hn seed List.mem_cons_self x hx
          rw [weightAt_isSome hxn (hu.ne_nil hxn)]; rfl
        obtain ⟨⟨m, hcell⟩, hin, -⟩ := new_isOrderedCell hc
        have hne : c.members ≠ [] := by rw [hcell.members_eq]; simp
        have hp := sortMembers_perm c
        obtain ⟨avg, havg⟩ := average_isSome (cfg := cfg) (ws := c.sortMembers.members.map mem) L hu.pos
          (by
            intro h0
            have := (hp.map mem).length_eq
            rw [h0] at this
            simp at this
            exact hne (List.length_eq_zero_iff.1 this.symm))
          (by
            intro w hw
            obtain ⟨i, hi, rfl⟩ := List.mem_map.1 hw
            exact hu.length i (hin i (hp.mem_iff.1 hi)).1)
        have hres : ∃ mem1, c.resample cfg mem = some mem1 := by
          unfold Cell.resample
          simp only
          rw [havg]
          exact ⟨_, rfl⟩
        obtain ⟨mem1, hres⟩ := hres
        refine ⟨mem1, some c.sortMembers, ?_, ?_⟩
        · unfold resampleSeed
          rw [hw]
          simp only [if_neg hpos, hc, hres, Option.map_some]
        · exact uniform_of_resample hu hne (fun i hi => (hin i hi).1) hres
    obtain ⟨mem1, oc, h1, hu1⟩ := hone
    obtain ⟨r, hr⟩ := hrest mem1 hu1
    exact ⟨_, by rw [resampleAll, h1]; simp only; rw [hr]; rfl⟩

end Any

/-! ### exact arithmetic -/

variable {D K : Type*} [Zero D] [Field K] [LinearOrder K]

theorem addUp_sum (w : Nat → K) (l : List Nat) : addUp w l = (l.map w).sum := by
  cases l with
  | nil => rfl
  | cons i l =>
    simp only [addUp]
    have : ∀ (l : List Nat) (x : K), l.foldl (fun s j => s + w j) x = x + (l.map w).sum := by
      intro l
      induction l with
      | nil => intro x; simp
      | cons a l ih => intro x; rw [List.foldl_cons, ih, List.map_cons, List.sum_cons, add_assoc]
    rw [this, List.map_cons, List.sum_cons]

/-- `Cell::new` yields a cell as specified, all of whose members are events. -/
theorem new_isCell {cfg : Cfg} {n : Nat} {mem : Mem K} {seed : Nat} {neigh : List (Nat × D)} {c : Cell D K}
    (h : Cell.new cfg n mem seed neigh = some c) :
    (∃ m, IsCell (wt mem 0) seed neigh m c.members c.radius c.weightSum) ∧ (∀ i ∈ c.members, i < n ∧ mem i ≠ []) ∧
      (cfg.debug = true → wt mem 0 seed < 0) := by
  obtain ⟨⟨m, hm⟩, h2, h3⟩ := new_isOrderedCell h
  refine ⟨⟨m, hm.le, hm.members_eq, ?_, hm.radius_eq, hm.enough, ?_, hm.atLeastOne⟩, h2, h3⟩
  · rw [hm.sum_eq, addUp_sum]
  · intro j h1 h2
    rw [← addUp_sum]
    exact hm.shortest j h1 h2

theorem uniform_of_average {cfg : Cfg} {n L : Nat} {mem mem' : Mem K} {members : List Nat}
    (h : Uniform cfg n L mem) (ha : IsCellAverage members mem mem') : Uniform cfg n L mem' :=
  ⟨h.pos, h.single, fun i hi => by rw [ha.length, h.length i hi]⟩

/-- One-at-a-time resampling is a sequence of averages over cells around the seeds. -/
theorem resampleAll_averageSeq {cfg : Cfg} {n L : Nat} {nearest : Nat → List (Nat × D)} (seeds : List Nat) :
    ∀ {mem mem' : Mem K} {cells : List (Cell D K)}, Uniform cfg n L mem →
      resampleAll cfg n nearest seeds mem = some (mem', cells) →
      AverageSeq (cells.map Cell.members) mem mem' ∧ ∀ c ∈ cells, (∀ i ∈ c.members, i < n) ∧
        ∃ seed ∈ seeds, ∃ m, c.members.Perm (seed :: ((nearest seed).take m).map Prod.fst) := by
  induction seeds with
  | nil =>
    intro mem mem' cells _ h
    simp only [resampleAll, Option.some.injEq, Prod.mk.injEq] at h
    obtain ⟨rfl, rfl⟩ := h
    exact ⟨AverageSeq.nil _, by simp⟩
  | cons seed seeds ih =>
    intro mem mem' cells hu h
    rw [resampleAll] at h
    cases hr : resampleSeed cfg n nearest mem seed with
    | none => rw [hr] at h; simp at h
    | some r =>
      obtain ⟨mem1, oc⟩ := r
      rw [hr] at h
      simp only at h
      obtain ⟨⟨m2, cs⟩, hrest, he⟩ := Option.map_eq_some_iff.1 h
      simp only [Prod.mk.injEq] at he
      obtain ⟨rfl, rfl⟩ := he
      obtain ⟨hs, hcase⟩ := resampleSeed_cases hr
      rcases hcase with ⟨-, rfl, rfl⟩ | ⟨-, c, hc, rfl, hres⟩
      · obtain ⟨i1, i2⟩ := ih hu hrest
        refine ⟨by simpa using i1, ?_⟩
        intro c hc
        simp only [Option.toList_none, List.nil_append] at hc
        obtain ⟨a, s, hs, b⟩ := i2 c hc
        exact ⟨a, s, List.mem_cons_of_mem _ hs, b⟩
      · obtain ⟨⟨m, hcell⟩, hin, -⟩ := new_isCell hc
        have hp := sortMembers_perm c
        have hav : IsCellAverage c.sortMembers.members mem mem1 := by
          have := resample_isCellAverage (by rw [hcell.members_eq]; simp)
            (hu.fits (fun i hi => (hin i hi).1)) hres
          refine ⟨fun i hi => this.outside i (fun h => hi (hp.mem_iff.2 h)), this.length, ?_⟩
          intro i hi k
          rw [this.mean i (hp.mem_iff.1 hi) k, hp.length_eq, (hp.map _).sum_eq]
        obtain ⟨i1, i2⟩ := ih (uniform_of_average hu hav) hrest
        refine ⟨AverageSeq.cons hav i1, ?_⟩
        intro c' hc'
        simp only [Option.toList_some, List.singleton_append, List.mem_cons] at hc'
        rcases hc' with rfl | hc'
        · refine ⟨fun i hi => (hin i (hp.mem_iff.1 hi)).1, seed, List.mem_cons_self, m, ?_⟩
          rw [← hcell.members_eq]; exact hp
        · obtain ⟨a, s, hs, b⟩ := i2 c' hc'
          exact ⟨a, s, List.mem_cons_of_mem _ hs, b⟩

end Cres

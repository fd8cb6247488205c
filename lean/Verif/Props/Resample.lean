import Verif.Proofs.ResampleGoals
import Verif.Props.Search
import Mathlib.Algebra.Order.Field.Rat
import Mathlib.Data.Rat.Defs
import Mathlib.Tactic.NormNum
import Mathlib.Tactic.IntervalCases

/-!
Theorems about cells, seeds and resampling, on one thread and for all interleavings: C01-C09, C16, C17.

Events are numbered `0, …, n - 1`. `mem i` are the weights of event `i`. `nearest s` is what the neighbour search
delivers for the seed `s`. `Uniform cfg n L mem` says that each event has `L ≥ 1` weights (`L = 1` without the feature
`multiweight`), as is the case for all events read from files with the same selection of weights.
-/

set_option linter.unusedSectionVars false

namespace Cres

open Spec

/-! ### The running example: four events on a line -/

/-- Positions of the events in the examples. -/
def exPos (pos : List ℤ) (i : Nat) : ℤ := pos.getD i 0

/-- Distance of the events in the examples. -/
def exDist (pos : List ℤ) (i j : Nat) : ℤ := lineDist (exPos pos i) (exPos pos j)

/-- Neighbour search in the examples: the naive search with practically no size limit. -/
def exNearest (pos : List ℤ) : Nat → List (Nat × ℤ) := naiveNearest firstMin pos.length (exDist pos) 1000

/-- Weights in the examples, one per event. -/
def exMem (ws : List ℚ) : Mem ℚ := fun i => [ws.getD i 0]

theorem exDist_metric (pos : List ℤ) : IsMetricLike (exDist pos) :=
  ⟨fun _ _ => lineDist_metric.symm _ _, fun _ _ _ => lineDist_metric.triangle _ _ _⟩

theorem exNearest_spec (pos : List ℤ) (q : Nat) (hq : q < pos.length) :
    IsNeighbourList (exDist pos) (List.range pos.length) q 1000 (exNearest pos q) := by
  have h := C11_naive_search_exact firstMin_isMin pos.length (exDist pos) 1000 q hq
  have hsymm : (fun x y => exDist pos y x) = exDist pos := by funext x y; exact (exDist_metric pos).symm y x
  rw [hsymm] at h
  exact h

theorem exUniform (ws : List ℚ) (debug : Bool) (n : Nat) : Uniform ⟨false, debug⟩ n 1 (exMem ws) :=
  ⟨by norm_num, fun _ => rfl, fun _ _ => rfl⟩

theorem exValid (pos : List ℤ) (seeds : List Nat) (h : ∀ s ∈ seeds, s < pos.length) :
    ValidInput pos.length (exNearest pos) seeds :=
  validInput_of_neighbourList h (fun s hs => exNearest_spec pos s (h s hs))

/-! ## C02: averaging one cell -/

section C02

variable {D K : Type*} [Zero D] [Field K] [LinearOrder K]

/-- **C02**: `Cell::resample` gives every member, for every weight, the mean over the members and changes nothing else. -/
theorem C02_cell_mean {cfg : Cfg} {n L : Nat} {mem : Mem K} (hu : Uniform cfg n L mem) (c : Cell D K)
    (hne : c.members ≠ []) (hlt : ∀ i ∈ c.members, i < n) :
    ∃ mem', c.resample cfg mem = some mem' ∧ IsCellAverage c.members mem mem' := by
  have hp := sortMembers_perm c
  have hne' : c.sortMembers.members ≠ [] := by
    intro h0; rw [h0] at hp; exact hne hp.nil_eq.symm
  obtain ⟨avg, havg⟩ := average_isSome (cfg := cfg) (ws := c.sortMembers.members.map mem) L hu.pos
    (by simpa using hne')
    (by
      intro w hw
      obtain ⟨i, hi, rfl⟩ := List.mem_map.1 hw
      exact hu.length i (hlt i (hp.mem_iff.1 hi)))
  have : c.resample cfg mem = some (fun i => if i ∈ c.sortMembers.members then avg else mem i) := by
    unfold Cell.resample
    simp only
    rw [havg]; rfl
  exact ⟨_, this, resample_isCellAverage hne (hu.fits hlt) this⟩

/-- **C02**, without assumption on the numbers of weights: whenever `Cell::resample` returns, it has averaged. (It panics
for members with different numbers of weights.) -/
theorem C02_cell_mean_of_return {cfg : Cfg} {mem mem' : Mem K} (c : Cell D K) (hne : c.members ≠ [])
    (hb : cfg.multi = false → ∀ i ∈ c.members, (mem i).length = 1) (h : c.resample cfg mem = some mem') :
    IsCellAverage c.members mem mem' :=
  resample_isCellAverage hne (fun hm w hw => by
    obtain ⟨i, hi, rfl⟩ := List.mem_map.1 hw
    exact hb hm i hi) h

-- three events with two weights each
example : (Cell.resample ⟨true, false⟩ (⟨[2, 0], 1, 0⟩ : Cell ℤ ℚ)
    (fun i => [[-1, 3], [7, 8], [3, 0]].getD i [])).map (fun m => [m 0, m 1, m 2]) =
    some [[1, 3/2], [7, 8], [1, 3/2]] := by decide +kernel

end C02

/-! ## C03: construction of a cell -/

section C03

variable {D K : Type*} [Zero D] [LinearOrder D] [Field K] [LinearOrder K]

/-- **C03**: for a seed with negative weight `Cell::new` succeeds. The cell consists of the seed and the first `m`
neighbours in the order of the search; every shorter prefix has negative weight, and the cell has non-negative weight
or contains all neighbours. `weight_sum` is the sum of the weights. -/
theorem C03_cell {cfg : Cfg} {n L : Nat} {mem : Mem K} (hu : Uniform cfg n L mem) {nearest : Nat → List (Nat × D)}
    {seed : Nat} (hv : ValidInput n nearest [seed]) (hneg : wt mem 0 seed < 0) :
    ∃ c : Cell D K, Cell.new cfg n mem seed (nearest seed) = some c ∧ ∃ m ≤ (nearest seed).length,
      c.members = seed :: ((nearest seed).take m).map Prod.fst ∧
      c.weightSum = (c.members.map (wt mem 0)).sum ∧
      (∀ j < m, ((seed :: ((nearest seed).take j).map Prod.fst).map (wt mem 0)).sum < 0) ∧
      (0 ≤ c.weightSum ∨ m = (nearest seed).length) ∧
      c.members.Nodup := by
  have hs := hv.seeds_lt seed (by simp)
  have hw : weightAt n mem seed = some (wt mem 0 seed) := weightAt_isSome hs (hu.ne_nil hs)
  obtain ⟨c, hc⟩ := grow_isSome (D := D) (weightAt n mem) (nearest seed) ⟨[seed], 0, wt mem 0 seed⟩ (by
    intro x hx
    have hx := hv.neighbours_lt seed (by simp) x hx
    rw [weightAt_isSome hx (hu.ne_nil hx)]; rfl)
  have hnew : Cell.new cfg n mem seed (nearest seed) = some c := by
    unfold Cell.new
    rw [hw]
    simp only
    rw [if_neg (by simp [hneg])]
    exact hc
  refine ⟨c, hnew, ?_⟩
  obtain ⟨⟨m, hm⟩, -, -⟩ := new_isCell hnew
  refine ⟨m, hm.le, hm.members_eq, hm.sum_eq, ?_, hm.enough.symm, ?_⟩
  · intro j hj
    by_cases hj0 : j = 0
    · subst hj0; simpa using hneg
    · exact hm.shortest j (by omega) hj
  · rw [hm.members_eq]
    exact (hv.neighbours_nodup seed (by simp)).sublist (List.Sublist.cons_cons _ ((List.take_sublist _ _).map _))

/-- **C03**, with a correct neighbour search: the radius is the largest distance of a member from the seed (0 if there is
only the seed) and at most the maximum cell size. Every cell that `Cell::new` returns is covered, whatever the weight
of the seed. -/
theorem C03_radius {cfg : Cfg} {n : Nat} {mem : Mem K} {dist : Nat → Nat → D} {maxDist : D} {seed : Nat}
    {neighbours : List (Nat × D)} (hn : IsNeighbourList dist (List.range n) seed maxDist neighbours) {c : Cell D K}
    (h : Cell.new cfg n mem seed neighbours = some c) :
    seed ∈ c.members ∧ c.members.Nodup ∧ (∀ i ∈ c.members, i ≠ seed → dist seed i ≤ c.radius) ∧
      ((c.members = [seed] ∧ c.radius = 0) ∨
        ∃ i ∈ c.members, i ≠ seed ∧ c.radius = dist seed i ∧ c.radius ≤ maxDist) ∧
      -- a neighbour is left out only if all members are at least as close
      (∀ i < n, i ∉ c.members → dist seed i ≤ maxDist → ∀ j ∈ c.members, j ≠ seed → dist seed j ≤ dist seed i) := by
  obtain ⟨⟨m, hm⟩, -, -⟩ := new_isCell h
  obtain ⟨h1, h2, h3⟩ := isCell_radius hm hn
  refine ⟨by rw [hm.members_eq]; simp, h1, h2, h3, ?_⟩
  intro i hi hni hd j hj hjs
  rw [hm.members_eq] at hni hj
  simp only [List.mem_cons, not_or] at hni
  have hin := (hn.mem i).2 ⟨by simpa using hi, hni.1, hd⟩
  rcases List.mem_cons.1 hj with hj | hj
  · exact absurd hj hjs
  · obtain ⟨x, hx, rfl⟩ := List.mem_map.1 hj
    obtain ⟨y, hy, rfl⟩ := List.mem_map.1 hin
    have hy' : y ∈ neighbours.drop m := by
      rw [← List.take_append_drop m neighbours] at hy
      rcases List.mem_append.1 hy with hy | hy
      · exact absurd (List.mem_map.2 ⟨y, hy, rfl⟩) hni.2
      · exact hy
    have hs := hn.sorted
    rw [← List.take_append_drop m neighbours] at hs
    have := (List.pairwise_append.1 hs).2.2 x hx y hy'
    rwa [hn.dist_eq x (List.mem_of_mem_take hx), hn.dist_eq y (List.mem_of_mem_drop hy')] at this

example : Cell.new ⟨false, true⟩ 4 (exMem [-3, 1, 1, 4]) 0 (exNearest [0, 4, -6, 7] 0) =
    some ⟨[0, 1, 2, 3], 7, 3⟩ := by decide +kernel

example : Cell.new ⟨false, true⟩ 4 (exMem [-2, 1, 1, 4]) 0 (exNearest [0, 4, -6, 7] 0) =
    some ⟨[0, 1, 2], 6, 0⟩ := by decide +kernel

example := (C03_cell (exUniform [-2, 1, 1, 4] true 4) (exValid [0, 4, -6, 7] [0] (by simp)) (by norm_num [wt, exMem]))

end C03

section C03'

variable {D K : Type*} [Zero D] [Add K] [Zero K] [One K] [Mul K] [Div K] [NatCast K] [LinearOrder K]

/-- **C03** for any arithmetic, in particular if sums are rounded: the same with sums formed in the order of the search. -/
theorem C03_cell_any {cfg : Cfg} {n L : Nat} {mem : Mem K} (hu : Uniform cfg n L mem) {nearest : Nat → List (Nat × D)}
    {seed : Nat} (hv : ValidInput n nearest [seed]) (hneg : wt mem 0 seed < 0) :
    ∃ c : Cell D K, Cell.new cfg n mem seed (nearest seed) = some c ∧ ∃ m ≤ (nearest seed).length,
      c.members = seed :: ((nearest seed).take m).map Prod.fst ∧
      c.weightSum = addUp (wt mem 0) c.members ∧
      (∀ j < m, addUp (wt mem 0) (seed :: ((nearest seed).take j).map Prod.fst) < 0) ∧
      (0 ≤ c.weightSum ∨ m = (nearest seed).length) ∧
      c.members.Nodup := by
  have hs := hv.seeds_lt seed (by simp)
  have hw : weightAt n mem seed = some (wt mem 0 seed) := weightAt_isSome hs (hu.ne_nil hs)
  obtain ⟨c, hc⟩ := grow_isSome (D := D) (weightAt n mem) (nearest seed) ⟨[seed], 0, wt mem 0 seed⟩ (by
    intro x hx
    have hx := hv.neighbours_lt seed (by simp) x hx
    rw [weightAt_isSome hx (hu.ne_nil hx)]; rfl)
  have hnew : Cell.new cfg n mem seed (nearest seed) = some c := by
    unfold Cell.new
    rw [hw]
    simp only
    rw [if_neg (by rintro ⟨-, h⟩; exact h hneg)]
    exact hc
  obtain ⟨⟨m, hm⟩, -, -⟩ := new_isOrderedCell hnew
  refine ⟨c, hnew, m, hm.le, hm.members_eq, hm.sum_eq, ?_, hm.enough.symm, ?_⟩
  · intro j hj
    rcases Nat.eq_zero_or_pos j with rfl | hj0
    · simpa [addUp] using hneg
    · exact hm.shortest j hj0 hj
  · rw [hm.members_eq]
    exact (hv.neighbours_nodup seed (by simp)).sublist (List.Sublist.cons_cons _ ((List.take_sublist _ _).map _))

end C03'

/-! ## C01 and C07: what is conserved and what can only decrease -/

section C01

variable {D K : Type*} [Zero D] [Field K] [LinearOrder K] [IsStrictOrderedRing K]

/-- **C01** on one thread: every weight sum is conserved. -/
theorem C01_weight_sums_conserved {cfg : Cfg} {n L : Nat} {nearest : Nat → List (Nat × D)} {seeds : List Nat}
    (hv : ValidInput n nearest seeds) {mem mem' : Mem K} (hu : Uniform cfg n L mem) {cells : List (Cell D K)}
    (h : resampleAll cfg n nearest seeds mem = some (mem', cells)) (k : Nat) :
    weightTotal n mem' k = weightTotal n mem k := by
  obtain ⟨h1, h2⟩ := resampleAll_cellsOK hv hu h
  exact averageSeq_total h1 h2 k

/-- **C01** for all interleavings: every weight sum is conserved. -/
theorem C01_weight_sums_conserved_parallel {cfg : Cfg} {n L : Nat} {nearest : Nat → List (Nat × D)}
    {seeds : List Nat} (hv : ValidInput n nearest seeds) {mem : Mem K} (hu : Uniform cfg n L mem) {s : State D K}
    (h : Reachable cfg n nearest seeds mem s) (hf : s.Finished seeds) (k : Nat) :
    weightTotal n s.mem k = weightTotal n mem k := by
  obtain ⟨A, hA⟩ := inv_reachable hv hu h
  obtain ⟨h1, h2⟩ := inv_averageSeq hv hu hA
  rw [finished_mem hA hf]
  exact averageSeq_total h1 h2 k

/-- Resampling does not panic in release builds, so the theorems about its result are not empty. -/
theorem C01_resampling_returns {cfg : Cfg} (hd : cfg.debug = false) {n L : Nat} {nearest : Nat → List (Nat × D)}
    {seeds : List Nat} (hv : ValidInput n nearest seeds) {mem : Mem K} (hu : Uniform cfg n L mem) :
    ∃ r, resampleAll cfg n nearest seeds mem = some r :=
  resampleAll_isSome hd seeds hu hv.seeds_lt hv.neighbours_lt

/-- **C07** on one thread: negative contribution, sum of absolute values and sum of squares do not increase. -/
theorem C07_no_increase {cfg : Cfg} {n L : Nat} {nearest : Nat → List (Nat × D)} {seeds : List Nat}
    (hv : ValidInput n nearest seeds) {mem mem' : Mem K} (hu : Uniform cfg n L mem) {cells : List (Cell D K)}
    (h : resampleAll cfg n nearest seeds mem = some (mem', cells)) (k : Nat) :
    negativeTotal n mem' k ≤ negativeTotal n mem k ∧ absTotal n mem' k ≤ absTotal n mem k ∧
      squareTotal n mem' k ≤ squareTotal n mem k := by
  obtain ⟨h1, h2⟩ := resampleAll_cellsOK hv hu h
  exact ⟨averageSeq_jensen h1 h2 (fun x => max (-x) 0) k jensen_neg, averageSeq_jensen h1 h2 (fun x => |x|) k jensen_abs,
    averageSeq_jensen h1 h2 (fun x => x ^ 2) k jensen_sq⟩

/-- **C07** for all interleavings. -/
theorem C07_no_increase_parallel {cfg : Cfg} {n L : Nat} {nearest : Nat → List (Nat × D)}
    {seeds : List Nat} (hv : ValidInput n nearest seeds) {mem : Mem K} (hu : Uniform cfg n L mem) {s : State D K}
    (h : Reachable cfg n nearest seeds mem s) (hf : s.Finished seeds) (k : Nat) :
    negativeTotal n s.mem k ≤ negativeTotal n mem k ∧ absTotal n s.mem k ≤ absTotal n mem k ∧
      squareTotal n s.mem k ≤ squareTotal n mem k := by
  obtain ⟨A, hA⟩ := inv_reachable hv hu h
  obtain ⟨h1, h2⟩ := inv_averageSeq hv hu hA
  rw [finished_mem hA hf]
  exact ⟨averageSeq_jensen h1 h2 (fun x => max (-x) 0) k jensen_neg, averageSeq_jensen h1 h2 (fun x => |x|) k jensen_abs,
    averageSeq_jensen h1 h2 (fun x => x ^ 2) k jensen_sq⟩

/-- The weights of the `n` events after resampling on one thread, for examples. -/
def exRun (cfg : Cfg) (pos : List ℤ) (seeds : List Nat) (ws : List ℚ) : Option (List (Weights ℚ) × List (List Nat)) :=
  (resampleAll cfg pos.length (exNearest pos) seeds (exMem ws)).map
    (fun r => ((List.range pos.length).map r.1, r.2.map Cell.members))

-- overlapping cells
example : exRun ⟨false, false⟩ [0, 1, 10, 12] [2, 0] [-3, 1, -2, 5] =
    some ([[1/4], [1/4], [1/4], [1/4]], [[2, 3], [0, 1, 2, 3]]) := by
  decide +kernel

end C01

/-! ## C04 and C05: no negative weights remain -/

section C04

variable {D K : Type*} [Zero D] [LinearOrder D] [Field K] [LinearOrder K] [IsStrictOrderedRing K]

/-- **C04**: on one thread and with non-negative total weight, no negative weight is left if the neighbour search finds all
other events, in whatever order, for every order of seeds that includes all negative-weight events. -/
theorem C04_all_neighbours {cfg : Cfg} {n L : Nat} {nearest : Nat → List (Nat × D)} {seeds : List Nat}
    (hv : ValidInput n nearest seeds) (hall : ∀ s ∈ seeds, ∀ i, i ∈ (nearest s).map Prod.fst ↔ i < n ∧ i ≠ s)
    {mem mem' : Mem K} (hu : Uniform cfg n L mem) (htot : 0 ≤ weightTotal n mem 0)
    (hseeds : ∀ i < n, wt mem 0 i < 0 → i ∈ seeds) {cells : List (Cell D K)}
    (h : resampleAll cfg n nearest seeds mem = some (mem', cells)) : ∀ i < n, 0 ≤ wt mem' 0 i :=
  resampleAll_neg seeds hu htot hv.neighbours_nodup hall hseeds h

/-- **C04**: on one thread, without limit on the cell size and with non-negative total weight, no negative weight is
left, for every order of seeds that includes all negative-weight events and every correct neighbour search. -/
theorem C04_no_negative_weights {cfg : Cfg} {n L : Nat} {dist : Nat → Nat → D} {maxDist : D}
    (hmax : ∀ i j, i < n → j < n → dist i j ≤ maxDist) {nearest : Nat → List (Nat × D)} {seeds : List Nat}
    (hs : ∀ s ∈ seeds, s < n) (hn : ∀ s ∈ seeds, IsNeighbourList dist (List.range n) s maxDist (nearest s))
    {mem mem' : Mem K} (hu : Uniform cfg n L mem) (htot : 0 ≤ weightTotal n mem 0)
    (hseeds : ∀ i < n, wt mem 0 i < 0 → i ∈ seeds) {cells : List (Cell D K)}
    (h : resampleAll cfg n nearest seeds mem = some (mem', cells)) : ∀ i < n, 0 ≤ wt mem' 0 i := by
  refine C04_all_neighbours (validInput_of_neighbourList hs hn) ?_ hu htot hseeds h
  intro s hs' i
  rw [(hn s hs').mem i, List.mem_range]
  constructor
  · rintro ⟨h1, h2, -⟩; exact ⟨h1, h2⟩
  · rintro ⟨h1, h2⟩; exact ⟨h1, h2, hmax s i (hs s hs') h1⟩

end C04

section

variable {K : Type*} [Zero K] [One K] [Add K] [Mul K] [Div K] [Neg K] [NatCast K] [LinearOrder K]

theorem selectSeeds_some {sort : (Nat → K) → List Nat → List Nat} {strategy : Strategy} {cfg : Cfg} {n L : Nat}
    {mem : Mem K} (hu : Uniform cfg n L mem) :
    selectSeeds sort strategy n mem = some (match strategy with
      | .next => (List.range n).filter (fun i => decide (wt mem 0 i < 0))
      | .mostNegative => sort (wt mem 0) ((List.range n).filter (fun i => decide (wt mem 0 i < 0)))
      | .leastNegative => sort (fun i => - wt mem 0 i) ((List.range n).filter (fun i => decide (wt mem 0 i < 0)))) := by
  have hw : (fun i => ((mem i).central).getD 0) = wt mem 0 := by
    funext i
    unfold wt Weights.central
    cases mem i <;> rfl
  have hm : ∃ l, (List.range n).mapM (fun i => weightAt n mem i) = some l := by
    have : ∀ l : List Nat, (∀ i ∈ l, i < n) → ∃ r, l.mapM (fun i => weightAt n mem i) = some r := by
      intro l
      induction l with
      | nil => intro _; exact ⟨[], rfl⟩
      | cons a l ih =>
        intro h
        obtain ⟨r, hr⟩ := ih (fun i hi => h i (List.mem_cons_of_mem _ hi))
        have ha := h a List.mem_cons_self
        rw [List.mapM_cons, weightAt_isSome ha (hu.ne_nil ha), hr]
        exact ⟨_, rfl⟩
    exact this _ (fun i hi => List.mem_range.1 hi)
  obtain ⟨l, hl⟩ := hm
  have hw' : ∀ i, ((mem i).central).getD 0 = wt mem 0 i := fun i => congrFun hw i
  unfold selectSeeds
  rw [hl]
  simp only [hw']
  cases strategy <;> rfl

/-- The seeds are the events with negative weights. -/
theorem selectSeeds_mem {sort : (Nat → K) → List Nat → List Nat} (hsort : SortsByKey sort) (strategy : Strategy) {cfg : Cfg}
    {n L : Nat} {mem : Mem K} (hu : Uniform cfg n L mem) :
    ∃ seeds, selectSeeds sort strategy n mem = some seeds ∧ seeds.Nodup ∧ ∀ i, i ∈ seeds ↔ i < n ∧ wt mem 0 i < 0 := by
  refine ⟨_, selectSeeds_some hu, ?_⟩
  have hmem : ∀ i, i ∈ (List.range n).filter (fun i => decide (wt mem 0 i < 0)) ↔ i < n ∧ wt mem 0 i < 0 := by
    intro i; simp
  have hnd : ((List.range n).filter (fun i => decide (wt mem 0 i < 0))).Nodup := List.nodup_range.filter _
  cases strategy with
  | next => exact ⟨hnd, hmem⟩
  | mostNegative =>
    obtain ⟨h1, -⟩ := hsort (wt mem 0) ((List.range n).filter (fun i => decide (wt mem 0 i < 0)))
    exact ⟨h1.nodup_iff.2 hnd, fun i => by rw [h1.mem_iff]; exact hmem i⟩
  | leastNegative =>
    obtain ⟨h1, -⟩ := hsort (fun i => - wt mem 0 i) ((List.range n).filter (fun i => decide (wt mem 0 i < 0)))
    exact ⟨h1.nodup_iff.2 hnd, fun i => by rw [h1.mem_iff]; exact hmem i⟩

end

section C16

variable {K : Type*} [Field K] [LinearOrder K] [IsStrictOrderedRing K]

/-- **C16**: seed selection returns each negative-weight event exactly once and nothing else; ordered ascending by weight
for `MostNegative`, descending for `LeastNegative`, and as in the input for `Next`. -/
theorem C16_seeds {sort : (Nat → K) → List Nat → List Nat} (hsort : SortsByKey sort) (strategy : Strategy) {cfg : Cfg}
    {n L : Nat} {mem : Mem K} (hu : Uniform cfg n L mem) :
    ∃ seeds, selectSeeds sort strategy n mem = some seeds ∧ seeds.Nodup ∧
      (∀ i, i ∈ seeds ↔ i < n ∧ wt mem 0 i < 0) ∧
      (match strategy with
        | .mostNegative => seeds.Pairwise (fun a b => wt mem 0 a ≤ wt mem 0 b)
        | .leastNegative => seeds.Pairwise (fun a b => wt mem 0 b ≤ wt mem 0 a)
        | .next => seeds.Pairwise (fun a b => a < b)) := by
  refine ⟨_, selectSeeds_some hu, ?_⟩
  have hmem : ∀ i, i ∈ (List.range n).filter (fun i => decide (wt mem 0 i < 0)) ↔ i < n ∧ wt mem 0 i < 0 := by
    intro i; simp
  have hnd : ((List.range n).filter (fun i => decide (wt mem 0 i < 0))).Nodup := List.nodup_range.filter _
  cases strategy with
  | next => exact ⟨hnd, hmem, List.pairwise_lt_range.filter _⟩
  | mostNegative =>
    obtain ⟨h1, h2⟩ := hsort (wt mem 0) ((List.range n).filter (fun i => decide (wt mem 0 i < 0)))
    exact ⟨h1.nodup_iff.2 hnd, fun i => by rw [h1.mem_iff]; exact hmem i, h2⟩
  | leastNegative =>
    obtain ⟨h1, h2⟩ := hsort (fun i => - wt mem 0 i) ((List.range n).filter (fun i => decide (wt mem 0 i < 0)))
    exact ⟨h1.nodup_iff.2 hnd, fun i => by rw [h1.mem_iff]; exact hmem i, h2.imp (fun h => neg_le_neg_iff.1 h)⟩

/-- A sort function that meets the assumption. -/
def keySort (key : Nat → K) (l : List Nat) : List Nat := l.insertionSort (fun a b => key a ≤ key b)

theorem keySort_sorts : SortsByKey (keySort : (Nat → K) → List Nat → List Nat) := by
  intro key l
  have : Std.Total (fun a b : Nat => key a ≤ key b) := ⟨fun a b => le_total _ _⟩
  have : IsTrans Nat (fun a b => key a ≤ key b) := ⟨fun a b c h1 h2 => le_trans h1 h2⟩
  exact ⟨List.perm_insertionSort _ _, List.pairwise_insertionSort _ _⟩

example : selectSeeds keySort .mostNegative 5 (exMem [-1, 2, -3, 0, -2]) = some [2, 4, 0] := by decide +kernel
example : selectSeeds keySort .leastNegative 5 (exMem [-1, 2, -3, 0, -2]) = some [0, 4, 2] := by decide +kernel
example : selectSeeds keySort .next 5 (exMem [-1, 2, -3, 0, -2]) = some [0, 2, 4] := by decide +kernel

end C16

section C04'

variable {D K : Type*} [AddCommGroup D] [LinearOrder D] [IsOrderedAddMonoid D] [Field K] [LinearOrder K]
  [IsStrictOrderedRing K]

/-- **C04** for the whole resampler on one thread, with the tree search or the naive search, any strategy and any
metric: if the total weight is not negative and all distances are below the default limit (`f64::MAX`), it returns (in
release builds) and no event has negative weight afterwards. -/
theorem C04_resampler {cfg : Cfg} (hd : cfg.debug = false) {n L : Nat} (hn : n ≤ usizeMax) {dist : Nat → Nat → D}
    (hm : IsMetricLike dist) {maxDist : D} (hmax : ∀ i j, i < n → j < n → dist i j ≤ maxDist)
    {psort sort : SortOracle Nat D} (h1 : SortsByDistance psort) (h2 : SortsByDistance sort) {minPos : MinOracle D}
    (hmin : IsMinOracle minPos) (cornerPt : Nat) (f64Max : D) {nearest : Nat → List (Nat × D)}
    (hnearest : nearest = treeNearest psort sort cornerPt f64Max n dist maxDist ∨
      nearest = naiveNearest minPos n dist maxDist)
    {ksort : (Nat → K) → List Nat → List Nat} (hks : SortsByKey ksort) (strategy : Strategy)
    {mem : Mem K} (hu : Uniform cfg n L mem) (htot : 0 ≤ weightTotal n mem 0) :
    ∃ mem' cells, resampler cfg ksort strategy n nearest mem = some (mem', cells) ∧ ∀ i < n, 0 ≤ wt mem' 0 i := by
  obtain ⟨seeds, hs, -, hmem, -⟩ := C16_seeds hks strategy hu
  have hlist : ∀ q < n, IsNeighbourList dist (List.range n) q maxDist (nearest q) := by
    intro q hq
    rcases hnearest with rfl | rfl
    · exact C10_tree_search_exact h1 h2 cornerPt f64Max (List.range n) (by simpa using hn) hm maxDist q
    · have h := C11_naive_search_exact hmin n dist maxDist q hq
      have hsymm : (fun x y => dist y x) = dist := by funext x y; exact hm.symm y x
      rwa [hsymm] at h
  have hlt : ∀ s ∈ seeds, s < n := fun s h => ((hmem s).1 h).1
  have hnl := fun s h => hlist s (hlt s h)
  obtain ⟨⟨mem', cells⟩, hr⟩ := C01_resampling_returns hd (validInput_of_neighbourList hlt hnl) hu
  refine ⟨mem', cells, ?_, C04_no_negative_weights hmax hlt hnl hu htot (fun i hi hw => (hmem i).2 ⟨hi, hw⟩) hr⟩
  unfold resampler
  rw [hs]
  exact hr

end C04'

-- the hypotheses can be met
example : ∃ mem' cells, resampler ⟨false, false⟩ keySort .mostNegative 4
    (naiveNearest firstMin 4 (exDist [0, 1, 10, 12]) 1000) (exMem [-3, 1, -2, 5]) = some (mem', cells) ∧
      ∀ i < 4, 0 ≤ wt mem' 0 i :=
  C04_resampler rfl (by simp [usizeMax]) (exDist_metric _)
    (by intro i j hi hj; interval_cases i <;> interval_cases j <;> decide) stableSort_sorts stableSort_sorts
    firstMin_isMin 3 1000 (Or.inr rfl) keySort_sorts .mostNegative (exUniform _ _ _)
    (by norm_num [weightTotal, wt, exMem, Finset.sum_range_succ])

/-! ## C05: races -/

section C05

/-- The claim of C05 for the example distance and the given build: no negative weights are left after parallel
resampling, for any interleaving. -/
def C05_claim (cfg : Cfg) : Prop :=
  ∀ (pos : List ℤ) (ws : List ℚ) (seeds : List Nat) (s : State ℤ ℚ),
    (∀ i < pos.length, wt (exMem ws) 0 i < 0 ↔ i ∈ seeds) → (∀ i ∈ seeds, i < pos.length) → seeds.Nodup →
    (∀ i j, i < pos.length → j < pos.length → exDist pos i j ≤ 1000) →
    0 ≤ weightTotal pos.length (exMem ws) 0 →
    Reachable cfg pos.length (exNearest pos) seeds (exMem ws) s → s.Finished seeds →
    ∀ i < pos.length, 0 ≤ wt s.mem 0 i

/-- The interleaving of the counterexample: both cells are built before either is averaged. -/
def raceSchedule : List Nat := [0, 0, 0, 1, 1, 1] ++ List.replicate 6 0 ++ List.replicate 6 1

/-- **C05 is false**: two seeds at −1 and 1 with weight −1 both see the event at 0 with weight 1 and build a cell from it.
After the first cell has been averaged the event at 0 has weight 0, and averaging the second cell leaves weight −1/2. -/
theorem C05_violated : ¬ C05_claim ⟨false, false⟩ := by
  intro h
  have hrun : ∃ s, runSchedule ⟨false, false⟩ 4 (exNearest [-1, 1, 0, 10]) [0, 1] raceSchedule
      (State.init (exMem [-1, -1, 1, 2])) = some s ∧ s.tasks 0 = .done (some ⟨[0, 2], 1, 0⟩) ∧
        s.tasks 1 = .done (some ⟨[1, 2], 1, 0⟩) ∧ s.mem 1 = [-1/2] := by
    have : (runSchedule ⟨false, false⟩ 4 (exNearest [-1, 1, 0, 10]) [0, 1] raceSchedule
      (State.init (exMem [-1, -1, 1, 2]))).map (fun s => (s.tasks 0, s.tasks 1, s.mem 1)) =
      some (.done (some ⟨[0, 2], 1, 0⟩), .done (some ⟨[1, 2], 1, 0⟩), [-1/2]) := by decide +kernel
    cases hr : runSchedule ⟨false, false⟩ 4 (exNearest [-1, 1, 0, 10]) [0, 1] raceSchedule
      (State.init (exMem [-1, -1, 1, 2])) with
    | none => rw [hr] at this; simp at this
    | some s =>
      rw [hr] at this
      simp only [Option.map_some, Option.some.injEq, Prod.mk.injEq] at this
      exact ⟨s, rfl, this⟩
  obtain ⟨s, hr, h0, h1, hm⟩ := hrun
  have hreach := runSchedule_reachable (mem := exMem [-1, -1, 1, 2]) _ Reachable.init hr
  have := h [-1, 1, 0, 10] [-1, -1, 1, 2] [0, 1] s
    (by intro i hi; simp only [List.length_cons, List.length_nil] at hi; interval_cases i <;> norm_num [wt, exMem])
    (by simp) (by decide)
    (by
      intro i j hi hj
      simp only [List.length_cons, List.length_nil] at hi hj
      interval_cases i <;> interval_cases j <;> decide)
    (by norm_num [weightTotal, wt, exMem, Finset.sum_range_succ])
    hreach
    (by
      intro t ht
      simp only [List.length_cons, List.length_nil] at ht
      interval_cases t
      · exact ⟨_, h0⟩
      · exact ⟨_, h1⟩)
    1 (by simp)
  rw [wt, hm] at this
  norm_num at this

/-- The same happens with the feature `multiweight`. -/
theorem C05_violated_multiweight : ∃ sched, (runSchedule ⟨true, false⟩ 4 (exNearest [-1, 1, 0, 10]) [0, 1] sched
    (State.init (exMem [-1, -1, 1, 2]))).map (fun s => (s.tasks 0, s.tasks 1, s.mem 1)) =
      some (.done (some ⟨[0, 2], 1, 0⟩), .done (some ⟨[1, 2], 1, 0⟩), [-1/2]) :=
  ⟨[0, 0, 0, 1, 1, 1] ++ List.replicate 8 0 ++ List.replicate 8 1, by decide +kernel⟩

section

variable {D K : Type*} [Zero D] [Add K] [Zero K] [One K] [Mul K] [Div K] [NatCast K] [LinearOrder K]

/-- **C05, partial**: with one worker thread, i.e. for schedules that process the seeds one after the other, parallel
resampling computes the same weights and the same cells as the sequential description, for any arithmetic. What is missing, because it is
false, is the guarantee of C04 for more than one thread. -/
theorem C05_one_thread_partial {cfg : Cfg} {n L : Nat} {nearest : Nat → List (Nat × D)} {seeds : List Nat}
    (hv : ValidInput n nearest seeds) {mem : Mem K} (hu : Uniform cfg n L mem) (ks : List Nat)
    (hks : ks.length = seeds.length) {s : State D K}
    (h : runSchedule cfg n nearest seeds (serialSchedule 0 ks) (State.init mem) = some s) (hf : s.Finished seeds) :
    resampleAll cfg n nearest seeds mem = some (s.mem, s.log) :=
  serial_run hv hu ks 0 (by omega) Reachable.init (by simp [resampleAll, State.init]) (by intro t ht; omega)
    (by intro t _; rfl) h hf

end

variable {D K : Type*} [Zero D] [LinearOrder D] [Field K] [LinearOrder K] [IsStrictOrderedRing K]

/-- **C05, partial**: one thread removes all negative weights. -/
theorem C05_one_thread_no_negative_partial {cfg : Cfg} {n L : Nat} {dist : Nat → Nat → D} {maxDist : D}
    (hmax : ∀ i j, i < n → j < n → dist i j ≤ maxDist) {nearest : Nat → List (Nat × D)} {seeds : List Nat}
    (hs : ∀ s ∈ seeds, s < n) (hn : ∀ s ∈ seeds, IsNeighbourList dist (List.range n) s maxDist (nearest s))
    {mem : Mem K} (hu : Uniform cfg n L mem) (htot : 0 ≤ weightTotal n mem 0)
    (hseeds : ∀ i < n, wt mem 0 i < 0 → i ∈ seeds) (ks : List Nat) (hks : ks.length = seeds.length) {s : State D K}
    (h : runSchedule cfg n nearest seeds (serialSchedule 0 ks) (State.init mem) = some s) (hf : s.Finished seeds) :
    ∀ i < n, 0 ≤ wt s.mem 0 i :=
  C04_no_negative_weights hmax hs hn hu htot hseeds
    (C05_one_thread_partial (validInput_of_neighbourList hs hn) hu ks hks h hf)

-- a schedule of one thread
example : (runSchedule ⟨false, false⟩ 4 (exNearest [-1, 1, 0, 10]) [0, 1] (serialSchedule 0 [9, 17])
    (State.init (exMem [-1, -1, 1, 2]))).map (fun s => ([s.tasks 0, s.tasks 1], (List.range 4).map s.mem)) =
      some ([.done (some ⟨[0, 2], 1, 0⟩), .done (some ⟨[0, 1, 2, 3], 9, 1⟩)], [[1/4], [1/4], [1/4], [1/4]]) := by
  decide +kernel

end C05

/-! ## C06: seeds with non-negative weight -/

section C06

variable {D K : Type*} [Zero D] [Add K] [Zero K] [One K] [Mul K] [Div K] [NatCast K] [LinearOrder K]

/-- The claim of C06: a seed whose current weight is not negative makes no cell and changes no weight. -/
def C06_claim (cfg : Cfg) : Prop :=
  ∀ (pos : List ℤ) (mem : Mem ℚ) (seed : Nat), seed < pos.length → 0 ≤ wt mem 0 seed → mem seed ≠ [] →
    resampleSeed cfg pos.length (exNearest pos) mem seed = some (mem, none)

/-- **C06 is false**: a seed with weight 0 makes a cell in release builds. -/
theorem C06_violated : ¬ C06_claim ⟨false, false⟩ := by
  intro h
  have := h [0, 4] (exMem [0, 2]) 0 (by simp) (by norm_num [wt, exMem]) (by simp [exMem])
  have h2 : (resampleSeed ⟨false, false⟩ 2 (exNearest [0, 4]) (exMem [0, 2]) 0).map (fun r => r.1 0) = some [1] := by
    decide +kernel
  rw [show ([0, 4] : List ℤ).length = 2 from rfl] at this
  rw [this] at h2
  simp [exMem] at h2

/-- **C06 is false** also for debug builds, where a seed with weight 0 is a panic. -/
theorem C06_violated_debug : ¬ C06_claim ⟨false, true⟩ := by
  intro h
  have := h [0, 4] (exMem [0, 2]) 0 (by simp) (by norm_num [wt, exMem]) (by simp [exMem])
  have h2 : (resampleSeed ⟨false, true⟩ 2 (exNearest [0, 4]) (exMem [0, 2]) 0).map (fun r => r.1 0) = none := by
    decide +kernel
  rw [show ([0, 4] : List ℤ).length = 2 from rfl] at this
  rw [this] at h2
  simp at h2

/-- Seeds with weight 0 do occur although only negative-weight events are selected: here the cell of the first seed has
sum 0 and contains the second seed, which then moves weight from an event that needed no change. -/
theorem C06_violated_in_a_run :
    selectSeeds keySort .next 4 (exMem [-1, -1, 2, 5]) = some [0, 1] ∧
    exRun ⟨false, false⟩ [0, 4, -6, 7] [0, 1] [-1, -1, 2, 5] =
      some ([[0], [5/2], [0], [5/2]], [[0, 1, 2], [1, 3]]) ∧
    exRun ⟨false, true⟩ [0, 4, -6, 7] [0, 1] [-1, -1, 2, 5] = none := by
  refine ⟨by decide +kernel, by decide +kernel, by decide +kernel⟩

/-- **C06, partial**: a seed whose current weight is positive makes no cell and changes nothing. Missing: weight 0. -/
theorem C06_positive_ignored_partial {cfg : Cfg} {n : Nat} {nearest : Nat → List (Nat × D)} {mem : Mem K} {seed : Nat}
    (hs : seed < n) (hpos : 0 < wt mem 0 seed) (hne : mem seed ≠ []) :
    resampleSeed cfg n nearest mem seed = some (mem, none) := by
  unfold resampleSeed
  rw [weightAt_isSome hs hne]
  simp only
  rw [if_pos hpos]

/-- **C06, partial**, for all interleavings: if the weight is positive when the task of the seed looks at it, the task
ends without a cell, and this step changes no weight and takes no lock. -/
theorem C06_positive_ignored_parallel_partial {cfg : Cfg} {n : Nat} {nearest : Nat → List (Nat × D)}
    {seeds : List Nat} {s s' : State D K} {t seed : Nat} (ht : seeds[t]? = some seed) (hs : seed < n)
    (hw : s.tasks t = .waiting) (hpos : 0 < wt s.mem 0 seed) (hne : s.mem seed ≠ [])
    (h : stepAll cfg n nearest seeds s t = some s') :
    s'.tasks t = .done none ∧ s'.mem = s.mem ∧ s'.owner = s.owner ∧ s'.log = s.log := by
  unfold stepAll at h
  rw [ht] at h
  simp only at h
  unfold step at h
  rw [hw] at h
  simp only at h
  split at h
  · simp at h
  · rw [weightAt_isSome hs hne] at h
    simp only at h
    rw [if_pos hpos] at h
    simp only [Option.some.injEq] at h
    subst h
    exact ⟨Function.update_self _ _ _, rfl, rfl, rfl⟩

example : resampleSeed ⟨false, true⟩ 2 (exNearest [0, 4]) (exMem [1, 2]) 0 = some (exMem [1, 2], none) :=
  C06_positive_ignored_partial (by norm_num) (by norm_num [wt, exMem]) (by simp [exMem])

end C06

/-! ## C08: no deadlock, termination -/

section C08

variable {D K : Type*} [Zero D] [Add K] [Zero K] [One K] [Mul K] [Div K] [NatCast K] [LinearOrder K]

/-- **C08**: in every reachable state with a running task, some running task can take a step. -/
theorem C08_no_deadlock {cfg : Cfg} {n L : Nat} {nearest : Nat → List (Nat × D)} {seeds : List Nat}
    (hv : ValidInput n nearest seeds) {mem : Mem K} (hu : Uniform cfg n L mem) {s : State D K}
    (h : Reachable cfg n nearest seeds mem s) {t : Nat} (ht : (s.tasks t).Running) :
    ∃ t', (s.tasks t').Running ∧ ∃ s', stepAll cfg n nearest seeds s t' = some s' := by
  obtain ⟨A, hA⟩ := inv_reachable hv hu h
  have hseed : ∃ seed, seeds[t]? = some seed := by
    cases hs : seeds[t]? with
    | none => rw [hA.idle t hs] at ht; exact absurd ht (by simp [Task.Running])
    | some seed => exact ⟨seed, rfl⟩
  obtain ⟨seed, hseed⟩ := hseed
  rcases step_or_blocked (cfg := cfg) (n := n) (nearest := nearest) hseed
    (by intro c hc; rw [hc] at ht; exact ht) (by intro hc; rw [hc] at ht; exact ht) with h1 | ⟨e, u, hu⟩
  · exact ⟨t, ht, h1⟩
  · obtain ⟨u', h1, h2⟩ := holder_can_step hv hA (n - e) e u (le_refl _) hu
    refine ⟨u', ?_, h2⟩
    cases hst : s.tasks u' <;> rw [hst] at h1 <;> simp [heldBy] at h1 <;> trivial

/-- **C08**, independent of how readers and writers waiting for the same lock are ordered: as long as some lock is held,
a task that holds a lock can take a step, i.e. the holders of locks never wait for tasks that hold none. -/
theorem C08_holders_progress {cfg : Cfg} {n L : Nat} {nearest : Nat → List (Nat × D)} {seeds : List Nat}
    (hv : ValidInput n nearest seeds) {mem : Mem K} (hu : Uniform cfg n L mem) {s : State D K}
    (h : Reachable cfg n nearest seeds mem s) {e u : Nat} (ho : s.owner e = some u) :
    ∃ t', heldBy cfg (s.tasks t') ≠ [] ∧ ∃ s', stepAll cfg n nearest seeds s t' = some s' := by
  obtain ⟨A, hA⟩ := inv_reachable hv hu h
  exact holder_can_step hv hA (n - e) e u (le_refl _) ho

/-- **C08**: every execution is finite; the number of steps is bounded by the numbers of neighbours. -/
theorem C08_bounded {cfg : Cfg} {n : Nat} {nearest : Nat → List (Nat × D)} {seeds : List Nat} {mem : Mem K}
    {sched : List Nat} {s : State D K} (h : runSchedule cfg n nearest seeds sched (State.init mem) = some s) :
    sched.length ≤ (seeds.map (fun s => 5 * (nearest s).length + 11)).sum := by
  have := runSchedule_measure sched h
  rw [totalMeasure_init] at this
  omega

/-- **C08**: an execution that cannot be continued has finished all tasks (in release builds; in debug builds a task may
have panicked, see C06). Together with `C08_bounded`: every execution can be continued to one that finishes all tasks,
whatever the scheduler does. -/
theorem C08_ends_finished {cfg : Cfg} (hd : cfg.debug = false) {n L : Nat} {nearest : Nat → List (Nat × D)}
    {seeds : List Nat} (hv : ValidInput n nearest seeds) {mem : Mem K} (hu : Uniform cfg n L mem) {s : State D K}
    (h : Reachable cfg n nearest seeds mem s) (hstuck : ∀ t, stepAll cfg n nearest seeds s t = none) :
    s.Finished seeds := by
  obtain ⟨A, hA⟩ := inv_reachable hv hu h
  intro t ht
  have hseed : seeds[t]? = some seeds[t] := List.getElem?_eq_getElem ht
  by_contra hcon
  have hnd : ∀ c, s.tasks t ≠ .done c := fun c hc => hcon ⟨c, hc⟩
  have hnp : s.tasks t ≠ .panicked := by
    intro hp
    have := hA.ok t _ hseed
    rw [hp] at this
    simp only [TaskOK] at this
    rw [hd] at this
    simp at this
  rcases step_or_blocked (cfg := cfg) (n := n) (nearest := nearest) hseed hnd hnp with ⟨s', h1⟩ | ⟨e, u, ho⟩
  · rw [hstuck t] at h1; simp at h1
  · obtain ⟨u', -, s', h2⟩ := holder_can_step hv hA (n - e) e u (le_refl _) ho
    rw [hstuck u'] at h2; simp at h2

/-- **C08**: whatever has happened so far, there is a continuation after which all tasks are finished. -/
theorem C08_can_finish {cfg : Cfg} (hd : cfg.debug = false) {n L : Nat} {nearest : Nat → List (Nat × D)}
    {seeds : List Nat} (hv : ValidInput n nearest seeds) {mem : Mem K} (hu : Uniform cfg n L mem) {s : State D K}
    (h : Reachable cfg n nearest seeds mem s) :
    ∃ sched s', runSchedule cfg n nearest seeds sched s = some s' ∧ s'.Finished seeds := by
  generalize hk : totalMeasure nearest seeds s = k
  induction k using Nat.strong_induction_on generalizing s with
  | _ k ih =>
    by_cases hst : ∀ t, stepAll cfg n nearest seeds s t = none
    · exact ⟨[], s, rfl, C08_ends_finished hd hv hu h hst⟩
    · simp only [not_forall] at hst
      obtain ⟨t, ht⟩ := hst
      cases hs : stepAll cfg n nearest seeds s t with
      | none => exact absurd hs ht
      | some s1 =>
        obtain ⟨sched, s', h1, h2⟩ := ih _ (by rw [← hk]; exact stepAll_measure hs) (h.step hs) rfl
        refine ⟨t :: sched, s', ?_, h2⟩
        rw [runSchedule, hs]
        exact h1

/-- No task panics in release builds. -/
theorem C08_no_panic {cfg : Cfg} (hd : cfg.debug = false) {n L : Nat} {nearest : Nat → List (Nat × D)}
    {seeds : List Nat} (hv : ValidInput n nearest seeds) {mem : Mem K} (hu : Uniform cfg n L mem) {s : State D K}
    (h : Reachable cfg n nearest seeds mem s) (t : Nat) : s.tasks t ≠ .panicked := by
  obtain ⟨A, hA⟩ := inv_reachable hv hu h
  intro hp
  cases hs : seeds[t]? with
  | none => rw [hA.idle t hs] at hp; simp at hp
  | some seed =>
    have := hA.ok t seed hs
    rw [hp] at this
    simp only [TaskOK] at this
    rw [hd] at this
    simp at this

-- a state in which one task waits for another: both have built their cells, the first holds the common event
example : ∃ s, runSchedule ⟨false, false⟩ 4 (exNearest [-1, 1, 0, 10]) [0, 1] ([0, 0, 0, 1, 1, 1] ++ [0, 0, 1])
      (State.init (exMem [-1, -1, 1, 2])) = some s ∧
    stepAll ⟨false, false⟩ 4 (exNearest [-1, 1, 0, 10]) [0, 1] s 1 = none ∧ (s.tasks 1).Running ∧
    Reachable ⟨false, false⟩ 4 (exNearest [-1, 1, 0, 10]) [0, 1] (exMem [-1, -1, 1, 2]) s := by
  have hdec : (runSchedule ⟨false, false⟩ 4 (exNearest [-1, 1, 0, 10]) [0, 1] ([0, 0, 0, 1, 1, 1] ++ [0, 0, 1])
      (State.init (exMem [-1, -1, 1, 2]))).map (fun s => (s.tasks 1, s.owner 2)) =
      some (.locking ⟨[1, 2], 1, 0⟩ [1] [2], some 0) := by decide +kernel
  cases hr : runSchedule ⟨false, false⟩ 4 (exNearest [-1, 1, 0, 10]) [0, 1] ([0, 0, 0, 1, 1, 1] ++ [0, 0, 1])
      (State.init (exMem [-1, -1, 1, 2])) with
  | none => rw [hr] at hdec; simp at hdec
  | some s =>
    rw [hr] at hdec
    simp only [Option.map_some, Option.some.injEq, Prod.mk.injEq] at hdec
    refine ⟨s, rfl, ?_, ?_, runSchedule_reachable _ Reachable.init hr⟩
    · simp [stepAll, step, hdec.1, hdec.2]
    · rw [hdec.1]; trivial

end C08

/-! ## C09: atomicity -/

section C09

variable {D K : Type*} [Zero D] [Add K] [Zero K] [One K] [Mul K] [Div K] [NatCast K] [LinearOrder K]

/-- **C09**: two different cells never hold the lock of the same event. -/
theorem C09_mutual_exclusion {cfg : Cfg} {n L : Nat} {nearest : Nat → List (Nat × D)} {seeds : List Nat}
    (hv : ValidInput n nearest seeds) {mem : Mem K} (hu : Uniform cfg n L mem) {s : State D K}
    (h : Reachable cfg n nearest seeds mem s) {t t' e : Nat} (he : e ∈ heldBy cfg (s.tasks t))
    (he' : e ∈ heldBy cfg (s.tasks t')) : t = t' := by
  obtain ⟨A, hA⟩ := inv_reachable hv hu h
  have h1 := (hA.owner e t).2 he
  have h2 := (hA.owner e t').2 he'
  rw [h1] at h2
  exact Option.some.inj h2

/-- **C09**: a step reads or changes weights of an event only under its lock. If a task builds its cell and reads the
weight of event `e`, no task holds the lock of `e`; if a step of task `t` changes the weights of `e`, task `t` holds
the lock of `e` before the step. -/
theorem C09_access_under_lock {cfg : Cfg} {n L : Nat} {nearest : Nat → List (Nat × D)} {seeds : List Nat}
    (hv : ValidInput n nearest seeds) {mem : Mem K} (hu : Uniform cfg n L mem) {s s' : State D K}
    (h : Reachable cfg n nearest seeds mem s) {t seed : Nat} (hseed : seeds[t]? = some seed)
    (hs : stepAll cfg n nearest seeds s t = some s') :
    (∀ e, (s.tasks t).readsNext seed = some e → ∀ t', e ∉ heldBy cfg (s.tasks t')) ∧
    (∀ e, s'.mem e ≠ s.mem e → e ∈ heldBy cfg (s.tasks t)) := by
  obtain ⟨A, hA⟩ := inv_reachable hv hu h
  unfold stepAll at hs
  rw [hseed] at hs
  simp only at hs
  unfold step at hs
  have hnone : ∀ {e t'}, ¬ (s.owner e).isSome = true → e ∉ heldBy cfg (s.tasks t') := by
    intro e t' ho he
    rw [(hA.owner e t').2 he] at ho
    simp at ho
  have hok := hA.ok t seed hseed
  cases ht : s.tasks t with
  | waiting =>
    rw [ht] at hs
    simp only at hs
    split at hs
    · simp at hs
    · next ho =>
      refine ⟨fun e he t' => ?_, fun e he => ?_⟩
      · simp only [Task.readsNext, Option.some.injEq] at he; subst he; exact hnone ho
      · exfalso
        split at hs
        · simp only [Option.some.injEq] at hs; subst hs; exact he rfl
        · split at hs <;> (simp only [Option.some.injEq] at hs; subst hs; exact he rfl)
  | checked =>
    rw [ht] at hs
    simp only at hs
    split at hs
    · simp at hs
    · next ho =>
      refine ⟨fun e he t' => ?_, fun e he => ?_⟩
      · simp only [Task.readsNext, Option.some.injEq] at he; subst he; exact hnone ho
      · exfalso
        split at hs
        · simp only [Option.some.injEq] at hs; subst hs; exact he rfl
        · split at hs <;> (simp only [Option.some.injEq] at hs; subst hs; exact he rfl)
  | growing c rest =>
    rw [ht] at hs
    cases rest with
    | nil =>
      simp only [Option.some.injEq] at hs; subst hs
      exact ⟨fun e he => by simp [Task.readsNext] at he, fun e he => absurd rfl he⟩
    | cons x rest =>
      obtain ⟨i, d⟩ := x
      simp only at hs
      split at hs
      · simp at hs
      · next ho =>
        refine ⟨fun e he t' => ?_, fun e he => ?_⟩
        · simp only [Task.readsNext, Option.some.injEq] at he; subst he; exact hnone ho
        · exfalso
          split at hs
          · simp only [Option.some.injEq] at hs; subst hs; exact he rfl
          · split at hs <;> (simp only [Option.some.injEq] at hs; subst hs; exact he rfl)
  | locking c held todo =>
    rw [ht] at hs
    refine ⟨fun e he => by simp [Task.readsNext] at he, fun e he => ?_⟩
    exfalso
    cases todo with
    | nil => simp only [Option.some.injEq] at hs; subst hs; exact he rfl
    | cons x todo =>
      simp only at hs
      split at hs
      · simp at hs
      · split at hs <;> (simp only [Option.some.injEq] at hs; subst hs; exact he rfl)
  | reading c acc todo =>
    rw [ht] at hs hok
    refine ⟨fun e he => by simp [Task.readsNext] at he, fun e he => ?_⟩
    cases todo with
    | nil => simp only [Option.some.injEq] at hs; subst hs; exact absurd rfl he
    | cons x todo =>
      obtain ⟨-, -, ⟨pre, hpre, -⟩, -⟩ := hok
      simp only at hs
      split at hs
      · simp only [Option.some.injEq] at hs; subst hs; exact absurd rfl he
      · simp only [Option.some.injEq] at hs; subst hs
        simp only at he
        split at he
        · have : e = x := by
            by_contra hne
            exact he (Function.update_of_ne hne _ _)
          subst this
          simp only [heldBy]
          rw [← hpre]; simp
        · exact absurd rfl he
  | writing c avg todo =>
    rw [ht] at hs hok
    refine ⟨fun e he => by simp [Task.readsNext] at he, fun e he => ?_⟩
    cases todo with
    | nil => simp only [Option.some.injEq] at hs; subst hs; exact absurd rfl he
    | cons x todo =>
      have hx : x ∈ c.members := hok.2.2.2.1 x List.mem_cons_self
      simp only at hs
      split at hs
      · next hm =>
        split at hs
        · simp only [Option.some.injEq] at hs; subst hs; exact absurd rfl he
        · simp only [Option.some.injEq] at hs; subst hs
          have : e = x := by
            by_contra hne
            exact he (Function.update_of_ne hne _ _)
          subst this
          simp only [heldBy, if_pos hm]; exact hx
      · next hm =>
        simp only [Option.some.injEq] at hs; subst hs
        have : e = x := by
          by_contra hne
          exact he (Function.update_of_ne hne _ _)
        subst this
        simp only [heldBy, if_neg hm]; exact List.mem_cons_self
  | releasing c todo =>
    rw [ht] at hs
    refine ⟨fun e he => by simp [Task.readsNext] at he, fun e he => ?_⟩
    cases todo with
    | nil => simp only [Option.some.injEq] at hs; subst hs; exact absurd rfl he
    | cons x todo => simp only [Option.some.injEq] at hs; subst hs; exact absurd rfl he
  | done c => rw [ht] at hs; simp at hs
  | panicked => rw [ht] at hs; simp at hs

/-- **C09** for any arithmetic, in particular if sums are rounded: at the end the weights are those that `Cell::resample`
computes if it is executed for one cell after the other, without interruption, in the order in which the cells completed
locking, and these cells are those of the tasks. -/
theorem C09_serialisable_any {cfg : Cfg} {n L : Nat} {nearest : Nat → List (Nat × D)} {seeds : List Nat}
    (hv : ValidInput n nearest seeds) {mem : Mem K} (hu : Uniform cfg n L mem) {s : State D K}
    (h : Reachable cfg n nearest seeds mem s) (hf : s.Finished seeds) :
    s.log.foldlM (fun m c => c.resample cfg m) mem = some s.mem ∧
      s.log.Perm ((List.range seeds.length).filterMap
        (fun t => match s.tasks t with | .done (some c) => some c | _ => none)) := by
  obtain ⟨A, hA⟩ := inv_reachable hv hu h
  refine ⟨by rw [finished_mem hA hf]; exact hA.log, ?_⟩
  refine hA.logged.trans (List.Perm.of_eq (List.filterMap_congr ?_))
  intro t ht
  obtain ⟨c, hc⟩ := hf t (List.mem_range.1 ht)
  rw [hc]
  cases c <;> rfl

/-- **C09** for any arithmetic: at any time the weights of all events that are not locked are those computed by
`Cell::resample` for the cells that have completed locking so far, one after the other. -/
theorem C09_unlocked_weights_any {cfg : Cfg} {n L : Nat} {nearest : Nat → List (Nat × D)} {seeds : List Nat}
    (hv : ValidInput n nearest seeds) {mem : Mem K} (hu : Uniform cfg n L mem) {s : State D K}
    (h : Reachable cfg n nearest seeds mem s) :
    ∃ A, s.log.foldlM (fun m c => c.resample cfg m) mem = some A ∧
      ∀ e, (∀ t, e ∉ heldBy cfg (s.tasks t)) → s.mem e = A e := by
  obtain ⟨A, hA⟩ := inv_reachable hv hu h
  refine ⟨A, hA.log, fun e he => hA.free e ?_⟩
  cases ho : s.owner e with
  | none => rfl
  | some u => exact absurd ((hA.owner e u).1 ho) (he u)

/-- What `log` is: it grows exactly when a task acquires its last lock, by the cell of that task. -/
theorem C09_log_order {cfg : Cfg} {n : Nat} {nearest : Nat → List (Nat × D)} {seeds : List Nat} {s s' : State D K}
    {t : Nat} (h : stepAll cfg n nearest seeds s t = some s') :
    s'.log = s.log ∨ ∃ c held e, s.tasks t = .locking c held [e] ∧ s'.log = s.log ++ [c] ∧
      s.owner e = none ∧ s'.owner e = some t := by
  unfold stepAll at h
  split at h
  · simp at h
  unfold step at h
  simp only at h
  split at h
  case h_6 =>
    next c held e todo ht =>
      split at h
      · simp at h
      · next ho =>
        split at h
        · next hemp =>
          right
          simp only [Option.some.injEq] at h
          subst h
          have : todo = [] := by simpa using hemp
          subst this
          exact ⟨c, held, e, ht, rfl, isSome_false_none ho, Function.update_self _ _ _⟩
        · left; simp only [Option.some.injEq] at h; subst h; rfl
  all_goals
    left
    repeat' split at h
    all_goals first
    | (simp only [Option.some.injEq] at h; subst h; rfl)
    | (simp at h; done)

end C09

section C09'

variable {D K : Type*} [Zero D] [Field K] [LinearOrder K]

/-- **C09**: at the end the weights are those obtained by averaging the cells one after the other in the order in which
they completed locking, and these cells are those of the tasks. -/
theorem C09_serialisable {cfg : Cfg} {n L : Nat} {nearest : Nat → List (Nat × D)} {seeds : List Nat}
    (hv : ValidInput n nearest seeds) {mem : Mem K} (hu : Uniform cfg n L mem) {s : State D K}
    (h : Reachable cfg n nearest seeds mem s) (hf : s.Finished seeds) :
    AverageSeq (s.log.map Cell.members) mem s.mem ∧
      s.log.Perm ((List.range seeds.length).filterMap
        (fun t => match s.tasks t with | .done (some c) => some c | _ => none)) := by
  obtain ⟨A, hA⟩ := inv_reachable hv hu h
  exact ⟨by rw [finished_mem hA hf]; exact (inv_averageSeq hv hu hA).1, (C09_serialisable_any hv hu h hf).2⟩

/-- **C09**: at any time the weights of all events that are not locked are those obtained by averaging the cells that have
completed locking so far one after the other. So a reader never sees a cell half done. -/
theorem C09_unlocked_weights {cfg : Cfg} {n L : Nat} {nearest : Nat → List (Nat × D)} {seeds : List Nat}
    (hv : ValidInput n nearest seeds) {mem : Mem K} (hu : Uniform cfg n L mem) {s : State D K}
    (h : Reachable cfg n nearest seeds mem s) :
    ∃ A, AverageSeq (s.log.map Cell.members) mem A ∧ ∀ e, (∀ t, e ∉ heldBy cfg (s.tasks t)) → s.mem e = A e := by
  obtain ⟨A, hA⟩ := inv_reachable hv hu h
  refine ⟨A, (inv_averageSeq hv hu hA).1, fun e he => hA.free e ?_⟩
  cases ho : s.owner e with
  | none => rfl
  | some u => exact absurd ((hA.owner e u).1 ho) (he u)

end C09'

/-! ## C17: weights move only within the cell size limit -/

section C17

variable {D K : Type*} [Zero D] [LinearOrder D] [Field K] [LinearOrder K] [IsStrictOrderedRing K]

/-- **C17**: for every interleaving, the effect of resampling is a sequence of averages over groups of events; each group
contains a seed, and all its other events are within the maximum cell size of that seed. -/
theorem C17_local {cfg : Cfg} {n L : Nat} {dist : Nat → Nat → D} {maxDist : D} {nearest : Nat → List (Nat × D)}
    {seeds : List Nat} (hs : ∀ s ∈ seeds, s < n)
    (hn : ∀ s ∈ seeds, IsNeighbourList dist (List.range n) s maxDist (nearest s)) {mem : Mem K}
    (hu : Uniform cfg n L mem) {s : State D K} (h : Reachable cfg n nearest seeds mem s) (hf : s.Finished seeds) :
    ∃ groups, AverageSeq groups mem s.mem ∧
      ∀ g ∈ groups, ∃ seed ∈ seeds, seed ∈ g ∧ ∀ i ∈ g, i ≠ seed → dist seed i ≤ maxDist := by
  have hv := validInput_of_neighbourList hs hn
  obtain ⟨A, hA⟩ := inv_reachable hv hu h
  refine ⟨_, (C09_serialisable hv hu h hf).1, ?_⟩
  intro g hg
  obtain ⟨c, hc, rfl⟩ := List.mem_map.1 hg
  obtain ⟨t, seed, h1, -, ⟨m, hm⟩, -⟩ := inv_log_cells hA c hc
  have hse := List.mem_of_getElem? h1
  refine ⟨seed, hse, hm.mem_iff.2 (by simp), ?_⟩
  intro i hi hne
  rcases List.mem_cons.1 (hm.mem_iff.1 hi) with h | h
  · exact absurd h hne
  · have : i ∈ (nearest seed).map Prod.fst := ((List.take_sublist m _).map Prod.fst).subset h
    exact (((hn seed hse).mem i).1 this).2.2

/-- **C17**: an event that is not a seed and further than the maximum cell size from every seed keeps its weights. -/
theorem C17_far_events_unchanged {cfg : Cfg} {n L : Nat} {dist : Nat → Nat → D} {maxDist : D}
    {nearest : Nat → List (Nat × D)} {seeds : List Nat} (hs : ∀ s ∈ seeds, s < n)
    (hn : ∀ s ∈ seeds, IsNeighbourList dist (List.range n) s maxDist (nearest s)) {mem : Mem K}
    (hu : Uniform cfg n L mem) {s : State D K} (h : Reachable cfg n nearest seeds mem s) (hf : s.Finished seeds)
    {i : Nat} (hi : i ∉ seeds) (hfar : ∀ seed ∈ seeds, maxDist < dist seed i) : s.mem i = mem i := by
  obtain ⟨groups, h1, h2⟩ := C17_local hs hn hu h hf
  refine averageSeq_outside h1 i ?_
  intro g hg hig
  obtain ⟨seed, hse, -, hall⟩ := h2 g hg
  have hne : i ≠ seed := by rintro rfl; exact hi hse
  exact absurd (hall i hig hne) (not_le.2 (hfar seed hse))

-- a limited cell size: the event at 100 is untouched, the negative weight remains
example : (resampleAll ⟨false, false⟩ 3 (naiveNearest firstMin 3 (exDist [0, 5, 100]) 50) [0]
    (exMem [-4, 1, 7])).map (fun r => ((List.range 3).map r.1, r.2)) =
    some ([[-3/2], [-3/2], [7]], [⟨[0, 1], 5, -3⟩]) := by decide +kernel

end C17

end Cres

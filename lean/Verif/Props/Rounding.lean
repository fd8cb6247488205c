import Verif.Proofs.RoundingCells
import Verif.Proofs.Float64
import Verif.Props.Resample

/-!
Resampling with rounded arithmetic.
-/

set_option linter.unusedSectionVars false

namespace Cres

open Spec

/-! ## C70: rounding errors -/

section C70

variable {D K : Type*} [Zero D] [Field K] [LinearOrder K] [IsStrictOrderedRing K] {fl : K → K} {n : Nat} {u η Ω : K}

/-- **C70**: for every interleaving, every sum of weights changes by no more than the rounding errors of the operations, as
long as these sums are in the range of numbers. `N` is the number of operations: for each cell one per event, and one. -/
theorem C70_sum_conserved (hfl : RoundsWithin fl n u η Ω) {cfg : Cfg} {L : Nat} {nearest : Nat → List (Nat × D)}
    {seeds : List Nat} (hv : ValidInput n nearest seeds) {mem : Mem (Rounded fl)} (hun : Uniform cfg n L mem)
    {s : State D (Rounded fl)} (h : Reachable cfg n nearest seeds mem s) (hf : s.Finished seeds) {N : Nat}
    (hN : (s.log.map (fun c => c.members.length + 1)).sum ≤ N) {k : Nat} (hk : k < L)
    (hΩ : (1 + u) ^ N * (absTotal n (valMem mem) k + 2 * N * η) ≤ Ω) :
    |weightTotal n (valMem s.mem) k - weightTotal n (valMem mem) k| ≤ roundingBound u η N (absTotal n (valMem mem) k) ∧
      absTotal n (valMem s.mem) k ≤
        absTotal n (valMem mem) k + roundingBound u η N (absTotal n (valMem mem) k) := by
  obtain ⟨A, hA⟩ := inv_reachable hv hun h
  have hT := absTotal_nonneg (n := n) (valMem mem) k
  have hu := hfl.u_nonneg
  have hη := hfl.eta_nonneg
  have hcells : ∀ c ∈ s.log, c.members ≠ [] ∧ c.members.Nodup ∧ ∀ i ∈ c.members, i < n := by
    intro c hc
    obtain ⟨t, seed, h1, -, h3⟩ := inv_log_cells hA c hc
    exact ⟨h3.ne_nil, h3.nodup, h3.lt hv (List.mem_of_getElem? h1)⟩
  obtain ⟨e1, e2⟩ := cells_err hfl hk s.log hun hcells hA.log (range_mono hu hη hN hT hΩ)
  have e3 := roundingBound_mono hu hη hN hT (le_refl _)
  rw [finished_mem hA hf]
  unfold operations at e1 e2
  exact ⟨e1.trans e3, by linarith⟩

/-- **C70**: the number of operations is at most the number of seeds times the number of events plus one. -/
theorem C70_operations {cfg : Cfg} {L : Nat} {nearest : Nat → List (Nat × D)}
    {seeds : List Nat} (hv : ValidInput n nearest seeds) {mem : Mem (Rounded fl)} (hun : Uniform cfg n L mem)
    {s : State D (Rounded fl)} (h : Reachable cfg n nearest seeds mem s) :
    (s.log.map (fun c => c.members.length + 1)).sum ≤ seeds.length * (n + 1) := by
  obtain ⟨A, hA⟩ := inv_reachable hv hun h
  have hlog : s.log.length ≤ seeds.length := by
    rw [hA.logged.length_eq]
    exact (List.length_filterMap_le _ _).trans (by simp)
  refine le_trans (operations_le s.log (n := n) ?_) (Nat.mul_le_mul_right _ hlog)
  intro c hc
  obtain ⟨t, seed, h1, -, h3⟩ := inv_log_cells hA c hc
  exact members_length_le h3.nodup (h3.lt hv (List.mem_of_getElem? h1))

/-- **C70**, for few operations: the relative error is at most `2 * N * u` (and there is a contribution from numbers
close to 0). -/
theorem C70_linear (hu : 0 ≤ u) (hη : 0 ≤ η) {N : Nat} (hN : N * u ≤ 1) {T : K} (hT : 0 ≤ T) :
    roundingBound u η N T ≤ 2 * N * u * T + 6 * N * η := roundingBound_linear hu hη hN hT

end C70

section F64

variable {D : Type*} [Zero D]

/-- **C70**: `fl64` rounds to a nearest `f64`: the result is a `f64`, none is nearer, and there is no rounding for `f64`
numbers. -/
theorem C70_fl64_nearest {x : ℚ} (h : |x| ≤ maxF64) :
    IsF64 (fl64 x) ∧ (∀ y, IsF64 y → |fl64 x - x| ≤ |y - x|) ∧ (IsF64 x → fl64 x = x) :=
  ⟨fl64_isF64 h, fun y hy => fl64_nearest x y hy, fl64_fixed⟩

/-- The error bound for `f64`, and the range of numbers. -/
theorem f64_bounds {N : Nat} (hN' : N ≤ 2 ^ 53) {T : ℚ} (hT : 0 ≤ T) (hΩ : T ≤ 2 ^ (1021 : ℤ)) :
    roundingBound (2 ^ (-53 : ℤ)) (2 ^ (-1075 : ℤ)) N T ≤ N * (2 ^ (-52 : ℤ) * T + 6 * 2 ^ (-1075 : ℤ)) ∧
      (1 + 2 ^ (-53 : ℤ)) ^ N * (T + 2 * N * 2 ^ (-1075 : ℤ)) ≤ maxF64 := by
  have hu : (0 : ℚ) ≤ 2 ^ (-53 : ℤ) := by positivity
  have hη : (0 : ℚ) ≤ 2 ^ (-1075 : ℤ) := by positivity
  have hNu : (N : ℚ) * 2 ^ (-53 : ℤ) ≤ 1 := by
    have : (N : ℚ) ≤ 2 ^ 53 := by exact_mod_cast hN'
    calc (N : ℚ) * 2 ^ (-53 : ℤ) ≤ 2 ^ 53 * 2 ^ (-53 : ℤ) := mul_le_mul_of_nonneg_right this hu
      _ = 1 := by norm_num
  have hlin := roundingBound_linear hu hη hNu hT
  have h53 : (2 : ℚ) ^ (-52 : ℤ) = 2 * 2 ^ (-53 : ℤ) := by norm_num
  have hbound : roundingBound (2 ^ (-53 : ℤ)) (2 ^ (-1075 : ℤ)) N (T) ≤
      N * (2 ^ (-52 : ℤ) * T + 6 * 2 ^ (-1075 : ℤ)) := by
    rw [h53]; linarith
  have hrange : (1 + 2 ^ (-53 : ℤ)) ^ N * (T + 2 * N * 2 ^ (-1075 : ℤ)) ≤ maxF64 := by
    rw [← roundingBound_size]
    have hη6 : (N : ℚ) * (6 * 2 ^ (-1075 : ℤ)) ≤ 2 ^ (1020 : ℤ) := by
      have h1 : (N : ℚ) * (6 * 2 ^ (-1075 : ℤ)) ≤ 2 ^ 53 * (2 ^ 3 * 2 ^ (-1075 : ℤ)) := by
        refine mul_le_mul (by exact_mod_cast hN') ?_ (by positivity) (by positivity)
        exact mul_le_mul_of_nonneg_right (by norm_num) hη
      refine h1.trans ?_
      rw [← zpow_natCast, ← zpow_natCast, ← zpow_add₀ (by norm_num), ← zpow_add₀ (by norm_num)]
      exact zpow_two_mono (by norm_num)
    have hrel : (N : ℚ) * (2 ^ (-52 : ℤ) * T) ≤ 2 * T := by
      rw [h53]
      nlinarith
    have hmax : (2 : ℚ) ^ (1020 : ℤ) + 3 * 2 ^ (1021 : ℤ) ≤ maxF64 := by
      unfold maxF64
      rw [show (1020 : ℤ) = 49 + 971 by norm_num, show (1021 : ℤ) = 50 + 971 by norm_num, zpow_add₀ (by norm_num),
        zpow_add₀ (by norm_num), ← mul_assoc, ← add_mul]
      refine mul_le_mul_of_nonneg_right ?_ (zpow_nonneg (by norm_num) _)
      norm_num
    linarith
  exact ⟨hbound, hrange⟩

/-- **C70** for `f64`: for up to 2⁵³ operations, the sums of weights are conserved up to a relative error of `N * 2⁻⁵²` of
the sum of absolute weights, and nothing overflows. -/
theorem C70_f64 {cfg : Cfg} {n L : Nat} (hn : n < 2 ^ 53) {nearest : Nat → List (Nat × D)} {seeds : List Nat}
    (hv : ValidInput n nearest seeds) {mem : Mem N64} (hun : Uniform cfg n L mem) {s : State D N64}
    (h : Reachable cfg n nearest seeds mem s) (hf : s.Finished seeds) {N : Nat}
    (hN : (s.log.map (fun c => c.members.length + 1)).sum ≤ N) (hN' : N ≤ 2 ^ 53) {k : Nat} (hk : k < L)
    (hΩ : absTotal n (valMem mem) k ≤ 2 ^ (1021 : ℤ)) :
    |weightTotal n (valMem s.mem) k - weightTotal n (valMem mem) k| ≤
        N * (2 ^ (-52 : ℤ) * absTotal n (valMem mem) k + 6 * 2 ^ (-1075 : ℤ)) ∧
      absTotal n (valMem s.mem) k ≤ maxF64 ∧
      absTotal n (valMem s.mem) k ≤ absTotal n (valMem mem) k +
        N * (2 ^ (-52 : ℤ) * absTotal n (valMem mem) k + 6 * 2 ^ (-1075 : ℤ)) := by
  have hT := absTotal_nonneg (n := n) (valMem mem) k
  have hfl := fl64_roundsWithin hn maxF64
  obtain ⟨hbound, hrange⟩ := f64_bounds hN' hT hΩ
  obtain ⟨e1, e2⟩ := C70_sum_conserved hfl hv hun h hf hN hk hrange
  refine ⟨e1.trans hbound, e2.trans ?_, e2.trans (by linarith)⟩
  rw [roundingBound_size]
  exact hrange

end F64

/-- `f64` weights in the examples, one per event. -/
def exMem64 (ws : List ℚ) : Mem N64 := fun i => [⟨ws.getD i 0⟩]

theorem exUniform64 (cfg : Cfg) (n : Nat) (ws : List ℚ) : Uniform cfg n 1 (exMem64 ws) :=
  ⟨by omega, fun _ => rfl, fun _ _ => rfl⟩

/-- Weights of the example for C70, and of the counterexample to C71. -/
def ex71 : List ℚ := [-1, 1/2^54, 1/2^54, 1 - 1/2^53, 5]

-- an example where the sum changes, by 2⁻⁵³
example : ∃ s, Reachable ⟨false, false⟩ 5 (exNearest [0, 2, 3, 1, 100]) [0] (exMem64 ex71) s ∧ s.Finished [0] ∧
    weightTotal 5 (valMem (exMem64 ex71)) 0 = 5 ∧ weightTotal 5 (valMem s.mem) 0 = 5 - 1/2^53 ∧
    (s.log.map (fun c => c.members.length + 1)).sum = 5 ∧
    |weightTotal 5 (valMem s.mem) 0 - weightTotal 5 (valMem (exMem64 ex71)) 0| ≤
      (5 : Nat) * (2 ^ (-52 : ℤ) * absTotal 5 (valMem (exMem64 ex71)) 0 + 6 * 2 ^ (-1075 : ℤ)) := by
  have hrun : (runSchedule ⟨false, false⟩ 5 (exNearest [0, 2, 3, 1, 100]) [0] (List.replicate 17 0)
      (State.init (exMem64 ex71))).map (fun s => (s.tasks 0, s.log.map Cell.members, (List.range 5).map (fun i => wt (valMem s.mem) 0 i))) =
        some (.done (some ⟨[0, 1, 2, 3], 3, ⟨0⟩⟩), [[0, 1, 2, 3]], [-1/2^55, -1/2^55, -1/2^55, -1/2^55, 5]) := by decide +kernel
  cases hr : runSchedule ⟨false, false⟩ 5 (exNearest [0, 2, 3, 1, 100]) [0] (List.replicate 17 0)
      (State.init (exMem64 ex71)) with
  | none => rw [hr] at hrun; simp at hrun
  | some s =>
    rw [hr] at hrun
    simp only [Option.map_some, Option.some.injEq, Prod.mk.injEq] at hrun
    obtain ⟨h1, h2, h3⟩ := hrun
    have hreach := runSchedule_reachable (mem := exMem64 ex71) _ Reachable.init hr
    have hfin : s.Finished [0] := by
      intro t ht
      obtain rfl : t = 0 := by simpa using ht
      exact ⟨_, h1⟩
    have hlog : (s.log.map (fun c => c.members.length + 1)).sum = 5 := by
      have : s.log.map (fun c => c.members.length + 1) = (s.log.map Cell.members).map (fun m => m.length + 1) := by
        rw [List.map_map]; rfl
      rw [this, h2]
      rfl
    have hv : ValidInput 5 (exNearest [0, 2, 3, 1, 100]) [0] :=
      validInput_of_neighbourList (by simp)
        (by intro s hs; exact exNearest_spec [0, 2, 3, 1, 100] s (by simp at hs; subst hs; simp))
    refine ⟨s, hreach, hfin, ?_, ?_, hlog, ?_⟩
    · norm_num [weightTotal, wt_valMem, wt, valMem, exMem64, ex71, Finset.sum_range_succ]
    · simp only [List.range, List.range.loop, List.map_cons, List.map_nil, List.cons.injEq] at h3
      obtain ⟨a0, a1, a2, a3, a4, -⟩ := h3
      unfold weightTotal
      simp only [Finset.sum_range_succ, Finset.sum_range_zero, a0, a1, a2, a3, a4]
      norm_num
    · refine (C70_f64 (by norm_num) hv (exUniform64 _ _ _) hreach hfin hlog.le (by norm_num) (by norm_num) ?_).1
      refine le_trans (b := (2 : ℚ) ^ (3 : ℤ)) ?_ (zpow_two_mono (by norm_num))
      norm_num [absTotal, wt, valMem, exMem64, ex71, Finset.sum_range_succ]

/-! ## C71: negative weights and rounding -/

section C71

/-- The claim of C71: on one thread, without limit on the cell size and with non-negative total weight, resampling with
`f64` weights leaves no negative weight. -/
def C71_claim (cfg : Cfg) : Prop :=
  ∀ (n L : Nat) (dist : Nat → Nat → ℤ) (maxDist : ℤ) (nearest : Nat → List (Nat × ℤ)) (seeds : List Nat)
    (mem mem' : Mem N64) (cells : List (Cell ℤ N64)),
    (∀ i j, i < n → j < n → dist i j ≤ maxDist) → (∀ s ∈ seeds, s < n) →
    (∀ s ∈ seeds, IsNeighbourList dist (List.range n) s maxDist (nearest s)) → Uniform cfg n L mem →
    (∀ i < n, ∀ k < L, IsF64 (wt (valMem mem) k i)) → 0 ≤ weightTotal n (valMem mem) 0 →
    (∀ i < n, wt mem 0 i < 0 ↔ i ∈ seeds) → resampleAll cfg n nearest seeds mem = some (mem', cells) →
    ∀ i < n, 0 ≤ wt mem' 0 i

/-- **C71 is false** with or without feature `multiweight`: `Cell::new` adds up weights in the order of the distance from the
seed, `Cell::resample` in the order of events. In one order the weights of the cell {0, 1, 2, 3} add up to 0, and the cell is
complete. In the other order the result is -2⁻⁵³, and all members are left with weight -2⁻⁵⁵. -/
theorem C71_violated (multi : Bool) : ¬ C71_claim ⟨multi, false⟩ := by
  intro h
  have hrun : (resampleAll ⟨multi, false⟩ 5 (exNearest [0, 2, 3, 1, 100]) [0] (exMem64 ex71)).map
      (fun r => ((List.range 5).map (fun i => wt (valMem r.1) 0 i), r.2.map (fun c => (c.members, c.weightSum.val)))) =
        some ([-1/2^55, -1/2^55, -1/2^55, -1/2^55, 5], [([0, 1, 2, 3], 0)]) := by
    cases multi <;> decide +kernel
  cases hr : resampleAll ⟨multi, false⟩ 5 (exNearest [0, 2, 3, 1, 100]) [0] (exMem64 ex71) with
  | none => rw [hr] at hrun; simp at hrun
  | some r =>
    obtain ⟨mem', cells⟩ := r
    rw [hr] at hrun
    simp only [Option.map_some, Option.some.injEq, Prod.mk.injEq] at hrun
    have := h 5 1 (exDist [0, 2, 3, 1, 100]) 1000 (exNearest [0, 2, 3, 1, 100]) [0] (exMem64 ex71) mem' cells
      (by intro i j hi hj; interval_cases i <;> interval_cases j <;> decide)
      (by simp) (by intro s hs; exact exNearest_spec [0, 2, 3, 1, 100] s (by simp at hs; subst hs; simp))
      (exUniform64 _ _ _)
      (by
        intro i hi k hk
        obtain rfl : k = 0 := by omega
        rw [wt_valMem]
        interval_cases i
        · exact ⟨-1, 0, by norm_num, by norm_num, by norm_num, by norm_num [wt, exMem64, ex71]⟩
        · exact ⟨1, -54, by norm_num, by norm_num, by norm_num, by norm_num [wt, exMem64, ex71]⟩
        · exact ⟨1, -54, by norm_num, by norm_num, by norm_num, by norm_num [wt, exMem64, ex71]⟩
        · exact ⟨2^53 - 1, -53, by norm_num, by norm_num, by norm_num, by norm_num [wt, exMem64, ex71]⟩
        · exact ⟨5, 0, by norm_num, by norm_num, by norm_num, by norm_num [wt, exMem64, ex71]⟩)
      (by norm_num [weightTotal, wt, valMem, exMem64, ex71, Finset.sum_range_succ])
      (by
        intro i hi
        rw [val_lt]
        interval_cases i <;> norm_num [wt, exMem64, ex71, val_zero])
      hr 0 (by norm_num)
    have h0 : wt (valMem mem') 0 0 = -1/2^55 := by
      have := congrArg (fun l => l[0]?) hrun.1
      simpa [List.range, List.range.loop] using this
    rw [val_le, ← wt_valMem, h0, val_zero] at this
    norm_num at this

variable {D K : Type*} [Zero D] [LinearOrder D] [Field K] [LinearOrder K] [IsStrictOrderedRing K] {fl : K → K} {n : Nat}
  {u η Ω : K}

/-- **C71** (partial), if the neighbour search finds all other events, in whatever order. -/
theorem C71_all_neighbours_partial (hfl : RoundsWithin fl n u η Ω) {cfg : Cfg} {L : Nat} {nearest : Nat → List (Nat × D)}
    {seeds : List Nat} (hv : ValidInput n nearest seeds)
    (hall : ∀ s ∈ seeds, ∀ i, i ∈ (nearest s).map Prod.fst ↔ i < n ∧ i ≠ s)
    {mem mem' : Mem (Rounded fl)} (hun : Uniform cfg n L mem) (htot : 0 ≤ weightTotal n (valMem mem) 0)
    (hseeds : ∀ i < n, wt mem 0 i < 0 → i ∈ seeds) {cells : List (Cell D (Rounded fl))}
    (hΩ : (1 + u) ^ (seeds.length * (n + 1)) *
      (absTotal n (valMem mem) 0 + 2 * ((seeds.length * (n + 1) : Nat) : K) * η) ≤ Ω)
    (h : resampleAll cfg n nearest seeds mem = some (mem', cells)) :
    ∀ i < n, -(2 * roundingBound u η (seeds.length * (n + 1)) (absTotal n (valMem mem) 0)) ≤ wt (valMem mem') 0 i := by
  have hT := absTotal_nonneg (n := n) (valMem mem) 0
  have hB := roundingBound_nonneg hfl.u_nonneg hfl.eta_nonneg (seeds.length * (n + 1)) hT
  refine resampleAll_neg_rounded hfl seeds hun (le_refl 0) (by simpa using htot) (by rw [zero_add]) hΩ
    hv.neighbours_nodup hall ?_ h
  intro i hi hw
  refine hseeds i hi ?_
  rw [val_lt, ← wt_valMem, val_zero]
  linarith

/-- **C71, partial**: negative weights that are left are not larger than twice the rounding error of all operations. -/
theorem C71_negative_weights_partial (hfl : RoundsWithin fl n u η Ω) {cfg : Cfg} {L : Nat} {dist : Nat → Nat → D}
    {maxDist : D} (hmax : ∀ i j, i < n → j < n → dist i j ≤ maxDist) {nearest : Nat → List (Nat × D)} {seeds : List Nat}
    (hs : ∀ s ∈ seeds, s < n) (hn : ∀ s ∈ seeds, IsNeighbourList dist (List.range n) s maxDist (nearest s))
    {mem mem' : Mem (Rounded fl)} (hun : Uniform cfg n L mem) (htot : 0 ≤ weightTotal n (valMem mem) 0)
    (hseeds : ∀ i < n, wt mem 0 i < 0 → i ∈ seeds) {cells : List (Cell D (Rounded fl))}
    (hΩ : (1 + u) ^ (seeds.length * (n + 1)) *
      (absTotal n (valMem mem) 0 + 2 * ((seeds.length * (n + 1) : Nat) : K) * η) ≤ Ω)
    (h : resampleAll cfg n nearest seeds mem = some (mem', cells)) :
    ∀ i < n, -(2 * roundingBound u η (seeds.length * (n + 1)) (absTotal n (valMem mem) 0)) ≤ wt (valMem mem') 0 i := by
  refine C71_all_neighbours_partial hfl (validInput_of_neighbourList hs hn) ?_ hun htot hseeds hΩ h
  intro s hs' i
  rw [(hn s hs').mem i, List.mem_range]
  constructor
  · rintro ⟨h1, h2, -⟩; exact ⟨h1, h2⟩
  · rintro ⟨h1, h2⟩; exact ⟨h1, h2, hmax s i (hs s hs') h1⟩

-- the bound for the example: about 80 rounding errors
example : ∀ r, resampleAll ⟨false, false⟩ 5 (exNearest [0, 2, 3, 1, 100]) [0] (exMem64 ex71) = some r →
    ∀ i < 5, -(1 / 2 ^ 45) ≤ wt (valMem r.1) 0 i := by
  intro r hr i hi
  have hT : absTotal 5 (valMem (exMem64 ex71)) 0 = 7 := by
    norm_num [absTotal, wt, valMem, exMem64, ex71, Finset.sum_range_succ]
  have hfl := fl64_roundsWithin (n := 5) (by norm_num) (2 ^ 3)
  have hb := roundingBound_linear hfl.u_nonneg hfl.eta_nonneg (N := 6) (by norm_num) (T := 7) (by norm_num)
  have hsmall : (2 : ℚ) ^ (-1075 : ℤ) ≤ 2 ^ (-60 : ℤ) := zpow_two_mono (by norm_num)
  have := C71_negative_weights_partial (u := 2 ^ (-53 : ℤ)) (η := 2 ^ (-1075 : ℤ)) hfl (dist := exDist [0, 2, 3, 1, 100])
    (maxDist := 1000)
    (by intro i j hi hj; interval_cases i <;> interval_cases j <;> decide) (by simp)
    (by intro s hs; exact exNearest_spec [0, 2, 3, 1, 100] s (by simp at hs; subst hs; simp)) (exUniform64 _ _ _)
    (by norm_num [weightTotal, wt, valMem, exMem64, ex71, Finset.sum_range_succ])
    (by
      intro i hi
      rw [val_lt]
      interval_cases i <;> norm_num [wt, exMem64, ex71, val_zero])
    (by
      rw [← roundingBound_size, hT]
      norm_num at hb hsmall ⊢
      linarith)
    hr i hi
  rw [hT] at this
  norm_num at this hb hsmall ⊢
  linarith

end C71

end Cres

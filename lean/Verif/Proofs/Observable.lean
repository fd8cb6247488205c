import Verif.Spec.Observable
import Verif.Proofs.Negative
import Verif.Proofs.Separate

/-!
Lemmas for C111: the effect of averages on sums of products of weights with other numbers.
-/

set_option linter.unusedSectionVars false

namespace Cres

open Spec

variable {D K : Type*} [Zero D] [Field K] [LinearOrder K] [IsStrictOrderedRing K]

/-- One cell. -/
theorem average_observable {n : Nat} {c : List Nat} {mem mem' : Nat → List K} (h : IsCellAverage c mem mem') (hne : c ≠ [])
    (hnd : c.Nodup) (hlt : ∀ i ∈ c, i < n) (g : Nat → K) {ε v : K} (hε : 0 ≤ ε) (hg : ∀ i ∈ c, |g i - v| ≤ ε) (k : Nat) :
    |∑ i ∈ Finset.range n, g i * wt mem' k i - ∑ i ∈ Finset.range n, g i * wt mem k i| ≤
      2 * ε * ∑ i ∈ Finset.range n, |wt mem k i| := by
  have hsub : c.toFinset ⊆ Finset.range n := fun i hi => Finset.mem_range.2 (hlt i (List.mem_toFinset.1 hi))
  have hl : (0 : K) < (c.length : K) := by
    have := List.length_pos_iff.2 hne
    exact_mod_cast this
  have hcard : c.toFinset.card = c.length := List.toFinset_card_of_nodup hnd
  set μ := (∑ i ∈ c.toFinset, wt mem k i) / (c.length : K) with hμ
  have hmean : ∀ i ∈ c.toFinset, wt mem' k i = μ := by
    intro i hi
    rw [h.mean i (List.mem_toFinset.1 hi) k, hμ, List.sum_toFinset _ hnd]
  have hmul : (c.length : K) * μ = ∑ i ∈ c.toFinset, wt mem k i := by rw [hμ, mul_div_cancel₀ _ hl.ne']
  have h1 : ∑ i ∈ Finset.range n, g i * wt mem' k i - ∑ i ∈ Finset.range n, g i * wt mem k i =
      ∑ i ∈ c.toFinset, (g i - v) * (μ - wt mem k i) := by
    rw [← Finset.sum_sub_distrib, ← Finset.sum_subset hsub]
    · have h2 : ∑ i ∈ c.toFinset, v * (μ - wt mem k i) = 0 := by
        rw [← Finset.mul_sum, Finset.sum_sub_distrib, Finset.sum_const, hcard, nsmul_eq_mul, hmul, sub_self, mul_zero]
      rw [← add_zero (∑ i ∈ c.toFinset, (g i - v) * (μ - wt mem k i)), ← h2, ← Finset.sum_add_distrib]
      refine Finset.sum_congr rfl fun i hi => ?_
      rw [hmean i hi]
      ring
    · intro i _ hi
      unfold wt
      rw [h.outside i fun hc => hi (List.mem_toFinset.2 hc), sub_self]
  have h3 : |μ| * (c.length : K) ≤ ∑ i ∈ c.toFinset, |wt mem k i| := by
    rw [mul_comm, ← abs_of_pos hl, ← abs_mul, hmul]
    exact Finset.abs_sum_le_sum_abs _ _
  rw [h1]
  refine (Finset.abs_sum_le_sum_abs _ _).trans ?_
  have h4 : ∀ i ∈ c.toFinset, |(g i - v) * (μ - wt mem k i)| ≤ ε * (|μ| + |wt mem k i|) := by
    intro i hi
    rw [abs_mul]
    exact mul_le_mul (hg i (List.mem_toFinset.1 hi)) (abs_sub _ _) (abs_nonneg _) hε
  refine (Finset.sum_le_sum h4).trans ?_
  rw [← Finset.mul_sum, Finset.sum_add_distrib, Finset.sum_const, hcard, nsmul_eq_mul]
  have h5 : ∑ i ∈ c.toFinset, |wt mem k i| ≤ ∑ i ∈ Finset.range n, |wt mem k i| :=
    Finset.sum_le_sum_of_subset_of_nonneg hsub fun i _ _ => abs_nonneg _
  have h6 : (c.length : K) * |μ| + ∑ i ∈ c.toFinset, |wt mem k i| ≤ 2 * ∑ i ∈ Finset.range n, |wt mem k i| := by linarith
  calc ε * ((c.length : K) * |μ| + ∑ i ∈ c.toFinset, |wt mem k i|) ≤ ε * (2 * ∑ i ∈ Finset.range n, |wt mem k i|) :=
        mul_le_mul_of_nonneg_left h6 hε
    _ = _ := by ring

/-- A sequence of cells. -/
theorem averageSeq_observable {n : Nat} {cells : List (List Nat)} {mem mem' : Nat → List K} (h : AverageSeq cells mem mem')
    (hc : CellsOK n cells) (g : Nat → K) {ε : K} (hε : 0 ≤ ε) (hg : ∀ c ∈ cells, c ≠ [] ∧ ∃ v, ∀ i ∈ c, |g i - v| ≤ ε) (k : Nat) :
    |∑ i ∈ Finset.range n, g i * wt mem' k i - ∑ i ∈ Finset.range n, g i * wt mem k i| ≤
      (cells.length : K) * (2 * ε * ∑ i ∈ Finset.range n, |wt mem k i|) := by
  induction h with
  | nil => simp
  | @cons c cs m1 m2 m3 h1 _ ih =>
    obtain ⟨c1, c2⟩ := hc c List.mem_cons_self
    obtain ⟨hne, v, hv⟩ := hg c List.mem_cons_self
    have a1 := average_observable h1 hne c1 c2 g hε hv k
    have a2 := ih (fun d hd => hc d (List.mem_cons_of_mem _ hd)) fun d hd => hg d (List.mem_cons_of_mem _ hd)
    have a3 : ∑ i ∈ Finset.range n, |wt m2 k i| ≤ ∑ i ∈ Finset.range n, |wt m1 k i| :=
      jensen_step h1 c1 c2 (fun x => |x|) k jensen_abs
    have a4 : (cs.length : K) * (2 * ε * ∑ i ∈ Finset.range n, |wt m2 k i|) ≤
        (cs.length : K) * (2 * ε * ∑ i ∈ Finset.range n, |wt m1 k i|) := by
      refine mul_le_mul_of_nonneg_left (mul_le_mul_of_nonneg_left a3 (by linarith)) (Nat.cast_nonneg _)
    have a5 := abs_sub_le (∑ i ∈ Finset.range n, g i * wt m3 k i) (∑ i ∈ Finset.range n, g i * wt m2 k i)
      (∑ i ∈ Finset.range n, g i * wt m1 k i)
    rw [List.length_cons]
    push_cast
    linarith

/-- Resampling, for all interleavings. -/
theorem reachable_observable {cfg : Cfg} {n L : Nat} {nearest : Nat → List (Nat × D)} {seeds : List Nat}
    (hv : ValidInput n nearest seeds) {mem0 : Mem K} (hu : Uniform cfg n L mem0) {s : State D K}
    (h : Reachable cfg n nearest seeds mem0 s) (hf : s.Finished seeds) (g : Nat → K) {ε : K} (hε : 0 ≤ ε)
    (hg : ∀ seed ∈ seeds, ∀ i ∈ (nearest seed).map Prod.fst, |g i - g seed| ≤ ε) (k : Nat) :
    |∑ i ∈ Finset.range n, g i * wt s.mem k i - ∑ i ∈ Finset.range n, g i * wt mem0 k i| ≤
      (seeds.length : K) * (2 * ε * ∑ i ∈ Finset.range n, |wt mem0 k i|) := by
  obtain ⟨A, hA⟩ := inv_reachable hv hu h
  rw [finished_mem hA hf]
  obtain ⟨h1, h2⟩ := inv_averageSeq hv hu hA
  refine (averageSeq_observable h1 h2 g hε ?_ k).trans ?_
  · intro c' hc'
    obtain ⟨c, hc, rfl⟩ := List.mem_map.1 hc'
    obtain ⟨t, seed, h3, -, h5⟩ := inv_log_cells hA c hc
    refine ⟨h5.ne_nil, g seed, fun i hi => ?_⟩
    have := h5.near i hi
    rcases List.mem_cons.1 this with rfl | hin
    · simpa using hε
    · exact hg seed (List.mem_of_getElem? h3) i hin
  · refine mul_le_mul_of_nonneg_right ?_ (mul_nonneg (by linarith) (Finset.sum_nonneg fun i _ => abs_nonneg _))
    rw [List.length_map, hA.logged.length_eq]
    have := List.length_filterMap_le (fun t => (s.tasks t).committed) (List.range seeds.length)
    rw [List.length_range] at this
    exact_mod_cast this

end Cres

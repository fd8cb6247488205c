import Mathlib.Analysis.Convex.Jensen
import Verif.Props.Negative

/-!
Property C131: resampling makes weights more similar.
-/

set_option linter.unusedSectionVars false

namespace Cres

open Spec CombinedIO Program

section

variable {K : Type*} [Field K] [LinearOrder K] [IsStrictOrderedRing K]

theorem jensen_convex {φ : K → K} (hφ : ConvexOn K Set.univ φ) (s : Finset Nat) (g : Nat → K) (hs : s.Nonempty) :
    (s.card : K) * φ ((∑ i ∈ s, g i) / (s.card : K)) ≤ ∑ i ∈ s, φ (g i) := by
  have hc : (0 : K) < s.card := by exact_mod_cast Finset.card_pos.2 hs
  have h := hφ.map_sum_le (t := s) (w := fun _ => (s.card : K)⁻¹) (p := g) (fun _ _ => (inv_pos.2 hc).le)
    (by rw [Finset.sum_const, nsmul_eq_mul, mul_inv_cancel₀ hc.ne']) (fun _ _ => Set.mem_univ _)
  simp only [smul_eq_mul, ← Finset.mul_sum] at h
  rw [div_eq_inv_mul]
  calc (s.card : K) * φ ((s.card : K)⁻¹ * ∑ i ∈ s, g i) ≤ s.card * ((s.card : K)⁻¹ * ∑ i ∈ s, φ (g i)) := mul_le_mul_of_nonneg_left h hc.le
    _ = ∑ i ∈ s, φ (g i) := by rw [mul_inv_cancel_left₀ hc.ne']

/-- How far a number is above a bound. -/
theorem convex_above (b : K) : ConvexOn K Set.univ fun x : K => max (x - b) 0 := by
  refine ConvexOn.sup ?_ (convexOn_const 0 convex_univ)
  exact (convexOn_id convex_univ).sub (concaveOn_const b convex_univ)

theorem convex_below (a : K) : ConvexOn K Set.univ fun x : K => max (a - x) 0 := by
  refine ConvexOn.sup ?_ (convexOn_const 0 convex_univ)
  exact (convexOn_const a convex_univ).sub (concaveOn_id convex_univ)

variable {D : Type*} [Zero D] [LinearOrder D]

/-- **C131** for all interleavings: the sum of any convex function of the weights does not increase. -/
theorem C131_convex {cfg : Cfg} {n L : Nat} {nearest : Nat → List (Nat × D)} {seeds : List Nat} (hv : ValidInput n nearest seeds) {mem : Mem K}
    (hu : Uniform cfg n L mem) {s : State D K} (h : Reachable cfg n nearest seeds mem s) (hf : s.Finished seeds) (k : Nat)
    {φ : K → K} (hφ : ConvexOn K Set.univ φ) :
    ∑ j ∈ Finset.range n, φ (wt s.mem k j) ≤ ∑ j ∈ Finset.range n, φ (wt mem k j) := by
  obtain ⟨A, hA⟩ := inv_reachable hv hu h
  obtain ⟨h1, h2⟩ := inv_averageSeq hv hu hA
  rw [finished_mem hA hf]
  exact averageSeq_jensen h1 h2 φ k (jensen_convex hφ)

/-- **C131** for all interleavings: weights stay in any interval that contains all of them before. -/
theorem C131_range {cfg : Cfg} {n L : Nat} {nearest : Nat → List (Nat × D)} {seeds : List Nat} (hv : ValidInput n nearest seeds) {mem : Mem K}
    (hu : Uniform cfg n L mem) {s : State D K} (h : Reachable cfg n nearest seeds mem s) (hf : s.Finished seeds) (k : Nat) {a b : K}
    (hab : ∀ j < n, a ≤ wt mem k j ∧ wt mem k j ≤ b) : ∀ j < n, a ≤ wt s.mem k j ∧ wt s.mem k j ≤ b := by
  have key : ∀ φ : K → K, ConvexOn K Set.univ φ → (∀ x, 0 ≤ φ x) → (∀ j < n, φ (wt mem k j) = 0) → ∀ j < n, φ (wt s.mem k j) = 0 := by
    intro φ hφ h0 hz j hj
    have h1 := C131_convex hv hu h hf k hφ
    rw [Finset.sum_eq_zero fun i hi => hz i (Finset.mem_range.1 hi)] at h1
    have h2 := Finset.single_le_sum (f := fun j => φ (wt s.mem k j)) (fun i _ => h0 _) (Finset.mem_range.2 hj)
    exact le_antisymm (h2.trans h1) (h0 _)
  intro j hj
  have h1 := key _ (convex_below a) (fun x => le_max_right _ _) (fun i hi => max_eq_right (by linarith [(hab i hi).1])) j hj
  have h2 := key _ (convex_above b) (fun x => le_max_right _ _) (fun i hi => max_eq_right (by linarith [(hab i hi).2])) j hj
  rw [max_eq_right_iff] at h1 h2
  exact ⟨by linarith, by linarith⟩

/-- **C131** for all interleavings: the effective number of events, which is the square of the sum of weights divided by the sum of squares, does not
decrease. -/
theorem C131_effective {cfg : Cfg} {n L : Nat} {nearest : Nat → List (Nat × D)} {seeds : List Nat} (hv : ValidInput n nearest seeds) {mem : Mem K}
    (hu : Uniform cfg n L mem) {s : State D K} (h : Reachable cfg n nearest seeds mem s) (hf : s.Finished seeds) (k : Nat) :
    (∑ j ∈ Finset.range n, wt mem k j) ^ 2 * ∑ j ∈ Finset.range n, wt s.mem k j ^ 2 ≤
      (∑ j ∈ Finset.range n, wt s.mem k j) ^ 2 * ∑ j ∈ Finset.range n, wt mem k j ^ 2 := by
  have h1 := C01_weight_sums_conserved_parallel hv hu h hf k
  have h2 := (C07_no_increase_parallel hv hu h hf k).2.2
  unfold weightTotal at h1
  unfold squareTotal at h2
  simp only [wt] at h1 h2 ⊢
  rw [h1]
  exact mul_le_mul_of_nonneg_left h2 (sq_nonneg _)

variable {V P : Type*} [LinearOrder V] [DecidableEq P]

/-- **C131** for files: in a run without unweighting, if the new weights can be written, the sum of any convex function that is smallest at 0 does not
increase. This includes all powers of absolute values. -/
theorem C131_files {p : Program K V D} (hg : GoodComponents p) (hun : p.unweight = .ok)
    {fs fs' : FS P} {files : List (P × P)} {ds : List (EventFile K V)}
    (hin : EventFiles p.io fs (files.map Prod.fst) ds) (hf : GoodFiles files) (hs : WeightsSupported p.io ds)
    {events : Option (List (Event K V))}
    {ws : List (Weights K)} {res : Outcome (CresError IOError) Unit} (h : p.Run files fs events (some ws) res fs')
    (hw : ∀ w ∈ ws, ∀ x ∈ w, ∀ d ∈ ds, Writable p.io d.kind x) :
    res = .ok () ∧ ∃ ds', EventFiles p.io fs' (files.map Prod.snd) ds' ∧ List.Forall₂ SameExceptWeights ds ds' ∧
      ∀ k (φ : K → K), ConvexOn K Set.univ φ → (∀ x, φ 0 ≤ φ x) →
        ((allEvents ds').map fun e => φ (weightNo k e)).sum ≤ ((allEvents ds).map fun e => φ (weightNo k e)).sum := by
  obtain ⟨m, events, hm0, hm1, rfl, he, hcw, h1⟩ := supported_run hg hun hin hf hs h
  obtain ⟨s, hr, hfin, hrun⟩ := computesWeights_state hcw
  have hsum := (weights_written_all (M := K) hg hun hm0 hm1 he hr hfin hrun).2.2
  obtain ⟨h2, ds', h3, h4, h5⟩ := h1 hw
  refine ⟨h2, ds', h3, h4, fun k φ hφ h0 => ?_⟩
  have hle := C131_convex (hg.valid _) (read_weights hg hm0 hm1 he) hr hfin k hφ
  obtain ⟨e1, e2, -⟩ := (hsum k).1 φ
  rw [h5, e1, e2]
  refine add_le_add hle (list_sum_le _ fun e _ => ?_)
  split_ifs
  · exact le_rfl
  · exact h0 _

theorem mem_of_sum_zero {A : Type*} (l : List A) (f : A → K) (h0 : ∀ a ∈ l, 0 ≤ f a) (h : (l.map f).sum ≤ 0) : ∀ a ∈ l, f a = 0 := by
  induction l with
  | nil => simp
  | cons x l ih =>
    rw [List.map_cons, List.sum_cons] at h
    have h1 := h0 x (by simp)
    have h2 : 0 ≤ (l.map f).sum := List.sum_nonneg (by
      intro y hy
      obtain ⟨a, ha, rfl⟩ := List.mem_map.1 hy
      exact h0 a (by simp [ha]))
    intro a ha
    rcases List.mem_cons.1 ha with rfl | ha
    · linarith
    · exact ih (fun a ha => h0 a (by simp [ha])) (by linarith) a ha

/-- **C131** for files: in a run without unweighting, if the new weights can be written, then all weights in the output files are between the
smallest and the largest weight in the input files (or 0). -/
theorem C131_files_range {p : Program K V D} (hg : GoodComponents p) (hun : p.unweight = .ok)
    {fs fs' : FS P} {files : List (P × P)} {ds : List (EventFile K V)}
    (hin : EventFiles p.io fs (files.map Prod.fst) ds) (hf : GoodFiles files) (hs : WeightsSupported p.io ds)
    {events : Option (List (Event K V))}
    {ws : List (Weights K)} {res : Outcome (CresError IOError) Unit} (h : p.Run files fs events (some ws) res fs')
    (hw : ∀ w ∈ ws, ∀ x ∈ w, ∀ d ∈ ds, Writable p.io d.kind x) :
    res = .ok () ∧ ∃ ds', EventFiles p.io fs' (files.map Prod.snd) ds' ∧ List.Forall₂ SameExceptWeights ds ds' ∧
      ∀ k a b, a ≤ 0 → 0 ≤ b → (∀ e ∈ allEvents ds, a ≤ weightNo k e ∧ weightNo k e ≤ b) →
        ∀ e ∈ allEvents ds', a ≤ weightNo k e ∧ weightNo k e ≤ b := by
  obtain ⟨h1, ds', h2, h3, h4⟩ := C131_files hg hun hin hf hs h hw
  refine ⟨h1, ds', h2, h3, fun k a b ha hb hab e he => ?_⟩
  have key : ∀ φ : K → K, ConvexOn K Set.univ φ → (∀ x, 0 ≤ φ x) → φ 0 = 0 → (∀ e ∈ allEvents ds, φ (weightNo k e) = 0) →
      φ (weightNo k e) = 0 := by
    intro φ hφ hnn h0 hz
    have hle := h4 k φ hφ fun x => by rw [h0]; exact hnn x
    rw [List.map_congr_left (g := fun _ => (0 : K)) hz] at hle
    simp only [List.map_const', List.sum_replicate, smul_zero] at hle
    exact mem_of_sum_zero _ _ (fun _ _ => hnn _) hle e he
  have g1 := key _ (convex_below a) (fun x => le_max_right _ _) (max_eq_right (by linarith))
    (fun i hi => max_eq_right (by linarith [(hab i hi).1]))
  have g2 := key _ (convex_above b) (fun x => le_max_right _ _) (max_eq_right (by linarith))
    (fun i hi => max_eq_right (by linarith [(hab i hi).2]))
  rw [max_eq_right_iff] at g1 g2
  exact ⟨by linarith, by linarith⟩

end

section

variable {K V D P : Type*} [Zero D] [LinearOrder D] [DistNum D] [ExactComparison D] [Field K] [LinearOrder K] [IsStrictOrderedRing K] [LinearOrder V]
  [DecidableEq P]

/-- **C131** for the command line program. -/
theorem C131_cres {s : CresSettings K V D} (hc : GoodChoices s) (h0 : s.minWeight = 0)
    {fs fs' : FS P} {files : List (P × P)} {ds : List (EventFile K V)}
    (hin : EventFiles s.io fs (files.map Prod.fst) ds) (hf : GoodFiles files) (hws : WeightsSupported s.io ds)
    {events : Option (List (Event K V))} {ws : List (Weights K)} {res : Outcome (CresError IOError) Unit}
    (h : s.program.Run files fs events (some ws) res fs') (hw : ∀ w ∈ ws, ∀ x ∈ w, ∀ d ∈ ds, Writable s.io d.kind x) :
    res = .ok () ∧ ∃ ds', EventFiles s.io fs' (files.map Prod.snd) ds' ∧ List.Forall₂ SameExceptWeights ds ds' ∧
      ∀ k (φ : K → K), ConvexOn K Set.univ φ → (∀ x, φ 0 ≤ φ x) →
        ((allEvents ds').map fun e => φ (weightNo k e)).sum ≤ ((allEvents ds).map fun e => φ (weightNo k e)).sum :=
  C131_files (cres_goodComponents hc) (cres_unweight h0) hin hf hws h hw

end

/-- Resampling with overlapping cells that ends: weights from -3 to 5 stay in this interval. -/
example : ∃ s : State ℤ ℚ, Reachable ⟨false, false⟩ 4 (exNearest [0, 1, 10, 12]) [2, 0] (exMem [-3, 1, -2, 5]) s ∧ s.Finished [2, 0] ∧
    ∀ j < 4, -3 ≤ wt s.mem 0 j ∧ wt s.mem 0 j ≤ 5 := by
  have hv := exValid [0, 1, 10, 12] [2, 0] (by simp)
  obtain ⟨ks, st, -, g2, g3⟩ := C05_one_thread_completes (cfg := ⟨false, false⟩) rfl hv (exUniform [-3, 1, -2, 5] false 4)
  refine ⟨st, runSchedule_reachable _ Reachable.init g2, g3,
    C131_range hv (exUniform [-3, 1, -2, 5] false 4) (runSchedule_reachable _ Reachable.init g2) g3 0 ?_⟩
  decide +kernel

/-- The hypotheses about runs are those of `C76_cres`, met by this run. -/
example (multi : Bool) : ∃ res fs', (exSettings multi).program.Run [((0 : ℕ), 10), (1, 11)] exProgFS (some exProgEvents)
    (some [[2], [6], [2]]) res fs' := exProg_run multi

/-- Functions as in `C131_files`. -/
example : ConvexOn ℚ Set.univ (fun x : ℚ => |x|) ∧ (∀ x : ℚ, |(0 : ℚ)| ≤ |x|) ∧ ConvexOn ℚ Set.univ (fun x : ℚ => x ^ 4) := by
  refine ⟨?_, fun x => by simp, Even.convexOn_pow (by decide)⟩
  exact (convexOn_id convex_univ).sup (concaveOn_id convex_univ).neg

end Cres

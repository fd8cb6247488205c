import Verif.Spec.FloatRun
import Verif.Proofs.Negative
import Verif.Props.Rounding
import Verif.Model.F64Format

/-!
Runs with `f64` weights.
-/

set_option linter.unusedSectionVars false

namespace Cres

open Spec CombinedIO Program

/-! ## rounded numbers are `f64` numbers -/

theorem maxF64_isF64 : IsF64 maxF64 := ⟨2 ^ 53 - 1, 971, by norm_num, by norm_num, by norm_num, by unfold maxF64; push_cast; ring⟩

theorem isF64_neg {x : ℚ} (h : IsF64 x) : IsF64 (-x) := by
  obtain ⟨m, e, h1, h2, h3, rfl⟩ := h
  exact ⟨-m, e, by rwa [abs_neg], h2, h3, by push_cast; ring⟩

theorem isF64_zero : IsF64 0 := ⟨0, 0, by norm_num, by norm_num, by norm_num, by simp⟩

/-- A result of rounding that is not too large is a finite number. -/
theorem fl64_isF64_of_le {x : ℚ} (h : |fl64 x| ≤ maxF64) : IsF64 (fl64 x) := by
  rcases le_or_gt |x| maxF64 with hx | hx
  · exact fl64_isF64 hx
  · have hb := abs_le.1 h
    rcases lt_abs.1 hx with hx | hx
    · have h1 := fl64_nearest x _ maxF64_isF64
      rw [abs_of_neg (by linarith : maxF64 - x < 0)] at h1
      have h2 := (abs_le.1 h1).1
      have : fl64 x = maxF64 := le_antisymm hb.2 (by linarith)
      rw [this]
      exact maxF64_isF64
    · have h1 := fl64_nearest x _ (isF64_neg maxF64_isF64)
      rw [abs_of_pos (by linarith : 0 < -maxF64 - x)] at h1
      have h2 := (abs_le.1 h1).2
      have : fl64 x = -maxF64 := le_antisymm (by linarith) hb.1
      rw [this]
      exact isF64_neg maxF64_isF64

/-- All finite numbers can be written and read. -/
theorem f64Format_finite (w : N64) (h : IsF64 w.val) : f64Format.finite w = true := by
  have h1 := fl64_fixed h
  obtain ⟨m, e, hm, he1, he2, hx⟩ := h
  have h2 : w.val.den ∣ 2 ^ 1074 := by
    have e1 : w.val * ((2 ^ 1074 : ℕ) : ℚ) = ((m * 2 ^ (e + 1074).toNat : ℤ) : ℚ) := by
      push_cast
      rw [hx, mul_assoc, ← zpow_natCast, ← zpow_natCast, ← zpow_add₀ (by norm_num), Int.toNat_of_nonneg (by omega)]
      rfl
    have e3 : w.val = (w.val * ((2 ^ 1074 : ℕ) : ℚ)) / ((2 ^ 1074 : ℕ) : ℤ) := by
      rw [Int.cast_natCast, mul_div_assoc, div_self (by positivity), mul_one]
    rw [e1] at e3
    have := Rat.den_dvd (m * 2 ^ (e + 1074).toNat) (2 ^ 1074 : ℕ)
    rw [Rat.divInt_eq_div, ← e3] at this
    exact_mod_cast this
  have h3 : |w.val| ≤ (2 ^ 53 - 1) * 2 ^ 971 := by
    rw [hx, abs_mul, abs_of_pos (show (0 : ℚ) < 2 ^ e by positivity)]
    have g1 : |(m : ℚ)| ≤ 2 ^ 53 - 1 := by
      have : |m| ≤ 2 ^ 53 - 1 := by omega
      exact_mod_cast this
    have g2 : (2 : ℚ) ^ e ≤ 2 ^ 971 := by
      rw [← zpow_natCast]
      exact zpow_two_mono (by exact_mod_cast he2)
    exact mul_le_mul g1 g2 (by positivity) (by norm_num)
  simp only [f64Format, Bool.and_eq_true, decide_eq_true_eq]
  exact ⟨⟨h2, h1⟩, h3⟩

section

variable {D K : Type*} [Zero D] [Field K] [LinearOrder K] {fl : K → K}

/-- Averages are results of rounding. -/
theorem average_rounded {cfg : Cfg} {ws : List (Weights (Rounded fl))} {avg : Weights (Rounded fl)}
    (h : average cfg ws = some avg) : ∀ x ∈ avg, ∃ y, x.val = fl y := by
  unfold average at h
  split at h
  · unfold averageMulti at h
    cases ws with
    | nil => simp at h
    | cons w ws =>
      simp only [Option.map_eq_some_iff] at h
      obtain ⟨t, -, rfl⟩ := h
      intro x hx
      obtain ⟨a, -, rfl⟩ := List.mem_map.1 hx
      exact ⟨_, rfl⟩
  · unfold averageSingle at h
    simp only [Option.map_eq_some_iff] at h
    obtain ⟨t, -, rfl⟩ := h
    intro x hx
    rw [List.mem_singleton] at hx
    subst hx
    exact ⟨_, rfl⟩

/-- Weights after resampling are those from before, or results of rounding. -/
theorem applyCells_rounded {cfg : Cfg} (cells : List (Cell D (Rounded fl))) : ∀ {mem mem' : Mem (Rounded fl)},
    applyCells cfg cells mem = some mem' → ∀ i, ∀ x ∈ mem' i, x ∈ mem i ∨ ∃ y, x.val = fl y := by
  induction cells with
  | nil =>
    intro mem mem' ha i x hx
    simp only [applyCells, List.foldlM_nil] at ha
    obtain rfl : mem = mem' := by simpa using ha
    exact Or.inl hx
  | cons c cells ih =>
    intro mem mem' ha i x hx
    simp only [applyCells, List.foldlM_cons] at ha
    cases hr : c.resample cfg mem with
    | none => rw [hr] at ha; simp at ha
    | some m1 =>
      rw [hr] at ha
      rcases ih ha i x hx with h | h
      · obtain ⟨avg, hav, h1, h2⟩ := resample_some hr
        by_cases hm : i ∈ c.members
        · rw [h1 i hm] at h
          exact Or.inr (average_rounded hav x h)
        · rw [h2 i hm] at h
          exact Or.inl h
      · exact Or.inr h

end

theorem countP_sum {α : Type*} (p : α → Bool) (l : List α) : (l.filter p).length = (l.map fun a => if p a then 1 else 0).sum := by
  induction l with
  | nil => rfl
  | cons a l ih =>
    by_cases h : p a <;> simp [h, ih, Nat.add_comm]

theorem three_bound {N : Nat} (hN : N ≤ 2 ^ 53) {T : ℚ} (hT : 0 ≤ T) :
    T + N * (2 ^ (-52 : ℤ) * T + 6 * 2 ^ (-1075 : ℤ)) ≤ 3 * T + 2 ^ (-1000 : ℤ) := by
  have hN' : (N : ℚ) ≤ 2 ^ 53 := by exact_mod_cast hN
  have h1 : (N : ℚ) * (2 ^ (-52 : ℤ) * T) ≤ 2 * T := by
    calc (N : ℚ) * (2 ^ (-52 : ℤ) * T) ≤ 2 ^ 53 * (2 ^ (-52 : ℤ) * T) := mul_le_mul_of_nonneg_right hN' (by positivity)
      _ = 2 * T := by rw [← mul_assoc]; norm_num
  have h2 : (N : ℚ) * (6 * 2 ^ (-1075 : ℤ)) ≤ 2 ^ (-1000 : ℤ) := by
    calc (N : ℚ) * (6 * 2 ^ (-1075 : ℤ)) ≤ 2 ^ 53 * (2 ^ 3 * 2 ^ (-1075 : ℤ)) :=
          mul_le_mul hN' (mul_le_mul_of_nonneg_right (by norm_num) (by positivity)) (by positivity) (by positivity)
      _ ≤ 2 ^ (-1000 : ℤ) := by
        rw [← zpow_natCast, ← zpow_natCast, ← zpow_add₀ (by norm_num), ← zpow_add₀ (by norm_num)]
        exact zpow_two_mono (by norm_num)
  linarith

/-- Rounded arithmetic in complete runs. -/
theorem f64_weights {V D : Type*} [Zero D] [LinearOrder D] [DistNum D] [ExactComparison D] [LinearOrder V] {s : CresSettings N64 V D}
    (hc : GoodChoices s) (h0 : s.minWeight = 0)
    {m : Nat} (hm0 : 0 < m) (hm1 : s.program.io.ctx.multi = false → m = 1) {ds : List (EventFile N64 V)} {events : List (Event N64 V)}
    (he : EventsRead s.program m ds events) {ws : List (Weights N64)} {st : State D N64}
    (hr : Reachable s.program.cfg (identified events).length (s.program.nearest (identified events))
      (s.program.seeds (identified events)) (memOf (identified events)) st)
    (hfin : st.Finished (s.program.seeds (identified events)))
    (hrun : runWeights s.program.cfg s.program.infoLog
      (fun _ => (.ok (withWeights (identified events) st.mem) : Outcome IOError _)) s.program.unweight events = .ok ws)
    (hrange : F64Range (allEvents ds) ((allEvents ds).filter (HasParticles s.program))) :
    (identified events).length = ((allEvents ds).filter (HasParticles s.program)).length ∧
    (s.program.seeds (identified events)).length ≤ negativeCount ((allEvents ds).filter (HasParticles s.program)) ∧
    (∀ k, weightTotal (identified events).length (valMem (memOf (identified events))) k =
      exactSum k ((allEvents ds).filter (HasParticles s.program)) ∧
      absTotal (identified events).length (valMem (memOf (identified events))) k =
        exactAbsSum k ((allEvents ds).filter (HasParticles s.program))) ∧
    (∀ w ∈ ws, ∀ x ∈ w, IsF64 x.val) ∧
    (∀ k, absTotal (identified events).length (valMem st.mem) k ≤
      3 * exactAbsSum k ((allEvents ds).filter (HasParticles s.program)) + 2 ^ (-1000 : ℤ)) ∧
    (∀ k, exactAbsSum k (List.zipWith reweighted ws (allEvents ds)) ≤ 3 * exactAbsSum k (allEvents ds) + 2 ^ (-1000 : ℤ)) ∧
    (∀ w ∈ ws, ∀ x ∈ w, ∃ k, |x.val| ≤ 3 * exactAbsSum k (allEvents ds) + 2 ^ (-1000 : ℤ)) ∧
    ∀ k, |exactSum k (List.zipWith reweighted ws (allEvents ds)) -
      exactSum k ((allEvents ds).filter fun e => s.io.ctx.multi || HasParticles s.program e)| ≤
        f64Error k ((allEvents ds).filter (HasParticles s.program)) := by
  have hg := cres_goodComponents hc
  have hun := cres_unweight h0
  have hu := read_weights hg hm0 hm1 he
  have hv := hg.valid (identified events)
  obtain ⟨-, hwm, hall⟩ := weights_written_all (M := ℚ) hg hun hm0 hm1 he hr hfin hrun
  have hnat := (weights_written_all (M := ℕ) hg hun hm0 hm1 he hr hfin hrun).2.2 0
  set H := (allEvents ds).filter (HasParticles s.program) with hH
  set n := (identified events).length with hn
  have hlen : n = H.length := by
    have := (hnat.1 fun _ => 1).2.2
    simp only [List.map_const', List.sum_replicate, Finset.sum_const, Finset.card_range, smul_eq_mul, mul_one] at this
    exact this.symm
  have hseeds : (s.program.seeds (identified events)).length ≤ negativeCount H := by
    obtain ⟨seeds, hsel, hnd, hmem⟩ := selectSeeds_mem hc.seeds s.strategy hu
    have hsel' : s.program.seeds (identified events) = seeds := by
      have : s.program.seeds (identified events) =
        (selectSeeds s.sortSeeds s.strategy (identified events).length (memOf (identified events))).getD [] := rfl
      rw [this, hsel]; rfl
    have h1 := (hnat.1 fun w => if w.val < 0 then 1 else 0).2.2
    unfold negativeCount
    rw [hsel', countP_sum]
    simp only [decide_eq_true_eq]
    rw [h1, ← List.toFinset_card_of_nodup hnd, ← Finset.card_filter]
    refine Finset.card_le_card fun i hi => ?_
    rw [List.mem_toFinset, hmem] at hi
    exact Finset.mem_filter.2 ⟨Finset.mem_range.2 hi.1, val_lt.1 hi.2⟩
  have hsums : ∀ k, weightTotal n (valMem (memOf (identified events))) k = exactSum k H ∧
      absTotal n (valMem (memOf (identified events))) k = exactAbsSum k H := by
    intro k
    constructor
    · have := ((hall k).1 Rounded.val).2.2
      unfold weightTotal exactSum
      simp only [wt_valMem]
      exact this.symm
    · have := ((hall k).1 fun w => |w.val|).2.2
      unfold absTotal exactAbsSum
      simp only [wt_valMem]
      exact this.symm
  have hops : (st.log.map (fun c => c.members.length + 1)).sum ≤ maxOperations H := by
    refine (C70_operations hv hu hr).trans ?_
    unfold maxOperations
    rw [← hlen]
    exact Nat.mul_le_mul_right _ hseeds
  have h70 : ∀ k < m, _ := fun k (hk : k < m) => C70_f64 (k := k) (by rw [hlen]; exact hrange.length) hv hu hr hfin hops
    hrange.operations hk (by rw [(hsums k).2]; exact hrange.sums k)
  obtain ⟨A, hA⟩ := inv_reachable hv hu hr
  have hlenA : ∀ i < n, (st.mem i).length = m := by
    intro i hi
    rw [finished_mem hA hfin]
    exact hA.uniform.length i hi
  have hz1 : ∀ k, ¬ k < m → ∀ i < n, wt (valMem st.mem) k i = 0 := by
    intro k hk i hi
    rw [wt_valMem]
    unfold wt
    rw [List.getD_eq_getElem?_getD, List.getElem?_eq_none (by rw [hlenA i hi]; omega)]
    rfl
  have hT0 : ∀ k, 0 ≤ exactAbsSum k H := fun k => by rw [← (hsums k).2]; exact absTotal_nonneg _ _
  have hmem : ∀ k, absTotal n (valMem st.mem) k ≤ 3 * exactAbsSum k H + 2 ^ (-1000 : ℤ) := by
    intro k
    by_cases hk : k < m
    · refine (h70 k hk).2.2.trans ?_
      rw [(hsums k).2]
      exact three_bound hrange.operations (hT0 k)
    · unfold absTotal
      rw [Finset.sum_congr rfl fun i hi => by rw [hz1 k hk i (Finset.mem_range.1 hi)]]
      simp only [abs_zero, Finset.sum_const_zero]
      have := hT0 k
      positivity
  have hHall : ∀ k, exactAbsSum k H + (((events.filter fun e => e.outgoingByPid.isEmpty).map fun e => |(weightNo k e).val|).sum) =
      exactAbsSum k (allEvents ds) := by
    intro k
    obtain ⟨-, b2, b3⟩ := (hall k).1 fun w => |w.val|
    unfold exactAbsSum
    rw [b2, b3]
  have hU : ∀ k, 0 ≤ (((events.filter fun e => e.outgoingByPid.isEmpty).map fun e => |(weightNo k e).val|).sum) := fun k =>
    List.sum_nonneg fun x hx => by
      obtain ⟨e, -, rfl⟩ := List.mem_map.1 hx
      exact abs_nonneg _
  have hHle : ∀ k, exactAbsSum k H ≤ exactAbsSum k (allEvents ds) := fun k => by linarith [hHall k, hU k]
  refine ⟨hlen, hseeds, hsums, fun w hw x hx => ?_, hmem, fun k => ?_, fun w hw x hx => ?_, fun k => ?_⟩
  · rcases hwm w hw with ⟨hlw, j, hj, rfl⟩ | rfl
    · have happ : applyCells s.program.cfg st.log (memOf (identified events)) = some st.mem := by
        rw [finished_mem hA hfin]; exact hA.log
      rcases applyCells_rounded st.log happ j x hx with h | ⟨y, hy⟩
      · have : (identified events)[j]? = some (identified events)[j] := List.getElem?_eq_getElem hj
        simp only [memOf, this] at h
        have hmem : (identified events)[j] ∈ events := (List.mem_filter.1 (List.getElem_mem hj)).1
        obtain ⟨e0, e1, g1, g2, g3, -⟩ := he.from_file _ hmem
        rw [g3] at h
        simp only [Option.map_some, Option.getD_some] at h
        rw [hg.cluster _ _ g2] at h
        exact hrange.finite e0 (List.mem_of_getElem? g1) x h
      · obtain ⟨k, hk, hkx⟩ := List.getElem_of_mem hx
        have hk' : k < m := by rw [← hlw]; exact hk
        have h1 := (h70 k hk').2.1
        have h2 : |x.val| ≤ absTotal n (valMem st.mem) k := by
          unfold absTotal
          refine le_trans (le_of_eq ?_) (Finset.single_le_sum (f := fun i => |wt (valMem st.mem) k i|)
            (fun i _ => abs_nonneg _) (Finset.mem_range.2 hj))
          simp only [wt_valMem]
          rw [← hkx]
          simp [wt, List.getD_eq_getElem?_getD, List.getElem?_eq_getElem hk]
        rw [hy] at h2 ⊢
        exact fl64_isF64_of_le (h2.trans h1)
    · unfold defaultWeights at hx
      split at hx
      · simp at hx
      · rw [List.mem_singleton] at hx
        subst hx
        exact isF64_zero
  · have b1 := ((hall k).1 fun w => |w.val|).1
    have hz : ∀ (l : List (Event N64 V)), (l.map fun e => |(weightNo k e).val|).sum = exactAbsSum k l := fun l => rfl
    rw [hz] at b1
    rw [b1]
    have h1 := hmem k
    unfold absTotal at h1
    simp only [wt_valMem] at h1
    have h2 := hHall k
    have h3 := hU k
    have h4 : ((events.filter fun e => e.outgoingByPid.isEmpty).map fun e =>
        |(if s.program.io.ctx.multi then weightNo k e else 0).val|).sum ≤
        (((events.filter fun e => e.outgoingByPid.isEmpty).map fun e => |(weightNo k e).val|).sum) := by
      cases s.program.io.ctx.multi with
      | true => simp
      | false =>
        refine le_trans (le_of_eq ?_) h3
        simp [val_zero]
    linarith
  · rcases hwm w hw with ⟨hlw, j, hj, rfl⟩ | rfl
    · obtain ⟨k, hk, hkx⟩ := List.getElem_of_mem hx
      refine ⟨k, le_trans ?_ ((hmem k).trans (by linarith [hHle k]))⟩
      unfold absTotal
      refine le_trans (le_of_eq ?_) (Finset.single_le_sum (f := fun i => |wt (valMem st.mem) k i|)
        (fun i _ => abs_nonneg _) (Finset.mem_range.2 hj))
      simp only [wt_valMem]
      rw [← hkx]
      simp [wt, List.getD_eq_getElem?_getD, List.getElem?_eq_getElem hk]
    · unfold defaultWeights at hx
      split at hx
      · simp at hx
      · rw [List.mem_singleton] at hx
        subst hx
        refine ⟨0, ?_⟩
        rw [val_zero, abs_zero]
        have := (hT0 0).trans (hHle 0)
        positivity
  · have hh := (hall k).1 Rounded.val
    have hz : ∀ (l : List (Event N64 V)), (l.map fun e => (weightNo k e).val).sum = exactSum k l := fun l => rfl
    have key : exactSum k (List.zipWith reweighted ws (allEvents ds)) -
        exactSum k ((allEvents ds).filter fun e => s.io.ctx.multi || HasParticles s.program e) =
        weightTotal n (valMem st.mem) k - weightTotal n (valMem (memOf (identified events))) k := by
      obtain ⟨a1, a2, a3⟩ := hh
      unfold weightTotal
      simp only [wt_valMem]
      rw [hz] at a1 a2 a3
      rw [a1]
      cases hmu : s.io.ctx.multi with
      | true =>
        have : s.program.io.ctx.multi = true := hmu
        simp only [this, Bool.true_or, List.filter_true, if_true]
        rw [a2]
        ring
      | false =>
        have : s.program.io.ctx.multi = false := hmu
        simp only [this, Bool.false_or, Bool.false_eq_true, if_false]
        rw [a3]
        have : ((events.filter fun e => e.outgoingByPid.isEmpty).map fun _ => (0 : N64).val).sum = 0 := by
          simp [val_zero]
        rw [this]
        ring
    rw [key]
    by_cases hk : k < m
    · refine (h70 k hk).1.trans (le_of_eq ?_)
      unfold f64Error
      rw [(hsums k).2]
    · have e1 := hz1 k hk
      have e2 : ∀ i < n, wt (valMem (memOf (identified events))) k i = 0 := by
        intro i hi
        rw [wt_valMem]
        unfold wt
        rw [List.getD_eq_getElem?_getD, List.getElem?_eq_none (by rw [hu.length i hi]; omega)]
        rfl
      unfold weightTotal
      rw [Finset.sum_congr rfl fun i hi => e1 i (Finset.mem_range.1 hi), Finset.sum_congr rfl fun i hi => e2 i (Finset.mem_range.1 hi)]
      simp only [Finset.sum_const_zero, sub_self, abs_zero]
      unfold f64Error
      have : 0 ≤ exactAbsSum k H := List.sum_nonneg fun x hx => by
        obtain ⟨e, -, rfl⟩ := List.mem_map.1 hx
        exact abs_nonneg _
      positivity

end Cres

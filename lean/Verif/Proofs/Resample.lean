import Verif.Model.Resample
import Verif.Spec.Resample
import Mathlib.Algebra.Order.Chebyshev
import Mathlib.Algebra.Order.BigOperators.Ring.Finset
import Mathlib.Tactic.Linarith
import Mathlib.Tactic.FieldSimp
import Mathlib.Tactic.Positivity

/-!
Lemmas on averages of weights and on sequences of cells.
-/

set_option linter.unusedSectionVars false

namespace Cres

open Spec

/-! ### any arithmetic -/

section Any

variable {D K : Type*} [Zero D] [Add K] [Zero K] [One K] [Mul K] [Div K] [NatCast K] [LinearOrder K]

/-- The number of weights per event fits the build: exactly one without feature `multiweight`. -/
def FitsBuild (cfg : Cfg) (ws : List (Weights K)) : Prop := cfg.multi = false → ∀ w ∈ ws, w.length = 1

theorem foldlM_addAssign_length (rest : List (Weights K)) : ∀ (a s : Weights K),
    rest.foldlM Weights.addAssign a = some s → (∀ w ∈ rest, w.length = a.length) ∧ s.length = a.length := by
  induction rest with
  | nil => intro a s h; simp at h; subst h; simp
  | cons w rest ih =>
    intro a s h
    rw [List.foldlM_cons] at h
    unfold Weights.addAssign at h
    by_cases hl : a.length = w.length
    · rw [if_pos hl] at h
      obtain ⟨h1, h2⟩ := ih _ _ h
      have hlen : (List.zipWith (· + ·) a w).length = a.length := by simp [hl]
      rw [hlen] at h1 h2
      refine ⟨?_, h2⟩
      intro v hv
      rcases List.mem_cons.1 hv with rfl | hv
      · exact hl.symm
      · exact h1 v hv
    · rw [if_neg hl] at h; simp at h

theorem foldlM_addAssign_isSome (rest : List (Weights K)) : ∀ (a : Weights K), (∀ w ∈ rest, w.length = a.length) →
    ∃ s, rest.foldlM Weights.addAssign a = some s := by
  induction rest with
  | nil => intro a _; exact ⟨a, rfl⟩
  | cons w rest ih =>
    intro a h
    rw [List.foldlM_cons]
    unfold Weights.addAssign
    rw [if_pos (h w List.mem_cons_self).symm]
    refine ih _ ?_
    intro v hv
    rw [h v (List.mem_cons_of_mem _ hv)]
    simp [h w List.mem_cons_self]

theorem mapM_central {ws : List (Weights K)} {cs : List K} (h : ws.mapM Weights.central = some cs) :
    cs = ws.map (fun w => w.getD 0 0) ∧ ∀ w ∈ ws, w ≠ [] := by
  induction ws generalizing cs with
  | nil => simp at h; subst h; simp
  | cons w ws ih =>
    rw [List.mapM_cons] at h
    cases w with
    | nil => simp [Weights.central] at h
    | cons x w =>
      cases hm : ws.mapM Weights.central with
      | none => simp [hm, Weights.central] at h
      | some cs' =>
        simp [hm, Weights.central] at h
        obtain ⟨h1, h2⟩ := ih hm
        subst h
        refine ⟨by simp [h1], ?_⟩
        intro v hv
        rcases List.mem_cons.1 hv with rfl | hv
        · simp
        · exact h2 v hv

theorem mapM_central_isSome (ws : List (Weights K)) (h : ∀ w ∈ ws, w ≠ []) :
    ∃ cs, ws.mapM Weights.central = some cs := by
  induction ws with
  | nil => exact ⟨[], rfl⟩
  | cons w ws ih =>
    obtain ⟨cs, hcs⟩ := ih (fun v hv => h v (List.mem_cons_of_mem _ hv))
    cases w with
    | nil => exact absurd rfl (h [] List.mem_cons_self)
    | cons x w => exact ⟨x :: cs, by rw [List.mapM_cons, hcs]; rfl⟩

/-- The average has as many entries as the weights of each member. -/
theorem average_length {cfg : Cfg} {ws : List (Weights K)} {avg : Weights K} (hb : FitsBuild cfg ws)
    (h : average cfg ws = some avg) (hne : ws ≠ []) : ∀ w ∈ ws, w.length = avg.length := by
  unfold average at h
  by_cases hm : cfg.multi = true
  · rw [if_pos hm] at h
    cases ws with
    | nil => exact absurd rfl hne
    | cons first rest =>
      unfold averageMulti at h
      obtain ⟨s, hs, rfl⟩ := Option.map_eq_some_iff.1 h
      obtain ⟨h1, h2⟩ := foldlM_addAssign_length rest first s hs
      intro w hw
      rw [List.length_map, h2]
      rcases List.mem_cons.1 hw with rfl | hw
      · rfl
      · exact h1 w hw
  · rw [if_neg hm] at h
    unfold averageSingle at h
    obtain ⟨cs, hcs, rfl⟩ := Option.map_eq_some_iff.1 h
    simpa using hb (by simpa using hm)

theorem average_isSome {cfg : Cfg} {ws : List (Weights K)} (L : Nat) (hL : 0 < L) (hne : ws ≠ [])
    (h : ∀ w ∈ ws, w.length = L) : ∃ avg, average cfg ws = some avg := by
  unfold average
  by_cases hm : cfg.multi = true
  · rw [if_pos hm]
    cases ws with
    | nil => exact absurd rfl hne
    | cons first rest =>
      obtain ⟨s, hs⟩ := foldlM_addAssign_isSome rest first
        (fun w hw => by rw [h w (List.mem_cons_of_mem _ hw), h first List.mem_cons_self])
      exact ⟨s.map (· * (1 / (((first :: rest).length : Nat) : K))), by simp only [averageMulti, hs, Option.map_some]⟩
  · rw [if_neg hm]
    obtain ⟨cs, hcs⟩ := mapM_central_isSome ws (fun w hw => by
      have := h w hw
      rintro rfl
      simp at this
      omega)
    exact ⟨_, by unfold averageSingle; rw [hcs]; rfl⟩

theorem sortMembers_perm (c : Cell D K) : c.sortMembers.members.Perm c.members := List.perm_insertionSort _ _

/-- What `Cell::resample` does, for any arithmetic: all members get the same weights, nothing else changes. -/
theorem resample_some {cfg : Cfg} {c : Cell D K} {mem mem' : Mem K} (h : c.resample cfg mem = some mem') :
    ∃ avg, average cfg (c.sortMembers.members.map mem) = some avg ∧
      (∀ i ∈ c.members, mem' i = avg) ∧ ∀ i, i ∉ c.members → mem' i = mem i := by
  unfold Cell.resample at h
  obtain ⟨avg, havg, rfl⟩ := Option.map_eq_some_iff.1 h
  have hp := sortMembers_perm c
  exact ⟨avg, havg, fun i hi => if_pos (hp.mem_iff.2 hi), fun i hi => if_neg (fun h => hi (hp.mem_iff.1 h))⟩

theorem resample_length {cfg : Cfg} {c : Cell D K} {mem mem' : Mem K} (hne : c.members ≠ [])
    (hb : FitsBuild cfg (c.members.map mem)) (h : c.resample cfg mem = some mem') (i : Nat) :
    (mem' i).length = (mem i).length := by
  obtain ⟨avg, havg, h1, h2⟩ := resample_some h
  have hp := sortMembers_perm c
  by_cases hi : i ∈ c.members
  · rw [h1 i hi]
    refine (average_length (fun hm w hw => hb hm w ((hp.map mem).mem_iff.1 hw)) havg ?_ _
      (List.mem_map.2 ⟨i, hp.mem_iff.2 hi, rfl⟩)).symm
    simpa using List.ne_nil_of_mem (hp.mem_iff.2 hi)
  · rw [h2 i hi]

end Any

/-! ### exact arithmetic -/

variable {D K : Type*} [Zero D] [Field K] [LinearOrder K]

theorem getD_zipWith_add (a b : List K) (h : a.length = b.length) (k : Nat) :
    (List.zipWith (· + ·) a b).getD k 0 = a.getD k 0 + b.getD k 0 := by
  induction a generalizing b k with
  | nil =>
    cases b with
    | nil => simp
    | cons _ _ => simp at h
  | cons x a ih =>
    cases b with
    | nil => simp at h
    | cons y b =>
      cases k with
      | zero => simp
      | succ k => simpa using ih b (by simpa using h) k

theorem foldlM_addAssign (rest : List (Weights K)) : ∀ (a s : Weights K), rest.foldlM Weights.addAssign a = some s →
    (∀ w ∈ rest, w.length = a.length) ∧ s.length = a.length ∧
      ∀ k, s.getD k 0 = a.getD k 0 + (rest.map (fun w => w.getD k 0)).sum := by
  induction rest with
  | nil => intro a s h; simp at h; subst h; simp
  | cons w rest ih =>
    intro a s h
    rw [List.foldlM_cons] at h
    unfold Weights.addAssign at h
    by_cases hl : a.length = w.length
    · rw [if_pos hl] at h
      obtain ⟨h1, h2, h3⟩ := ih _ _ h
      have hlen : (List.zipWith (· + ·) a w).length = a.length := by simp [hl]
      rw [hlen] at h1 h2
      refine ⟨?_, h2, ?_⟩
      · intro v hv
        rcases List.mem_cons.1 hv with rfl | hv
        · exact hl.symm
        · exact h1 v hv
      · intro k
        rw [h3 k, getD_zipWith_add _ _ hl, List.map_cons, List.sum_cons, add_assoc]
    · rw [if_neg hl] at h; simp at h

theorem getD_map_mul (l : List K) (c : K) (k : Nat) : (l.map (· * c)).getD k 0 = l.getD k 0 * c := by
  rw [List.getD_eq_getElem?_getD, List.getElem?_map, List.getD_eq_getElem?_getD]
  cases l[k]? <;> simp

/-- What the computed average is, in either build. -/
theorem average_spec {cfg : Cfg} {ws : List (Weights K)} {avg : Weights K} (hb : FitsBuild cfg ws)
    (h : average cfg ws = some avg) (hne : ws ≠ []) : (∀ w ∈ ws, w.length = avg.length) ∧
      ∀ k, avg.getD k 0 = (ws.map (fun w => w.getD k 0)).sum / (ws.length : K) := by
  unfold average at h
  by_cases hm : cfg.multi = true
  · rw [if_pos hm] at h
    cases ws with
    | nil => exact absurd rfl hne
    | cons first rest =>
      unfold averageMulti at h
      obtain ⟨s, hs, rfl⟩ := Option.map_eq_some_iff.1 h
      obtain ⟨h1, h2, h3⟩ := foldlM_addAssign rest first s hs
      refine ⟨?_, ?_⟩
      · intro w hw
        rw [List.length_map, h2]
        rcases List.mem_cons.1 hw with rfl | hw
        · rfl
        · exact h1 w hw
      · intro k
        rw [getD_map_mul, h3 k, List.map_cons, List.sum_cons, mul_one_div]
  · rw [if_neg hm] at h
    unfold averageSingle at h
    obtain ⟨cs, hcs, rfl⟩ := Option.map_eq_some_iff.1 h
    obtain ⟨h1, -⟩ := mapM_central hcs
    have hb' := hb (by simpa using hm)
    refine ⟨by simpa using hb', ?_⟩
    intro k
    cases k with
    | zero => simp [h1, List.sum_eq_foldl]
    | succ k =>
      have : ws.map (fun w => w.getD (k + 1) 0) = ws.map (fun _ => (0 : K)) := by
        refine List.map_congr_left ?_
        intro w hw
        rw [List.getD_eq_getElem?_getD, List.getElem?_eq_none_iff.2 (by rw [hb' w hw]; omega)]; rfl
      rw [this]; simp

/-- `Cell::resample` meets its specification. -/
theorem resample_isCellAverage {cfg : Cfg} {c : Cell D K} {mem mem' : Mem K} (hne : c.members ≠ [])
    (hb : FitsBuild cfg (c.members.map mem)) (h : c.resample cfg mem = some mem') :
    IsCellAverage c.members mem mem' := by
  unfold Cell.resample at h
  obtain ⟨avg, havg, rfl⟩ := Option.map_eq_some_iff.1 h
  have hp := sortMembers_perm c
  have hb' : FitsBuild cfg (c.sortMembers.members.map mem) := by
    intro hm w hw
    exact hb hm w ((hp.map mem).mem_iff.1 hw)
  have hne' : c.sortMembers.members.map mem ≠ [] := by
    intro h0
    have := (hp.map mem).length_eq
    rw [h0] at this
    simp at this
    exact hne (List.length_eq_zero_iff.1 this.symm)
  obtain ⟨h1, h2⟩ := average_spec hb' havg hne'
  refine ⟨?_, ?_, ?_⟩
  · intro i hi
    exact if_neg (by rw [hp.mem_iff]; exact hi)
  · intro i
    by_cases hi : i ∈ c.sortMembers.members
    · rw [if_pos hi]; exact (h1 (mem i) (List.mem_map.2 ⟨i, hi, rfl⟩)).symm
    · rw [if_neg hi]
  · intro i hi k
    unfold wt
    beta_reduce
    rw [if_pos (hp.mem_iff.2 hi), h2 k, List.map_map, List.length_map, hp.length_eq]
    congr 1
    exact (hp.map _).sum_eq

/-! ### consequences of averaging -/

section Avg

variable [IsStrictOrderedRing K]

theorem length_ne_zero_of_mem {members : List Nat} {i : Nat} (hi : i ∈ members) : (members.length : K) ≠ 0 := by
  have := List.length_pos_of_mem hi
  positivity

/-- Splitting a sum over events into members and others. -/
theorem sum_split {n : Nat} {members : List Nat} (hr : ∀ i ∈ members, i < n) (f : Nat → K) :
    ∑ i ∈ Finset.range n, f i = ∑ i ∈ members.toFinset, f i + ∑ i ∈ Finset.range n \ members.toFinset, f i := by
  rw [add_comm, Finset.sum_sdiff]
  intro i hi
  simpa using hr i (by simpa using hi)

/-- An average does not increase the sum of a function obeying Jensen's inequality. -/
theorem jensen_step {n : Nat} {members : List Nat} {mem mem' : Nat → List K} (h : IsCellAverage members mem mem')
    (hnd : members.Nodup) (hr : ∀ i ∈ members, i < n) (f : K → K) (k : Nat)
    (hf : ∀ (s : Finset Nat) (g : Nat → K), s.Nonempty → (s.card : K) * f ((∑ i ∈ s, g i) / (s.card : K)) ≤ ∑ i ∈ s, f (g i)) :
    ∑ i ∈ Finset.range n, f (wt mem' k i) ≤ ∑ i ∈ Finset.range n, f (wt mem k i) := by
  rw [sum_split hr, sum_split hr (fun i => f (wt mem k i))]
  refine add_le_add ?_ (le_of_eq ?_)
  · by_cases hne : members.toFinset.Nonempty
    · have hmean : ∀ i ∈ members.toFinset, f (wt mem' k i) =
          f ((∑ j ∈ members.toFinset, wt mem k j) / (members.toFinset.card : K)) := by
        intro i hi
        rw [h.mean i (by simpa using hi) k, List.toFinset_card_of_nodup hnd, List.sum_toFinset _ hnd]
      rw [Finset.sum_congr rfl hmean, Finset.sum_const, nsmul_eq_mul]
      exact hf _ _ hne
    · rw [Finset.not_nonempty_iff_eq_empty] at hne
      rw [hne]; simp
  · refine Finset.sum_congr rfl ?_
    intro i hi
    have : i ∉ members := by
      intro hm
      exact (Finset.mem_sdiff.1 hi).2 (by simpa using hm)
    unfold wt
    rw [h.outside i this]

theorem total_step {n : Nat} {members : List Nat} {mem mem' : Nat → List K} (h : IsCellAverage members mem mem')
    (hnd : members.Nodup) (hr : ∀ i ∈ members, i < n) (k : Nat) :
    weightTotal n mem' k = weightTotal n mem k := by
  unfold weightTotal
  rw [sum_split hr, sum_split hr (wt mem k)]
  congr 1
  · by_cases hne : members.toFinset.Nonempty
    · have hmean : ∀ i ∈ members.toFinset, wt mem' k i =
          (∑ j ∈ members.toFinset, wt mem k j) / (members.toFinset.card : K) := by
        intro i hi
        rw [h.mean i (by simpa using hi) k, List.toFinset_card_of_nodup hnd, List.sum_toFinset _ hnd]
      rw [Finset.sum_congr rfl hmean, Finset.sum_const, nsmul_eq_mul, mul_div_cancel₀]
      have := Finset.card_pos.2 hne
      positivity
    · rw [Finset.not_nonempty_iff_eq_empty] at hne
      rw [hne]; simp
  · refine Finset.sum_congr rfl ?_
    intro i hi
    have : i ∉ members := by
      intro hm
      exact (Finset.mem_sdiff.1 hi).2 (by simpa using hm)
    unfold wt
    rw [h.outside i this]

theorem jensen_neg (s : Finset Nat) (g : Nat → K) (hs : s.Nonempty) :
    (s.card : K) * max (-((∑ i ∈ s, g i) / (s.card : K))) 0 ≤ ∑ i ∈ s, max (- g i) 0 := by
  have hc : (0 : K) < s.card := by exact_mod_cast Finset.card_pos.2 hs
  rw [mul_max_of_nonneg _ _ hc.le, mul_zero, mul_neg, mul_div_cancel₀ _ hc.ne']
  refine max_le ?_ (Finset.sum_nonneg (fun i _ => le_max_right _ _))
  rw [← Finset.sum_neg_distrib]
  exact Finset.sum_le_sum (fun i _ => le_max_left _ _)

theorem jensen_abs (s : Finset Nat) (g : Nat → K) (hs : s.Nonempty) :
    (s.card : K) * |(∑ i ∈ s, g i) / (s.card : K)| ≤ ∑ i ∈ s, |g i| := by
  have hc : (0 : K) < s.card := by exact_mod_cast Finset.card_pos.2 hs
  rw [abs_div, abs_of_pos hc, mul_div_cancel₀ _ hc.ne']
  exact Finset.abs_sum_le_sum_abs _ _

theorem jensen_sq (s : Finset Nat) (g : Nat → K) (hs : s.Nonempty) :
    (s.card : K) * ((∑ i ∈ s, g i) / (s.card : K)) ^ 2 ≤ ∑ i ∈ s, g i ^ 2 := by
  have hc : (0 : K) < s.card := by exact_mod_cast Finset.card_pos.2 hs
  have := sq_sum_le_card_mul_sum_sq (s := s) (f := g)
  rw [div_pow, pow_two (s.card : K), ← mul_div_assoc, mul_div_mul_left _ _ hc.ne', div_le_iff₀ hc]
  linarith [this]

/-- Each cell in a sequence consists of different events with index below `n`. -/
def CellsOK (n : Nat) (cells : List (List Nat)) : Prop := ∀ c ∈ cells, c.Nodup ∧ ∀ i ∈ c, i < n

theorem averageSeq_total {n : Nat} {cells : List (List Nat)} {mem mem' : Nat → List K}
    (h : AverageSeq cells mem mem') (hc : CellsOK n cells) (k : Nat) : weightTotal n mem' k = weightTotal n mem k := by
  induction h with
  | nil => rfl
  | cons h1 _ ih =>
    have := hc _ List.mem_cons_self
    rw [ih (fun c hcm => hc c (List.mem_cons_of_mem _ hcm)), total_step h1 this.1 this.2]

theorem averageSeq_jensen {n : Nat} {cells : List (List Nat)} {mem mem' : Nat → List K}
    (h : AverageSeq cells mem mem') (hc : CellsOK n cells) (f : K → K) (k : Nat)
    (hf : ∀ (s : Finset Nat) (g : Nat → K), s.Nonempty → (s.card : K) * f ((∑ i ∈ s, g i) / (s.card : K)) ≤ ∑ i ∈ s, f (g i)) :
    ∑ i ∈ Finset.range n, f (wt mem' k i) ≤ ∑ i ∈ Finset.range n, f (wt mem k i) := by
  induction h with
  | nil => exact le_refl _
  | cons h1 _ ih =>
    have := hc _ List.mem_cons_self
    exact (ih (fun c hcm => hc c (List.mem_cons_of_mem _ hcm))).trans (jensen_step h1 this.1 this.2 f k hf)

theorem averageSeq_length {cells : List (List Nat)} {mem mem' : Nat → List K}
    (h : AverageSeq cells mem mem') (i : Nat) : (mem' i).length = (mem i).length := by
  induction h with
  | nil => rfl
  | cons h1 _ ih => rw [ih, h1.length]

theorem averageSeq_outside {cells : List (List Nat)} {mem mem' : Nat → List K}
    (h : AverageSeq cells mem mem') (i : Nat) (hi : ∀ c ∈ cells, i ∉ c) : mem' i = mem i := by
  induction h with
  | nil => rfl
  | cons h1 _ ih =>
    rw [ih (fun c hc => hi c (List.mem_cons_of_mem _ hc)), h1.outside i (hi _ List.mem_cons_self)]

theorem averageSeq_append {cells cells' : List (List Nat)} {mem mem' mem'' : Nat → List K}
    (h : AverageSeq cells mem mem') (h' : AverageSeq cells' mem' mem'') : AverageSeq (cells ++ cells') mem mem'' := by
  induction h with
  | nil => exact h'
  | cons h1 _ ih => exact AverageSeq.cons h1 (ih h')

end Avg

end Cres

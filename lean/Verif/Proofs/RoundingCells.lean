import Verif.Proofs.Rounding

/-!
Errors of rounded averages over cells, one cell after the other.
-/

set_option linter.unusedSectionVars false

namespace Cres

open Spec

section Entries

variable {K : Type*} [Add K] [Zero K] [One K] [Mul K] [Div K] [NatCast K] [LinearOrder K]

theorem getD_of_lt (l : List K) {k : Nat} (hk : k < l.length) : l.getD k 0 = l[k] := by
  rw [List.getD_eq_getElem?_getD, List.getElem?_eq_getElem hk]; rfl

theorem getD_zipWith_any (a b : List K) (h : a.length = b.length) {k : Nat} (hk : k < a.length) :
    (List.zipWith (· + ·) a b).getD k 0 = a.getD k 0 + b.getD k 0 := by
  rw [getD_of_lt _ (by simpa [← h] using hk), getD_of_lt _ hk,
    getD_of_lt _ (by rw [← h]; exact hk), List.getElem_zipWith]

theorem foldlM_addAssign_entry (rest : List (Weights K)) : ∀ (a s : Weights K),
    rest.foldlM Weights.addAssign a = some s → ∀ k < a.length,
      s.getD k 0 = (rest.map (fun w => w.getD k 0)).foldl (· + ·) (a.getD k 0) := by
  induction rest with
  | nil => intro a s h k _; simp at h; subst h; simp
  | cons w rest ih =>
    intro a s h k hk
    rw [List.foldlM_cons] at h
    unfold Weights.addAssign at h
    by_cases hl : a.length = w.length
    · rw [if_pos hl] at h
      have := ih _ _ h k (by simpa [← hl] using hk)
      rw [this, getD_zipWith_any a w hl hk, List.map_cons, List.foldl_cons]
    · rw [if_neg hl] at h; simp at h

/-- Entry `k` of the average with feature `multiweight`. -/
theorem average_entry_multi {cfg : Cfg} (hm : cfg.multi = true) {w : Weights K} {rest : List (Weights K)} {avg : Weights K}
    (h : average cfg (w :: rest) = some avg) {k : Nat} (hk : k < avg.length) :
    avg.getD k 0 = (rest.map (fun w => w.getD k 0)).foldl (· + ·) (w.getD k 0) *
      (1 / ((rest.length + 1 : Nat) : K)) := by
  unfold average at h
  rw [if_pos hm] at h
  simp only [averageMulti] at h
  obtain ⟨s, hs, rfl⟩ := Option.map_eq_some_iff.1 h
  have hlen := (foldlM_addAssign_length rest w s hs).2
  rw [List.length_map] at hk
  rw [← foldlM_addAssign_entry rest w s hs k (by rw [← hlen]; exact hk),
    getD_of_lt _ (by rw [List.length_map]; exact hk), List.getElem_map, getD_of_lt _ hk]
  rfl

/-- The average without feature `multiweight`. -/
theorem average_entry_single {cfg : Cfg} (hm : cfg.multi = false) {ws : List (Weights K)} {avg : Weights K}
    (h : average cfg ws = some avg) :
    avg.getD 0 0 = (ws.map (fun w => w.getD 0 0)).foldl (· + ·) 0 / ((ws.length : Nat) : K) := by
  unfold average at h
  rw [if_neg (by simp [hm])] at h
  unfold averageSingle at h
  obtain ⟨cs, hcs, rfl⟩ := Option.map_eq_some_iff.1 h
  rw [(mapM_central hcs).1]
  rfl

/-- Weights that are equal for all events stay equal in the average over a cell. -/
theorem average_equal {cfg : Cfg} {L : Nat} {ws : List (Weights K)} {avg : Weights K} (hav : average cfg ws = some avg)
    (hne : ws ≠ []) (hL : avg.length = L) (h1 : cfg.multi = false → L = 1) {k l : Nat} (hk : k < L) (hl : l < L)
    (he : ∀ w ∈ ws, w.getD k 0 = w.getD l 0) : avg.getD k 0 = avg.getD l 0 := by
  cases hm : cfg.multi with
  | false =>
    have := h1 hm
    obtain rfl : k = 0 := by omega
    obtain rfl : l = 0 := by omega
    rfl
  | true =>
    cases ws with
    | nil => exact absurd rfl hne
    | cons w rest =>
      rw [average_entry_multi hm hav (by omega), average_entry_multi hm hav (by omega), he w (by simp),
        List.map_congr_left fun w hw => he w (List.mem_cons_of_mem _ hw)]

/-- Weights that are equal for all events stay equal. -/
theorem applyCells_equal {D : Type*} [Zero D] {cfg : Cfg} {n L : Nat} {k l : Nat} (hk : k < L) (hl : l < L)
    (cells : List (Cell D K)) : ∀ {mem mem' : Mem K}, Uniform cfg n L mem →
      (∀ c ∈ cells, c.members ≠ [] ∧ ∀ i ∈ c.members, i < n) → applyCells cfg cells mem = some mem' →
      (∀ i < n, wt mem k i = wt mem l i) → ∀ i < n, wt mem' k i = wt mem' l i := by
  induction cells with
  | nil =>
    intro mem mem' _ _ ha he
    simp only [applyCells, List.foldlM_nil] at ha
    obtain rfl : mem = mem' := by simpa using ha
    exact he
  | cons c cells ih =>
    intro mem mem' hu hc ha he
    simp only [applyCells, List.foldlM_cons] at ha
    cases hr : c.resample cfg mem with
    | none => rw [hr] at ha; simp at ha
    | some m1 =>
      rw [hr] at ha
      obtain ⟨hne, hlt⟩ := hc c List.mem_cons_self
      refine ih (uniform_of_resample hu hne hlt hr) (fun c' hc' => hc c' (List.mem_cons_of_mem _ hc')) ha fun i hi => ?_
      obtain ⟨avg, hav, h1, h2⟩ := resample_some hr
      by_cases hm : i ∈ c.members
      · have hp := sortMembers_perm c
        have hne' : c.sortMembers.members.map mem ≠ [] := by
          intro h0
          have := hp.length_eq
          rw [List.map_eq_nil_iff.1 h0] at this
          exact hne (List.length_eq_zero_iff.1 this.symm)
        have hlen : avg.length = L := by
          rw [← h1 i hm]
          exact (uniform_of_resample hu hne hlt hr).length i hi
        unfold wt
        rw [h1 i hm]
        refine average_equal hav hne' hlen hu.single hk hl fun w hw => ?_
        obtain ⟨j, hj, rfl⟩ := List.mem_map.1 hw
        exact he j (hlt j (hp.mem_iff.1 hj))
      · unfold wt at he ⊢
        rw [h2 i hm]
        exact he i hi

end Entries

section Cells

variable {D K : Type*} [Zero D] [Field K] [LinearOrder K] [IsStrictOrderedRing K] {fl : K → K} {n : Nat} {u η Ω : K}

/-- The exact values of rounded weights. -/
def valMem (mem : Mem (Rounded fl)) : Nat → List K := fun i => (mem i).map Rounded.val

theorem wt_valMem (mem : Mem (Rounded fl)) (k i : Nat) : wt (valMem mem) k i = (wt mem k i).val := by
  unfold wt valMem
  rw [List.getD_eq_getElem?_getD, List.getElem?_map, List.getD_eq_getElem?_getD]
  cases (mem i)[k]? <;> rfl

/-- The error of the mean of several weights, in either build. -/
theorem average_err (h : RoundsWithin fl n u η Ω) {cfg : Cfg} {ws : List (Weights (Rounded fl))} {avg : Weights (Rounded fl)}
    (hb : FitsBuild cfg ws) (hav : average cfg ws = some avg) (hne : ws ≠ []) (hn : ws.length ≤ n) {k : Nat}
    (hk : k < avg.length)
    (hΩ : (1 + u) ^ (ws.length + 1) *
      ((ws.map (fun w => |(w.getD k 0).val|)).sum + 2 * ((ws.length + 1 : Nat) : K) * η) ≤ Ω) :
    |(ws.length : K) * (avg.getD k 0).val - (ws.map (fun w => (w.getD k 0).val)).sum| ≤
      roundingBound u η (ws.length + 1) (ws.map (fun w => |(w.getD k 0).val|)).sum := by
  have e1 : ∀ l : List (Weights (Rounded fl)), (l.map (fun w => |(w.getD k 0).val|)) =
      (l.map (fun w => w.getD k 0)).map (fun x => |x.val|) := fun l => by rw [List.map_map]; rfl
  have e2 : ∀ l : List (Weights (Rounded fl)), (l.map (fun w => (w.getD k 0).val)) =
      (l.map (fun w => w.getD k 0)).map Rounded.val := fun l => by rw [List.map_map]; rfl
  rw [e1] at hΩ ⊢
  rw [e2]
  cases hm : cfg.multi with
  | true =>
    cases ws with
    | nil => exact absurd rfl hne
    | cons w rest =>
      rw [average_entry_multi hm hav hk]
      have := mean_mul_err h (w.getD k 0) (rest.map (fun w => w.getD k 0)) (by simpa using hn) (by
        rw [List.length_map]; exact hΩ)
      rw [List.length_map] at this
      exact this
  | false =>
    have hl : avg.length = 1 := by
      cases ws with
      | nil => exact absurd rfl hne
      | cons w rest =>
        rw [← average_length hb hav hne w List.mem_cons_self]
        exact hb hm w List.mem_cons_self
    obtain rfl : k = 0 := by omega
    rw [average_entry_single hm hav]
    have := mean_div_err h (ws.map (fun w => w.getD 0 0)) (by simpa using hne) (by simpa using hn) (by simpa using hΩ)
    simpa using this

theorem sum_members_le {members : List Nat} (hnd : members.Nodup) (hlt : ∀ i ∈ members, i < n) (f : Nat → K)
    (hf : ∀ i, 0 ≤ f i) : (members.map f).sum ≤ ∑ i ∈ Finset.range n, f i := by
  rw [← List.sum_toFinset _ hnd]
  refine Finset.sum_le_sum_of_subset_of_nonneg ?_ (fun i _ _ => hf i)
  intro i hi
  simpa using hlt i (by simpa using hi)

theorem members_length_le {members : List Nat} (hnd : members.Nodup) (hlt : ∀ i ∈ members, i < n) :
    members.length ≤ n := by
  have := (hnd.subperm (l₂ := List.range n) (fun i hi => List.mem_range.2 (hlt i hi))).length_le
  simpa using this

/-- Errors of the average over one cell. -/
theorem cell_err (h : RoundsWithin fl n u η Ω) {cfg : Cfg} {L : Nat} {mem mem' : Mem (Rounded fl)}
    (hun : Uniform cfg n L mem) {c : Cell D (Rounded fl)} (hne : c.members ≠ []) (hnd : c.members.Nodup)
    (hlt : ∀ i ∈ c.members, i < n) (hr : c.resample cfg mem = some mem') {k : Nat} (hk : k < L)
    (hΩ : (1 + u) ^ (c.members.length + 1) *
      (absTotal n (valMem mem) k + 2 * ((c.members.length + 1 : Nat) : K) * η) ≤ Ω) :
    (∀ i ∈ c.members, |(c.members.length : K) * wt (valMem mem') k i - (c.members.map (wt (valMem mem) k)).sum| ≤
        roundingBound u η (c.members.length + 1) (c.members.map (fun i => |wt (valMem mem) k i|)).sum) ∧
      |weightTotal n (valMem mem') k - weightTotal n (valMem mem) k| ≤
        roundingBound u η (c.members.length + 1) (absTotal n (valMem mem) k) ∧
      absTotal n (valMem mem') k ≤
        absTotal n (valMem mem) k + roundingBound u η (c.members.length + 1) (absTotal n (valMem mem) k) := by
  have hu := h.u_nonneg
  have hη := h.eta_nonneg
  obtain ⟨avg, hav, h1, h2⟩ := resample_some hr
  have hp := sortMembers_perm c
  have hT0 := sum_members_le hnd hlt (fun i => |wt (valMem mem) k i|) (fun i => abs_nonneg _)
  have hfits : FitsBuild cfg (c.sortMembers.members.map mem) := hun.fits (fun i hi => hlt i (hp.mem_iff.1 hi))
  have hne' : c.sortMembers.members ≠ [] := fun h0 => hne (by rw [h0] at hp; exact List.nil_perm.1 hp)
  have hlenavg : avg.length = L := by
    obtain ⟨i, hi⟩ := List.exists_mem_of_ne_nil _ hne'
    rw [← average_length hfits hav (by simpa using hne') (mem i) (List.mem_map.2 ⟨i, hi, rfl⟩)]
    exact hun.length i (hlt i (hp.mem_iff.1 hi))
  have hS : ((c.sortMembers.members.map mem).map (fun w => |(w.getD k 0).val|)).sum =
      (c.members.map (fun i => |wt (valMem mem) k i|)).sum := by
    rw [List.map_map]
    rw [(hp.map _).sum_eq]
    congr 1
    refine List.map_congr_left ?_
    intro i _
    rw [wt_valMem]; rfl
  have hs : ((c.sortMembers.members.map mem).map (fun w => (w.getD k 0).val)).sum =
      (c.members.map (wt (valMem mem) k)).sum := by
    rw [List.map_map]
    rw [(hp.map _).sum_eq]
    congr 1
    refine List.map_congr_left ?_
    intro i _
    rw [wt_valMem]; rfl
  have hlen := members_length_le hnd hlt
  have key := average_err h hfits hav (by simpa using hne') (by rw [List.length_map, hp.length_eq]; exact hlen)
    (k := k) (by omega) (by
      rw [hS, List.length_map, hp.length_eq]
      refine le_trans ?_ hΩ
      refine mul_le_mul_of_nonneg_left ?_ (by positivity)
      unfold absTotal
      linarith)
  rw [hS, hs, List.length_map, hp.length_eq] at key
  have hmem : ∀ i ∈ c.members, wt (valMem mem') k i = (avg.getD k 0).val := by
    intro i hi
    rw [wt_valMem]
    unfold wt
    rw [h1 i hi]
  have hout : ∀ i ∈ Finset.range n \ c.members.toFinset, wt (valMem mem') k i = wt (valMem mem) k i := by
    intro i hi
    have : i ∉ c.members := fun hm => (Finset.mem_sdiff.1 hi).2 (by simpa using hm)
    rw [wt_valMem, wt_valMem]
    unfold wt
    rw [h2 i this]
  have hsum' : ∑ i ∈ c.members.toFinset, wt (valMem mem') k i = (c.members.length : K) * (avg.getD k 0).val := by
    rw [Finset.sum_congr rfl (fun i hi => hmem i (by simpa using hi)), Finset.sum_const, nsmul_eq_mul,
      List.toFinset_card_of_nodup hnd]
  have habs' : ∑ i ∈ c.members.toFinset, |wt (valMem mem') k i| = |(c.members.length : K) * (avg.getD k 0).val| := by
    rw [Finset.sum_congr rfl (fun i hi => by rw [hmem i (by simpa using hi)]), Finset.sum_const, nsmul_eq_mul,
      List.toFinset_card_of_nodup hnd, abs_mul, Nat.abs_cast]
  have hS0 : 0 ≤ (c.members.map (fun i => |wt (valMem mem) k i|)).sum := List.sum_nonneg (by
    intro x hx
    obtain ⟨y, -, rfl⟩ := List.mem_map.1 hx
    exact abs_nonneg _)
  have hmono := roundingBound_mono hu hη (le_refl (c.members.length + 1)) hS0 hT0
  have hsle : |(c.members.map (wt (valMem mem) k)).sum| ≤ (c.members.map (fun i => |wt (valMem mem) k i|)).sum := by
    rw [← List.sum_toFinset _ hnd, ← List.sum_toFinset _ hnd]
    exact Finset.abs_sum_le_sum_abs _ _
  refine ⟨fun i hi => by rw [hmem i hi]; exact key, ?_, ?_⟩
  · unfold weightTotal absTotal
    rw [sum_split hlt, sum_split hlt (wt (valMem mem) k), Finset.sum_congr rfl hout, add_sub_add_right_eq_sub, hsum',
      List.sum_toFinset _ hnd]
    exact key.trans hmono
  · unfold absTotal
    rw [sum_split hlt, sum_split hlt (fun i => |wt (valMem mem) k i|),
      Finset.sum_congr (f := fun i => |wt (valMem mem') k i|) (s₁ := Finset.range n \ c.members.toFinset) rfl
        (fun i hi => by rw [hout i hi]), habs']
    have e : |(c.members.length : K) * (avg.getD k 0).val| ≤ (c.members.map (fun i => |wt (valMem mem) k i|)).sum +
        roundingBound u η (c.members.length + 1) (c.members.map (fun i => |wt (valMem mem) k i|)).sum := by
      have : (c.members.length : K) * (avg.getD k 0).val = ((c.members.length : K) * (avg.getD k 0).val -
        (c.members.map (wt (valMem mem) k)).sum) + (c.members.map (wt (valMem mem) k)).sum := by ring
      rw [this]
      refine (abs_add_le _ _).trans ?_
      linarith
    rw [← sum_split hlt (fun i => |wt (valMem mem) k i|)]
    have e' := sum_split hlt (fun i => |wt (valMem mem) k i|)
    rw [List.sum_toFinset _ hnd] at e'
    linarith

/-- Number of operations on weights while cells are averaged: additions and divisions. -/
def operations (cells : List (Cell D (Rounded fl))) : Nat := (cells.map (fun c => c.members.length + 1)).sum

/-- If there is no overflow in `N + N'` operations, there is none in the last `N'`. -/
theorem range_split (hu : 0 ≤ u) (hη : 0 ≤ η) {N N' : Nat} {T T' : K} (hT : 0 ≤ T)
    (hTT : T' ≤ T + roundingBound u η N T) (hΩ : (1 + u) ^ (N + N') * (T + 2 * ((N + N' : Nat) : K) * η) ≤ Ω) :
    (1 + u) ^ N' * (T' + 2 * (N' : K) * η) ≤ Ω := by
  rw [← roundingBound_size] at hΩ ⊢
  have := roundingBound_compose hu hη N N' hT hTT
  linarith

theorem range_mono (hu : 0 ≤ u) (hη : 0 ≤ η) {N N' : Nat} (hN : N ≤ N') {T : K} (hT : 0 ≤ T)
    (hΩ : (1 + u) ^ N' * (T + 2 * (N' : K) * η) ≤ Ω) : (1 + u) ^ N * (T + 2 * (N : K) * η) ≤ Ω := by
  rw [← roundingBound_size] at hΩ ⊢
  have := roundingBound_mono hu hη hN hT (le_refl T)
  linarith

theorem absTotal_nonneg (mem : Nat → List K) (k : Nat) : 0 ≤ absTotal n mem k :=
  Finset.sum_nonneg (fun _ _ => abs_nonneg _)

/-- Errors of averages over one cell after the other. -/
theorem cells_err (h : RoundsWithin fl n u η Ω) {cfg : Cfg} {L : Nat} {k : Nat} (hk : k < L)
    (cells : List (Cell D (Rounded fl))) : ∀ {mem mem' : Mem (Rounded fl)}, Uniform cfg n L mem →
      (∀ c ∈ cells, c.members ≠ [] ∧ c.members.Nodup ∧ ∀ i ∈ c.members, i < n) →
      applyCells cfg cells mem = some mem' →
      (1 + u) ^ operations cells * (absTotal n (valMem mem) k + 2 * (operations cells : K) * η) ≤ Ω →
      |weightTotal n (valMem mem') k - weightTotal n (valMem mem) k| ≤
          roundingBound u η (operations cells) (absTotal n (valMem mem) k) ∧
        absTotal n (valMem mem') k ≤
          absTotal n (valMem mem) k + roundingBound u η (operations cells) (absTotal n (valMem mem) k) := by
  have hu := h.u_nonneg
  have hη := h.eta_nonneg
  induction cells with
  | nil =>
    intro mem mem' _ _ ha _
    simp only [applyCells, List.foldlM_nil] at ha
    obtain rfl : mem = mem' := by simpa using ha
    simp [operations, roundingBound]
  | cons c cells ih =>
    intro mem mem' hun hc ha hΩ
    simp only [applyCells, List.foldlM_cons] at ha
    cases hr : c.resample cfg mem with
    | none => rw [hr] at ha; simp at ha
    | some m1 =>
      rw [hr] at ha
      obtain ⟨hne, hnd, hlt⟩ := hc c List.mem_cons_self
      have hT := absTotal_nonneg (n := n) (valMem mem) k
      have hops : operations (c :: cells) = (c.members.length + 1) + operations cells := by simp [operations]
      rw [hops] at hΩ ⊢
      obtain ⟨-, e1, e2⟩ := cell_err h hun hne hnd hlt hr hk (range_mono hu hη (by omega) hT hΩ)
      obtain ⟨e3, e4⟩ := ih (uniform_of_resample hun hne hlt hr) (fun c' hc' => hc c' (List.mem_cons_of_mem _ hc')) ha
        (range_split hu hη hT e2 hΩ)
      have e5 := roundingBound_compose hu hη (c.members.length + 1) (operations cells) hT e2
      refine ⟨?_, by linarith⟩
      have : weightTotal n (valMem mem') k - weightTotal n (valMem mem) k =
        (weightTotal n (valMem mem') k - weightTotal n (valMem m1) k) +
          (weightTotal n (valMem m1) k - weightTotal n (valMem mem) k) := by ring
      rw [this]
      refine (abs_add_le _ _).trans ?_
      linarith

/-- The number of operations is at most the number of seeds times (number of events plus 1). -/
theorem operations_le (cells : List (Cell D (Rounded fl))) (hc : ∀ c ∈ cells, c.members.length ≤ n) :
    operations cells ≤ cells.length * (n + 1) := by
  induction cells with
  | nil => simp [operations]
  | cons c cells ih =>
    have h1 := hc c List.mem_cons_self
    have h2 := ih (fun c' hc' => hc c' (List.mem_cons_of_mem _ hc'))
    have : operations (c :: cells) = (c.members.length + 1) + operations cells := by simp [operations]
    rw [this, List.length_cons, Nat.succ_mul]
    omega

/-- The sum of weights formed by `Cell::new` compared to the exact one. -/
theorem addUp_err (h : RoundsWithin fl n u η Ω) (mem : Mem (Rounded fl)) (k seed : Nat) (l : List Nat)
    (hΩ : (1 + u) ^ (l.length + 2) *
      (((seed :: l).map (fun i => |wt (valMem mem) k i|)).sum + 2 * ((l.length + 2 : Nat) : K) * η) ≤ Ω) :
    |(addUp (wt mem k) (seed :: l)).val - ((seed :: l).map (wt (valMem mem) k)).sum| ≤
      roundingBound u η (l.length + 2) ((seed :: l).map (fun i => |wt (valMem mem) k i|)).sum := by
  have hu := h.u_nonneg
  have hη := h.eta_nonneg
  have e1 : l.map (fun i => |wt (valMem mem) k i|) = (l.map (wt mem k)).map (fun x => |x.val|) := by
    rw [List.map_map]
    exact List.map_congr_left (fun i _ => by rw [wt_valMem]; rfl)
  have e2 : l.map (wt (valMem mem) k) = (l.map (wt mem k)).map Rounded.val := by
    rw [List.map_map]
    exact List.map_congr_left (fun i _ => by rw [wt_valMem]; rfl)
  have e3 : addUp (wt mem k) (seed :: l) = (l.map (wt mem k)).foldl (· + ·) (wt mem k seed) := by
    simp only [addUp]
    rw [List.foldl_map]
  rw [List.map_cons, List.sum_cons, e1, wt_valMem] at hΩ
  rw [List.map_cons, List.sum_cons, List.map_cons, List.sum_cons, e1, e2, wt_valMem, e3]
  have hS := sum_abs_nonneg (l.map (wt mem k))
  have hlen : (l.map (wt mem k)).length = l.length := List.length_map _
  have := foldl_add_err h (l.map (wt mem k)) (wt mem k seed) (wt mem k seed).val |(wt mem k seed).val| 0
    (by simp [sumBound]) (le_refl _) (by
      rw [hlen, zero_add]
      refine le_trans ?_ hΩ
      have hpow : (1 + u) ^ l.length ≤ (1 + u) ^ (l.length + 2) := pow_le_pow_right₀ (by linarith) (by omega)
      refine mul_le_mul hpow ?_ (by positivity) (by positivity)
      have : (l.length : K) * η ≤ 2 * ((l.length + 2 : Nat) : K) * η := by
        refine mul_le_mul_of_nonneg_right ?_ hη
        push_cast
        have : (0 : K) ≤ l.length := Nat.cast_nonneg _
        linarith
      linarith)
  rw [hlen, zero_add] at this
  refine this.trans ?_
  have a1 := sumBound_le hu hη l.length 0 (by omega) (S := |(wt mem k seed).val| + ((l.map (wt mem k)).map (fun x => |x.val|)).sum)
  have a2 := roundingBound_mono hu hη (show l.length ≤ l.length + 2 by omega)
    (add_nonneg (abs_nonneg (wt mem k seed).val) hS) (le_refl _)
  push_cast at a1
  linarith

/-- One seed after the other, without limit on the cell size: weights are not more negative than rounding allows. -/
theorem resampleAll_neg_rounded (h : RoundsWithin fl n u η Ω) {cfg : Cfg} {L : Nat} {nearest : Nat → List (Nat × D)}
    {B : K} (seeds : List Nat) : ∀ {mem mem' : Mem (Rounded fl)} {cells : List (Cell D (Rounded fl))} {E : K},
      Uniform cfg n L mem → 0 ≤ E → - E ≤ weightTotal n (valMem mem) 0 →
      E + roundingBound u η (seeds.length * (n + 1)) (absTotal n (valMem mem) 0) ≤ B →
      (1 + u) ^ (seeds.length * (n + 1)) *
        (absTotal n (valMem mem) 0 + 2 * ((seeds.length * (n + 1) : Nat) : K) * η) ≤ Ω →
      (∀ s ∈ seeds, (s :: (nearest s).map Prod.fst).Nodup) →
      (∀ s ∈ seeds, ∀ i, i ∈ (nearest s).map Prod.fst ↔ i < n ∧ i ≠ s) →
      (∀ i, i < n → wt (valMem mem) 0 i < -(2 * B) → i ∈ seeds) →
      resampleAll cfg n nearest seeds mem = some (mem', cells) → ∀ i, i < n → -(2 * B) ≤ wt (valMem mem') 0 i := by
  have hu := h.u_nonneg
  have hη := h.eta_nonneg
  induction seeds with
  | nil =>
    intro mem mem' cells E _ _ _ _ _ _ _ hneg hr i hi
    simp only [resampleAll, Option.some.injEq, Prod.mk.injEq] at hr
    obtain ⟨rfl, -⟩ := hr
    by_contra hcon
    exact absurd (hneg i hi (lt_of_not_ge hcon)) (by simp)
  | cons seed seeds ih =>
    intro mem mem' cells E hun hE hW hB hΩ hnd hall hneg hr
    have hT := absTotal_nonneg (n := n) (valMem mem) 0
    have hN : (seed :: seeds).length * (n + 1) = (n + 1) + seeds.length * (n + 1) := by
      rw [List.length_cons]; ring
    rw [hN] at hB hΩ
    rw [resampleAll] at hr
    cases hs : resampleSeed cfg n nearest mem seed with
    | none => rw [hs] at hr; simp at hr
    | some r =>
      obtain ⟨mem1, oc⟩ := r
      rw [hs] at hr
      simp only at hr
      obtain ⟨⟨m2, cs⟩, hrest, he⟩ := Option.map_eq_some_iff.1 hr
      simp only [Prod.mk.injEq] at he
      obtain ⟨rfl, -⟩ := he
      have hnd' := fun s hs => hnd s (List.mem_cons_of_mem _ hs)
      have hall' := fun s hs => hall s (List.mem_cons_of_mem _ hs)
      have hB0 : 0 ≤ B := le_trans (add_nonneg hE (roundingBound_nonneg hu hη _ hT)) hB
      obtain ⟨hlt, ⟨h0, rfl, -⟩ | ⟨h0, c, hnew, -, hres⟩⟩ := resampleSeed_cases hs
      · refine ih hun hE hW ?_ (range_mono hu hη (by omega) hT hΩ) hnd' hall' ?_ hrest
        · have := roundingBound_mono hu hη (show seeds.length * (n + 1) ≤ (n + 1) + seeds.length * (n + 1) by omega) hT
            (le_refl _)
          linarith
        · intro i hi hw
          rcases List.mem_cons.1 (hneg i hi hw) with rfl | hm
          · rw [wt_valMem] at hw
            have h0' : 0 < (wt mem1 0 i).val := val_lt.1 h0
            linarith
          · exact hm
      · obtain ⟨⟨m, hm⟩, hin, -⟩ := new_isOrderedCell hnew
        have hne : c.members ≠ [] := by rw [hm.members_eq]; simp
        have hndc : c.members.Nodup := by
          rw [hm.members_eq]
          exact (hnd seed List.mem_cons_self).sublist
            (List.Sublist.cons_cons _ ((List.take_sublist _ _).map _))
        have hltc : ∀ i ∈ c.members, i < n := fun i hi => (hin i hi).1
        have hlen := members_length_le hndc hltc
        have hpos : 1 ≤ c.members.length := List.length_pos_iff.2 hne
        have hΩ1 := range_mono hu hη (show c.members.length + 1 ≤ (n + 1) + seeds.length * (n + 1) by omega) hT hΩ
        obtain ⟨hmem, hWe, hTe⟩ := cell_err h hun hne hndc hltc hres hun.pos hΩ1
        have hS0 : 0 ≤ (c.members.map (fun i => |wt (valMem mem) 0 i|)).sum := List.sum_nonneg (by
          intro x hx
          obtain ⟨y, -, rfl⟩ := List.mem_map.1 hx
          exact abs_nonneg _)
        have hST := sum_members_le hndc hltc (fun i => |wt (valMem mem) 0 i|) (fun i => abs_nonneg _)
        have hmono := roundingBound_mono hu hη (le_refl (c.members.length + 1)) hS0 hST
        have hcomp := roundingBound_compose hu hη (c.members.length + 1) (seeds.length * (n + 1)) hT hTe
        have hmono2 := roundingBound_mono hu hη
          (show (c.members.length + 1) + seeds.length * (n + 1) ≤ (n + 1) + seeds.length * (n + 1) by omega) hT (le_refl _)
        have hrest0 := roundingBound_nonneg hu hη (seeds.length * (n + 1)) (absTotal_nonneg (n := n) (valMem mem1) 0)
        have hcell0 := roundingBound_nonneg hu hη (c.members.length + 1) hT
        unfold absTotal at hcell0 hcomp hmono2 hB hΩ1 hTe hWe hrest0 hT
        -- the exact sum over the cell
        have hsum : -(E + roundingBound u η (c.members.length + 1) (∑ i ∈ Finset.range n, |wt (valMem mem) 0 i|)) ≤
            (c.members.map (wt (valMem mem) 0)).sum := by
          rcases hm.enough with hex | hge
          · have hperm : c.members.Perm (List.range n) := by
              refine (List.perm_ext_iff_of_nodup hndc List.nodup_range).2 (fun i => ?_)
              rw [hm.members_eq, hex, List.take_length, List.mem_cons, hall seed List.mem_cons_self i, List.mem_range]
              constructor
              · rintro (rfl | ⟨h1, -⟩)
                · exact hlt
                · exact h1
              · intro hi
                by_cases his : i = seed
                · exact Or.inl his
                · exact Or.inr ⟨hi, his⟩
            rw [(hperm.map _).sum_eq, ← List.sum_toFinset _ List.nodup_range, List.toFinset_range]
            unfold weightTotal at hW
            linarith
          · have hl : (((nearest seed).take m).map Prod.fst).length + 1 = c.members.length := by
              rw [hm.members_eq]; simp
            have := addUp_err h mem 0 seed (((nearest seed).take m).map Prod.fst) (by
              rw [← hm.members_eq, show (((nearest seed).take m).map Prod.fst).length + 2 = c.members.length + 1 by omega]
              refine le_trans ?_ hΩ1
              refine mul_le_mul_of_nonneg_left ?_ (by positivity)
              linarith)
            rw [← hm.members_eq, show (((nearest seed).take m).map Prod.fst).length + 2 = c.members.length + 1 by omega,
              ← hm.sum_eq] at this
            have h1 := (abs_le.1 this).2
            have h2 : 0 ≤ c.weightSum.val := val_le.1 hge
            linarith
        have hgood : ∀ i ∈ c.members, -(2 * B) ≤ wt (valMem mem1) 0 i := by
          intro i hi
          have h1 := (abs_le.1 (hmem i hi)).1
          have hm1 : (1 : K) ≤ c.members.length := by exact_mod_cast hpos
          by_contra hcon
          have hlt' : wt (valMem mem1) 0 i < -(2 * B) := lt_of_not_ge hcon
          have h2 : (c.members.length : K) * wt (valMem mem1) 0 i ≤ wt (valMem mem1) 0 i := by
            have : wt (valMem mem1) 0 i ≤ 0 := by linarith
            nlinarith
          linarith
        refine ih (uniform_of_resample hun hne hltc hres)
          (E := E + roundingBound u η (c.members.length + 1) (∑ i ∈ Finset.range n, |wt (valMem mem) 0 i|))
          (by linarith) ?_ ?_ ?_ hnd' hall' ?_ hrest
        · have := (abs_le.1 hWe).1
          linarith
        · unfold absTotal; linarith
        · refine range_split hu hη (N := n + 1) (T := absTotal n (valMem mem) 0)
            (absTotal_nonneg (n := n) (valMem mem) 0) ?_ hΩ
          have := roundingBound_mono hu hη (show c.members.length + 1 ≤ n + 1 by omega)
            (absTotal_nonneg (n := n) (valMem mem) 0) (le_refl _)
          unfold absTotal at *
          linarith
        · intro i hi hw
          have hic : i ∉ c.members := fun hm' => absurd hw (not_lt.2 (hgood i hm'))
          obtain ⟨avg, -, -, hout⟩ := resample_some hres
          have : wt (valMem mem1) 0 i = wt (valMem mem) 0 i := by
            rw [wt_valMem, wt_valMem]; unfold wt; rw [hout i hic]
          rw [this] at hw
          rcases List.mem_cons.1 (hneg i hi hw) with rfl | hm'
          · exact absurd (by rw [hm.members_eq]; simp) hic
          · exact hm'

end Cells

end Cres

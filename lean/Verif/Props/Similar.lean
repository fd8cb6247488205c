import Verif.Props.Moved

/-!
Property C132: events at a small distance are similar.
-/

namespace Cres

open Spec

section

variable {V : Type*}

/-- The sum of contributions of all particles, which can depend on their types. -/
def particleSum (f : ℤ → V → ℝ) (parts : List (ℤ × V)) : ℝ := (parts.map fun x => f x.1 x.2).sum

theorem particleSum_types (f : ℤ → V → ℝ) (parts : List (ℤ × V)) (T : Finset ℤ) (h : types parts ⊆ T) :
    particleSum f parts = ∑ t ∈ T, ((momenta parts t).map (f t)).sum := by
  induction parts with
  | nil => simp [particleSum, momenta]
  | cons x parts ih =>
    have hx : x.1 ∈ T := h (by simp [types])
    have ih := ih (fun t ht => h (by
      unfold types at ht ⊢
      rw [List.map_cons, List.toFinset_cons]
      exact Finset.mem_insert_of_mem ht))
    have hstep : ∀ t ∈ T, ((momenta (x :: parts) t).map (f t)).sum = (if t = x.1 then f x.1 x.2 else 0) + ((momenta parts t).map (f t)).sum := by
      intro t _
      unfold momenta
      rw [List.filter_cons]
      by_cases ht : x.1 = t
      · subst ht; simp
      · rw [if_neg (by simpa using ht), if_neg (fun hh => ht hh.symm), zero_add]
    rw [Finset.sum_congr rfl hstep, Finset.sum_add_distrib, ← ih, Finset.sum_ite_eq' T x.1, if_pos hx]
    simp [particleSum]

theorem padded_sum {f : V → ℝ} {zero : V} (h0 : f zero = 0) (n : Nat) (l : List V) : ((padded zero n l).map f).sum = (l.map f).sum := by
  unfold padded
  rw [Multiset.map_add, Multiset.sum_add, Multiset.map_replicate, Multiset.sum_replicate, h0, smul_zero, add_zero, Multiset.map_coe,
    Multiset.sum_coe]

theorem pairing_sums {f : V → ℝ} {zero : V} (h0 : f zero = 0) {l₁ l₂ : List V} {n : Nat} {ps : Multiset (V × V)}
    (h : IsPairing (padded zero n l₁) (padded zero n l₂) ps) :
    (l₁.map f).sum = (ps.map fun x => f x.1).sum ∧ (l₂.map f).sum = (ps.map fun x => f x.2).sum := by
  rw [← padded_sum h0 n l₁, ← padded_sum h0 n l₂, ← h.1, ← h.2, Multiset.map_map, Multiset.map_map]
  exact ⟨rfl, rfl⟩

theorem padded_mem {zero : V} {P : V → Prop} (hz : P zero) {n : Nat} {l : List V} (hl : ∀ p ∈ l, P p) : ∀ p ∈ padded zero n l, P p := by
  intro p hp
  unfold padded at hp
  rcases Multiset.mem_add.1 hp with hp | hp
  · exact hl p hp
  · rw [Multiset.eq_of_mem_replicate hp]; exact hz

theorem setDistance_sums {d : V → V → ℝ} {zero : V} {f : V → ℝ} {L : ℝ} (h0 : f zero = 0) (P : V → Prop) (hz : P zero)
    (hf : ∀ p q, P p → P q → |f p - f q| ≤ L * d p q) {l₁ l₂ : List V} (h1 : ∀ p ∈ l₁, P p) (h2 : ∀ p ∈ l₂, P p) {c : ℝ}
    (h : IsSetDistance d zero l₁ l₂ c) : |(l₁.map f).sum - (l₂.map f).sum| ≤ L * c := by
  obtain ⟨⟨ps, hp, rfl⟩, -⟩ := h
  obtain ⟨e1, e2⟩ := pairing_sums h0 hp
  have hP : ∀ x ∈ ps, P x.1 ∧ P x.2 := fun x hx =>
    ⟨padded_mem hz h1 _ (hp.1 ▸ Multiset.mem_map_of_mem _ hx), padded_mem hz h2 _ (hp.2 ▸ Multiset.mem_map_of_mem _ hx)⟩
  rw [e1, e2, ← Multiset.sum_map_sub]
  unfold pairingCost
  rw [← Multiset.sum_map_mul_left]
  clear hp e1 e2
  induction ps using Multiset.induction with
  | empty => simp
  | cons x ps ih =>
    simp only [Multiset.map_cons, Multiset.sum_cons]
    have g1 := hf x.1 x.2 (hP x (by simp)).1 (hP x (by simp)).2
    have g2 := ih fun y hy => hP y (by simp [hy])
    exact (abs_add_le _ _).trans (add_le_add g1 g2)

theorem eventDistance_sums {d : V → V → ℝ} {zero : V} {f : ℤ → V → ℝ} {L : ℝ} (h0 : ∀ t, f t zero = 0) (P : V → Prop) (hz : P zero)
    (hf : ∀ t p q, P p → P q → |f t p - f t q| ≤ L * d p q) {a b : List (ℤ × V)} (ha : ∀ x ∈ a, P x.2) (hb : ∀ x ∈ b, P x.2) {c : ℝ}
    (h : IsEventDistance d zero a b c) : |particleSum f a - particleSum f b| ≤ L * c := by
  obtain ⟨cost, h1, rfl⟩ := h
  rw [particleSum_types f a _ Finset.subset_union_left, particleSum_types f b _ Finset.subset_union_right, ← Finset.sum_sub_distrib, Finset.mul_sum]
  refine (Finset.abs_sum_le_sum_abs _ _).trans (Finset.sum_le_sum fun t _ => ?_)
  have hm : ∀ (l : List (ℤ × V)), (∀ x ∈ l, P x.2) → ∀ p ∈ momenta l t, P p := by
    intro l hl p hp
    unfold momenta at hp
    obtain ⟨x, hx, rfl⟩ := List.mem_map.1 hp
    exact hl x (List.mem_filter.1 hx).1
  exact setDistance_sums (h0 t) P hz (hf t) (hm a ha) (hm b hb) (h1 t)

theorem eventDistance_mono {d d' : V → V → ℝ} {zero : V} {L : ℝ} (P : V → Prop) (hz : P zero)
    (hd : ∀ p q, P p → P q → d p q ≤ L * d' p q) {a b : List (ℤ × V)} (ha : ∀ x ∈ a, P x.2) (hb : ∀ x ∈ b, P x.2) {c c' : ℝ}
    (h : IsEventDistance d zero a b c) (h' : IsEventDistance d' zero a b c') : c ≤ L * c' := by
  obtain ⟨cost, h1, rfl⟩ := h
  obtain ⟨cost', h2, rfl⟩ := h'
  rw [Finset.mul_sum]
  refine Finset.sum_le_sum fun t _ => ?_
  have hm : ∀ (l : List (ℤ × V)), (∀ x ∈ l, P x.2) → ∀ p ∈ momenta l t, P p := by
    intro l hl p hp
    unfold momenta at hp
    obtain ⟨x, hx, rfl⟩ := List.mem_map.1 hp
    exact hl x (List.mem_filter.1 hx).1
  obtain ⟨⟨ps, hp, hc⟩, -⟩ := h2 t
  have hle := (h1 t).2 ⟨ps, hp, rfl⟩
  refine hle.trans ?_
  rw [← hc]
  unfold pairingCost
  rw [← Multiset.sum_map_mul_left]
  refine Multiset.sum_map_le_sum_map _ _ fun x hx => ?_
  exact hd _ _ (padded_mem hz (hm a ha) _ (hp.1 ▸ Multiset.mem_map_of_mem _ hx)) (padded_mem hz (hm b hb) _ (hp.2 ▸ Multiset.mem_map_of_mem _ hx))

end

theorem sum_map_zero {α : Type*} {g : α → ℝ} (hg : ∀ x, 0 ≤ g x) {ps : Multiset α} (h : (ps.map g).sum = 0) : ∀ x ∈ ps, g x = 0 := by
  induction ps using Multiset.induction with
  | empty => simp
  | cons y ps ih =>
    rw [Multiset.map_cons, Multiset.sum_cons] at h
    have h1 : 0 ≤ (ps.map g).sum := by
      apply Multiset.sum_nonneg
      intro x hx
      obtain ⟨y, -, rfl⟩ := Multiset.mem_map.1 hx
      exact hg y
    have h2 := hg y
    intro x hx
    rcases Multiset.mem_cons.1 hx with rfl | hx
    · linarith
    · exact ih (by linarith) x hx

/-! ### The default distance -/

/-- Momenta as the program makes them. -/
def Momentum (p : FourVector) : Prop := ∃ c, Computes p c

theorem ptDist_eq_momentumDistance (τ : ℝ) {p q : FourVector} (hp : Momentum p) (hq : Momentum q) :
    ptDist p q τ = momentumDistance τ p.p1 p.p2 p.p3 q.p1 q.p2 q.p3 := by
  obtain ⟨cp, hp⟩ := hp
  obtain ⟨cq, hq⟩ := hq
  obtain ⟨rfl, hp⟩ := C62_pt_up_to_date hp
  obtain ⟨rfl, hq⟩ := C62_pt_up_to_date hq
  rw [ptDist_components]
  unfold momentumDistance
  rw [hp, hq]
  congr 1
  ring

theorem ptDist_zero {τ : ℝ} {p q : FourVector} (h : ptDist p q τ = 0) : p.p1 = q.p1 ∧ p.p2 = q.p2 ∧ p.p3 = q.p3 := by
  rw [ptDist_components, Real.sqrt_eq_zero (by positivity)] at h
  have h1 := sq_nonneg (p.p1 - q.p1)
  have h2 := sq_nonneg (p.p2 - q.p2)
  have h3 := sq_nonneg (p.p3 - q.p3)
  have h4 := sq_nonneg (τ * (p.pt - q.pt))
  have g : ∀ {x : ℝ}, x ^ 2 = 0 → x = 0 := fun hx => pow_eq_zero_iff two_ne_zero |>.1 hx
  exact ⟨sub_eq_zero.1 (g (by linarith)), sub_eq_zero.1 (g (by linarith)), sub_eq_zero.1 (g (by linarith))⟩

variable {W : Type*} {km : SquareMatrix ℝ → ℝ} {e e' : Event W FourVector} {a b : List (ℤ × FourVector)}

/-- **C132**: if the contribution of a particle to an observable changes at most `L` times as much as its momentum (in the sense of the distance between momenta
with parameter `τ`), and particles without momentum do not contribute, then the values of the observable for two events differ by at most `L` times the distance. -/
theorem C132_observables (hkm : SolvesAssignment km) (τ : ℝ) (ha : HasOutgoing e a) (hb : HasOutgoing e' b) (ha' : ∀ x ∈ a, Momentum x.2)
    (hb' : ∀ x ∈ b, Momentum x.2) {f : ℤ → ℝ → ℝ → ℝ → ℝ} {L : ℝ} (h0 : ∀ t, f t 0 0 0 = 0)
    (hf : ∀ t x y z x' y' z', |f t x y z - f t x' y' z'| ≤ L * momentumDistance τ x y z x' y' z') :
    |particleSum (fun t p => f t p.p1 p.p2 p.p3) a - particleSum (fun t p => f t p.p1 p.p2 p.p3) b| ≤ L * euclDistance km τ e e' := by
  refine eventDistance_sums (zero := FourVector.new) (d := fun p q => ptDist p q τ) h0 Momentum ⟨0, Computes.new⟩ ?_ ha' hb' (euclDistance_outgoing hkm τ ha hb)
  intro t p q hp hq
  rw [ptDist_eq_momentumDistance τ hp hq]
  exact hf t _ _ _ _ _ _

theorem transverse_diff (x y x' y' : ℝ) : (transverse x y - transverse x' y') ^ 2 ≤ (x - x') ^ 2 + (y - y') ^ 2 := by
  unfold transverse
  have h1 := Real.sq_sqrt (show 0 ≤ x ^ 2 + y ^ 2 by positivity)
  have h2 := Real.sq_sqrt (show 0 ≤ x' ^ 2 + y' ^ 2 by positivity)
  have h3 : x * x' + y * y' ≤ Real.sqrt (x ^ 2 + y ^ 2) * Real.sqrt (x' ^ 2 + y' ^ 2) := by
    rw [← Real.sqrt_mul (by positivity)]
    apply Real.le_sqrt_of_sq_le
    nlinarith [sq_nonneg (x * y' - y * x')]
  nlinarith

/-- **C132**: the scalar sums of transverse momenta of two events, over all particles with some given types, differ by at most the distance. -/
theorem C132_scalar_sum (hkm : SolvesAssignment km) (τ : ℝ) (ha : HasOutgoing e a) (hb : HasOutgoing e' b) (ha' : ∀ x ∈ a, Momentum x.2)
    (hb' : ∀ x ∈ b, Momentum x.2) (T : ℤ → Prop) [DecidablePred T] :
    |particleSum (fun t p => if T t then transverse p.p1 p.p2 else 0) a - particleSum (fun t p => if T t then transverse p.p1 p.p2 else 0) b| ≤
      euclDistance km τ e e' := by
  have := C132_observables hkm τ ha hb ha' hb' (f := fun t x y _ => if T t then transverse x y else 0) (L := 1) (by simp [transverse]) (by
    intro t x y z x' y' z'
    rw [one_mul]
    split_ifs
    · apply Real.abs_le_sqrt
      nlinarith [transverse_diff x y x' y', sq_nonneg (z - z'), mul_nonneg (sq_nonneg τ) (sq_nonneg (transverse x y - transverse x' y'))]
    · rw [sub_self, abs_zero]; exact Real.sqrt_nonneg _)
  simpa using this

/-- **C132**: the total momenta of all particles with some given types in two events differ by at most the distance in every direction `(u, v, w)`. So this
holds also for missing momentum. -/
theorem C132_total_momentum (hkm : SolvesAssignment km) (τ : ℝ) (ha : HasOutgoing e a) (hb : HasOutgoing e' b) (ha' : ∀ x ∈ a, Momentum x.2)
    (hb' : ∀ x ∈ b, Momentum x.2) (T : ℤ → Prop) [DecidablePred T] {u v w : ℝ} (hu : u ^ 2 + v ^ 2 + w ^ 2 ≤ 1) :
    |particleSum (fun t p => if T t then u * p.p1 + v * p.p2 + w * p.p3 else 0) a -
      particleSum (fun t p => if T t then u * p.p1 + v * p.p2 + w * p.p3 else 0) b| ≤ euclDistance km τ e e' := by
  have := C132_observables hkm τ ha hb ha' hb' (f := fun t x y z => if T t then u * x + v * y + w * z else 0) (L := 1) (by simp) (by
    intro t x y z x' y' z'
    rw [one_mul]
    split_ifs
    · apply Real.abs_le_sqrt
      have h1 := mul_nonneg (sq_nonneg τ) (sq_nonneg (transverse x y - transverse x' y'))
      have h2 : (u * x + v * y + w * z - (u * x' + v * y' + w * z')) ^ 2 ≤ (u ^ 2 + v ^ 2 + w ^ 2) * ((x - x') ^ 2 + (y - y') ^ 2 + (z - z') ^ 2) := by
        nlinarith [sq_nonneg (u * (y - y') - v * (x - x')), sq_nonneg (u * (z - z') - w * (x - x')), sq_nonneg (v * (z - z') - w * (y - y'))]
      have h3 : 0 ≤ (x - x') ^ 2 + (y - y') ^ 2 + (z - z') ^ 2 := by positivity
      nlinarith
    · rw [sub_self, abs_zero]; exact Real.sqrt_nonneg _)
  simpa using this

/-- **C132**: events at distance 0 have the same particles with non-vanishing momenta: no sum over particles distinguishes them to which only particles with
momentum contribute. -/
theorem C132_zero (hkm : SolvesAssignment km) (τ : ℝ) (ha : HasOutgoing e a) (hb : HasOutgoing e' b) (hzero : euclDistance km τ e e' = 0)
    {f : ℤ → ℝ → ℝ → ℝ → ℝ} (h0 : ∀ t, f t 0 0 0 = 0) :
    particleSum (fun t p => f t p.p1 p.p2 p.p3) a = particleSum (fun t p => f t p.p1 p.p2 p.p3) b := by
  obtain ⟨cost, h1, h2⟩ := euclDistance_outgoing hkm τ ha hb
  rw [hzero] at h2
  have hnn : ∀ t, 0 ≤ cost t := by
    intro t
    obtain ⟨⟨ps, -, hc⟩, -⟩ := h1 t
    rw [← hc]
    apply Multiset.sum_nonneg
    intro x hx
    obtain ⟨y, -, rfl⟩ := Multiset.mem_map.1 hx
    exact Real.sqrt_nonneg _
  have hz := (Finset.sum_eq_zero_iff_of_nonneg fun t _ => hnn t).1 h2.symm
  rw [particleSum_types _ a _ Finset.subset_union_left, particleSum_types _ b _ Finset.subset_union_right]
  refine Finset.sum_congr rfl fun t ht => ?_
  obtain ⟨⟨ps, hp, hc⟩, -⟩ := h1 t
  rw [hz t ht] at hc
  obtain ⟨e1, e2⟩ := pairing_sums (f := fun p : FourVector => f t p.p1 p.p2 p.p3) (h0 t) hp
  rw [e1, e2]
  congr 1
  refine Multiset.map_congr rfl fun x hx => ?_
  have hall : ∀ y ∈ ps, ptDist y.1 y.2 τ = 0 := by
    intro y hy
    exact sum_map_zero (fun z : FourVector × FourVector => Real.sqrt_nonneg _) hc y hy
  obtain ⟨g1, g2, g3⟩ := ptDist_zero (hall x hx)
  simp only [g1, g2, g3]

/-- **C132**: with a larger parameter for transverse momenta, distances are not smaller. -/
theorem C132_larger_pt_weight {km' : SquareMatrix ℝ → ℝ} (hkm : SolvesAssignment km) (hkm' : SolvesAssignment km') {τ τ' : ℝ} (hτ : |τ| ≤ |τ'|)
    (ha : HasOutgoing e a) (hb : HasOutgoing e' b) : euclDistance km τ e e' ≤ euclDistance km' τ' e e' := by
  have := eventDistance_mono (L := 1) (fun _ => True) trivial (d := fun p q => ptDist p q τ) (d' := fun p q => ptDist p q τ') (by
    intro p q _ _
    rw [one_mul, ptDist_components, ptDist_components]
    apply Real.sqrt_le_sqrt
    have := mul_le_mul_of_nonneg_right (sq_le_sq.2 hτ) (sq_nonneg (p.pt - q.pt))
    rw [mul_pow, mul_pow]
    linarith) (fun _ _ => trivial) (fun _ _ => trivial) (euclDistance_outgoing hkm τ ha hb) (euclDistance_outgoing hkm' τ' ha hb)
  simpa using this

/-- **C132**: the parameter for transverse momenta changes distances at most by the factor `sqrt (1 + τ ^ 2)`. -/
theorem C132_pt_weight_bound {km' : SquareMatrix ℝ → ℝ} (hkm : SolvesAssignment km) (hkm' : SolvesAssignment km') (τ : ℝ)
    (ha : HasOutgoing e a) (hb : HasOutgoing e' b) (ha' : ∀ x ∈ a, Momentum x.2) (hb' : ∀ x ∈ b, Momentum x.2) :
    euclDistance km τ e e' ≤ Real.sqrt (1 + τ ^ 2) * euclDistance km' 0 e e' := by
  refine eventDistance_mono Momentum ⟨0, Computes.new⟩ (d := fun p q => ptDist p q τ) (d' := fun p q => ptDist p q 0) ?_ ha' hb'
    (euclDistance_outgoing hkm τ ha hb) (euclDistance_outgoing hkm' 0 ha hb)
  intro p q hp hq
  rw [ptDist_eq_momentumDistance τ hp hq, ptDist_eq_momentumDistance 0 hp hq]
  unfold momentumDistance
  rw [← Real.sqrt_mul (by positivity)]
  apply Real.sqrt_le_sqrt
  have h1 := mul_le_mul_of_nonneg_left (transverse_diff p.p1 p.p2 q.p1 q.p2) (sq_nonneg τ)
  have h2 := mul_nonneg (sq_nonneg τ) (sq_nonneg (p.p3 - q.p3))
  nlinarith

/-- With two particles that became one, and a particle of another type: the distance is at least 3. -/
example {km : SquareMatrix ℝ → ℝ} (hkm : SolvesAssignment km) :
    3 ≤ euclDistance km 1 (⟨[], [(1, FourVector.ofComponents 5 3 4 0), (1, FourVector.ofComponents 5 0 3 4), (11, FourVector.ofComponents 1 1 0 0)]⟩ :
        EventBuilder ℝ FourVector).build
      (⟨[], [(11, FourVector.ofComponents 1 0 1 0), (1, FourVector.ofComponents 10 3 4 0)]⟩ : EventBuilder ℝ FourVector).build := by
  have h := C132_scalar_sum hkm 1
    (e := (⟨[], [(1, FourVector.ofComponents 5 3 4 0), (1, FourVector.ofComponents 5 0 3 4), (11, FourVector.ofComponents 1 1 0 0)]⟩ :
      EventBuilder ℝ FourVector).build)
    (e' := (⟨[], [(11, FourVector.ofComponents 1 0 1 0), (1, FourVector.ofComponents 10 3 4 0)]⟩ : EventBuilder ℝ FourVector).build) rfl rfl
    (by
      intro x hx
      simp only [List.mem_cons, List.not_mem_nil, or_false] at hx
      rcases hx with rfl | rfl | rfl
      · exact ⟨_, .ofComponents (5, 3, 4, 0)⟩
      · exact ⟨_, .ofComponents (5, 0, 3, 4)⟩
      · exact ⟨_, .ofComponents (1, 1, 0, 0)⟩)
    (by
      intro x hx
      simp only [List.mem_cons, List.not_mem_nil, or_false] at hx
      rcases hx with rfl | rfl
      · exact ⟨_, .ofComponents (1, 0, 1, 0)⟩
      · exact ⟨_, .ofComponents (10, 3, 4, 0)⟩)
    (fun t => t = 1)
  have c1 : ∀ w x y z, (FourVector.ofComponents w x y z).p1 = x := fun _ _ _ _ => rfl
  have c2 : ∀ w x y z, (FourVector.ofComponents w x y z).p2 = y := fun _ _ _ _ => rfl
  have h1 : transverse 3 4 = 5 := by
    unfold transverse
    rw [show (3 : ℝ) ^ 2 + 4 ^ 2 = 5 ^ 2 by norm_num, Real.sqrt_sq (by norm_num)]
  have h2 : transverse 0 3 = 3 := by
    unfold transverse
    rw [show (0 : ℝ) ^ 2 + 3 ^ 2 = 3 ^ 2 by norm_num, Real.sqrt_sq (by norm_num)]
  refine le_trans (le_of_eq ?_) h
  simp [particleSum, c1, c2, h1, h2]

end Cres

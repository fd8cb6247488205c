import Verif.Proofs.Distance
import Verif.Spec.FourVector

/-!
Properties C18 - C20, C62: distances between events, canonical form of events, four-vectors.
-/

set_option linter.unusedSectionVars false

namespace Cres

open Spec

/-! ## C62: four-vectors -/

/-- **C62**: the components are those of the computation, and the stored transverse momentum is that of the components. -/
theorem C62_pt_up_to_date {v : FourVector} {c : ℝ × ℝ × ℝ × ℝ} (h : Computes v c) :
    (v.p0, v.p1, v.p2, v.p3) = c ∧ v.pt = transverse c.2.1 c.2.2.1 := by
  have key : ∀ x y : ℝ, Real.sqrt (x * x + y * y) = transverse x y := by
    intro x y; unfold transverse; rw [sq, sq]
  induction h with
  | new => exact ⟨rfl, by simp [FourVector.new, transverse]⟩
  | ofComponents c => exact ⟨rfl, key _ _⟩
  | ofPseudoJet c => exact ⟨rfl, key _ _⟩
  | throughPseudoJet h ih => obtain ⟨rfl, _⟩ := ih; exact ⟨rfl, key _ _⟩
  | add _ _ h1 h2 => obtain ⟨rfl, _⟩ := h1; obtain ⟨rfl, _⟩ := h2; exact ⟨rfl, key _ _⟩
  | sub _ _ h1 h2 => obtain ⟨rfl, _⟩ := h1; obtain ⟨rfl, _⟩ := h2; exact ⟨rfl, key _ _⟩
  | addAssign _ _ h1 h2 => obtain ⟨rfl, _⟩ := h1; obtain ⟨rfl, _⟩ := h2; exact ⟨rfl, key _ _⟩
  | subAssign _ _ h1 h2 => obtain ⟨rfl, _⟩ := h1; obtain ⟨rfl, _⟩ := h2; exact ⟨rfl, key _ _⟩

/-- Non-vacuity: `(7, 5, 8, 1) - (2, 2, 4, 1)` has transverse momentum 5. -/
example : (FourVector.ofComponents 7 5 8 1 - FourVector.ofComponents 2 2 4 1).pt = 5 := by
  have h := (C62_pt_up_to_date (Computes.sub (Computes.ofComponents (7, 5, 8, 1)) (Computes.ofComponents (2, 2, 4, 1)))).2
  rw [h]
  unfold transverse
  rw [Real.sqrt_eq_iff_mul_self_eq] <;> norm_num

/-! ## C20: canonical form of events -/

section C20

variable {K V : Type*} [LinearOrder V]

/-- The event builder after adding particles. -/
def withParticles (b : EventBuilder K V) (parts : List (ℤ × V)) : EventBuilder K V :=
  parts.foldl (fun b x => b.addOutgoing x.1 x.2) b

theorem withParticles_new [Zero K] (multi : Bool) (parts : List (ℤ × V)) :
    (withParticles (EventBuilder.new multi : EventBuilder K V) parts).outgoingByPid = parts := by
  unfold withParticles
  rw [foldl_addOutgoing]
  simp [EventBuilder.new]

/-- **C20**: the types are strictly descending (so each type is listed once). -/
theorem C20_types_descending [Zero K] (multi : Bool) (parts : List (ℤ × V)) :
    (((withParticles (EventBuilder.new multi : EventBuilder K V) parts).build.outgoingByPid).map Prod.fst).Pairwise
      (fun a b => a > b) := by
  unfold EventBuilder.build
  rw [withParticles_new]
  exact compress_keys parts

/-- **C20**: each type is listed with exactly the momenta added for this type, and only the added types are listed. -/
theorem C20_momenta [Zero K] (multi : Bool) (parts : List (ℤ × V)) (t : ℤ) (v : List V)
    (h : (t, v) ∈ (withParticles (EventBuilder.new multi : EventBuilder K V) parts).build.outgoingByPid) :
    v.Perm (momenta parts t) ∧ v ≠ [] := by
  unfold EventBuilder.build at h
  rw [withParticles_new] at h
  refine ⟨?_, (groupInv_compress parts).ne_nil _ h⟩
  have h1 := groupLookup_mem (compress_keys parts) h
  rw [← h1]
  exact compress_lookup parts t

/-- **C20**: all added types are listed. -/
theorem C20_types [Zero K] (multi : Bool) (parts : List (ℤ × V)) (t : ℤ) :
    (∃ p, (t, p) ∈ parts) ↔
      ∃ v, (t, v) ∈ (withParticles (EventBuilder.new multi : EventBuilder K V) parts).build.outgoingByPid := by
  unfold EventBuilder.build
  rw [withParticles_new]
  have h := compress_types parts t
  simp only [types, List.mem_toFinset, List.mem_map, Prod.exists, exists_and_right, exists_eq_right] at h
  exact h

/-- **C20**: the order of adding particles does not matter. -/
theorem C20_order [Zero K] (multi : Bool) (parts parts' : List (ℤ × V)) (h : parts.Perm parts') :
    (withParticles (EventBuilder.new multi : EventBuilder K V) parts).build =
      (withParticles (EventBuilder.new multi : EventBuilder K V) parts').build := by
  unfold EventBuilder.build
  rw [withParticles_new, withParticles_new, compress_perm h]
  congr 1
  unfold withParticles
  rw [foldl_addOutgoing, foldl_addOutgoing]

/-- **C20**: `outgoing_with_pid` returns the momenta of the requested type, an empty list if there are none. -/
theorem C20_outgoing_with_pid [Zero K] (multi : Bool) (parts : List (ℤ × V)) (t : ℤ) :
    ((withParticles (EventBuilder.new multi : EventBuilder K V) parts).build.outgoingWithPid t).Perm (momenta parts t) := by
  rw [outgoingWithPid_eq _ (C20_types_descending multi parts)]
  unfold EventBuilder.build
  rw [withParticles_new]
  exact compress_lookup parts t

/-- Non-vacuity: five particles of three types. -/
example : (withParticles (EventBuilder.new true : EventBuilder ℤ ℤ) [(11, 5), (22, 1), (-3, 2), (11, 9), (22, 4)]).build =
    ⟨0, [], [(22, [4, 1]), (11, [9, 5]), (-3, [2])]⟩ := by decide

example : (withParticles (EventBuilder.new true : EventBuilder ℤ ℤ) [(11, 5), (22, 1), (-3, 2), (11, 9)]).build.outgoingWithPid
    11 = [9, 5] := by decide

end C20

/-! ## C18, C19: the distance -/

/-- `kuhn_munkres` can be implemented (here in a non-computable way): the assumption `SolvesAssignment` of the theorems
on the distance is satisfiable. -/
theorem solvesAssignment_exists : ∃ km : SquareMatrix ℝ → ℝ, SolvesAssignment km := by
  have h : ∀ m : SquareMatrix ℝ, ∃ c, IsMaxAssignment m.rows m.at c := by
    intro m
    have hf : (Set.range (fun σ : Equiv.Perm (Fin m.rows) => ∑ i : Fin m.rows, m.at i (σ i))).Finite := Set.finite_range _
    obtain ⟨c, hc⟩ := Set.Finite.exists_maximal hf ⟨_, ⟨1, rfl⟩⟩
    refine ⟨c, hc.1, ?_⟩
    intro x hx
    rcases le_total x c with h | h
    · exact h
    · exact hc.2 hx h
  choose km hkm using h
  exact ⟨km, fun m _ => hkm m⟩

/-- An event with the given outgoing particles, as built with `EventBuilder`. -/
noncomputable def eventOf (multi : Bool) (parts : List (ℤ × FourVector)) : Event ℝ FourVector :=
  (withParticles (EventBuilder.new multi) parts).build

/-- **C18**: for all `pt_weight` (`τ`), the distance is non-negative, zero between an event and itself, symmetric, and obeys
the triangle inequality. It is defined (there is no panic) for all events. -/
theorem C18_pseudometric {km : SquareMatrix ℝ → ℝ} (hkm : SolvesAssignment km) (multi : Bool) (τ : ℝ) :
    ∃ dist : List (ℤ × FourVector) → List (ℤ × FourVector) → ℝ,
      (∀ a b, euclWithScaledPt km τ (eventOf multi a) (eventOf multi b) = some (dist a b)) ∧
      (∀ a b, 0 ≤ dist a b) ∧ (∀ a, dist a a = 0) ∧ (∀ a b, dist a b = dist b a) ∧
      (∀ a b c, dist a c ≤ dist a b + dist b c) := by
  have h : ∀ a b : List (ℤ × FourVector), ∃ c, euclWithScaledPt km τ (eventOf multi a) (eventOf multi b) = some c ∧
      IsEventDistance (fun p q => ptDist p q τ) FourVector.new a b c := by
    intro a b
    have := eventDistance_build (pairDist_ptDist τ) (norm := fun p => ptNorm p τ) (zero := FourVector.new)
      (fun p => ptNorm_eq τ p) hkm (withParticles (EventBuilder.new multi : EventBuilder ℝ FourVector) a)
      (withParticles (EventBuilder.new multi : EventBuilder ℝ FourVector) b)
    rw [withParticles_new, withParticles_new] at this
    exact this
  choose dist h1 h2 using h
  exact ⟨dist, h1, fun a b => isEventDistance_nonneg (pairDist_ptDist τ) (h2 a b),
    fun a => isEventDistance_self (pairDist_ptDist τ) (h2 a a),
    fun a b => isEventDistance_unique (h2 a b) (isEventDistance_symm (pairDist_ptDist τ) (h2 b a)),
    fun a b c => isEventDistance_triangle (pairDist_ptDist τ) (h2 a b) (h2 b c) (h2 a c)⟩

theorem isSetDistance_congr {V : Type*} {d d' : V → V → ℝ} {zero : V} {l₁ l₂ : List V} {c : ℝ} (P : V → Prop)
    (hd : ∀ p q, P p → P q → d p q = d' p q) (hz : P zero) (h1 : ∀ p ∈ l₁, P p) (h2 : ∀ p ∈ l₂, P p)
    (h : IsSetDistance d zero l₁ l₂ c) : IsSetDistance d' zero l₁ l₂ c := by
  have hpad : ∀ (l : List V) (n : Nat), (∀ p ∈ l, P p) → ∀ p ∈ padded zero n l, P p := by
    intro l n hl p hp
    unfold padded at hp
    rcases Multiset.mem_add.1 hp with hp | hp
    · exact hl p hp
    · rw [Multiset.eq_of_mem_replicate hp]; exact hz
  have hcost : ∀ ps, IsPairing (padded zero (max l₁.length l₂.length) l₁) (padded zero (max l₁.length l₂.length) l₂) ps →
      pairingCost d ps = pairingCost d' ps := by
    rintro ps ⟨e1, e2⟩
    unfold pairingCost
    congr 1
    apply Multiset.map_congr rfl
    intro x hx
    exact hd _ _ (hpad l₁ _ h1 _ (e1 ▸ Multiset.mem_map_of_mem _ hx)) (hpad l₂ _ h2 _ (e2 ▸ Multiset.mem_map_of_mem _ hx))
  obtain ⟨⟨ps, h3, rfl⟩, h4⟩ := h
  refine ⟨⟨ps, h3, (hcost ps h3).symm⟩, ?_⟩
  rintro x ⟨qs, h5, rfl⟩
  rw [← hcost qs h5]
  exact h4 ⟨qs, h5, rfl⟩

/-- **C19**: the distance is the sum over all particle types in either event of the cheapest pairing. The distance between
momenta is that of the paper (`momentumDistance`), in terms of the spatial components only. -/
theorem C19_cheapest_pairing {km : SquareMatrix ℝ → ℝ} (hkm : SolvesAssignment km) (multi : Bool) (τ : ℝ)
    (a b : List (ℤ × FourVector)) (ha : ∀ x ∈ a, ∃ c, Computes x.2 c) (hb : ∀ x ∈ b, ∃ c, Computes x.2 c) :
    ∃ c, euclWithScaledPt km τ (eventOf multi a) (eventOf multi b) = some c ∧
      IsEventDistance (fun p q => momentumDistance τ p.p1 p.p2 p.p3 q.p1 q.p2 q.p3) FourVector.new a b c := by
  have := eventDistance_build (pairDist_ptDist τ) (norm := fun p => ptNorm p τ) (zero := FourVector.new)
      (fun p => ptNorm_eq τ p) hkm (withParticles (EventBuilder.new multi : EventBuilder ℝ FourVector) a)
      (withParticles (EventBuilder.new multi : EventBuilder ℝ FourVector) b)
  rw [withParticles_new, withParticles_new] at this
  obtain ⟨c, h1, cost, h2, h3⟩ := this
  refine ⟨c, h1, cost, ?_, h3⟩
  intro t
  have hm : ∀ (l : List (ℤ × FourVector)), (∀ x ∈ l, ∃ c, Computes x.2 c) → ∀ p ∈ momenta l t, ∃ c, Computes p c := by
    intro l hl p hp
    unfold momenta at hp
    obtain ⟨x, hx, rfl⟩ := List.mem_map.1 hp
    exact hl x (List.mem_filter.1 hx).1
  refine isSetDistance_congr (fun p => ∃ c, Computes p c) ?_ ⟨0, Computes.new⟩ (hm a ha) (hm b hb) (h2 t)
  rintro p q ⟨cp, hp⟩ ⟨cq, hq⟩
  obtain ⟨rfl, hp⟩ := C62_pt_up_to_date hp
  obtain ⟨rfl, hq⟩ := C62_pt_up_to_date hq
  unfold ptDist ptDistSq momentumDistance FourVector.spatialNormSq
  rw [hp, hq]
  congr 1
  show (p.p1 - q.p1) * (p.p1 - q.p1) + (p.p2 - q.p2) * (p.p2 - q.p2) + (p.p3 - q.p3) * (p.p3 - q.p3) + _ = _
  simp only
  ring

/-- **C19**: the distance does not depend on the order in which particles were added. -/
theorem C19_order (km : SquareMatrix ℝ → ℝ) (multi : Bool) (τ : ℝ) (a a' b b' : List (ℤ × FourVector))
    (ha : a.Perm a') (hb : b.Perm b') :
    euclWithScaledPt km τ (eventOf multi a) (eventOf multi b) = euclWithScaledPt km τ (eventOf multi a') (eventOf multi b') := by
  unfold eventOf
  rw [C20_order multi a a' ha, C20_order multi b b' hb]

/-- Non-vacuity: the distance between an event with a photon and an electron and one with only the photon, at a different
momentum. Here `τ = 0`. -/
example (km : SquareMatrix ℝ → ℝ) :
    euclWithScaledPt km 0
      (eventOf true [(11, FourVector.ofComponents 5 3 4 0), (22, FourVector.ofComponents 1 1 0 0)])
      (eventOf true [(22, FourVector.ofComponents 3 3 0 0)]) = some 7 := by
  have e1 : (eventOf true [(11, FourVector.ofComponents 5 3 4 0), (22, FourVector.ofComponents 1 1 0 0)]).outgoingByPid =
      [(22, [FourVector.ofComponents 1 1 0 0]), (11, [FourVector.ofComponents 5 3 4 0])] := by
    simp [eventOf, withParticles, EventBuilder.addOutgoing, EventBuilder.new, EventBuilder.build, compressOutgoing,
      compressStep, tupleLE]
  have e2 : (eventOf true [(22, FourVector.ofComponents 3 3 0 0)]).outgoingByPid =
      [(22, [FourVector.ofComponents 3 3 0 0])] := by
    simp [eventOf, withParticles, EventBuilder.addOutgoing, EventBuilder.new, EventBuilder.build, compressOutgoing,
      compressStep]
  have d1 : ptDist (FourVector.ofComponents 1 1 0 0) (FourVector.ofComponents 3 3 0 0) 0 = 2 := by
    unfold ptDist ptDistSq FourVector.spatialNormSq
    rw [Real.sqrt_eq_iff_mul_self_eq]
    · show ((1 - 3 : ℝ) * (1 - 3) + (0 - 0) * (0 - 0) + (0 - 0) * (0 - 0)) + _ = _
      simp; norm_num
    · show (0 : ℝ) ≤ ((1 - 3 : ℝ) * (1 - 3) + (0 - 0) * (0 - 0) + (0 - 0) * (0 - 0)) + _
      simp; norm_num
    · norm_num
  have d2 : ptNorm (FourVector.ofComponents 5 3 4 0) 0 = 5 := by
    unfold ptNorm ptNormSq FourVector.spatialNormSq
    rw [Real.sqrt_eq_iff_mul_self_eq]
    · show ((3 : ℝ) * 3 + 4 * 4 + 0 * 0) + _ = _
      simp; norm_num
    · show (0 : ℝ) ≤ ((3 : ℝ) * 3 + 4 * 4 + 0 * 0) + _
      simp; norm_num
    · norm_num
  unfold euclWithScaledPt eventDistance
  rw [e1, e2]
  have hc : compare (22 : ℤ) 22 = .eq := rfl
  simp only [distanceLoop, hc, minPairedDistance, minPairedDistanceLE, padAndSort]
  simp [d1, d2, ptNormSum, distanceLoop]
  norm_num

end Cres

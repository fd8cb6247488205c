import Verif.Model.EventOrder
import Verif.Proofs.Moved
import Verif.Props.Distance

/-!
Property C122: comparing and sorting events.
-/

namespace Cres

open Spec

variable {K V : Type*} [LinearOrder V]

/-- A comparison that is a total order: equal results only for equal values, reversed for exchanged arguments, transitive. -/
structure TotalCmp {α : Type*} (f : α → α → Ordering) : Prop where
  eq : ∀ a b, f a b = .eq ↔ a = b
  swap : ∀ a b, f b a = (f a b).swap
  trans : ∀ a b c, f a b = .lt → f b c = .lt → f a c = .lt

theorem totalCmp_compare {α : Type*} [LinearOrder α] : TotalCmp (compare : α → α → Ordering) where
  eq _ _ := compare_eq_iff_eq
  swap a b := by
    rcases lt_trichotomy a b with h | h | h
    · rw [compare_lt_iff_lt.2 h, compare_gt_iff_gt.2 h]; rfl
    · rw [compare_eq_iff_eq.2 h, compare_eq_iff_eq.2 h.symm]; rfl
    · rw [compare_lt_iff_lt.2 h, compare_gt_iff_gt.2 h]; rfl
  trans a b c h1 h2 := compare_lt_iff_lt.2 ((compare_lt_iff_lt.1 h1).trans (compare_lt_iff_lt.1 h2))

theorem then_lt {o p : Ordering} : o.then p = .lt ↔ o = .lt ∨ o = .eq ∧ p = .lt := by cases o <;> simp [Ordering.then]

theorem then_eq {o p : Ordering} : o.then p = .eq ↔ o = .eq ∧ p = .eq := by cases o <;> simp [Ordering.then]

theorem then_swap {o p : Ordering} : (o.then p).swap = o.swap.then p.swap := by cases o <;> rfl

/-- Lexicographic comparison of pairs. -/
theorem totalCmp_pair {α β : Type*} {f : α → α → Ordering} {g : β → β → Ordering} (hf : TotalCmp f) (hg : TotalCmp g) :
    TotalCmp fun a b : α × β => (f a.1 b.1).then (g a.2 b.2) where
  eq a b := by rw [then_eq, hf.eq, hg.eq, Prod.ext_iff]
  swap a b := by rw [then_swap, hf.swap, hg.swap]
  trans a b c h1 h2 := by
    rw [then_lt] at h1 h2 ⊢
    rcases h1 with h1 | ⟨h1, h1'⟩ <;> rcases h2 with h2 | ⟨h2, h2'⟩
    · exact .inl (hf.trans _ _ _ h1 h2)
    · rw [← (hf.eq _ _).1 h2]; exact .inl h1
    · rw [(hf.eq _ _).1 h1]; exact .inl h2
    · rw [(hf.eq _ _).1 h1]; exact .inr ⟨h2, hg.trans _ _ _ h1' h2'⟩

/-- Lexicographic comparison of lists. -/
theorem totalCmp_slice {α : Type*} {f : α → α → Ordering} (hf : TotalCmp f) : TotalCmp (sliceCmp f) where
  eq a := by
    induction a with
    | nil => intro b; cases b <;> simp [sliceCmp]
    | cons x a ih => intro b; cases b <;> simp [sliceCmp, then_eq, hf.eq, ih]
  swap a := by
    induction a with
    | nil => intro b; cases b <;> rfl
    | cons x a ih =>
      intro b
      cases b with
      | nil => rfl
      | cons y b => simp only [sliceCmp]; rw [then_swap, hf.swap, ih]
  trans a := by
    induction a with
    | nil =>
      intro b c h1 h2
      cases c with
      | nil => cases b <;> simp [sliceCmp] at h1 h2
      | cons z c => rfl
    | cons x a ih =>
      intro b c h1 h2
      cases b with
      | nil => simp [sliceCmp] at h1
      | cons y b =>
        cases c with
        | nil => simp [sliceCmp] at h2
        | cons z c =>
          simp only [sliceCmp] at h1 h2 ⊢
          rw [then_lt] at h1 h2 ⊢
          rcases h1 with h1 | ⟨h1, h1'⟩ <;> rcases h2 with h2 | ⟨h2, h2'⟩
          · exact .inl (hf.trans _ _ _ h1 h2)
          · rw [← (hf.eq _ _).1 h2]; exact .inl h1
          · rw [(hf.eq _ _).1 h1]; exact .inl h2
          · rw [(hf.eq _ _).1 h1]; exact .inr ⟨h2, ih _ _ h1' h2'⟩

theorem totalCmp_groups : TotalCmp (sliceCmp (groupCmp (V := V))) :=
  totalCmp_slice (totalCmp_pair totalCmp_compare (totalCmp_slice totalCmp_compare))

theorem totalCmp_event : TotalCmp fun a b : Nat × List (ℤ × List V) => (compare a.1 b.1).then (sliceCmp groupCmp a.2 b.2) :=
  totalCmp_pair totalCmp_compare totalCmp_groups

/-- **C122**: two events that were built from particles, added in any order, and have then been given numbers are equal if and only
if the numbers agree and the particles are the same up to their order. The weights do not matter. -/
theorem C122_equal [Zero K] (multi : Bool) (parts parts' : List (ℤ × V)) (i j : Nat) (w w' : List K) :
    Event.equal { (withParticles (EventBuilder.new multi : EventBuilder K V) parts).build with id := i, weights := w }
        { (withParticles (EventBuilder.new multi : EventBuilder K V) parts').build with id := j, weights := w' } = true ↔
      i = j ∧ parts.Perm parts' := by
  unfold Event.equal EventBuilder.build
  rw [withParticles_new, withParticles_new]
  simp only [Bool.and_eq_true, beq_iff_eq]
  refine and_congr_right fun _ => ⟨fun h => ?_, compress_perm⟩
  exact (compress_flat_perm parts).symm.trans (h ▸ compress_flat_perm parts')

/-- **C122**: events are totally ordered. The comparison finds two events equal exactly if `==` does, it gives the reverse for
exchanged events and is transitive. It is always defined. Events with a smaller number are less. -/
theorem C122_order (a b c : Event K V) :
    (a.cmp b = .eq ↔ a.equal b = true) ∧ b.cmp a = (a.cmp b).swap ∧ (a.cmp b = .lt → b.cmp c = .lt → a.cmp c = .lt) ∧
      (a.cmp b = .eq → a.cmp c = b.cmp c) ∧ a.partialCmp b = some (a.cmp b) ∧ (a.id < b.id → a.cmp b = .lt) := by
  have h := totalCmp_event (V := V)
  have he := h.eq (a.id, a.outgoingByPid) (b.id, b.outgoingByPid)
  refine ⟨?_, h.swap (a.id, a.outgoingByPid) (b.id, b.outgoingByPid),
    h.trans (a.id, a.outgoingByPid) (b.id, b.outgoingByPid) (c.id, c.outgoingByPid), ?_, rfl, ?_⟩
  · unfold Event.cmp Event.equal
    rw [Bool.and_eq_true, beq_iff_eq, beq_iff_eq, ← Prod.mk.injEq]
    exact he
  · intro hab
    have := he.1 hab
    rw [Prod.mk.injEq] at this
    unfold Event.cmp
    rw [this.1, this.2]
  · intro hlt
    unfold Event.cmp
    rw [compare_lt_iff_lt.2 hlt]
    rfl

/-- **C122**: comparisons do not depend on weights. They have the same result before and after resampling. -/
theorem C122_weights (a b : Event K V) (w w' : List K) :
    Event.cmp { a with weights := w } { b with weights := w' } = a.cmp b ∧
      Event.equal { a with weights := w } { b with weights := w' } = a.equal b := ⟨rfl, rfl⟩

/-- **C122**: equal events cannot be told apart by their distances to other events; their own distance is zero. -/
theorem C122_distance {km : SquareMatrix ℝ → ℝ} (hkm : SolvesAssignment km) (multi : Bool) (τ : ℝ) (parts parts' : List (ℤ × FourVector))
    (i j : Nat) (w w' : List ℝ) (h : Event.equal { eventOf multi parts with id := i, weights := w }
      { eventOf multi parts' with id := j, weights := w' } = true) :
    euclWithScaledPt km τ { eventOf multi parts with id := i, weights := w } { eventOf multi parts' with id := j, weights := w' } = some 0 ∧
      ∀ c, euclWithScaledPt km τ { eventOf multi parts with id := i, weights := w } c =
        euclWithScaledPt km τ { eventOf multi parts' with id := j, weights := w' } c := by
  have hp := ((C122_equal multi parts parts' i j w w').1 h).2
  have he : eventOf multi parts = eventOf multi parts' := C20_order multi parts parts' hp
  obtain ⟨dist, h1, -, h2, -⟩ := C18_pseudometric hkm multi τ
  refine ⟨?_, fun c => ?_⟩
  · have := h1 parts parts
    rw [h2] at this
    rw [← he, ← this]
    rfl
  · rw [he]; rfl

/-- Non-vacuity: particles in a different order and different weights. -/
example : Event.equal (⟨3, [2], compressOutgoing [(11, 5), (22, 1)]⟩ : Event ℤ ℤ) ⟨3, [-7], compressOutgoing [(22, 1), (11, 5)]⟩ = true := by
  decide

/-- A particle more, and another number. -/
example : Event.cmp (⟨3, [2], compressOutgoing [(11, 5), (22, 1)]⟩ : Event ℤ ℤ) ⟨3, [2], compressOutgoing [(11, 5), (22, 1), (11, 4)]⟩ = .lt ∧
    Event.cmp (⟨3, [2], compressOutgoing [(11, 5), (22, 1)]⟩ : Event ℤ ℤ) ⟨2, [2], compressOutgoing [(11, 5), (22, 1), (11, 4)]⟩ = .gt := by
  decide

end Cres

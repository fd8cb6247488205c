import Verif.Spec.Tree
import Verif.Spec.Neighbours
import Mathlib.Data.List.Perm.Basic
import Mathlib.Data.List.Perm.Subperm
import Mathlib.Data.List.Nodup
import Mathlib.Data.List.Range

/-!
Correctness of the naive neighbour search.
-/

set_option linter.unusedSectionVars false

namespace Cres

open Spec

theorem swapRemove_perm {α : Type*} (l : List α) (i : Nat) (h : i < l.length) :
    l.Perm (l[i] :: swapRemove l i) := by
  have hne : l ≠ [] := by rintro rfl; simp at h
  have hl : l.getLast? = some (l.getLast hne) := List.getLast?_eq_getLast_of_ne_nil hne
  unfold swapRemove
  rw [hl]
  simp only [h, if_true]
  have hdrop : l = l.dropLast ++ [l.getLast hne] := (List.dropLast_append_getLast hne).symm
  generalize l.getLast hne = a at hdrop
  generalize l.dropLast = l' at hdrop
  subst hdrop
  simp only [List.length_append, List.length_singleton] at h
  by_cases hi : i < l'.length
  · rw [List.set_append_left _ _ hi, List.dropLast_concat, List.getElem_append_left hi]
    refine (List.perm_append_singleton a l').trans ?_
    refine List.Perm.trans ?_ ((List.set_perm_cons_eraseIdx hi a).symm.cons _)
    refine List.Perm.trans ?_ (List.Perm.swap _ _ _)
    exact ((List.getElem_cons_eraseIdx_perm hi).symm).cons _
  · obtain rfl : i = l'.length := by omega
    simp

variable {K : Type*} [Zero K] [LinearOrder K] [DistNum K] [ExactComparison K]

theorem NaiveIter.next_cases {minPos : MinOracle K} (hmin : IsMinOracle minPos) (it : NaiveIter K) :
    (it.next minPos = (none, it) ∧ ∀ i ∈ it.candidates, ¬ it.distOf i ≤ it.maxDist) ∨
    ∃ idx cands, it.next minPos = (some (idx, it.distOf idx), ⟨it.dist, cands, it.maxDist⟩) ∧
      it.candidates.Perm (idx :: cands) ∧ it.distOf idx ≤ it.maxDist ∧
      ∀ i ∈ it.candidates, it.distOf idx ≤ it.distOf i := by
  obtain ⟨h1, h2⟩ := hmin it.candidates (it.candidates.map it.distOf)
  unfold NaiveIter.next
  generalize minPos it.candidates (it.candidates.map it.distOf) = r at h1 h2
  rcases r with _ | pos
  · left
    have := h1 rfl
    simp only [List.map_eq_nil_iff] at this
    simp [this]
  · obtain ⟨hpos, hle⟩ := h2 pos rfl
    rw [List.length_map] at hpos
    simp only [List.getElem_map, List.mem_map, forall_exists_index, and_imp, forall_apply_eq_imp_iff₂] at hle
    simp only [List.getElem?_eq_getElem hpos]
    by_cases hd : it.distOf it.candidates[pos] ≤ it.maxDist
    · right
      refine ⟨it.candidates[pos], swapRemove it.candidates pos, ?_, swapRemove_perm _ _ hpos, hd, hle⟩
      simp [ExactComparison.le_eq, hd]
    · left
      refine ⟨by simp [ExactComparison.le_eq, hd], ?_⟩
      intro i hi h
      exact hd ((hle i hi).trans h)

theorem NaiveIter.take_spec {minPos : MinOracle K} (hmin : IsMinOracle minPos) (n : Nat) :
    ∀ it : NaiveIter K, it.candidates.Nodup → it.candidates.length < n →
      ((it.take minPos n).map Prod.fst).Nodup ∧
      (∀ p, p ∈ (it.take minPos n).map Prod.fst ↔ p ∈ it.candidates ∧ it.distOf p ≤ it.maxDist) ∧
      (∀ x ∈ it.take minPos n, x.2 = it.distOf x.1) ∧
      (it.take minPos n).Pairwise (fun a b => a.2 ≤ b.2) := by
  induction n with
  | zero => intro it _ h; omega
  | succ n ih =>
    intro it hnd hlen
    unfold NaiveIter.take
    rcases NaiveIter.next_cases hmin it with ⟨h, hno⟩ | ⟨idx, cands, h, hperm, hd, hle⟩
    · rw [h]
      simp only [List.map_nil, List.nodup_nil, List.not_mem_nil, false_iff, not_and, false_implies, implies_true,
        List.Pairwise.nil, and_true, true_and]
      exact hno
    · rw [h]
      have hnd' := hperm.nodup_iff.1 hnd
      rw [List.nodup_cons] at hnd'
      have hl := hperm.length_eq
      simp only [List.length_cons] at hl
      obtain ⟨ih1, ih2, ih3, ih4⟩ := ih ⟨it.dist, cands, it.maxDist⟩ hnd'.2 (by simp only; omega)
      have hdist : ∀ i, (⟨it.dist, cands, it.maxDist⟩ : NaiveIter K).distOf i = it.distOf i := fun _ => rfl
      simp only [hdist] at ih2 ih3
      simp only [List.map_cons]
      refine ⟨?_, ?_, ?_, ?_⟩
      · rw [List.nodup_cons]
        exact ⟨fun hm => hnd'.1 ((ih2 idx).1 hm).1, ih1⟩
      · intro p
        rw [List.mem_cons, ih2 p, hperm.mem_iff, List.mem_cons]
        constructor
        · rintro (rfl | ⟨h1, h2⟩)
          · exact ⟨Or.inl rfl, hd⟩
          · exact ⟨Or.inr h1, h2⟩
        · rintro ⟨rfl | h1, h2⟩
          · exact Or.inl rfl
          · exact Or.inr ⟨h1, h2⟩
      · intro x hx
        rcases List.mem_cons.1 hx with rfl | hx
        · rfl
        · exact ih3 x hx
      · rw [List.pairwise_cons]
        refine ⟨?_, ih4⟩
        intro y hy
        rw [ih3 y hy]
        have := (ih2 y.1).1 (List.mem_map.2 ⟨y, hy, rfl⟩)
        exact hle y.1 (hperm.mem_iff.2 (List.mem_cons_of_mem _ this.1))

theorem naiveNearest_spec {minPos : MinOracle K} (hmin : IsMinOracle minPos) (n : Nat) (dist : Nat → Nat → K)
    (maxDist : K) (q : Nat) (hq : q < n) :
    IsNeighbourList (fun x y => dist y x) (List.range n) q maxDist (naiveNearest minPos n dist maxDist q) := by
  unfold naiveNearest
  simp only [List.map_map]
  set it := NaiveIter.new (K := K) ((List.range n).map ((fun x => (x.1, dist x.1 q)) ∘ fun id => (id, (0 : K)))) q maxDist
    with hit
  have hperm : (List.range n).Perm (q :: it.candidates) := by
    have := swapRemove_perm (List.range n) q (by simpa using hq)
    simpa [hit, NaiveIter.new] using this
  have hdist : ∀ i, i < n → it.distOf i = dist i q := by
    intro i hi
    simp [hit, NaiveIter.new, NaiveIter.distOf, hi]
  have hmax : it.maxDist = maxDist := rfl
  have hnd := hperm.nodup_iff.1 List.nodup_range
  rw [List.nodup_cons] at hnd
  have hl := hperm.length_eq
  simp only [List.length_range, List.length_cons] at hl
  obtain ⟨h1, h2, h3, h4⟩ := NaiveIter.take_spec hmin (n + 1) it hnd.2 (by omega)
  have hmem : ∀ p, p ∈ it.candidates ↔ p < n ∧ p ≠ q := by
    intro p
    have := hperm.mem_iff (a := p)
    rw [List.mem_range, List.mem_cons] at this
    constructor
    · intro hp
      exact ⟨this.2 (Or.inr hp), by rintro rfl; exact hnd.1 hp⟩
    · rintro ⟨hp, hne⟩
      rcases this.1 hp with h | h
      · exact absurd h hne
      · exact h
  refine ⟨h1, ?_, ?_, h4⟩
  · intro p
    rw [h2 p, hmem p, List.mem_range, hmax]
    constructor
    · rintro ⟨⟨ha, hb⟩, hc⟩
      exact ⟨ha, hb, by rw [← hdist p ha]; exact hc⟩
    · rintro ⟨ha, hb, hc⟩
      exact ⟨⟨ha, hb⟩, by rw [hdist p ha]; exact hc⟩
  · intro x hx
    rw [h3 x hx]
    have := (h2 x.1).1 (List.mem_map.2 ⟨x, hx, rfl⟩)
    exact hdist x.1 ((hmem x.1).1 this.1).1

end Cres

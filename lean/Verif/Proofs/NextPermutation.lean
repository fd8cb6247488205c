import Verif.Model.Distance
import Mathlib.Data.List.Lex
import Mathlib.Data.List.Permutation
import Mathlib.Order.Bounds.Basic

/-!
`nextPermutation` enumerates the permutations in lexicographic order.
-/

namespace Cres

set_option linter.unusedSectionVars false

variable {V K : Type*} [LinearOrder V] [AddCommGroup K] [LinearOrder K]

theorem swapPivot_none {a : V} : ∀ {t : List V}, swapPivot a t = none → ∀ b ∈ t, b ≤ a
  | [], _, b, hb => by simp at hb
  | c :: t, h, b, hb => by
    unfold swapPivot at h
    cases hs : swapPivot a t with
    | some x => simp [hs] at h
    | none =>
      simp only [hs] at h
      split at h
      · simp at h
      · rename_i hac
        rcases List.mem_cons.1 hb with rfl | hb
        · exact not_lt.1 hac
        · exact swapPivot_none hs b hb

theorem swapPivot_some {a : V} : ∀ {t : List V} {c : V} {t' : List V}, swapPivot a t = some (c, t') →
    ∃ pre post, t = pre ++ c :: post ∧ t' = pre ++ a :: post ∧ a < c ∧ ∀ b ∈ post, b ≤ a
  | [], c, t', h => by simp [swapPivot] at h
  | b :: t, c, t', h => by
    unfold swapPivot at h
    cases hs : swapPivot a t with
    | some x =>
      obtain ⟨c', t''⟩ := x
      simp only [hs, Option.some.injEq, Prod.mk.injEq] at h
      obtain ⟨rfl, rfl⟩ := h
      obtain ⟨pre, post, h1, h2, h3, h4⟩ := swapPivot_some hs
      exact ⟨b :: pre, post, by simp [h1], by simp [h2], h3, h4⟩
    | none =>
      simp only [hs] at h
      split at h
      · rename_i hac
        simp only [Option.some.injEq, Prod.mk.injEq] at h
        obtain ⟨rfl, rfl⟩ := h
        exact ⟨[], t, rfl, rfl, hac, swapPivot_none hs⟩
      · simp at h

theorem nextPermutation_none : ∀ {l : List V}, nextPermutation l = none → l.Pairwise (fun a b => b ≤ a)
  | [], _ => List.Pairwise.nil
  | a :: t, h => by
    unfold nextPermutation at h
    cases hs : nextPermutation t with
    | some x => simp [hs] at h
    | none =>
      simp only [hs, Option.map_eq_none_iff] at h
      exact List.pairwise_cons.2 ⟨swapPivot_none h, nextPermutation_none hs⟩

theorem perm_le_of_decreasing : ∀ {l m : List V}, l.Pairwise (fun a b => b ≤ a) → m.Perm l → m ≤ l
  | [], m, _, h => by rw [List.Perm.eq_nil h]
  | a :: t, [], _, h => by simpa using h.length_eq
  | a :: t, c :: u, hl, h => by
    rw [List.pairwise_cons] at hl
    have hc : c ∈ a :: t := h.subset List.mem_cons_self
    rcases List.mem_cons.1 hc with rfl | hc
    · exact List.cons_le_cons _ (perm_le_of_decreasing hl.2 (List.perm_cons _ |>.1 h))
    · rcases lt_or_eq_of_le (hl.1 c hc) with hlt | rfl
      · exact le_of_lt (List.cons_lt_cons_iff.2 (Or.inl hlt))
      · exact List.cons_le_cons _ (perm_le_of_decreasing hl.2 (List.perm_cons _ |>.1 h))

theorem le_perm_of_increasing : ∀ {l m : List V}, l.Pairwise (fun a b => a ≤ b) → m.Perm l → l ≤ m
  | [], m, _, h => by rw [List.Perm.eq_nil h]
  | a :: t, [], _, h => by simpa using h.length_eq
  | a :: t, c :: u, hl, h => by
    rw [List.pairwise_cons] at hl
    have hc : c ∈ a :: t := h.subset List.mem_cons_self
    rcases List.mem_cons.1 hc with rfl | hc
    · exact List.cons_le_cons _ (le_perm_of_increasing hl.2 (List.perm_cons _ |>.1 h))
    · rcases lt_or_eq_of_le (hl.1 c hc) with hlt | rfl
      · exact le_of_lt (List.cons_lt_cons_iff.2 (Or.inl hlt))
      · exact List.cons_le_cons _ (le_perm_of_increasing hl.2 (List.perm_cons _ |>.1 h))

theorem pivotSwap_perm (a c : V) (pre post : List V) : (c :: (pre ++ a :: post)).Perm (a :: (pre ++ c :: post)) := by
  have h1 : (pre ++ a :: post).Perm (a :: (pre ++ post)) := List.perm_middle
  have h2 : (pre ++ c :: post).Perm (c :: (pre ++ post)) := List.perm_middle
  exact (h1.cons c).trans ((List.Perm.swap a c _).trans (h2.symm.cons a))

theorem nextPermutation_perm : ∀ {l l' : List V}, nextPermutation l = some l' → l'.Perm l
  | [], l', h => by simp [nextPermutation] at h
  | a :: t, l', h => by
    unfold nextPermutation at h
    cases hs : nextPermutation t with
    | some x =>
      simp only [hs, Option.some.injEq] at h
      subst h
      exact (nextPermutation_perm hs).cons a
    | none =>
      simp only [hs, Option.map_eq_some_iff] at h
      obtain ⟨⟨c, t'⟩, h1, rfl⟩ := h
      obtain ⟨pre, post, rfl, rfl, _, _⟩ := swapPivot_some h1
      exact ((List.reverse_perm _).cons c).trans (pivotSwap_perm a c pre post)

theorem nextPermutation_lt : ∀ {l l' : List V}, nextPermutation l = some l' → l < l'
  | [], l', h => by simp [nextPermutation] at h
  | a :: t, l', h => by
    unfold nextPermutation at h
    cases hs : nextPermutation t with
    | some x =>
      simp only [hs, Option.some.injEq] at h
      subst h
      exact List.cons_lt_cons_iff.2 (Or.inr ⟨rfl, nextPermutation_lt hs⟩)
    | none =>
      simp only [hs, Option.map_eq_some_iff] at h
      obtain ⟨⟨c, t'⟩, h1, rfl⟩ := h
      obtain ⟨pre, post, rfl, rfl, hac, _⟩ := swapPivot_some h1
      exact List.cons_lt_cons_iff.2 (Or.inl hac)

/-- There is no permutation between a list and the next one. -/
theorem nextPermutation_le : ∀ {l l' m : List V}, nextPermutation l = some l' → m.Perm l → l < m → l' ≤ m
  | [], l', m, h, _, _ => by simp [nextPermutation] at h
  | a :: t, l', [], h, hp, _ => by simpa using hp.length_eq
  | a :: t, l', c :: u, h, hp, hlt => by
    unfold nextPermutation at h
    cases hs : nextPermutation t with
    | some x =>
      simp only [hs, Option.some.injEq] at h
      subst h
      rcases List.cons_lt_cons_iff.1 hlt with hac | ⟨rfl, htu⟩
      · exact le_of_lt (List.cons_lt_cons_iff.2 (Or.inl hac))
      · exact List.cons_le_cons _ (nextPermutation_le hs (List.perm_cons _ |>.1 hp) htu)
    | none =>
      simp only [hs, Option.map_eq_some_iff] at h
      obtain ⟨⟨b, t'⟩, h1, rfl⟩ := h
      have hdec := nextPermutation_none hs
      obtain ⟨pre, post, rfl, rfl, hab, hpost⟩ := swapPivot_some h1
      have hac : a < c := by
        rcases List.cons_lt_cons_iff.1 hlt with hac | ⟨rfl, htu⟩
        · exact hac
        · exact absurd htu (not_lt.2 (perm_le_of_decreasing hdec (List.perm_cons _ |>.1 hp)))
      have hc : c ∈ a :: (pre ++ b :: post) := hp.subset List.mem_cons_self
      rw [List.pairwise_append, List.pairwise_cons] at hdec
      obtain ⟨hpre, ⟨hbpost, hpost'⟩, hpp⟩ := hdec
      have hbc : b ≤ c := by
        rcases List.mem_cons.1 hc with rfl | hc
        · exact absurd hac (lt_irrefl _)
        · rcases List.mem_append.1 hc with hc | hc
          · exact hpp c hc b List.mem_cons_self
          · rcases List.mem_cons.1 hc with rfl | hc
            · exact le_rfl
            · exact absurd hac (not_lt.2 (hpost c hc))
      rcases lt_or_eq_of_le hbc with hlt | rfl
      · exact le_of_lt (List.cons_lt_cons_iff.2 (Or.inl hlt))
      · refine List.cons_le_cons _ (le_perm_of_increasing ?_ ?_)
        · rw [List.pairwise_reverse, List.pairwise_append, List.pairwise_cons]
          refine ⟨hpre, ⟨hpost, hpost'⟩, ?_⟩
          intro x hx y hy
          rcases List.mem_cons.1 hy with rfl | hy
          · exact le_trans (le_of_lt hab) (hpp x hx b List.mem_cons_self)
          · exact hpp x hx y (List.mem_cons_of_mem _ hy)
        · refine List.Perm.trans ?_ (List.reverse_perm _).symm
          exact List.perm_cons _ |>.1 (hp.trans (pivotSwap_perm a b pre post).symm)

/-- The permutations after `l`, in lexicographic order. -/
noncomputable def laterPerms (l : List V) : Finset (List V) := by
  classical exact (l.permutations.toFinset).filter (fun m => l < m)

theorem mem_laterPerms {l m : List V} : m ∈ laterPerms l ↔ m.Perm l ∧ l < m := by
  classical
  simp [laterPerms, List.mem_permutations]

theorem laterPerms_card_next {l l' : List V} (h : nextPermutation l = some l') :
    (laterPerms l').card < (laterPerms l).card := by
  classical
  apply Finset.card_lt_card
  rw [Finset.ssubset_iff_of_subset]
  · exact ⟨l', mem_laterPerms.2 ⟨nextPermutation_perm h, nextPermutation_lt h⟩,
      fun hc => absurd (mem_laterPerms.1 hc).2 (lt_irrefl _)⟩
  · intro m hm
    rw [mem_laterPerms] at hm ⊢
    exact ⟨hm.1.trans (nextPermutation_perm h), lt_trans (nextPermutation_lt h) hm.2⟩

theorem laterPerms_card_lt (l : List V) : (laterPerms l).card < l.length.factorial := by
  classical
  have h1 : (laterPerms l).card < l.permutations.toFinset.card := by
    apply Finset.card_lt_card
    rw [Finset.ssubset_iff_of_subset]
    · refine ⟨l, by simp [List.mem_permutations], fun hc => absurd (mem_laterPerms.1 hc).2 (lt_irrefl _)⟩
    · intro m hm
      simpa [List.mem_permutations] using (mem_laterPerms.1 hm).1
  exact lt_of_lt_of_le h1 (le_trans (List.toFinset_card_le _) (le_of_eq (List.length_permutations _)))

theorem naiveLoop_isLeast (d : V → V → K) (p2 : List V) : ∀ (fuel : Nat) (p1 : List V) (c : K),
    (laterPerms p1).card < fuel →
    IsLeast (insert c {x | ∃ m : List V, m.Perm p1 ∧ p1 < m ∧ pairedDistance d m p2 = x}) (naiveLoop d p2 fuel p1 c)
  | 0, _, _, h => by simp at h
  | fuel + 1, p1, c, h => by
    unfold naiveLoop
    cases hn : nextPermutation p1 with
    | none =>
      refine ⟨Or.inl rfl, ?_⟩
      rintro x (rfl | ⟨m, hm, hlt, rfl⟩)
      · exact le_rfl
      · exact absurd hlt (not_lt.2 (perm_le_of_decreasing (nextPermutation_none hn) hm))
    | some p1' =>
      have hp := nextPermutation_perm hn
      have ih := naiveLoop_isLeast d p2 fuel p1' (min c (pairedDistance d p1' p2))
        (by have := laterPerms_card_next hn; omega)
      simp only
      refine ⟨?_, ?_⟩
      · rcases ih.1 with h1 | ⟨m, hm, hlt, h1⟩
        · rcases min_choice c (pairedDistance d p1' p2) with h2 | h2
          · left; rw [h1, h2]
          · right; exact ⟨p1', hp, nextPermutation_lt hn, by rw [h1, h2]⟩
        · right; exact ⟨m, hm.trans hp, lt_trans (nextPermutation_lt hn) hlt, h1⟩
      · rintro x (rfl | ⟨m, hm, hlt, rfl⟩)
        · exact le_trans (ih.2 (Or.inl rfl)) (min_le_left _ _)
        · rcases lt_or_eq_of_le (nextPermutation_le hn hm hlt) with h1 | rfl
          · exact ih.2 (Or.inr ⟨m, hm.trans hp.symm, h1, rfl⟩)
          · exact le_trans (ih.2 (Or.inl rfl)) (min_le_right _ _)

/-- Starting from a sorted list, all permutations are considered. -/
theorem minPairedDistanceNaive_isLeast (d : V → V → K) {p1 : List V} (p2 : List V)
    (hs : p1.Pairwise (fun a b => a ≤ b)) :
    IsLeast {x | ∃ m : List V, m.Perm p1 ∧ pairedDistance d m p2 = x} (minPairedDistanceNaive d p1 p2) := by
  have h := naiveLoop_isLeast d p2 p1.length.factorial p1 (pairedDistance d p1 p2) (laterPerms_card_lt p1)
  refine ⟨?_, ?_⟩
  · rcases h.1 with h1 | ⟨m, hm, _, h1⟩
    · exact ⟨p1, List.Perm.refl _, h1.symm⟩
    · exact ⟨m, hm, h1⟩
  · rintro x ⟨m, hm, rfl⟩
    rcases lt_or_eq_of_le (le_perm_of_increasing hs hm) with h1 | rfl
    · exact h.2 (Or.inr ⟨m, hm, h1, rfl⟩)
    · exact h.2 (Or.inl rfl)

end Cres

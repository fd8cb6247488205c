import Verif.Model.Event
import Verif.Spec.Distance

/-!
Grouping of outgoing particles and access by particle type.
-/

namespace Cres

open Spec

set_option linter.unusedSectionVars false

variable {V K : Type*}

/-- All particles in groups, in order. -/
def flatGroups (g : List (ℤ × List V)) : List (ℤ × V) := g.flatMap (fun x => x.2.map (fun p => (x.1, p)))

theorem flatGroups_append (g h : List (ℤ × List V)) : flatGroups (g ++ h) = flatGroups g ++ flatGroups h := by
  simp [flatGroups]

/-- The state of the loop in `compressOutgoing`. -/
structure GroupInv (g : List (ℤ × List V)) (done : List (ℤ × V)) : Prop where
  flat : flatGroups g = done
  ne_nil : ∀ x ∈ g, x.2 ≠ []
  chain : (g.map Prod.fst).IsChain (· ≠ ·)

theorem groupInv_step {g : List (ℤ × List V)} {done : List (ℤ × V)} (h : GroupInv g done) (x : ℤ × V) :
    GroupInv (compressStep g x) (done ++ [x]) := by
  unfold compressStep
  cases hl : g.getLast? with
  | none =>
    rw [List.getLast?_eq_none_iff] at hl
    subst hl
    have : done = [] := by rw [← h.flat]; rfl
    subst this
    exact ⟨rfl, by simp, by simp⟩
  | some y =>
    obtain ⟨pid, v⟩ := y
    obtain ⟨g', rfl⟩ : ∃ g', g = g' ++ [(pid, v)] := by
      rw [List.getLast?_eq_some_iff] at hl
      exact hl
    have hf := h.flat
    simp only [List.dropLast_concat]
    split
    · rename_i hpid
      refine ⟨?_, ?_, ?_⟩
      · rw [← hf, flatGroups_append, flatGroups_append, List.append_assoc]
        congr 1
        simp [flatGroups, hpid]
      · intro y hy
        rcases List.mem_append.1 hy with hy | hy
        · exact h.ne_nil y (List.mem_append_left _ hy)
        · simp only [List.mem_singleton] at hy
          subst hy
          simp
      · have := h.chain
        simpa using this
    · rename_i hpid
      refine ⟨?_, ?_, ?_⟩
      · rw [← hf, flatGroups_append]
        congr 1
      · intro y hy
        rcases List.mem_append.1 hy with hy | hy
        · exact h.ne_nil y hy
        · simp only [List.mem_singleton] at hy
          subst hy
          simp
      · rw [List.map_append, List.isChain_append]
        refine ⟨h.chain, by simp, ?_⟩
        intro a ha b hb
        simp at ha hb
        rw [← ha, ← hb]
        exact hpid

theorem groupInv_foldl : ∀ (l : List (ℤ × V)) {g : List (ℤ × List V)} {done : List (ℤ × V)}, GroupInv g done →
    GroupInv (l.foldl compressStep g) (done ++ l)
  | [], g, done, h => by simpa using h
  | x :: l, g, done, h => by
    have := groupInv_foldl l (groupInv_step h x)
    simpa using this

theorem pairwise_keys_of_flat {g : List (ℤ × List V)} (hn : ∀ x ∈ g, x.2 ≠ [])
    (hf : (flatGroups g).Pairwise (fun a b => b.1 ≤ a.1)) : (g.map Prod.fst).Pairwise (fun a b => b ≤ a) := by
  induction g with
  | nil => simp
  | cons y g ih =>
    have hf' : flatGroups (y :: g) = y.2.map (fun p => (y.1, p)) ++ flatGroups g := rfl
    rw [hf', List.pairwise_append] at hf
    rw [List.map_cons, List.pairwise_cons]
    refine ⟨?_, ih (fun x hx => hn x (List.mem_cons_of_mem _ hx)) hf.2.1⟩
    intro t ht
    obtain ⟨z, hz, rfl⟩ := List.mem_map.1 ht
    obtain ⟨p, hp⟩ := List.exists_mem_of_ne_nil _ (hn y List.mem_cons_self)
    obtain ⟨q, hq⟩ := List.exists_mem_of_ne_nil _ (hn z (List.mem_cons_of_mem _ hz))
    refine hf.2.2 (y.1, p) (List.mem_map.2 ⟨p, hp, rfl⟩) (z.1, q) ?_
    exact List.mem_flatMap.2 ⟨z, hz, List.mem_map.2 ⟨q, hq, rfl⟩⟩

theorem pairwise_gt_of_chain_ne {l : List ℤ} (hc : l.IsChain (· ≠ ·)) (hp : l.Pairwise (fun a b => b ≤ a)) :
    l.Pairwise (fun a b => b < a) := by
  rw [← List.isChain_iff_pairwise]
  have h2 : l.IsChain (fun a b => b ≤ a) := hp.isChain
  induction l with
  | nil => simp
  | cons a l ih =>
    cases l with
    | nil => simp
    | cons b l =>
      rw [List.isChain_cons_cons] at hc h2 ⊢
      exact ⟨lt_of_le_of_ne h2.1 (Ne.symm hc.1), ih hc.2 (List.pairwise_cons.1 hp).2 h2.2⟩

/-- The momenta of a particle type in groups. -/
def groupLookup (g : List (ℤ × List V)) (t : ℤ) : List V :=
  match g with
  | [] => []
  | x :: g => if x.1 = t then x.2 else groupLookup g t

theorem momenta_append (a b : List (ℤ × V)) (t : ℤ) : momenta (a ++ b) t = momenta a t ++ momenta b t := by
  simp [momenta]

theorem momenta_map_const (v : List V) (s t : ℤ) :
    momenta (v.map (fun p => (s, p))) t = if s = t then v else [] := by
  unfold momenta
  rw [List.filter_map, List.map_map]
  split
  · rename_i h
    subst h
    have : ((fun x : ℤ × V => decide (x.1 = s)) ∘ fun p => (s, p)) = fun _ => true := by funext; simp
    rw [this]
    simp [Function.comp_def]
  · rename_i h
    have : ((fun x : ℤ × V => decide (x.1 = t)) ∘ fun p => (s, p)) = fun _ => false := by funext; simp [h]
    rw [this]
    simp

theorem momenta_flat_of_not_mem {g : List (ℤ × List V)} {t : ℤ} (h : ∀ x ∈ g, x.1 ≠ t) : momenta (flatGroups g) t = [] := by
  induction g with
  | nil => rfl
  | cons y g ih =>
    have hf' : flatGroups (y :: g) = y.2.map (fun p => (y.1, p)) ++ flatGroups g := rfl
    rw [hf', momenta_append, momenta_map_const, if_neg (h y List.mem_cons_self),
      ih (fun x hx => h x (List.mem_cons_of_mem _ hx))]
    rfl

theorem momenta_flat {g : List (ℤ × List V)} (hp : (g.map Prod.fst).Pairwise (fun a b => b < a)) (t : ℤ) :
    momenta (flatGroups g) t = groupLookup g t := by
  induction g with
  | nil => rfl
  | cons y g ih =>
    have hf' : flatGroups (y :: g) = y.2.map (fun p => (y.1, p)) ++ flatGroups g := rfl
    rw [List.map_cons, List.pairwise_cons] at hp
    rw [hf', momenta_append, momenta_map_const]
    unfold groupLookup
    split
    · rename_i h
      rw [momenta_flat_of_not_mem, List.append_nil]
      intro x hx
      have := hp.1 x.1 (List.mem_map_of_mem hx)
      omega
    · rw [ih hp.2]; rfl

theorem groupLookup_mem {g : List (ℤ × List V)} (hp : (g.map Prod.fst).Pairwise (fun a b => b < a)) {t : ℤ} {v : List V}
    (h : (t, v) ∈ g) : groupLookup g t = v := by
  induction g with
  | nil => simp at h
  | cons y g ih =>
    rw [List.map_cons, List.pairwise_cons] at hp
    unfold groupLookup
    rcases List.mem_cons.1 h with rfl | h
    · simp
    · have := hp.1 t (List.mem_map.2 ⟨_, h, rfl⟩)
      rw [if_neg (by omega)]
      exact ih hp.2 h

theorem groupLookup_not_mem {g : List (ℤ × List V)} {t : ℤ} (h : ∀ x ∈ g, x.1 ≠ t) : groupLookup g t = [] := by
  induction g with
  | nil => rfl
  | cons y g ih =>
    unfold groupLookup
    rw [if_neg (h y List.mem_cons_self)]
    exact ih (fun x hx => h x (List.mem_cons_of_mem _ hx))

/-! ### binary search -/

theorem binarySearchLoop_spec {α : Type*} (f : α → Ordering) (l : List α)
    (hmono : ∀ (i j : Nat) (x y : α), i < j → l[i]? = some x → l[j]? = some y → (f x).isLE = false → f y = .gt)
    (hmono' : ∀ (i j : Nat) (x y : α), i < j → l[i]? = some x → l[j]? = some y → f y = .lt → f x = .lt)
    (hmono'' : ∀ (i j : Nat) (x y : α), i < j → l[i]? = some x → l[j]? = some y → f y = .eq → f x = .lt) :
    ∀ (fuel left right : Nat), right - left < fuel → right ≤ l.length →
      (∀ (i : Nat) (x : α), i < left → l[i]? = some x → f x = .lt) →
      (∀ (i : Nat) (x : α), right ≤ i → l[i]? = some x → f x = .gt) →
      match binarySearchLoop f l fuel left right with
      | some idx => ∃ x, l[idx]? = some x ∧ f x = .eq
      | none => ∀ x ∈ l, f x ≠ .eq
  | 0, _, _, h, _, _, _ => by omega
  | fuel + 1, left, right, hfuel, hr, hlo, hhi => by
    unfold binarySearchLoop
    by_cases hlt : left < right
    · simp only [hlt, if_true]
      have hmid : left + (right - left) / 2 < right := by omega
      have hmid' : left ≤ left + (right - left) / 2 := by omega
      generalize left + (right - left) / 2 = mid at hmid hmid'
      obtain ⟨x, hx⟩ : ∃ x, l[mid]? = some x := ⟨l[mid]'(by omega), List.getElem?_eq_getElem _⟩
      simp only [hx]
      cases hf : f x with
      | lt =>
        simp only
        apply binarySearchLoop_spec f l hmono hmono' hmono'' fuel (mid + 1) right (by omega) hr _ hhi
        intro i y hi hy
        rcases Nat.lt_succ_iff_lt_or_eq.1 hi with hi | rfl
        · exact hmono' i mid y x hi hy hx hf
        · rw [hx] at hy; cases hy; exact hf
      | gt =>
        simp only
        apply binarySearchLoop_spec f l hmono hmono' hmono'' fuel left mid (by omega) (by omega) hlo
        intro i y hi hy
        rcases Nat.lt_or_eq_of_le hi with hi | rfl
        · exact hmono mid i x y hi hx hy (by rw [hf]; rfl)
        · rw [hx] at hy; cases hy; exact hf
      | eq => simp only; exact ⟨x, hx, hf⟩
    · simp only [hlt, if_false]
      intro x hx
      obtain ⟨i, hi, rfl⟩ := List.getElem_of_mem hx
      by_cases hil : i < left
      · rw [hlo i _ hil (List.getElem?_eq_getElem hi)]; simp
      · rw [hhi i _ (by omega) (List.getElem?_eq_getElem hi)]; simp

/-- The binary search for a particle id in groups with descending ids. -/
theorem binarySearchBy_keys (g : List (ℤ × List V)) (hp : (g.map Prod.fst).Pairwise (fun a b => b < a)) (t : ℤ) :
    match binarySearchBy (fun probe : ℤ × List V => compare t probe.1) g with
    | some idx => ∃ x, g[idx]? = some x ∧ x.1 = t
    | none => ∀ x ∈ g, x.1 ≠ t := by
  have hlt : ∀ (i j : Nat) (x y : ℤ × List V), i < j → g[i]? = some x → g[j]? = some y → y.1 < x.1 := by
    intro i j x y hij hx hy
    rw [List.pairwise_iff_getElem] at hp
    obtain ⟨hi, hx⟩ := List.getElem?_eq_some_iff.1 hx
    obtain ⟨hj, hy⟩ := List.getElem?_eq_some_iff.1 hy
    have := hp i j (by simpa using hi) (by simpa using hj) hij
    simpa [hx, hy] using this
  have hs := binarySearchLoop_spec (fun probe : ℤ × List V => compare t probe.1) g
    (by
      intro i j x y hij hx hy hle
      have := hlt i j x y hij hx hy
      have h1 : ¬ (t ≤ x.1) := by
        intro hc
        rw [Std.isLE_compare.2 hc] at hle
        cases hle
      exact compare_gt_iff_gt.2 (by omega))
    (by
      intro i j x y hij hx hy h
      have := hlt i j x y hij hx hy
      have h1 := compare_lt_iff_lt.1 h
      exact compare_lt_iff_lt.2 (by omega))
    (by
      intro i j x y hij hx hy h
      have := hlt i j x y hij hx hy
      have h1 := compare_eq_iff_eq.1 h
      exact compare_lt_iff_lt.2 (by omega))
    (g.length + 1) 0 g.length (by omega) le_rfl (by intro i x hi; omega)
    (by
      intro i x hi hx
      rw [List.getElem?_eq_none hi] at hx
      cases hx)
  unfold binarySearchBy
  revert hs
  cases hb : binarySearchLoop (fun probe : ℤ × List V => compare t probe.1) g (g.length + 1) 0 g.length with
  | none =>
    intro hs x hx hc
    exact hs x hx (compare_eq_iff_eq.2 hc.symm)
  | some idx =>
    rintro ⟨x, hx, hf⟩
    exact ⟨x, hx, (compare_eq_iff_eq.1 hf).symm⟩

theorem outgoingWithPid_eq (e : Event K V) (hp : (e.outgoingByPid.map Prod.fst).Pairwise (fun a b => b < a)) (t : ℤ) :
    e.outgoingWithPid t = groupLookup e.outgoingByPid t := by
  have hs := binarySearchBy_keys e.outgoingByPid hp t
  unfold Event.outgoingWithPid
  revert hs
  cases hb : binarySearchBy (fun probe : ℤ × List V => compare t probe.1) e.outgoingByPid with
  | none =>
    intro hs
    simp only at hs ⊢
    exact (groupLookup_not_mem hs).symm
  | some idx =>
    intro hs
    simp only at hs ⊢
    obtain ⟨x, hx, h1⟩ := hs
    rw [hx]
    simp only [Option.map_some, Option.getD_some]
    symm
    apply groupLookup_mem hp
    rw [← h1]
    exact List.mem_of_getElem? hx

/-! ### sorting -/

variable [LinearOrder V]

theorem tupleLE_total (a b : ℤ × V) : tupleLE a b ∨ tupleLE b a := by
  unfold tupleLE
  rcases lt_trichotomy a.1 b.1 with h | h | h
  · exact Or.inl (Or.inl h)
  · rcases le_total a.2 b.2 with h2 | h2
    · exact Or.inl (Or.inr ⟨h, h2⟩)
    · exact Or.inr (Or.inr ⟨h.symm, h2⟩)
  · exact Or.inr (Or.inl h)

theorem tupleLE_trans {a b c : ℤ × V} (h1 : tupleLE a b) (h2 : tupleLE b c) : tupleLE a c := by
  unfold tupleLE at *
  rcases h1 with h1 | ⟨h1, h1'⟩ <;> rcases h2 with h2 | ⟨h2, h2'⟩
  · exact Or.inl (by omega)
  · exact Or.inl (by omega)
  · exact Or.inl (by omega)
  · exact Or.inr ⟨by omega, le_trans h1' h2'⟩

theorem tupleLE_antisymm {a b : ℤ × V} (h1 : tupleLE a b) (h2 : tupleLE b a) : a = b := by
  unfold tupleLE at *
  rcases h1 with h1 | ⟨h1, h1'⟩ <;> rcases h2 with h2 | ⟨h2, h2'⟩
  · omega
  · omega
  · omega
  · exact Prod.ext h1 (le_antisymm h1' h2')

instance : Std.Total (fun a b : ℤ × V => tupleLE b a) := ⟨fun a b => tupleLE_total b a⟩
instance : IsTrans (ℤ × V) (fun a b : ℤ × V => tupleLE b a) := ⟨fun _ _ _ h1 h2 => tupleLE_trans h2 h1⟩
instance : Std.Antisymm (fun a b : ℤ × V => tupleLE b a) := ⟨fun _ _ h1 h2 => tupleLE_antisymm h2 h1⟩

theorem sorted_particles (parts : List (ℤ × V)) :
    (parts.insertionSort (fun a b => tupleLE b a)).Pairwise (fun a b => tupleLE b a) :=
  List.pairwise_insertionSort _ _

theorem groupInv_compress (parts : List (ℤ × V)) :
    GroupInv (compressOutgoing parts) (parts.insertionSort (fun a b => tupleLE b a)) := by
  have := groupInv_foldl (parts.insertionSort (fun a b => tupleLE b a)) (g := []) (done := [])
    ⟨rfl, by simp, by simp⟩
  simpa [compressOutgoing] using this

theorem compress_keys (parts : List (ℤ × V)) :
    ((compressOutgoing parts).map Prod.fst).Pairwise (fun a b => b < a) := by
  have h := groupInv_compress parts
  apply pairwise_gt_of_chain_ne h.chain
  apply pairwise_keys_of_flat h.ne_nil
  rw [h.flat]
  apply (sorted_particles parts).imp
  intro a b hab
  rcases hab with hab | hab
  · exact le_of_lt hab
  · exact le_of_eq hab.1

theorem momenta_perm {a b : List (ℤ × V)} (h : a.Perm b) (t : ℤ) : (momenta a t).Perm (momenta b t) :=
  (h.filter _).map _

theorem compress_lookup (parts : List (ℤ × V)) (t : ℤ) :
    (groupLookup (compressOutgoing parts) t).Perm (momenta parts t) := by
  rw [← momenta_flat (compress_keys parts), (groupInv_compress parts).flat]
  exact momenta_perm (List.perm_insertionSort _ _) t

theorem compress_types (parts : List (ℤ × V)) (t : ℤ) :
    t ∈ types parts ↔ t ∈ (compressOutgoing parts).map Prod.fst := by
  have h := groupInv_compress parts
  have h1 : t ∈ types parts ↔ ∃ p, (t, p) ∈ parts.insertionSort (fun a b => tupleLE b a) := by
    simp only [types, List.mem_toFinset, List.mem_map, (List.perm_insertionSort _ _).mem_iff]
    constructor
    · rintro ⟨⟨s, p⟩, h, rfl⟩; exact ⟨p, h⟩
    · rintro ⟨p, h⟩; exact ⟨_, h, rfl⟩
  rw [h1, ← h.flat]
  constructor
  · rintro ⟨p, hp⟩
    obtain ⟨x, hx, hp⟩ := List.mem_flatMap.1 hp
    obtain ⟨q, _, hq⟩ := List.mem_map.1 hp
    simp only [Prod.mk.injEq] at hq
    exact List.mem_map.2 ⟨x, hx, hq.1⟩
  · intro ht
    obtain ⟨x, hx, rfl⟩ := List.mem_map.1 ht
    obtain ⟨p, hp⟩ := List.exists_mem_of_ne_nil _ (h.ne_nil x hx)
    exact ⟨p, List.mem_flatMap.2 ⟨x, hx, List.mem_map.2 ⟨p, hp, rfl⟩⟩⟩

theorem compress_perm {a b : List (ℤ × V)} (h : a.Perm b) : compressOutgoing a = compressOutgoing b := by
  have : a.insertionSort (fun a b => tupleLE b a) = b.insertionSort (fun a b => tupleLE b a) := by
    apply List.Perm.eq_of_pairwise _ (sorted_particles a) (sorted_particles b)
    · exact ((List.perm_insertionSort _ _).trans h).trans (List.perm_insertionSort _ _).symm
    · intro x y _ _ h1 h2
      exact tupleLE_antisymm h2 h1
  unfold compressOutgoing
  rw [this]

theorem foldl_addOutgoing (parts : List (ℤ × V)) : ∀ (b : EventBuilder K V),
    parts.foldl (fun b x => b.addOutgoing x.1 x.2) b = { b with outgoingByPid := b.outgoingByPid ++ parts } := by
  induction parts with
  | nil => intro b; simp
  | cons x parts ih => intro b; rw [List.foldl_cons, ih]; simp [EventBuilder.addOutgoing]

end Cres

import Verif.Proofs.NextPermutation
import Verif.Proofs.Pairing
import Verif.Proofs.Event
import Mathlib.Analysis.InnerProductSpace.PiL2
import Mathlib.Data.Fintype.BigOperators

/-!
The model of the distance computes the minimum over all pairings.
-/

namespace Cres

open Spec

set_option linter.unusedSectionVars false

section

variable {V K : Type*}

theorem exists_list_map_snd {ps : Multiset (V × V)} : ∀ {l : List V}, ps.map Prod.snd = ↑l →
    ∃ L : List (V × V), (L : Multiset (V × V)) = ps ∧ L.map Prod.snd = l := by
  intro l
  induction l generalizing ps with
  | nil =>
    intro h
    have : ps = 0 := by simpa using h
    exact ⟨[], by simp [this], rfl⟩
  | cons a l ih =>
    intro h
    have : a ∈ ps.map Prod.snd := by rw [h]; simp
    obtain ⟨x, hx, rfl⟩ := Multiset.mem_map.1 this
    obtain ⟨ps', rfl⟩ := Multiset.exists_cons_of_mem hx
    rw [Multiset.map_cons, ← Multiset.cons_coe, Multiset.cons_inj_right] at h
    obtain ⟨L, h1, h2⟩ := ih h
    exact ⟨x :: L, by rw [← h1]; rfl, by simp [h2]⟩

theorem exists_list_map_fst {ps : Multiset (V × V)} {l : List V} (h : ps.map Prod.fst = ↑l) :
    ∃ L : List (V × V), (L : Multiset (V × V)) = ps ∧ L.map Prod.fst = l := by
  have h' : (ps.map Prod.swap).map Prod.snd = ↑l := by simpa [Multiset.map_map] using h
  obtain ⟨L, h1, h2⟩ := exists_list_map_snd h'
  refine ⟨L.map Prod.swap, ?_, by simpa [Function.comp_def] using h2⟩
  rw [← Multiset.map_coe, h1, Multiset.map_map]
  simp

theorem exists_perm_of_map_eq {n : Nat} (f g : Fin n → V)
    (h : (Finset.univ : Finset (Fin n)).val.map f = (Finset.univ : Finset (Fin n)).val.map g) :
    ∃ σ : Equiv.Perm (Fin n), f = g ∘ σ := by
  classical
  have hcard : ∀ v, Fintype.card {i // f i = v} = Fintype.card {i // g i = v} := by
    intro v
    have h1 := congrArg (Multiset.count v) h
    rw [Multiset.count_map, Multiset.count_map] at h1
    rw [Fintype.card_subtype, Fintype.card_subtype]
    simp only [Finset.card, Finset.filter_val]
    simpa only [eq_comm] using h1
  refine ⟨Equiv.ofFiberEquiv (fun v => Fintype.equivOfCardEq (hcard v)), ?_⟩
  funext i
  exact (Equiv.ofFiberEquiv_map _ i).symm

theorem map_eq_of_perm {n : Nat} (g : Fin n → V) (σ : Equiv.Perm (Fin n)) :
    (Finset.univ : Finset (Fin n)).val.map (g ∘ σ) = (Finset.univ : Finset (Fin n)).val.map g := by
  rw [← Multiset.map_map, Multiset.map_univ_val_equiv]

variable [LinearOrder V] [AddCommGroup K] [LinearOrder K] [IsOrderedAddMonoid K]

theorem zipWith_map_fst_snd (d : V → V → K) (L : List (V × V)) :
    List.zipWith d (L.map Prod.fst) (L.map Prod.snd) = L.map (fun x => d x.1 x.2) := by
  induction L with
  | nil => rfl
  | cons x L ih => simp [ih]

theorem pairing_set_eq_perm (d : V → V → K) {p1 p2 : List V} (hlen : p1.length = p2.length) :
    {c | ∃ ps, IsPairing (↑p1 : Multiset V) ↑p2 ps ∧ pairingCost d ps = c} =
      {x | ∃ m : List V, m.Perm p1 ∧ pairedDistance d m p2 = x} := by
  ext c
  constructor
  · rintro ⟨ps, ⟨h1, h2⟩, rfl⟩
    obtain ⟨L, rfl, rfl⟩ := exists_list_map_snd h2
    refine ⟨L.map Prod.fst, ?_, ?_⟩
    · rw [Multiset.map_coe, Multiset.coe_eq_coe] at h1
      exact h1
    · unfold pairedDistance pairingCost
      rw [zipWith_map_fst_snd, Multiset.map_coe, Multiset.sum_coe]
  · rintro ⟨m, hm, rfl⟩
    have hl : m.length = p2.length := hm.length_eq.trans hlen
    refine ⟨↑(m.zip p2), ⟨?_, ?_⟩, ?_⟩
    · rw [Multiset.map_coe, List.map_fst_zip hl.le, Multiset.coe_eq_coe]; exact hm
    · rw [Multiset.map_coe, List.map_snd_zip hl.ge]
    · unfold pairedDistance pairingCost
      rw [Multiset.map_coe, Multiset.sum_coe, ← List.map_uncurry_zip_eq_zipWith]
      rfl

theorem pairing_set_eq_equiv (d : V → V → K) {n : Nat} {p1 p2 : List V} (h1 : p1.length = n) (h2 : p2.length = n) :
    {c | ∃ ps, IsPairing (↑p1 : Multiset V) ↑p2 ps ∧ pairingCost d ps = c} =
      {c | ∃ σ : Equiv.Perm (Fin n), ∑ i : Fin n, d (p1[i]'(by rw [h1]; exact i.2)) (p2[σ i]'(by rw [h2]; exact (σ i).2)) = c} := by
  have hu1 : (Finset.univ : Finset (Fin n)).val.map (fun i => p1[i]'(by rw [h1]; exact i.2)) = ↑p1 := by
    subst h1
    rw [Fin.univ_val_map]
    congr 1
    exact List.ofFn_getElem
  have hu2 : (Finset.univ : Finset (Fin n)).val.map (fun i => p2[i]'(by rw [h2]; exact i.2)) = ↑p2 := by
    subst h2
    rw [Fin.univ_val_map]
    congr 1
    exact List.ofFn_getElem
  ext c
  constructor
  · rintro ⟨ps, ⟨hp1, hp2⟩, rfl⟩
    obtain ⟨L, rfl, hL⟩ := exists_list_map_fst hp1
    have hLn : L.length = n := by rw [← h1, ← hL]; simp
    have hg : (Finset.univ : Finset (Fin n)).val.map (fun i => (L[i]'(by rw [hLn]; exact i.2)).2) =
        (Finset.univ : Finset (Fin n)).val.map (fun i => p2[i]'(by rw [h2]; exact i.2)) := by
      rw [hu2, ← hp2]
      subst hLn
      rw [Fin.univ_val_map, Multiset.map_coe]
      congr 1
      apply List.ext_getElem <;> simp
    obtain ⟨σ, hσ⟩ := exists_perm_of_map_eq _ _ hg
    refine ⟨σ, ?_⟩
    have hterm : ∀ i : Fin n, d (p1[i]'(by rw [h1]; exact i.2)) (p2[σ i]'(by rw [h2]; exact (σ i).2)) =
        d (L[i]'(by rw [hLn]; exact i.2)).1 (L[i]'(by rw [hLn]; exact i.2)).2 := by
      intro i
      have e1 := congrFun hσ i
      simp only [Function.comp] at e1
      rw [e1]
      congr 1
      subst hL
      simp
    rw [Finset.sum_congr rfl (fun i _ => hterm i)]
    unfold pairingCost
    rw [Multiset.map_coe, Multiset.sum_coe]
    subst hLn
    rw [Finset.sum, Fin.univ_val_map, Multiset.sum_coe]
    congr 1
    apply List.ext_getElem <;> simp
  · rintro ⟨σ, rfl⟩
    refine ⟨(Finset.univ : Finset (Fin n)).val.map
      (fun i => (p1[i]'(by rw [h1]; exact i.2), p2[σ i]'(by rw [h2]; exact (σ i).2))), ⟨?_, ?_⟩, ?_⟩
    · rw [Multiset.map_map, ← hu1]; rfl
    · rw [Multiset.map_map, ← hu2]
      exact map_eq_of_perm (fun i => p2[i]'(by rw [h2]; exact i.2)) σ
    · unfold pairingCost
      rw [Multiset.map_map]; rfl

theorem padded_perm_padAndSort (zero : V) (p1 : List V) (n : Nat) :
    (↑(padAndSort zero p1 n) : Multiset V) = padded zero n p1 := by
  unfold padAndSort padded
  rw [← Multiset.coe_replicate, Multiset.coe_add, Multiset.coe_eq_coe]
  exact List.perm_insertionSort _ _

theorem padAndSort_length (zero : V) {p1 : List V} {n : Nat} (h : p1.length ≤ n) :
    (padAndSort zero p1 n).length = n := by
  unfold padAndSort
  rw [List.length_insertionSort]
  simp
  omega

theorem padAndSort_sorted (zero : V) (p1 : List V) (n : Nat) :
    (padAndSort zero p1 n).Pairwise (fun a b => a ≤ b) := List.pairwise_insertionSort _ _

theorem flatMap_getElem? (d : V → V → K) (p2 : List V) : ∀ (p1 : List V) (i j : Nat) (hi : i < p1.length)
    (hj : j < p2.length), (p1.flatMap (fun p => p2.map (fun q => d p q)))[i * p2.length + j]? = some (d p1[i] p2[j])
  | [], i, j, hi, _ => by simp at hi
  | a :: p1, 0, j, _, hj => by
    simp only [List.flatMap_cons, Nat.zero_mul, Nat.zero_add]
    rw [List.getElem?_append_left (by simpa using hj)]
    simp [hj]
  | a :: p1, i + 1, j, hi, hj => by
    simp only [List.flatMap_cons]
    rw [List.getElem?_append_right (by simp; rw [Nat.add_mul]; omega)]
    have : (i + 1) * p2.length + j - (List.map (fun q => d a q) p2).length = i * p2.length + j := by
      simp; rw [Nat.add_mul]; omega
    rw [this, flatMap_getElem? d p2 p1 i j (by simpa using hi) hj]
    simp

theorem flatMap_length (d : V → V → K) (p1 p2 : List V) :
    (p1.flatMap (fun p => p2.map (fun q => d p q))).length = p1.length * p2.length := by
  induction p1 with
  | nil => simp
  | cons a p1 ih => simp [List.flatMap_cons, ih, Nat.add_mul]; omega

/-- What is assumed about the function `kuhn_munkres` of the crate pathfinding. -/
def SolvesAssignment (kuhnMunkres : SquareMatrix K → K) : Prop :=
  ∀ m : SquareMatrix K, m.entries.length = m.rows * m.rows → IsMaxAssignment m.rows m.at (kuhnMunkres m)

theorem hungarian_isLeast (d : V → V → K) {km : SquareMatrix K → K} (hkm : SolvesAssignment km) {n : Nat}
    {p1 p2 : List V} (h1 : p1.length = n) (h2 : p2.length = n) :
    ∃ c, minPairedDistanceHungarian d km p1 p2 = some c ∧
      IsLeast {c | ∃ ps, IsPairing (↑p1 : Multiset V) ↑p2 ps ∧ pairingCost d ps = c} c := by
  have hlen : (p1.flatMap (fun p => p2.map (fun q => d p q))).length = n * n := by
    rw [flatMap_length, h1, h2]
  unfold minPairedDistanceHungarian SquareMatrix.ofList
  simp only [hlen, Nat.sqrt_eq, if_true, Option.map_some, Option.some.injEq]
  refine ⟨_, rfl, ?_⟩
  rw [pairing_set_eq_equiv d h1 h2]
  have hmax := hkm (SquareMatrix.neg ⟨p1.flatMap (fun p => p2.map (fun q => d p q)), n⟩)
    (by simp only [SquareMatrix.neg, List.length_map]; exact hlen)
  have hat : ∀ (i j : Nat) (hi : i < n) (hj : j < n),
      (SquareMatrix.neg ⟨p1.flatMap (fun p => p2.map (fun q => d p q)), n⟩).at i j =
        -(d (p1[i]'(by omega)) (p2[j]'(by omega))) := by
    intro i j hi hj
    unfold SquareMatrix.at SquareMatrix.neg
    have := flatMap_getElem? d p2 p1 i j (by omega) (by omega)
    simp only [h2] at this
    simp only [List.getD_eq_getElem?_getD, List.getElem?_map, this, Option.map_some, Option.getD_some]
  unfold kuhnMunkresMin
  have hrows : (SquareMatrix.neg ⟨p1.flatMap (fun p => p2.map (fun q => d p q)), n⟩ : SquareMatrix K).rows = n := rfl
  unfold IsMaxAssignment at hmax
  rw [hrows] at hmax
  have hsum : ∀ σ : Equiv.Perm (Fin n),
      ∑ i : Fin n, (SquareMatrix.neg ⟨p1.flatMap (fun p => p2.map (fun q => d p q)), n⟩).at i (σ i) =
        -(∑ i : Fin n, d (p1[i]'(by rw [h1]; exact i.2)) (p2[σ i]'(by rw [h2]; exact (σ i).2))) := by
    intro σ
    rw [← Finset.sum_neg_distrib]
    exact Finset.sum_congr rfl (fun i _ => hat i (σ i) i.2 (σ i).2)
  obtain ⟨⟨σ, hσ⟩, hub⟩ := hmax
  refine ⟨⟨σ, ?_⟩, ?_⟩
  · rw [← hσ, hsum, neg_neg]
  · rintro x ⟨τ, rfl⟩
    rw [neg_le]
    exact hub ⟨τ, hsum τ⟩

theorem minPairedDistanceLE_spec (d : V → V → K) (zero : V) {km : SquareMatrix K → K} (hkm : SolvesAssignment km)
    {p1 p2 : List V} (h : p1.length ≤ p2.length) :
    ∃ c, minPairedDistanceLE d zero km p1 p2 = some c ∧ IsSetDistance d zero p1 p2 c := by
  have hset : ∀ c, IsSetDistance d zero p1 p2 c ↔
      IsLeast {c | ∃ ps, IsPairing (↑(padAndSort zero p1 p2.length) : Multiset V) ↑p2 ps ∧ pairingCost d ps = c} c := by
    intro c
    unfold IsSetDistance
    rw [max_eq_right h, padded_perm_padAndSort]
    have : padded zero p2.length p2 = ↑p2 := by simp [padded]
    rw [this]
  have hl := padAndSort_length zero h
  have hs := padAndSort_sorted zero p1 p2.length
  simp only [hset]
  unfold minPairedDistanceLE
  simp only
  generalize padAndSort zero p1 p2.length = q1 at *
  match q1, p2, hl, hs with
  | [], p2, hl, hs =>
    refine ⟨0, rfl, ?_⟩
    have : p2 = [] := List.eq_nil_of_length_eq_zero hl.symm
    subst this
    rw [pairing_set_eq_perm d rfl]
    refine ⟨⟨[], List.Perm.refl _, rfl⟩, ?_⟩
    rintro x ⟨m, hm, rfl⟩
    rw [List.Perm.eq_nil hm]
    exact le_rfl
  | [a], b :: p2, hl, hs =>
    have : p2 = [] := List.eq_nil_of_length_eq_zero (by simpa using hl.symm)
    subst this
    refine ⟨_, rfl, ?_⟩
    rw [pairing_set_eq_perm d hl]
    refine ⟨⟨[a], List.Perm.refl _, by simp [pairedDistance]⟩, ?_⟩
    rintro x ⟨m, hm, rfl⟩
    rw [List.perm_singleton.1 hm]
    simp [pairedDistance]
  | [a], [], hl, hs => simp at hl
  | a :: a' :: q1, p2, hl, hs =>
    simp only
    split
    · refine ⟨_, rfl, ?_⟩
      rw [pairing_set_eq_perm d hl]
      exact minPairedDistanceNaive_isLeast d p2 hs
    · exact hungarian_isLeast d hkm hl rfl

theorem minPairedDistance_spec {d : V → V → K} (hd : PairDist d) (zero : V) {km : SquareMatrix K → K}
    (hkm : SolvesAssignment km) (p1 p2 : List V) :
    ∃ c, minPairedDistance d zero km p1 p2 = some c ∧ IsSetDistance d zero p1 p2 c := by
  unfold minPairedDistance
  split
  · rename_i h
    obtain ⟨c, h1, h2⟩ := minPairedDistanceLE_spec d zero hkm (le_of_lt h)
    exact ⟨c, h1, isSetDistance_symm hd h2⟩
  · rename_i h
    exact minPairedDistanceLE_spec d zero hkm (not_lt.1 h)

/-! ### sums over particle types -/

/-- The sum of distances `S` over all types in groups. -/
def groupSum (S : List V → List V → K) (g1 g2 : List (ℤ × List V)) : K :=
  ∑ t ∈ (g1.map Prod.fst).toFinset ∪ (g2.map Prod.fst).toFinset, S (groupLookup g1 t) (groupLookup g2 t)

theorem groupLookup_cons_ne {x : ℤ × List V} {g : List (ℤ × List V)} {t : ℤ} (h : x.1 ≠ t) :
    groupLookup (x :: g) t = groupLookup g t := by
  rw [groupLookup, if_neg h]

theorem groupLookup_cons_self (t : ℤ) (p : List V) (g : List (ℤ × List V)) : groupLookup ((t, p) :: g) t = p := by
  rw [groupLookup, if_pos rfl]

theorem groupSum_left (S : List V → List V → K) {t : ℤ} {p : List V} {g1 g2 : List (ℤ × List V)}
    (h1 : ∀ x ∈ g1, x.1 ≠ t) (h2 : ∀ x ∈ g2, x.1 ≠ t) :
    groupSum S ((t, p) :: g1) g2 = S p [] + groupSum S g1 g2 := by
  have hn : t ∉ (g1.map Prod.fst).toFinset ∪ (g2.map Prod.fst).toFinset := by
    simp only [Finset.mem_union, List.mem_toFinset, List.mem_map, not_or, not_exists, not_and]
    exact ⟨h1, h2⟩
  unfold groupSum
  have : (((t, p) :: g1).map Prod.fst).toFinset ∪ (g2.map Prod.fst).toFinset =
      insert t ((g1.map Prod.fst).toFinset ∪ (g2.map Prod.fst).toFinset) := by
    simp [Finset.insert_union]
  rw [this, Finset.sum_insert hn, groupLookup_cons_self, groupLookup_not_mem h2]
  congr 1
  apply Finset.sum_congr rfl
  intro s hs
  rw [groupLookup_cons_ne]
  rintro rfl
  exact hn hs

theorem groupSum_right (S : List V → List V → K) {t : ℤ} {p : List V} {g1 g2 : List (ℤ × List V)}
    (h1 : ∀ x ∈ g1, x.1 ≠ t) (h2 : ∀ x ∈ g2, x.1 ≠ t) :
    groupSum S g1 ((t, p) :: g2) = S [] p + groupSum S g1 g2 := by
  have hn : t ∉ (g1.map Prod.fst).toFinset ∪ (g2.map Prod.fst).toFinset := by
    simp only [Finset.mem_union, List.mem_toFinset, List.mem_map, not_or, not_exists, not_and]
    exact ⟨h1, h2⟩
  unfold groupSum
  have : (g1.map Prod.fst).toFinset ∪ (((t, p) :: g2).map Prod.fst).toFinset =
      insert t ((g1.map Prod.fst).toFinset ∪ (g2.map Prod.fst).toFinset) := by
    simp [Finset.union_insert]
  rw [this, Finset.sum_insert hn, groupLookup_cons_self, groupLookup_not_mem h1]
  congr 1
  apply Finset.sum_congr rfl
  intro s hs
  rw [groupLookup_cons_ne]
  rintro rfl
  exact hn hs

theorem groupSum_both (S : List V → List V → K) {t : ℤ} {p q : List V} {g1 g2 : List (ℤ × List V)}
    (h1 : ∀ x ∈ g1, x.1 ≠ t) (h2 : ∀ x ∈ g2, x.1 ≠ t) :
    groupSum S ((t, p) :: g1) ((t, q) :: g2) = S p q + groupSum S g1 g2 := by
  have hn : t ∉ (g1.map Prod.fst).toFinset ∪ (g2.map Prod.fst).toFinset := by
    simp only [Finset.mem_union, List.mem_toFinset, List.mem_map, not_or, not_exists, not_and]
    exact ⟨h1, h2⟩
  unfold groupSum
  have : (((t, p) :: g1).map Prod.fst).toFinset ∪ (((t, q) :: g2).map Prod.fst).toFinset =
      insert t ((g1.map Prod.fst).toFinset ∪ (g2.map Prod.fst).toFinset) := by
    ext s; simp
  rw [this, Finset.sum_insert hn, groupLookup_cons_self, groupLookup_cons_self]
  congr 1
  apply Finset.sum_congr rfl
  intro s hs
  have : (t : ℤ) ≠ s := by
    rintro rfl
    exact hn hs
  rw [groupLookup_cons_ne this, groupLookup_cons_ne this]

theorem groupSum_nil_left (S : List V → List V → K) {g : List (ℤ × List V)}
    (hg : (g.map Prod.fst).Pairwise (fun a b => b < a)) : groupSum S [] g = (g.map (fun x => S [] x.2)).sum := by
  induction g with
  | nil => simp [groupSum]
  | cons x g ih =>
    rw [List.map_cons, List.pairwise_cons] at hg
    rw [groupSum_right S (by simp) (fun y hy => (hg.1 y.1 (List.mem_map_of_mem hy)).ne), ih hg.2]
    simp

theorem groupSum_nil_right (S : List V → List V → K) {g : List (ℤ × List V)}
    (hg : (g.map Prod.fst).Pairwise (fun a b => b < a)) : groupSum S g [] = (g.map (fun x => S x.2 [])).sum := by
  induction g with
  | nil => simp [groupSum]
  | cons x g ih =>
    rw [List.map_cons, List.pairwise_cons] at hg
    rw [groupSum_left S (fun y hy => (hg.1 y.1 (List.mem_map_of_mem hy)).ne) (by simp), ih hg.2]
    simp

theorem distanceLoop_eq (d : V → V → K) (norm : V → K) (zero : V) (km : SquareMatrix K → K) (S : List V → List V → K)
    (hS : ∀ p q, minPairedDistance d zero km p q = some (S p q)) (hl : ∀ p, S p [] = ptNormSum norm p)
    (hr : ∀ p, S [] p = ptNormSum norm p) :
    ∀ (n : Nat) (g1 g2 : List (ℤ × List V)) (c : K), g1.length + g2.length ≤ n →
      (g1.map Prod.fst).Pairwise (fun a b => b < a) → (g2.map Prod.fst).Pairwise (fun a b => b < a) →
      distanceLoop d norm zero km g1 g2 c = some (c + groupSum S g1 g2)
  | n, [], g2, c, _, _, h2 => by
    rw [distanceLoop, groupSum_nil_left S h2]
    simp only [hr]
  | n, x :: g1, [], c, _, h1, _ => by
    rw [distanceLoop, groupSum_nil_right S h1]
    · simp only [hl]
    · simp
  | 0, x :: g1, y :: g2, c, hn, _, _ => by simp at hn
  | n + 1, (t1, p1) :: g1, (t2, p2) :: g2, c, hn, h1, h2 => by
    have h1' := h1
    have h2' := h2
    rw [List.map_cons, List.pairwise_cons] at h1' h2'
    simp only [List.length_cons] at hn
    have hlt1 : ∀ x ∈ g1, x.1 < t1 := fun x hx => h1'.1 x.1 (List.mem_map_of_mem hx)
    have hlt2 : ∀ x ∈ g2, x.1 < t2 := fun x hx => h2'.1 x.1 (List.mem_map_of_mem hx)
    rw [distanceLoop]
    cases hc : compare t1 t2 with
    | gt =>
      have hgt := compare_gt_iff_gt.1 hc
      simp only
      rw [distanceLoop_eq d norm zero km S hS hl hr n g1 ((t2, p2) :: g2) _ (by simp only [List.length_cons]; omega) h1'.2 h2,
        groupSum_left S (fun x hx => (hlt1 x hx).ne), hl, add_assoc]
      intro x hx
      rcases List.mem_cons.1 hx with rfl | hx
      · exact (show t2 < t1 from hgt).ne
      · exact ((hlt2 x hx).trans hgt).ne
    | lt =>
      have hlt := compare_lt_iff_lt.1 hc
      simp only
      rw [distanceLoop_eq d norm zero km S hS hl hr n ((t1, p1) :: g1) g2 _ (by simp only [List.length_cons]; omega) h1 h2'.2,
        groupSum_right S _ (fun x hx => (hlt2 x hx).ne), hr, add_assoc]
      intro x hx
      rcases List.mem_cons.1 hx with rfl | hx
      · exact (show t1 < t2 from hlt).ne
      · exact ((hlt1 x hx).trans hlt).ne
    | eq =>
      have heq := compare_eq_iff_eq.1 hc
      subst heq
      simp only [hS]
      rw [distanceLoop_eq d norm zero km S hS hl hr n g1 g2 _ (by omega) h1'.2 h2'.2,
        groupSum_both S (fun x hx => (hlt1 x hx).ne) (fun x hx => (hlt2 x hx).ne), add_assoc]

theorem isSetDistance_perm (d : V → V → K) (zero : V) {l₁ l₂ l₁' l₂' : List V} {c : K} (h1 : l₁.Perm l₁')
    (h2 : l₂.Perm l₂') (h : IsSetDistance d zero l₁ l₂ c) : IsSetDistance d zero l₁' l₂' c := by
  unfold IsSetDistance padded at *
  rw [← Multiset.coe_eq_coe.2 h1, ← Multiset.coe_eq_coe.2 h2, ← h1.length_eq, ← h2.length_eq]
  exact h

/-- The distance of two built events. -/
theorem eventDistance_build {W : Type*} {d : V → V → K} (hd : PairDist d) {norm : V → K} {zero : V}
    (hnorm : ∀ p, norm p = d p zero) {km : SquareMatrix K → K} (hkm : SolvesAssignment km)
    (b1 b2 : EventBuilder W V) :
    ∃ c, eventDistance d norm zero km b1.build b2.build = some c ∧
      IsEventDistance d zero b1.outgoingByPid b2.outgoingByPid c := by
  let S : List V → List V → K := fun p q => (minPairedDistance d zero km p q).getD 0
  have hS : ∀ p q, minPairedDistance d zero km p q = some (S p q) ∧ IsSetDistance d zero p q (S p q) := by
    intro p q
    obtain ⟨c, h1, h2⟩ := minPairedDistance_spec hd zero hkm p q
    have : S p q = c := by simp [S, h1]
    rw [this]
    exact ⟨h1, h2⟩
  have hr : ∀ p, S [] p = ptNormSum norm p := by
    intro p
    rw [isSetDistance_unique (hS [] p).2 (isSetDistance_nil_left zero p)]
    unfold ptNormSum
    congr 2
    funext q
    rw [hnorm, hd.symm]
  have hl : ∀ p, S p [] = ptNormSum norm p := by
    intro p
    rw [← hr, isSetDistance_unique (hS p []).2 (isSetDistance_symm hd (hS [] p).2)]
  refine ⟨groupSum S (compressOutgoing b1.outgoingByPid) (compressOutgoing b2.outgoingByPid), ?_, ?_⟩
  · unfold eventDistance EventBuilder.build
    rw [distanceLoop_eq d norm zero km S (fun p q => (hS p q).1) hl hr _ _ _ _ le_rfl (compress_keys _) (compress_keys _),
      zero_add]
  · refine ⟨fun t => S (groupLookup (compressOutgoing b1.outgoingByPid) t) (groupLookup (compressOutgoing b2.outgoingByPid) t),
      ?_, ?_⟩
    · intro t
      exact isSetDistance_perm d zero (compress_lookup _ t) (compress_lookup _ t) (hS _ _).2
    · unfold groupSum
      congr 1
      ext t
      simp only [Finset.mem_union, compress_types, List.mem_toFinset]

theorem isEventDistance_nonneg {d : V → V → K} (hd : PairDist d) {zero : V} {a b : List (ℤ × V)} {c : K}
    (h : IsEventDistance d zero a b c) : 0 ≤ c := by
  obtain ⟨cost, h1, rfl⟩ := h
  exact Finset.sum_nonneg (fun t _ => isSetDistance_nonneg hd (h1 t))

theorem isEventDistance_self {d : V → V → K} (hd : PairDist d) {zero : V} {a : List (ℤ × V)} {c : K}
    (h : IsEventDistance d zero a a c) : c = 0 := by
  obtain ⟨cost, h1, rfl⟩ := h
  exact Finset.sum_eq_zero (fun t _ => isSetDistance_self hd (h1 t))

theorem isEventDistance_symm {d : V → V → K} (hd : PairDist d) {zero : V} {a b : List (ℤ × V)} {c : K}
    (h : IsEventDistance d zero a b c) : IsEventDistance d zero b a c := by
  obtain ⟨cost, h1, rfl⟩ := h
  refine ⟨cost, fun t => isSetDistance_symm hd (h1 t), ?_⟩
  rw [Finset.union_comm]

theorem isEventDistance_unique {d : V → V → K} {zero : V} {a b : List (ℤ × V)} {c c' : K}
    (h : IsEventDistance d zero a b c) (h' : IsEventDistance d zero a b c') : c = c' := by
  obtain ⟨cost, h1, rfl⟩ := h
  obtain ⟨cost', h1', rfl⟩ := h'
  exact Finset.sum_congr rfl (fun t _ => isSetDistance_unique (h1 t) (h1' t))

theorem momenta_of_not_mem {a : List (ℤ × V)} {t : ℤ} (h : t ∉ types a) : momenta a t = [] := by
  unfold momenta
  rw [List.map_eq_nil_iff, List.filter_eq_nil_iff]
  intro x hx
  simp only [decide_eq_true_eq]
  rintro rfl
  exact h (by simp only [types, List.mem_toFinset]; exact List.mem_map_of_mem hx)

theorem isEventDistance_superset {d : V → V → K} (hd : PairDist d) {zero : V} {a b : List (ℤ × V)} {cost : ℤ → K}
    (h1 : ∀ t, IsSetDistance d zero (momenta a t) (momenta b t) (cost t)) (T : Finset ℤ)
    (hT : types a ∪ types b ⊆ T) : ∑ t ∈ types a ∪ types b, cost t = ∑ t ∈ T, cost t := by
  apply Finset.sum_subset hT
  intro t _ ht
  rw [Finset.mem_union, not_or] at ht
  have := h1 t
  rw [momenta_of_not_mem ht.1, momenta_of_not_mem ht.2] at this
  exact isSetDistance_self hd this

theorem isEventDistance_triangle {d : V → V → K} (hd : PairDist d) {zero : V} {x y z : List (ℤ × V)} {c₁₂ c₂₃ c₁₃ : K}
    (h12 : IsEventDistance d zero x y c₁₂) (h23 : IsEventDistance d zero y z c₂₃)
    (h13 : IsEventDistance d zero x z c₁₃) : c₁₃ ≤ c₁₂ + c₂₃ := by
  obtain ⟨f, hf, rfl⟩ := h12
  obtain ⟨g, hg, rfl⟩ := h23
  obtain ⟨h, hh, rfl⟩ := h13
  let T := types x ∪ types y ∪ types z
  rw [isEventDistance_superset hd hf T (by intro t; simp [T]; tauto),
    isEventDistance_superset hd hg T (by intro t; simp [T]; tauto),
    isEventDistance_superset hd hh T (by intro t; simp [T]; tauto), ← Finset.sum_add_distrib]
  exact Finset.sum_le_sum (fun t _ => isSetDistance_triangle hd (hf t) (hg t) (hh t))

end

/-! ### momenta -/

/-- The distance of momenta is a distance in a four-dimensional Euclidean space. -/
noncomputable def embed (τ : ℝ) (p : FourVector) : EuclideanSpace ℝ (Fin 4) := !₂[p.p1, p.p2, p.p3, τ * p.pt]

theorem ptDist_eq_dist (τ : ℝ) (p q : FourVector) : ptDist p q τ = dist (embed τ p) (embed τ q) := by
  rw [EuclideanSpace.dist_eq, Fin.sum_univ_four]
  unfold ptDist ptDistSq FourVector.spatialNormSq
  simp only [Real.dist_eq, sq_abs, embed]
  congr 1
  show (p.p1 - q.p1) * (p.p1 - q.p1) + (p.p2 - q.p2) * (p.p2 - q.p2) + (p.p3 - q.p3) * (p.p3 - q.p3) + _ = _
  simp
  ring

theorem pairDist_ptDist (τ : ℝ) : PairDist (fun p q => ptDist p q τ) where
  self p := by simp only [ptDist_eq_dist, dist_self]
  symm p q := by simp only [ptDist_eq_dist]; exact dist_comm _ _
  triangle p q r := by simp only [ptDist_eq_dist]; exact dist_triangle _ _ _

theorem ptNorm_eq (τ : ℝ) (p : FourVector) : ptNorm p τ = ptDist p FourVector.new τ := by
  unfold ptNorm ptDist ptNormSq ptDistSq FourVector.spatialNormSq
  congr 1
  show _ = (p.p1 - 0) * (p.p1 - 0) + (p.p2 - 0) * (p.p2 - 0) + (p.p3 - 0) * (p.p3 - 0) + _
  simp [FourVector.new]

end Cres

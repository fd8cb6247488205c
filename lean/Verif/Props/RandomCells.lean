import Mathlib.Data.Nat.Factorial.Basic
import Mathlib.Tactic.Ring
import Mathlib.Algebra.BigOperators.Ring.List
import Verif.Props.CombineCells

/-!
Property C63: the random selection of cells. Probabilities are counted: all sequences of random numbers in the range from
which they are drawn are equally likely.
-/

namespace Cres

variable {α X D K : Type*}

/-- Number `j` is among the random cells after `n` cells. -/
def isRandom [LinearOrder D] [LinearOrder K] (eventId : Nat → Nat) (cell : Nat → Cell D K) (n : Nat) (draw : List Nat) (j : Nat) :
    Bool :=
  match CellCollector.collectAll eventId (cellsSeen cell (fun i => draw.getD i 0) n) CellCollector.new with
  | none => false
  | some s => decide (j ∈ s.random.map Prod.fst)

theorem mem_draws_length {n : Nat} : ∀ {l : List Nat}, l ∈ Spec.draws n → l.length = n := by
  induction n with
  | zero => intro l hl; simp [Spec.draws] at hl; simp [hl]
  | succ n ih =>
    intro l hl
    rw [Spec.draws, List.mem_flatMap] at hl
    obtain ⟨l', hl', h⟩ := hl
    obtain ⟨i, -, rfl⟩ := List.mem_map.1 h
    simp [ih hl']

theorem length_draws (n : Nat) : (Spec.draws n).length = n.factorial := by
  induction n with
  | zero => rfl
  | succ n ih =>
    rw [Spec.draws, List.length_flatMap]
    simp only [List.length_map, List.length_range, List.map_const', List.sum_replicate_nat, ih, Nat.factorial_succ]
    ring

/-- The random numbers for three cells. -/
example : Spec.draws 3 = [[0, 0, 0], [0, 0, 1], [0, 0, 2], [0, 1, 0], [0, 1, 1], [0, 1, 2]] := by decide

/-- If every element of a list contributes `a` when it satisfies a property, and nothing otherwise. -/
theorem sum_map_ite (l : List α) (p : α → Bool) (f : α → Nat) (a : Nat) (h1 : ∀ x ∈ l, p x = true → f x = a)
    (h2 : ∀ x ∈ l, p x = false → f x = 0) : (l.map f).sum = a * l.countP p := by
  induction l with
  | nil => simp
  | cons x l ih =>
    have ih := ih (fun y hy => h1 y (by simp [hy])) (fun y hy => h2 y (by simp [hy]))
    rw [List.map_cons, List.sum_cons, ih, List.countP_cons]
    cases hp : p x with
    | true =>
      rw [h1 x (by simp) hp, if_pos rfl]
      ring
    | false =>
      rw [h2 x (by simp) hp, if_neg (by decide), Nat.add_zero, Nat.zero_add]

theorem countP_draws_succ (n : Nat) (p : List Nat → Bool) :
    (Spec.draws (n + 1)).countP p = ((Spec.draws n).map fun l => (List.range (n + 1)).countP fun i => p (l ++ [i])).sum := by
  rw [Spec.draws, List.countP_flatMap]
  congr 1
  apply List.map_congr_left
  intro l _
  rw [Function.comp, List.countP_map]
  rfl

/-- The step from `n` to `n + 1` cells. -/
theorem isRandom_succ [LinearOrder D] [LinearOrder K] (eventId : Nat → Nat) (cell : Nat → Cell D K) {n : Nat} {l : List Nat}
    (hl : l.length = n) (hn : nCells ≤ n) (j : Nat) :
    ∃ r : List (Nat × List Nat), (r.map Prod.fst).Nodup ∧ r.length = nCells ∧ (∀ e ∈ r, e.1 < n) ∧
      isRandom eventId cell n l j = decide (j ∈ r.map Prod.fst) ∧
      ∀ i, isRandom eventId cell (n + 1) (l ++ [i]) j = decide (j ∈ if i < nCells then (r.map Prod.fst).set i n else r.map Prod.fst) := by
  obtain ⟨s, hs, h⟩ := collectAll_seen eventId cell (fun i => l.getD i 0) n
  refine ⟨s.random, h.randomNodup, ?_, fun e he => (h.randomEntry e he).1, ?_, ?_⟩
  · rw [h.randomLength, min_eq_left hn]
  · rw [isRandom, hs]
  · intro i
    have hpre : cellsSeen cell (fun k => (l ++ [i]).getD k 0) (n + 1) =
        cellsSeen cell (fun k => l.getD k 0) n ++ [(cell n, i)] := by
      rw [cellsSeen, List.range_succ, List.map_append, cellsSeen]
      congr 1
      · apply List.map_congr_left
        intro k hk
        rw [List.mem_range] at hk
        simp only [Prod.mk.injEq, true_and]
        rw [List.getD_eq_getElem?_getD, List.getD_eq_getElem?_getD, List.getElem?_append_left (by omega)]
      · simp only [List.map_cons, List.map_nil, List.cons.injEq, Prod.mk.injEq, true_and, and_true]
        rw [List.getD_eq_getElem?_getD, List.getElem?_append_right (by omega)]
        simp [hl]
    have hrl : s.random.length = nCells := by rw [h.randomLength, min_eq_left hn]
    rw [isRandom, hpre, collectAll_append, hs, Option.bind_some, CellCollector.collectAll, CellCollector.collect,
      if_neg (by rw [h.count]; exact not_lt.2 hn)]
    obtain ⟨m1, e1, -⟩ := CellMap.good_replace h.radius hn
    obtain ⟨m2, e2, -⟩ := CellMap.good_replace h.members hn
    obtain ⟨m3, e3, -⟩ := CellMap.good_replace h.weight hn
    rw [cellEvents] at e1 e2 e3
    rw [h.count, e1, e2, e3]
    simp only [Option.bind_some, CellCollector.collectAll, hrl]
    split_ifs with hi
    · rw [List.map_set]
    · rfl

theorem countP_ne_range {n p : Nat} (hp : p ≤ n) : (List.range (n + 1)).countP (fun i => decide (i ≠ p)) = n := by
  have h := List.length_eq_countP_add_countP (fun i => decide (i ≠ p)) (l := List.range (n + 1))
  have h1 : (List.range (n + 1)).count p = 1 := List.count_eq_one_of_mem List.nodup_range (List.mem_range.2 (by omega))
  rw [List.length_range] at h
  have h2 : (List.range (n + 1)).countP (fun a => decide ¬(decide (a ≠ p) = true)) = (List.range (n + 1)).count p := by
    rw [List.count]
    apply List.countP_congr
    intro i _
    by_cases hi : i = p <;> simp [hi]
  omega

theorem countP_lt_range (k m : Nat) : (List.range m).countP (fun i => decide (i < k)) = min k m := by
  induction m with
  | zero => simp
  | succ m ih =>
    rw [List.range_succ, List.countP_append, ih, List.countP_singleton]
    simp only [decide_eq_true_eq]
    split_ifs <;> omega

/-- For one state: the number of draws that keep a cell. -/
theorem countP_keep {r : List Nat} {n j : Nat} (hr : r.Nodup) (hlen : r.length = nCells) (hlt : ∀ e ∈ r, e < n) (hn : nCells ≤ n)
    (hj : j < n) : (List.range (n + 1)).countP (fun i => decide (j ∈ if i < nCells then r.set i n else r)) =
      if j ∈ r then n else 0 := by
  split_ifs with hjr
  · obtain ⟨p, hp, rfl⟩ := List.getElem_of_mem hjr
    refine Eq.trans ?_ (countP_ne_range (n := n) (p := p) (by omega))
    apply List.countP_congr
    intro i _
    simp only [decide_eq_true_eq]
    split_ifs with hi
    · constructor
      · rintro h rfl
        obtain ⟨q, hq, he⟩ := List.getElem_of_mem h
        rw [List.getElem_set] at he
        split_ifs at he with hqi
        · have := hlt _ (List.getElem_mem hp)
          omega
        · rw [List.length_set] at hq
          exact hqi ((List.Nodup.getElem_inj_iff hr).1 he).symm
      · intro hne
        have hp' : p < (r.set i n).length := by rw [List.length_set]; exact hp
        have : (r.set i n)[p] = r[p] := by rw [List.getElem_set, if_neg hne]
        rw [← this]
        exact List.getElem_mem hp'
    · constructor
      · rintro - rfl
        omega
      · intro _
        exact hjr
  · rw [List.countP_eq_zero]
    intro i _
    simp only [decide_eq_true_eq]
    split_ifs with hi
    · intro h
      rcases List.mem_or_eq_of_mem_set h with h | h
      · exact hjr h
      · omega
    · exact hjr

/-- For one state: the number of draws for which the new cell is kept. -/
theorem countP_new {r : List Nat} {n : Nat} (hlen : r.length = nCells) (hlt : ∀ e ∈ r, e < n) (hn : nCells ≤ n) :
    (List.range (n + 1)).countP (fun i => decide (n ∈ if i < nCells then r.set i n else r)) = nCells := by
  have h : (List.range (n + 1)).countP (fun i => decide (n ∈ if i < nCells then r.set i n else r)) =
      (List.range (n + 1)).countP (fun i => decide (i < nCells)) := by
    apply List.countP_congr
    intro i _
    simp only [decide_eq_true_eq]
    split_ifs with hi
    · simp only [hi, iff_true]
      exact List.mem_set (by omega) n
    · simp only [hi, iff_false]
      intro h
      exact absurd (hlt n h) (lt_irrefl n)
  rw [h, countP_lt_range]
  omega

/-- **C63**: each of the `n` cells seen so far is equally likely to be among the ten randomly selected ones: among all
sequences of random numbers, a fraction `10 / n` selects it. -/
theorem C63_uniform [LinearOrder D] [LinearOrder K] (eventId : Nat → Nat) (cell : Nat → Cell D K) (n : Nat) (hn : 10 ≤ n) :
    ∀ j < n, n * (Spec.draws n).countP (fun draw => isRandom eventId cell n draw j) = 10 * (Spec.draws n).length := by
  induction n, hn using Nat.le_induction with
  | base =>
    intro j hj
    congr 1
    rw [List.countP_eq_length]
    intro l _
    obtain ⟨s, hs, h⟩ := collectAll_seen eventId cell (fun i => l.getD i 0) 10
    rw [isRandom, hs]
    simp only [decide_eq_true_eq]
    have hsub : (s.random.map Prod.fst).Subperm (List.range 10) := List.subperm_of_subset h.randomNodup (by
      intro i hi
      obtain ⟨e, he, rfl⟩ := List.mem_map.1 hi
      exact List.mem_range.2 (h.randomEntry e he).1)
    have hperm := hsub.perm_of_length_le (by rw [List.length_map, h.randomLength, List.length_range]; decide)
    exact hperm.mem_iff.2 (List.mem_range.2 hj)
  | succ n hn ih =>
    intro j hj
    rw [countP_draws_succ, length_draws, Nat.factorial_succ]
    have ht := length_draws n
    by_cases hjn : j = n
    · subst hjn
      have : ((Spec.draws j).map fun l => (List.range (j + 1)).countP fun i => isRandom eventId cell (j + 1) (l ++ [i]) j).sum =
          nCells * (Spec.draws j).countP (fun _ => true) := by
        apply sum_map_ite
        · intro l hl _
          obtain ⟨r, h1, h2, h3, -, h5⟩ := isRandom_succ eventId cell (mem_draws_length hl) hn j
          simp only [h5]
          exact countP_new (by rw [List.length_map, h2]) (by
            intro e he
            obtain ⟨a, ha, rfl⟩ := List.mem_map.1 he
            exact h3 a ha) hn
        · intro l _ h
          cases h
      rw [this, List.countP_true, ht]
      change (j + 1) * (10 * _) = _
      ring
    · have hjlt : j < n := by omega
      have : ((Spec.draws n).map fun l => (List.range (n + 1)).countP fun i => isRandom eventId cell (n + 1) (l ++ [i]) j).sum =
          n * (Spec.draws n).countP (fun draw => isRandom eventId cell n draw j) := by
        have key : ∀ l ∈ Spec.draws n, ((List.range (n + 1)).countP fun i => isRandom eventId cell (n + 1) (l ++ [i]) j) =
            if isRandom eventId cell n l j = true then n else 0 := by
          intro l hl
          obtain ⟨r, h1, h2, h3, h4, h5⟩ := isRandom_succ eventId cell (mem_draws_length hl) hn j
          simp only [h5, h4, decide_eq_true_eq]
          exact countP_keep h1 (by rw [List.length_map, h2]) (by
            intro e he
            obtain ⟨a, ha, rfl⟩ := List.mem_map.1 he
            exact h3 a ha) hn hjlt
        apply sum_map_ite
        · intro l hl h
          rw [key l hl, if_pos h]
        · intro l hl h
          rw [key l hl, h, if_neg (by decide)]
      rw [this, ih j hjlt, ht]
      ring

/-! ### Combining -/

/-- Number `j` is left after random entries have been removed. -/
def isLeft (l : List (Nat × List Nat)) (j : Nat) (idxs : List Nat) : Bool :=
  match shrinkRandom idxs l with
  | none => false
  | some l' => decide (j ∈ l'.map Prod.fst)

theorem length_removals (len k : Nat) : (Spec.removals len k).length = len.descFactorial k := by
  induction k generalizing len with
  | zero => rfl
  | succ k ih =>
    rw [Spec.removals, List.length_flatMap]
    simp only [List.length_map, ih, List.map_const', List.sum_replicate_nat, List.length_range]
    cases len with
    | zero => simp
    | succ len => rw [Nat.add_sub_cancel, Nat.succ_descFactorial_succ]

theorem mem_eraseIdx_iff {r : List Nat} (hr : r.Nodup) {p i : Nat} (hp : p < r.length) : r[p] ∈ r.eraseIdx i ↔ i ≠ p := by
  rw [List.mem_eraseIdx_iff_getElem]
  constructor
  · rintro ⟨q, hq, hne, heq⟩ rfl
    exact hne ((List.Nodup.getElem_inj_iff hr).1 heq)
  · intro hne
    exact ⟨p, hp, hne.symm, rfl⟩

/-- Every entry is equally likely to be left. -/
theorem isLeft_uniform (k : Nat) : ∀ (l : List (Nat × List Nat)) (j : Nat), (l.map Prod.fst).Nodup → l.length = nCells + k →
    (nCells + k) * (Spec.removals (nCells + k) k).countP (isLeft l j) =
      if j ∈ l.map Prod.fst then nCells * (Spec.removals (nCells + k) k).length else 0 := by
  induction k with
  | zero =>
    intro l j hl hlen
    have : isLeft l j [] = decide (j ∈ l.map Prod.fst) := by
      rw [isLeft, shrinkRandom, if_pos (by omega)]
    rw [Spec.removals]
    simp only [List.countP_singleton, this, decide_eq_true_eq, List.length_singleton]
    split_ifs <;> rfl
  | succ k ih =>
    intro l j hl hlen
    have hpos : 0 < nCells + k := by rw [nCells]; omega
    -- the first removal
    have hfirst : ∀ i < nCells + (k + 1), ∃ l', trySwapRemove i l = some l' ∧ (l'.map Prod.fst).Perm ((l.map Prod.fst).eraseIdx i) ∧
        ∀ idxs, isLeft l j (i :: idxs) = isLeft l' j idxs := by
      intro i hi
      have hs : ∃ l', trySwapRemove i l = some l' := by
        rw [trySwapRemove]
        cases hx : l.getLast? with
        | none =>
          rw [List.getLast?_eq_none_iff] at hx
          subst hx
          simp at hlen
        | some x =>
          simp only
          rw [if_pos (by omega)]
          exact ⟨_, rfl⟩
      obtain ⟨l', hs⟩ := hs
      refine ⟨l', hs, ?_, ?_⟩
      · have := (trySwapRemove_perm hs).map Prod.fst
        rwa [← List.eraseIdx_map] at this
      · intro idxs
        rw [isLeft, shrinkRandom, if_neg (by omega)]
        simp only [hs, Option.bind_some]
        rfl
    have hcount : (Spec.removals (nCells + (k + 1)) (k + 1)).countP (isLeft l j) =
        ((List.range (nCells + (k + 1))).map fun i =>
          (Spec.removals (nCells + k) k).countP fun idxs => isLeft l j (i :: idxs)).sum := by
      rw [Spec.removals, List.countP_flatMap]
      congr 1
      apply List.map_congr_left
      intro i _
      rw [Function.comp, List.countP_map]
      rfl
    have hlenr : (Spec.removals (nCells + (k + 1)) (k + 1)).length =
        (nCells + (k + 1)) * (Spec.removals (nCells + k) k).length := by
      rw [length_removals, length_removals, ← Nat.add_assoc, Nat.succ_descFactorial_succ]
    have hterm : ∀ i < nCells + (k + 1), (nCells + k) * ((Spec.removals (nCells + k) k).countP fun idxs => isLeft l j (i :: idxs)) =
        if j ∈ (l.map Prod.fst).eraseIdx i then nCells * (Spec.removals (nCells + k) k).length else 0 := by
      intro i hi
      obtain ⟨l', hs, hp, heq⟩ := hfirst i hi
      simp only [heq]
      have hil : i < (l.map Prod.fst).length := by rw [List.length_map]; omega
      have h1 : (l'.map Prod.fst).Nodup := hp.nodup_iff.2 (hl.sublist (List.eraseIdx_sublist _ _))
      have h2 : l'.length = nCells + k := by
        have := hp.length_eq
        rw [List.length_map, List.length_eraseIdx_of_lt hil, List.length_map] at this
        omega
      have := ih l' j h1 h2
      simp only [hp.mem_iff] at this
      exact this
    by_cases hj : j ∈ l.map Prod.fst
    · rw [if_pos hj, hlenr]
      obtain ⟨p, hp, rfl⟩ := List.getElem_of_mem hj
      have hsum : (nCells + k) * (Spec.removals (nCells + (k + 1)) (k + 1)).countP (isLeft l (l.map Prod.fst)[p]) =
          (nCells * (Spec.removals (nCells + k) k).length) * (nCells + k) := by
        rw [hcount, ← List.sum_map_mul_left]
        rw [sum_map_ite _ (fun i => decide (i ≠ p)) _ (nCells * (Spec.removals (nCells + k) k).length)]
        · congr 1
          rw [← Nat.add_assoc]
          rw [List.length_map] at hp
          exact countP_ne_range (by omega)
        · intro i hi h
          rw [List.mem_range] at hi
          rw [decide_eq_true_eq] at h
          rw [hterm i hi, if_pos ((mem_eraseIdx_iff hl hp).2 h)]
        · intro i hi h
          rw [List.mem_range] at hi
          rw [decide_eq_false_iff_not] at h
          rw [hterm i hi, if_neg (fun hm => h ((mem_eraseIdx_iff hl hp).1 hm))]
      have := Nat.eq_of_mul_eq_mul_left hpos (hsum.trans (Nat.mul_comm _ _))
      rw [this]
      ring
    · rw [if_neg hj]
      have hsum : (nCells + k) * (Spec.removals (nCells + (k + 1)) (k + 1)).countP (isLeft l j) = 0 := by
        rw [hcount, ← List.sum_map_mul_left]
        rw [sum_map_ite _ (fun _ => true) _ 0]
        · simp
        · intro i hi _
          rw [List.mem_range] at hi
          rw [hterm i hi, if_neg (fun h => hj (List.mem_of_mem_eraseIdx h))]
        · intro i _ h
          cases h
      rw [Nat.eq_of_mul_eq_mul_left hpos (hsum.trans (Nat.mul_zero _).symm), Nat.mul_zero]

/-- Number `j` is among the random cells after combining collectors that have seen `n` and `n'` cells. -/
def isRandomCombined [LinearOrder D] [LinearOrder K] (eventId : Nat → Nat) (cell cell' : Nat → Cell D K) (n n' : Nat) (j : Nat)
    (draw draw' idxs : List Nat) : Bool :=
  match CellCollector.collectAll eventId (cellsSeen cell (fun i => draw.getD i 0) n) CellCollector.new,
    CellCollector.collectAll eventId (cellsSeen cell' (fun i => draw'.getD i 0) n') CellCollector.new with
  | some s1, some s2 =>
    match CellCollector.combine idxs s1 s2 with
    | some s => decide (j ∈ s.random.map Prod.fst)
    | none => false
  | _, _ => false

/-- The number of sequences of random numbers for which number `j` is selected. -/
def selections [LinearOrder D] [LinearOrder K] (eventId : Nat → Nat) (cell cell' : Nat → Cell D K) (n n' : Nat) (j : Nat) : Nat :=
  ((Spec.draws n).map fun draw => ((Spec.draws n').map fun draw' =>
    (Spec.removals (min 10 n + min 10 n') (min 10 n + min 10 n' - 10)).countP
      (isRandomCombined eventId cell cell' n n' j draw draw')).sum).sum

/-- **C63** for several threads, as stated: all cells are equally likely to be selected. -/
def C63_combined_claim : Prop :=
  ∀ (eventId : Nat → Nat) (cell cell' : Nat → Cell Nat Int) (n n' j j' : Nat), j < n + n' → j' < n + n' →
    selections eventId cell cell' n n' j = selections eventId cell cell' n n' j'

theorem isRandomCombined_eq [LinearOrder D] [LinearOrder K] (eventId : Nat → Nat) (cell cell' : Nat → Cell D K) {n n' : Nat}
    (hn : 10 ≤ n) (hn' : 10 ≤ n') (draw draw' : List Nat) :
    ∃ l : List (Nat × List Nat), (l.map Prod.fst).Nodup ∧ l.length = nCells + 10 ∧
      (∀ j idxs, isRandomCombined eventId cell cell' n n' j draw draw' idxs = isLeft l j idxs) ∧
      (∀ j < n, j ∈ l.map Prod.fst ↔ isRandom eventId cell n draw j = true) ∧
      (∀ j, n + j ∈ l.map Prod.fst ↔ isRandom eventId cell' n' draw' j = true) := by
  obtain ⟨s1, h1, g1⟩ := collectAll_seen eventId cell (fun i => draw.getD i 0) n
  obtain ⟨s2, h2, g2⟩ := collectAll_seen eventId cell' (fun i => draw'.getD i 0) n'
  refine ⟨s1.random ++ s2.random.map (fun e => (e.1 + s1.count, e.2)), ?_, ?_, ?_, ?_, ?_⟩
  · rw [List.map_append, List.nodup_append, List.map_map, g1.count]
    refine ⟨g1.randomNodup, ?_, ?_⟩
    · have := g2.randomNodup.map (f := fun i => i + n) (fun a b hab => by simpa using hab)
      rw [List.map_map] at this
      exact this
    · intro a ha b hb hab
      obtain ⟨e, he, rfl⟩ := List.mem_map.1 ha
      obtain ⟨e', he', rfl⟩ := List.mem_map.1 hb
      have := (g1.randomEntry e he).1
      simp only [Function.comp] at hab
      omega
  · rw [List.length_append, List.length_map, g1.randomLength, g2.randomLength, nCells]
    omega
  · intro j idxs
    rw [isRandomCombined, h1, h2, isLeft]
    simp only [CellCollector.combine]
    cases shrinkRandom idxs (s1.random ++ s2.random.map fun e => (e.1 + s1.count, e.2)) with
    | none => rfl
    | some l => rfl
  · intro j hj
    rw [isRandom, h1, List.map_append, List.mem_append, g1.count]
    simp only [decide_eq_true_eq]
    constructor
    · rintro (h | h)
      · exact h
      · simp only [List.map_map, List.mem_map, Function.comp] at h
        obtain ⟨e, -, rfl⟩ := h
        omega
    · exact Or.inl
  · intro j
    rw [isRandom, h2, List.map_append, List.mem_append, g1.count]
    simp only [decide_eq_true_eq]
    constructor
    · rintro (h | h)
      · obtain ⟨e, he, heq⟩ := List.mem_map.1 h
        have := (g1.randomEntry e he).1
        omega
      · simp only [List.map_map, List.mem_map, Function.comp] at h
        obtain ⟨e, he, heq⟩ := h
        exact List.mem_map.2 ⟨e, he, by omega⟩
    · intro h
      obtain ⟨e, he, rfl⟩ := List.mem_map.1 h
      right
      simp only [List.map_map, List.mem_map, Function.comp]
      exact ⟨e, he, by omega⟩

attribute [local irreducible] Spec.removals Spec.draws selections

/-- **C63** for two threads that have each seen at least ten cells: a cell is selected with the probability `1/2 · 10/n`,
where `n` is the number of cells seen by *its* thread. -/
theorem C63_combined_partial [LinearOrder D] [LinearOrder K] (eventId : Nat → Nat) (cell cell' : Nat → Cell D K) {n n' : Nat}
    (hn : 10 ≤ n) (hn' : 10 ≤ n') :
    (∀ j < n, 2 * n * selections eventId cell cell' n n' j =
      10 * ((Spec.draws n).length * (Spec.draws n').length * (Spec.removals 20 10).length)) ∧
    (∀ j < n', 2 * n' * selections eventId cell cell' n n' (n + j) =
      10 * ((Spec.draws n).length * (Spec.draws n').length * (Spec.removals 20 10).length)) := by
  have hlen : min 10 n + min 10 n' = 20 := by omega
  have hterm : ∀ j draw draw', ∃ l : List (Nat × List Nat),
      (2 * (Spec.removals 20 10).countP (isRandomCombined eventId cell cell' n n' j draw draw') =
        if j ∈ l.map Prod.fst then (Spec.removals 20 10).length else 0) ∧
      (j < n → (j ∈ l.map Prod.fst ↔ isRandom eventId cell n draw j = true)) ∧
      (∀ i, j = n + i → (j ∈ l.map Prod.fst ↔ isRandom eventId cell' n' draw' i = true)) := by
    intro j draw draw'
    obtain ⟨l, h1, h2, h3, h4, h5⟩ := isRandomCombined_eq eventId cell cell' hn hn' draw draw'
    refine ⟨l, ?_, h4 j, fun i hi => hi ▸ h5 i⟩
    have hu := isLeft_uniform 10 l j h1 h2
    have he : isRandomCombined eventId cell cell' n n' j draw draw' = isLeft l j := by
      funext idxs
      exact h3 j idxs
    rw [he]
    have e20 : nCells + 10 = 20 := rfl
    have e10 : nCells = 10 := rfl
    rw [e20, e10] at hu
    generalize (Spec.removals 20 10).countP (isLeft l j) = a at hu ⊢
    generalize (Spec.removals 20 10).length = b at hu ⊢
    split_ifs at hu ⊢ <;> omega
  constructor
  · intro j hj
    rw [selections, hlen]
    have h1 : ∀ draw ∈ Spec.draws n, 2 * ((Spec.draws n').map fun draw' =>
        (Spec.removals 20 10).countP (isRandomCombined eventId cell cell' n n' j draw draw')).sum =
        if isRandom eventId cell n draw j = true then (Spec.removals 20 10).length * (Spec.draws n').length else 0 := by
      intro draw _
      rw [← List.sum_map_mul_left, sum_map_ite _ (fun _ => true) _ (if isRandom eventId cell n draw j = true then
        (Spec.removals 20 10).length else 0), List.countP_true]
      · split_ifs <;> simp
      · intro draw' _ _
        obtain ⟨l, e1, e2, -⟩ := hterm j draw draw'
        rw [e1]
        simp only [e2 hj]
      · intro _ _ h
        cases h
    have h2 : 2 * ((Spec.draws n).map fun draw => ((Spec.draws n').map fun draw' =>
        (Spec.removals 20 10).countP (isRandomCombined eventId cell cell' n n' j draw draw')).sum).sum =
        ((Spec.removals 20 10).length * (Spec.draws n').length) * (Spec.draws n).countP (fun draw => isRandom eventId cell n draw j) := by
      rw [← List.sum_map_mul_left]
      apply sum_map_ite
      · intro draw hd h
        rw [h1 draw hd, if_pos h]
      · intro draw hd h
        rw [h1 draw hd, h, if_neg (by decide)]
    have hu := C63_uniform eventId cell n hn j hj
    rw [Nat.mul_comm 2 n, Nat.mul_assoc]
    refine (congrArg (n * ·) h2).trans ?_
    rw [Nat.mul_left_comm, hu]
    ring
  · intro j hj
    rw [selections, hlen]
    have h1 : ∀ draw ∈ Spec.draws n, 2 * ((Spec.draws n').map fun draw' =>
        (Spec.removals 20 10).countP (isRandomCombined eventId cell cell' n n' (n + j) draw draw')).sum =
        (Spec.removals 20 10).length * (Spec.draws n').countP (fun draw' => isRandom eventId cell' n' draw' j) := by
      intro draw _
      rw [← List.sum_map_mul_left]
      apply sum_map_ite
      · intro draw' _ h
        obtain ⟨l, e1, -, e2⟩ := hterm (n + j) draw draw'
        rw [e1, if_pos ((e2 j rfl).2 h)]
      · intro draw' _ h
        obtain ⟨l, e1, -, e2⟩ := hterm (n + j) draw draw'
        rw [e1, if_neg]
        rw [e2 j rfl, h]
        decide
    have h2 : 2 * ((Spec.draws n).map fun draw => ((Spec.draws n').map fun draw' =>
        (Spec.removals 20 10).countP (isRandomCombined eventId cell cell' n n' (n + j) draw draw')).sum).sum =
        ((Spec.removals 20 10).length * (Spec.draws n').countP (fun draw' => isRandom eventId cell' n' draw' j)) *
          (Spec.draws n).length := by
      rw [← List.sum_map_mul_left, sum_map_ite _ (fun _ => true) _ _ (fun draw hd _ => h1 draw hd), List.countP_true]
      intro _ _ h
      cases h
    have hu := C63_uniform eventId cell' n' hn' j hj
    rw [Nat.mul_comm 2 n', Nat.mul_assoc]
    refine (congrArg (n' * ·) h2).trans ?_
    calc n' * ((Spec.removals 20 10).length * (Spec.draws n').countP (fun draw' => isRandom eventId cell' n' draw' j) *
          (Spec.draws n).length) =
        (n' * (Spec.draws n').countP (fun draw' => isRandom eventId cell' n' draw' j)) *
          ((Spec.removals 20 10).length * (Spec.draws n).length) := by ring
      _ = _ := by rw [hu]; ring

/-- **C63** does not hold after combining: of ten cells seen by one thread and eleven by another, the former are more likely to
be selected. -/
theorem C63_combined_violated : ¬ C63_combined_claim := by
  intro h
  obtain ⟨h1, h2⟩ := C63_combined_partial id smallCell smallCell (n := 10) (n' := 11) (by decide) (by decide)
  have e1 := h1 0 (by decide)
  have e2 := h2 0 (by decide)
  have e := h id smallCell smallCell 10 11 0 10 (by decide) (by decide)
  have hpos : 0 < (Spec.draws 10).length * (Spec.draws 11).length * (Spec.removals 20 10).length := by
    rw [length_draws, length_draws, length_removals]
    exact Nat.mul_pos (Nat.mul_pos (Nat.factorial_pos _) (Nat.factorial_pos _)) (Nat.descFactorial_pos.2 (by decide))
  rw [e] at e1
  rw [Nat.add_zero] at e2
  generalize (Spec.draws 10).length * (Spec.draws 11).length * (Spec.removals 20 10).length = t at e1 e2 hpos
  generalize selections id smallCell smallCell 10 11 10 = x at e1 e2
  omega


end Cres

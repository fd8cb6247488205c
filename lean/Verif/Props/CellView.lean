import Verif.Model.CellView
import Verif.Props.Resample

/-!
# C118: what observers learn about cells
-/

namespace Cres

open Spec

section

variable {D K : Type*} [Zero D] [Add K] [Zero K] [One K] [Mul K] [Div K] [NatCast K] [LinearOrder K]

/-- The radius of a cell and the neighbours in it. -/
def RadiusFrom (nearest : Nat → List (Nat × D)) (seed : Nat) (c : Cell D K) : Prop :=
  ∃ m, c.members.Perm (seed :: ((nearest seed).take m).map Prod.fst) ∧
    c.radius = ((((nearest seed).take m).getLast?).map Prod.snd).getD 0

/-- What holds for the cell of a task. -/
def RadiusOK (nearest : Nat → List (Nat × D)) (seed : Nat) : Task D K → Prop
  | .growing c rest => ∃ pre, nearest seed = pre ++ rest ∧ c.members = seed :: pre.map Prod.fst ∧
      c.radius = (pre.getLast?.map Prod.snd).getD 0
  | .locking c _ _ | .reading c _ _ | .writing c _ _ | .releasing c _ => RadiusFrom nearest seed c
  | .done (some c) => RadiusFrom nearest seed c
  | _ => True

theorem radiusFrom_start {nearest : Nat → List (Nat × D)} {seed : Nat} {c : Cell D K} {pre rest : List (Nat × D)}
    (h1 : nearest seed = pre ++ rest) (h2 : c.members = seed :: pre.map Prod.fst)
    (h3 : c.radius = (pre.getLast?.map Prod.snd).getD 0) : RadiusFrom nearest seed c.sortMembers := by
  refine ⟨pre.length, ?_, ?_⟩
  · rw [h1, List.take_left, ← h2]
    exact sortMembers_perm c
  · rw [h1, List.take_left]
    exact h3

theorem radiusOK_update {nearest : Nat → List (Nat × D)} {seed : Nat} {tasks : Nat → Task D K} {tid : Nat} {t : Task D K}
    (h : RadiusOK nearest seed t) : RadiusOK nearest seed (Function.update tasks tid t tid) ∧
      ∀ t', t' ≠ tid → Function.update tasks tid t t' = tasks t' :=
  ⟨by rw [Function.update_self]; exact h, fun _ ht => Function.update_of_ne ht ..⟩

theorem radiusOK_step {cfg : Cfg} {n : Nat} {nearest : Nat → List (Nat × D)} {seed : Nat} {s s' : State D K} {tid : Nat}
    (h : step cfg n nearest seed s tid = some s') (hok : RadiusOK nearest seed (s.tasks tid)) :
    RadiusOK nearest seed (s'.tasks tid) ∧ ∀ t, t ≠ tid → s'.tasks t = s.tasks t := by
  unfold step at h
  cases ht : s.tasks tid with
  | waiting =>
    rw [ht] at h
    simp only at h
    split_ifs at h
    split at h
    · cases h
      exact radiusOK_update trivial
    · split_ifs at h <;> cases h <;> exact radiusOK_update trivial
  | checked =>
    rw [ht] at h
    simp only at h
    split_ifs at h
    split at h
    · cases h
      exact radiusOK_update trivial
    · split_ifs at h <;> cases h
      · exact radiusOK_update trivial
      · exact radiusOK_update ⟨[], rfl, rfl, rfl⟩
  | growing c rest =>
    rw [ht] at h hok
    obtain ⟨pre, h1, h2, h3⟩ := hok
    cases rest with
    | nil =>
      cases h
      exact radiusOK_update (radiusFrom_start h1 h2 h3)
    | cons x rest =>
      obtain ⟨i, d⟩ := x
      simp only at h
      split_ifs at h
      split at h
      · cases h
        exact radiusOK_update trivial
      · rename_i w _
        have g1 : nearest seed = (pre ++ [(i, d)]) ++ rest := by rw [h1]; simp
        have g2 : c.members ++ [i] = seed :: (pre ++ [(i, d)]).map Prod.fst := by rw [h2]; simp
        have g3 : d = (((pre ++ [(i, d)]).getLast?).map Prod.snd).getD 0 := by simp
        split_ifs at h <;> cases h
        · exact radiusOK_update (radiusFrom_start (c := ⟨c.members ++ [i], d, c.weightSum + w⟩) g1 g2 g3)
        · exact radiusOK_update ⟨_, g1, g2, g3⟩
  | locking c held todo =>
    rw [ht] at h hok
    cases todo with
    | nil =>
      cases h
      exact radiusOK_update trivial
    | cons e todo =>
      simp only at h
      split_ifs at h <;> cases h <;> exact radiusOK_update hok
  | reading c acc todo =>
    rw [ht] at h hok
    cases todo with
    | nil =>
      cases h
      exact radiusOK_update trivial
    | cons e todo =>
      simp only at h
      split at h
      · cases h
        exact radiusOK_update trivial
      · cases h
        refine radiusOK_update ?_
        split_ifs <;> exact hok
  | writing c avg todo =>
    rw [ht] at h hok
    cases todo with
    | nil =>
      cases h
      exact radiusOK_update trivial
    | cons e todo =>
      simp only at h
      split_ifs at h <;> cases h <;> first | exact radiusOK_update trivial | exact radiusOK_update hok
  | releasing c todo =>
    rw [ht] at h hok
    cases todo with
    | nil =>
      cases h
      exact radiusOK_update hok
    | cons e todo =>
      simp only at h
      split_ifs at h <;> cases h <;> exact radiusOK_update hok
  | done c => rw [ht] at h; simp at h
  | panicked => rw [ht] at h; simp at h

theorem radiusOK_reachable {cfg : Cfg} {n : Nat} {nearest : Nat → List (Nat × D)} {seeds : List Nat} {mem : Mem K} {s : State D K}
    (h : Reachable cfg n nearest seeds mem s) : ∀ (tid seed : Nat), seeds[tid]? = some seed → RadiusOK nearest seed (s.tasks tid) := by
  induction h with
  | init => exact fun _ _ _ => trivial
  | @step s s' tid _ hst ih =>
    intro t seed ht
    unfold stepAll at hst
    cases hs : seeds[tid]? with
    | none => rw [hs] at hst; simp at hst
    | some seed' =>
      rw [hs] at hst
      obtain ⟨h1, h2⟩ := radiusOK_step hst (ih tid seed' hs)
      by_cases he : t = tid
      · subst he
        rw [hs] at ht
        cases ht
        exact h1
      · rw [h2 t he]
        exact ih t seed ht

end

section

variable {D K : Type*} [Zero D] [LinearOrder D] [Add K] [Zero K] [One K] [Mul K] [Div K] [NatCast K] [LinearOrder K]

/-- **C118**, radius: in any arithmetic and for all interleavings, the cell that is passed to the observer for a seed contains the seed, no event
twice, and the radius is the largest distance of a member from the seed (0 if there is only the seed) and at most the maximum cell size. Events that are
left out are not closer to the seed than any member. -/
theorem C118_radius {cfg : Cfg} {n : Nat} {nearest : Nat → List (Nat × D)} {seeds : List Nat} {mem : Mem K} {dist : Nat → Nat → D}
    {maxDist : D} {s : State D K} (h : Reachable cfg n nearest seeds mem s) {tid seed : Nat} (hs : seeds[tid]? = some seed)
    (hn : IsNeighbourList dist (List.range n) seed maxDist (nearest seed)) {c : Cell D K} (hd : s.tasks tid = .done (some c)) :
    seed ∈ c.members ∧ c.members.Nodup ∧ (∀ i ∈ c.members, i ≠ seed → dist seed i ≤ c.radius) ∧
      ((c.members = [seed] ∧ c.radius = 0) ∨ ∃ i ∈ c.members, i ≠ seed ∧ c.radius = dist seed i ∧ c.radius ≤ maxDist) ∧
      -- a neighbour is left out only if all members are at least as close
      (∀ i < n, i ∉ c.members → dist seed i ≤ maxDist → ∀ j ∈ c.members, j ≠ seed → dist seed j ≤ dist seed i) := by
  have hok := radiusOK_reachable h tid seed hs
  rw [hd] at hok
  obtain ⟨m, hp, hr⟩ := hok
  generalize hL : nearest seed = L at hn hp hr
  have hsub : (L.take m).Sublist L := List.take_sublist _ _
  have hmem : ∀ i, i ∈ c.members ↔ i = seed ∨ ∃ x ∈ L.take m, x.1 = i := by
    intro i
    rw [hp.mem_iff, List.mem_cons, List.mem_map]
  have hns : ∀ x ∈ L, x.1 ≠ seed := fun x hx => ((hn.mem x.1).1 (List.mem_map.2 ⟨x, hx, rfl⟩)).2.1
  refine ⟨(hmem seed).2 (Or.inl rfl), ?_, ?_, ?_, ?_⟩
  · rw [hp.nodup_iff]
    refine List.nodup_cons.2 ⟨?_, hn.nodup.sublist (hsub.map _)⟩
    intro hm
    obtain ⟨x, hx, hxs⟩ := List.mem_map.1 hm
    exact hns x (hsub.subset hx) hxs
  · intro i hi hne
    rcases (hmem i).1 hi with h | ⟨x, hx, rfl⟩
    · exact absurd h hne
    · rw [← hn.dist_eq x (hsub.subset hx), hr]
      have hs : (L.take m).Pairwise (fun a b => a.2 ≤ b.2) := hn.sorted.sublist hsub
      generalize L.take m = l at hx hs
      cases hl : l.getLast? with
      | none => rw [List.getLast?_eq_none_iff] at hl; subst hl; simp at hx
      | some y =>
        simp only [Option.map_some, Option.getD_some]
        obtain ⟨l', rfl⟩ := List.getLast?_eq_some_iff.1 hl
        rcases List.mem_append.1 hx with h | h
        · exact (List.pairwise_append.1 hs).2.2 x h y (by simp)
        · simp only [List.mem_singleton] at h; subst h; exact le_refl _
  · cases hl : (L.take m).getLast? with
    | none =>
      left
      have h0 : L.take m = [] := List.getLast?_eq_none_iff.1 hl
      rw [h0] at hp
      exact ⟨List.perm_singleton.1 hp, by rw [hr, hl]; rfl⟩
    | some y =>
      right
      have hy : y ∈ L.take m := List.mem_of_getLast? hl
      have hy2 := hsub.subset hy
      have hym := (hn.mem y.1).1 (List.mem_map.2 ⟨y, hy2, rfl⟩)
      have hr' : c.radius = y.2 := by rw [hr, hl]; rfl
      refine ⟨y.1, (hmem y.1).2 (Or.inr ⟨y, hy, rfl⟩), hym.2.1, ?_, ?_⟩
      · rw [hr', hn.dist_eq y hy2]
      · rw [hr', hn.dist_eq y hy2]; exact hym.2.2
  · intro i hi hni hd j hj hjs
    rw [hmem, not_or] at hni
    have hin := (hn.mem i).2 ⟨by simpa using hi, hni.1, hd⟩
    rcases (hmem j).1 hj with hj | ⟨x, hx, rfl⟩
    · exact absurd hj hjs
    · obtain ⟨y, hy, rfl⟩ := List.mem_map.1 hin
      have hy' : y ∈ L.drop m := by
        rw [← List.take_append_drop m L] at hy
        rcases List.mem_append.1 hy with hy | hy
        · exact absurd ⟨y, hy, rfl⟩ hni.2
        · exact hy
      have hs := hn.sorted
      rw [← List.take_append_drop m L] at hs
      have := (List.pairwise_append.1 hs).2.2 x hx y hy'
      rwa [hn.dist_eq x (List.mem_of_mem_take hx), hn.dist_eq y (List.mem_of_mem_drop hy')] at this

-- two threads: the radii of both cells are right, although the second sum of weights is not that of its members any more
example : ∃ s, Reachable ⟨false, false⟩ 4 (exNearest [-1, 1, 0, 10]) [0, 1] (exMem [-1, -1, 1, 2]) s ∧
    s.tasks 1 = .done (some ⟨[1, 2], 1, 0⟩) := by
  have : (runSchedule ⟨false, false⟩ 4 (exNearest [-1, 1, 0, 10]) [0, 1] raceSchedule
      (State.init (exMem [-1, -1, 1, 2]))).map (fun s => s.tasks 1) = some (.done (some ⟨[1, 2], 1, 0⟩)) := by decide +kernel
  obtain ⟨s, hs, h1⟩ := Option.map_eq_some_iff.1 this
  exact ⟨s, runSchedule_reachable _ Reachable.init hs, h1⟩

end

section

variable {D K : Type*} [Zero D] [Field K] [LinearOrder K] [IsStrictOrderedRing K]

/-- **C118**, one cell after the other, exact arithmetic: when the observer is called, the sum of weights of the cell is the sum of the weights of its members, and
all of them have the same weight. So either none or all of the weights are negative, and the latter only if there were not enough
neighbours. -/
theorem C118_serial_partial {cfg : Cfg} {n L : Nat} {nearest : Nat → List (Nat × D)} {mem mem' : Mem K} {seed : Nat} {c : Cell D K}
    (hu : Uniform cfg n L mem) (h : resampleSeed cfg n nearest mem seed = some (mem', some c)) :
    0 < c.nmembers ∧ c.weightSum = (c.members.map (wt mem' 0)).sum ∧ (∀ i ∈ c.members, wt mem' 0 i = c.weightSum / c.nmembers) ∧
      c.nnegWeights mem' = (if c.weightSum < 0 then c.nmembers else 0) ∧
      (c.weightSum < 0 → c.members.Perm (seed :: (nearest seed).map Prod.fst)) := by
  obtain ⟨hlt, ⟨-, -, h0⟩ | ⟨-, c', hnew, hc, hres⟩⟩ := resampleSeed_cases h
  · cases h0
  cases hc
  obtain ⟨⟨m, hm⟩, hmem, -⟩ := new_isCell hnew
  have hne : c'.members ≠ [] := by rw [hm.members_eq]; simp
  have havg := resample_isCellAverage hne (hu.fits fun i hi => (hmem i hi).1) hres
  have hp := sortMembers_perm c'
  have hlen : (c'.members.length : K) ≠ 0 := by
    rw [Nat.cast_ne_zero, Ne, List.length_eq_zero_iff]
    exact hne
  have hw : ∀ i ∈ c'.members, wt mem' 0 i = c'.weightSum / c'.members.length := by
    intro i hi
    rw [havg.mean i hi 0, hm.sum_eq]
  have hpos : 0 < c'.members.length := List.length_pos_iff.2 hne
  have hw' : ∀ i ∈ c'.sortMembers.members, wt mem' 0 i = c'.weightSum / c'.members.length := fun i hi => hw i (hp.mem_iff.1 hi)
  have hl : c'.sortMembers.members.length = c'.members.length := hp.length_eq
  refine ⟨by rw [Cell.nmembers, hl]; exact hpos, ?_, ?_, ?_, ?_⟩
  · change c'.weightSum = _
    rw [List.map_congr_left hw', List.map_const', List.sum_replicate, hl, nsmul_eq_mul, mul_div_cancel₀ _ hlen]
  · intro i hi
    rw [hw' i hi, Cell.nmembers, hl]
    rfl
  · have hc : ∀ i ∈ c'.sortMembers.members, (match (mem' i).central with | some w => decide (w < 0) | none => false) =
        decide (c'.weightSum < 0) := by
      intro i hi
      have hi' := hp.mem_iff.1 hi
      have hln := havg.length i
      have hne' : mem' i ≠ [] := by
        intro h0
        rw [h0] at hln
        exact (hmem i hi').2 (List.length_eq_zero_iff.1 hln.symm)
      have : (mem' i).central = some (wt mem' 0 i) := by
        unfold Weights.central wt
        cases hx : mem' i with
        | nil => exact absurd hx hne'
        | cons a l => rfl
      rw [this]
      simp only
      rw [hw' i hi, decide_eq_decide, div_lt_iff₀ (by exact_mod_cast hpos), zero_mul]
    unfold Cell.nnegWeights
    change _ = if c'.weightSum < 0 then _ else 0
    refine (congrArg List.length (List.filter_congr hc)).trans ?_
    by_cases hn : c'.weightSum < 0
    · simp [hn, Cell.nmembers]
    · simp [hn]
  · intro hn
    change c'.weightSum < 0 at hn
    refine hp.trans ?_
    rw [hm.members_eq]
    rcases hm.enough with he | he
    · rw [he, List.take_length]
    · exact absurd he (not_le.2 hn)

/-- **C118**, full statement for the sum of weights: whatever other threads do, when the observer is called for a cell its sum of weights is the
sum of the weights of its members. -/
def C118_claim (cfg : Cfg) : Prop :=
  ∀ (pos : List ℤ) (ws : List ℚ) (seeds : List Nat) (s s' : State ℤ ℚ) (tid : Nat) (c : Cell ℤ ℚ),
    (∀ i < pos.length, wt (exMem ws) 0 i < 0 ↔ i ∈ seeds) → (∀ i ∈ seeds, i < pos.length) → seeds.Nodup →
    Reachable cfg pos.length (exNearest pos) seeds (exMem ws) s → stepAll cfg pos.length (exNearest pos) seeds s tid = some s' →
    s'.tasks tid = .done (some c) → c.weightSum = (c.members.map (wt s'.mem 0)).sum

/-- **C118 is false**: in the example of C05 the second cell is passed to the observer with a sum of weights of 0, but the sum of the weights of
its members is −1, because the first cell has taken the weight of the event in between. -/
theorem C118_violated : ¬ C118_claim ⟨false, false⟩ := by
  intro h
  have h1 : ((runSchedule ⟨false, false⟩ 4 (exNearest [-1, 1, 0, 10]) [0, 1] raceSchedule.dropLast
      (State.init (exMem [-1, -1, 1, 2]))).bind fun s => (stepAll ⟨false, false⟩ 4 (exNearest [-1, 1, 0, 10]) [0, 1] s 1).map
        fun s' => (s'.tasks 1, s'.mem 1, s'.mem 2)) = some (.done (some ⟨[1, 2], 1, 0⟩), [-1/2], [-1/2]) := by decide +kernel
  obtain ⟨s, hs, h2⟩ := Option.bind_eq_some_iff.1 h1
  obtain ⟨s', hs', h3⟩ := Option.map_eq_some_iff.1 h2
  simp only [Prod.mk.injEq] at h3
  have := h [-1, 1, 0, 10] [-1, -1, 1, 2] [0, 1] s s' 1 ⟨[1, 2], 1, 0⟩
    (by intro i hi; simp only [List.length_cons, List.length_nil] at hi; interval_cases i <;> norm_num [wt, exMem])
    (by simp) (by decide) (runSchedule_reachable _ Reachable.init hs) hs' h3.1
  simp only [List.map_cons, List.map_nil, wt, h3.2.1, h3.2.2] at this
  norm_num at this

end

/-! ### Examples -/

-- one cell: the observer sees two members, the radius 4 and the sum −2, and two negative weights
example : (resampleSeed ⟨false, false⟩ 2 (exNearest [0, 4]) (exMem [-3, 1]) 0).map
    (fun r => r.2.map fun c => (c.nmembers, c.radius, c.weightSum, c.nnegWeights r.1)) = some (some (2, 4, (-2 : ℚ), 2)) := by
  decide +kernel

-- enough neighbours: no negative weights
example : (resampleSeed ⟨false, false⟩ 4 (exNearest [0, 4, -6, 7]) (exMem [-3, 1, 1, 4]) 0).map
    (fun r => r.2.map fun c => (c.nmembers, c.radius, c.weightSum, c.nnegWeights r.1)) = some (some (4, 7, (3 : ℚ), 0)) := by
  decide +kernel

-- the hypotheses of the theorems can be met
example : Uniform ⟨false, false⟩ 2 1 (exMem [-3, 1]) := exUniform _ _ _

end Cres

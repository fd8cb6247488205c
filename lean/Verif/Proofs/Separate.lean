import Verif.Proofs.ResampleGoals
import Verif.Props.Resample

/-!
Lemmas for C109 and C110: parallel resampling if the neighbours of different seeds are different.
-/

set_option linter.unusedSectionVars false

namespace Cres

open Spec

section

variable {D K : Type*} [Zero D] [Add K] [Zero K] [One K] [Mul K] [Div K] [NatCast K] [LinearOrder K]

/-- The seed and its neighbours. -/
def near (nearest : Nat → List (Nat × D)) (seed : Nat) : List Nat := seed :: (nearest seed).map Prod.fst

/-- Seeds do not share neighbours. -/
def Separate (nearest : Nat → List (Nat × D)) (seeds : List Nat) : Prop :=
  seeds.Pairwise fun s t => ∀ i ∈ near nearest s, i ∉ near nearest t

theorem Separate.ne {nearest : Nat → List (Nat × D)} {seeds : List Nat} (h : Separate nearest seeds) {t t' s s' : Nat}
    (ht : seeds[t]? = some s) (ht' : seeds[t']? = some s') (hne : t ≠ t') : ∀ i ∈ near nearest s, i ∉ near nearest s' := by
  obtain ⟨hl, rfl⟩ := List.getElem?_eq_some_iff.1 ht
  obtain ⟨hl', rfl⟩ := List.getElem?_eq_some_iff.1 ht'
  have hp := List.pairwise_iff_getElem.1 h
  rcases Nat.lt_or_gt_of_ne hne with hlt | hlt
  · exact hp t t' hl hl' hlt
  · intro i hi hi'
    exact hp t' t hl' hl hlt i hi' hi

theorem CellFrom.near {nearest : Nat → List (Nat × D)} {seed : Nat} {c : Cell D K} (h : CellFrom nearest seed c) :
    ∀ i ∈ c.members, i ∈ near nearest seed := by
  intro i hi
  obtain ⟨⟨m, hm⟩, -⟩ := h
  rcases List.mem_cons.1 (hm.mem_iff.1 hi) with rfl | hi
  · exact List.mem_cons_self
  · obtain ⟨x, hx, rfl⟩ := List.mem_map.1 hi
    exact List.mem_cons_of_mem _ (List.mem_map.2 ⟨x, List.mem_of_mem_take hx, rfl⟩)

/-- The cell of the seed if it is made from the weights `mem0`. -/
def MadeFrom (cfg : Cfg) (n : Nat) (nearest : Nat → List (Nat × D)) (mem0 : Mem K) (seed : Nat) (c : Cell D K) : Prop :=
  ∃ w c0, weightAt n mem0 seed = some w ∧ ¬ 0 < w ∧ Cell.new cfg n mem0 seed (nearest seed) = some c0 ∧ c = c0.sortMembers

/-- What holds for a task if other tasks do not touch the neighbours of the seed. -/
def LocalOK (cfg : Cfg) (n : Nat) (nearest : Nat → List (Nat × D)) (mem0 : Mem K) (seed : Nat) (mem : Mem K) : Task D K → Prop
  | .waiting => ∀ i ∈ near nearest seed, mem i = mem0 i
  | .checked => (∀ i ∈ near nearest seed, mem i = mem0 i) ∧ ∃ w, weightAt n mem0 seed = some w ∧ ¬ 0 < w
  | .growing c rest => (∀ i ∈ near nearest seed, mem i = mem0 i) ∧ (∃ w, weightAt n mem0 seed = some w ∧ ¬ 0 < w) ∧
      Cell.new cfg n mem0 seed (nearest seed) = Cell.grow (weightAt n mem0) rest c
  | .locking c _ _ => MadeFrom cfg n nearest mem0 seed c
  | .reading c _ _ => MadeFrom cfg n nearest mem0 seed c
  | .writing c _ _ => MadeFrom cfg n nearest mem0 seed c
  | .releasing c _ => MadeFrom cfg n nearest mem0 seed c
  | .done (some c) => MadeFrom cfg n nearest mem0 seed c
  | .done none => ∃ w, weightAt n mem0 seed = some w ∧ 0 < w
  | .panicked => True

theorem LocalOK.frame {cfg : Cfg} {n : Nat} {nearest : Nat → List (Nat × D)} {mem0 mem mem' : Mem K} {seed : Nat} {t : Task D K}
    (h : LocalOK cfg n nearest mem0 seed mem t) (hm : ∀ i ∈ near nearest seed, mem' i = mem i) :
    LocalOK cfg n nearest mem0 seed mem' t := by
  cases t with
  | waiting => exact fun i hi => (hm i hi).trans (h i hi)
  | checked => exact ⟨fun i hi => (hm i hi).trans (h.1 i hi), h.2⟩
  | growing c rest => exact ⟨fun i hi => (hm i hi).trans (h.1 i hi), h.2⟩
  | locking c _ _ => exact h
  | reading c _ _ => exact h
  | writing c _ _ => exact h
  | releasing c _ => exact h
  | done c =>
    cases c with
    | none => exact h
    | some c => exact h
  | panicked => trivial

/-- A step of a task, and what it does to the other tasks. -/
theorem local_step {cfg : Cfg} {n L : Nat} {nearest : Nat → List (Nat × D)} {seed : Nat} {mem0 A : Mem K} {s s' : State D K} {t : Nat}
    (hok : TaskOK cfg L nearest seed s.mem A (s.tasks t)) (hl : LocalOK cfg n nearest mem0 seed s.mem (s.tasks t))
    (h : step cfg n nearest seed s t = some s') :
    (∀ t', t' ≠ t → s'.tasks t' = s.tasks t') ∧ LocalOK cfg n nearest mem0 seed s'.mem (s'.tasks t) := by
  have hw : ∀ {mem : Mem K} {i}, mem i = mem0 i → weightAt n mem i = weightAt n mem0 i := by
    intro mem i hi
    unfold weightAt
    rw [hi]
  have hu : ∀ (new : Task D K) t', t' ≠ t → Function.update s.tasks t new t' = s.tasks t' :=
    fun new t' ht' => Function.update_of_ne ht' _ _
  unfold step at h
  cases ht : s.tasks t with
  | waiting =>
    rw [ht] at h hl
    simp only at h
    split at h
    · simp at h
    have hwt := hw (hl seed List.mem_cons_self)
    cases hws : weightAt n s.mem seed with
    | none =>
      rw [hws] at h
      simp only [Option.some.injEq] at h
      subst h
      exact ⟨hu _, by simp only [Function.update_self]; trivial⟩
    | some w =>
      rw [hws] at h hwt
      simp only at h
      split at h
      · next hp =>
        simp only [Option.some.injEq] at h
        subst h
        exact ⟨hu _, by simp only [Function.update_self]; exact ⟨w, hwt.symm, hp⟩⟩
      · next hp =>
        simp only [Option.some.injEq] at h
        subst h
        exact ⟨hu _, by simp only [Function.update_self]; exact ⟨hl, w, hwt.symm, hp⟩⟩
  | checked =>
    rw [ht] at h hl
    simp only at h
    split at h
    · simp at h
    have hwt := hw (hl.1 seed List.mem_cons_self)
    cases hws : weightAt n s.mem seed with
    | none =>
      rw [hws] at h
      simp only [Option.some.injEq] at h
      subst h
      exact ⟨hu _, by simp only [Function.update_self]; trivial⟩
    | some w =>
      rw [hws] at h hwt
      simp only at h
      split at h
      · simp only [Option.some.injEq] at h
        subst h
        exact ⟨hu _, by simp only [Function.update_self]; trivial⟩
      · next hp =>
        simp only [Option.some.injEq] at h
        subst h
        refine ⟨hu _, ?_⟩
        simp only [Function.update_self]
        refine ⟨hl.1, hl.2, ?_⟩
        unfold Cell.new
        rw [← hwt]
        simp only
        rw [if_neg hp]
  | growing c rest =>
    rw [ht] at h hl hok
    obtain ⟨m, -, -, hm⟩ := hok
    obtain ⟨h1, ⟨w0, h2, h2'⟩, h3⟩ := hl
    cases rest with
    | nil =>
      simp only [Option.some.injEq] at h
      subst h
      refine ⟨hu _, ?_⟩
      simp only [Function.update_self, startResample]
      exact ⟨w0, c, h2, h2', h3, rfl⟩
    | cons x rest =>
      obtain ⟨i, d⟩ := x
      simp only at h
      split at h
      · simp at h
      have hi : i ∈ near nearest seed := by
        refine List.mem_cons_of_mem _ (List.mem_map.2 ⟨(i, d), ?_, rfl⟩)
        exact List.mem_of_mem_drop (i := m) (by rw [← hm]; exact List.mem_cons_self)
      have hwt := hw (h1 i hi)
      cases hws : weightAt n s.mem i with
      | none =>
        rw [hws] at h
        simp only [Option.some.injEq] at h
        subst h
        exact ⟨hu _, by simp only [Function.update_self]; trivial⟩
      | some w =>
        rw [hws] at h hwt
        simp only at h
        rw [Cell.grow, ← hwt] at h3
        simp only at h3
        split at h
        · next hp =>
          rw [if_pos hp] at h3
          simp only [Option.some.injEq] at h
          subst h
          refine ⟨hu _, ?_⟩
          simp only [Function.update_self, startResample]
          exact ⟨w0, _, h2, h2', h3, rfl⟩
        · next hp =>
          rw [if_neg hp] at h3
          simp only [Option.some.injEq] at h
          subst h
          refine ⟨hu _, ?_⟩
          simp only [Function.update_self]
          exact ⟨h1, ⟨w0, h2, h2'⟩, h3⟩
  | locking c held todo =>
    rw [ht] at h hl
    cases todo with
    | nil =>
      simp only [Option.some.injEq] at h
      subst h
      exact ⟨hu _, by simp only [Function.update_self]; trivial⟩
    | cons e todo =>
      simp only at h
      split at h
      · simp at h
      split at h
      · simp only [Option.some.injEq] at h
        subst h
        exact ⟨hu _, by simp only [Function.update_self]; exact hl⟩
      · simp only [Option.some.injEq] at h
        subst h
        exact ⟨hu _, by simp only [Function.update_self]; exact hl⟩
  | reading c acc todo =>
    rw [ht] at h hl
    cases todo with
    | nil =>
      simp only [Option.some.injEq] at h
      subst h
      exact ⟨hu _, by simp only [Function.update_self]; trivial⟩
    | cons e todo =>
      simp only at h
      split at h
      · simp only [Option.some.injEq] at h
        subst h
        exact ⟨hu _, by simp only [Function.update_self]; trivial⟩
      · simp only [Option.some.injEq] at h
        subst h
        refine ⟨hu _, ?_⟩
        simp only [Function.update_self]
        split <;> split <;> exact hl
  | writing c avg todo =>
    rw [ht] at h hl
    cases todo with
    | nil =>
      simp only [Option.some.injEq] at h
      subst h
      exact ⟨hu _, by simp only [Function.update_self]; trivial⟩
    | cons e todo =>
      simp only at h
      split at h
      · split at h
        · simp only [Option.some.injEq] at h
          subst h
          exact ⟨hu _, by simp only [Function.update_self]; trivial⟩
        · simp only [Option.some.injEq] at h
          subst h
          refine ⟨hu _, ?_⟩
          simp only [Function.update_self]
          split
          · exact hl
          · exact hl
      · simp only [Option.some.injEq] at h
        subst h
        refine ⟨hu _, ?_⟩
        simp only [Function.update_self]
        split
        · exact hl
        · exact hl
  | releasing c todo =>
    rw [ht] at h hl
    cases todo with
    | nil =>
      simp only [Option.some.injEq] at h
      subst h
      exact ⟨hu _, by simp only [Function.update_self]; exact hl⟩
    | cons e todo =>
      simp only [Option.some.injEq] at h
      subst h
      refine ⟨hu _, ?_⟩
      simp only [Function.update_self]
      split
      · exact hl
      · exact hl
  | done c => rw [ht] at h; simp at h
  | panicked => rw [ht] at h; simp at h

theorem heldBy_near {cfg : Cfg} {L : Nat} {nearest : Nat → List (Nat × D)} {seed : Nat} {mem A : Mem K} {t : Task D K}
    (h : TaskOK cfg L nearest seed mem A t) : ∀ e ∈ heldBy cfg t, e ∈ near nearest seed := by
  intro e he
  cases t with
  | locking c held todo =>
    obtain ⟨h1, h2, -⟩ := h
    exact h1.near e (by rw [← h2]; exact List.mem_append_left _ he)
  | reading c acc todo => exact h.1.near e he
  | writing c avg todo =>
    simp only [heldBy] at he
    split at he
    · exact h.1.near e he
    · exact h.1.near e (h.2.2.2.1 e he)
  | releasing c todo => exact h.1.near e (h.2.2.2.2 e he)
  | waiting => simp [heldBy] at he
  | checked => simp [heldBy] at he
  | growing c rest => simp [heldBy] at he
  | done c => simp [heldBy] at he
  | panicked => simp [heldBy] at he

/-- The local statements hold for all interleavings. -/
theorem local_reachable {cfg : Cfg} {n L : Nat} {nearest : Nat → List (Nat × D)} {seeds : List Nat}
    (hv : ValidInput n nearest seeds) {mem0 : Mem K} (hu : Uniform cfg n L mem0) (hsep : Separate nearest seeds) {s : State D K}
    (h : Reachable cfg n nearest seeds mem0 s) :
    ∀ t seed, seeds[t]? = some seed → LocalOK cfg n nearest mem0 seed s.mem (s.tasks t) := by
  induction h with
  | init => exact fun t seed _ i _ => rfl
  | @step s s' tid hr hs ih =>
    obtain ⟨A, hA⟩ := inv_reachable hv hu hr
    cases hseed : seeds[tid]? with
    | none => unfold stepAll at hs; rw [hseed] at hs; simp at hs
    | some seed =>
      have hacc := (C09_access_under_lock hv hu hr hseed hs).2
      have hs' := hs
      unfold stepAll at hs'
      rw [hseed] at hs'
      obtain ⟨g1, g2⟩ := local_step (hA.ok tid seed hseed) (ih tid seed hseed) hs'
      intro t sd htsd
      by_cases htt : t = tid
      · subst htt
        rw [hseed, Option.some.injEq] at htsd
        subst htsd
        exact g2
      · rw [g1 t htt]
        refine (ih t sd htsd).frame fun i hi => ?_
        by_contra hne
        exact hsep.ne htsd hseed htt i hi (heldBy_near (hA.ok tid seed hseed) i (hacc i hne))

theorem resample_local {cfg : Cfg} {c : Cell D K} {mem mem' : Mem K} (h : ∀ i ∈ c.members, mem' i = mem i) {m' : Mem K}
    (hm' : c.resample cfg mem' = some m') :
    (∃ m, c.resample cfg mem = some m ∧ ∀ i ∈ c.members, m' i = m i) ∧ ∀ i, i ∉ c.members → m' i = mem' i := by
  have hp := sortMembers_perm c
  unfold Cell.resample at hm' ⊢
  simp only at hm' ⊢
  rw [List.map_congr_left fun i hi => h i (hp.mem_iff.1 hi)] at hm'
  cases ha : average cfg (c.sortMembers.members.map mem) with
  | none => rw [ha] at hm'; simp at hm'
  | some avg =>
    rw [ha] at hm'
    simp only [Option.map_some, Option.some.injEq] at hm'
    subst hm'
    refine ⟨⟨_, rfl, fun i hi => ?_⟩, fun i hi => ?_⟩
    · have := hp.mem_iff.2 hi
      simp [this]
    · have : i ∉ c.sortMembers.members := fun h => hi (hp.mem_iff.1 h)
      simp [this]

/-- Averaging cells without common members. -/
theorem applyCells_disjoint {cfg : Cfg} : ∀ (cells : List (Cell D K)) {mem A : Mem K},
    cells.Pairwise (fun c d => ∀ i ∈ c.members, i ∉ d.members) → applyCells cfg cells mem = some A →
    (∀ c ∈ cells, ∃ m, c.resample cfg mem = some m ∧ ∀ i ∈ c.members, A i = m i) ∧
      ∀ i, (∀ c ∈ cells, i ∉ c.members) → A i = mem i := by
  intro cells
  induction cells with
  | nil =>
    intro mem A _ h
    simp only [applyCells, List.foldlM_nil, Option.pure_def, Option.some.injEq] at h
    subst h
    exact ⟨fun c hc => by simp at hc, fun i _ => rfl⟩
  | cons c cells ih =>
    intro mem A hd h
    obtain ⟨hd1, hd2⟩ := List.pairwise_cons.1 hd
    unfold applyCells at h
    rw [List.foldlM_cons] at h
    cases hc : c.resample cfg mem with
    | none => rw [hc] at h; simp at h
    | some m1 =>
      rw [hc] at h
      change applyCells cfg cells m1 = some A at h
      obtain ⟨g1, g2⟩ := ih hd2 h
      obtain ⟨-, k2⟩ := resample_local (mem := mem) (fun _ _ => rfl) hc
      refine ⟨fun d hd' => ?_, fun i hi => ?_⟩
      · rcases List.mem_cons.1 hd' with rfl | hd'
        · exact ⟨m1, hc, fun i hi => g2 i fun e he => hd1 e he i hi⟩
        · obtain ⟨m, q1, q2⟩ := g1 d hd'
          obtain ⟨⟨m2, r1, r2⟩, -⟩ := resample_local (mem := mem) (fun i hi => k2 i fun hic => hd1 d hd' i hic hi) q1
          exact ⟨m2, r1, fun i hi => (q2 i hi).trans (r2 i hi)⟩
      · rw [g2 i fun e he => hi e (List.mem_cons_of_mem _ he), k2 i (hi c List.mem_cons_self)]

/-- If seeds do not share neighbours, then in the end the weights of each seed and its neighbours are those after resampling
for this seed only, and other weights are unchanged, for all interleavings. -/
theorem separate_final {cfg : Cfg} {n L : Nat} {nearest : Nat → List (Nat × D)} {seeds : List Nat}
    (hv : ValidInput n nearest seeds) {mem0 : Mem K} (hu : Uniform cfg n L mem0) (hsep : Separate nearest seeds) {s : State D K}
    (h : Reachable cfg n nearest seeds mem0 s) (hf : s.Finished seeds) :
    (∀ seed ∈ seeds, ∃ r, resampleSeed cfg n nearest mem0 seed = some r ∧ ∀ i ∈ near nearest seed, s.mem i = r.1 i) ∧
      ∀ i, (∀ seed ∈ seeds, i ∉ near nearest seed) → s.mem i = mem0 i := by
  obtain ⟨A, hA⟩ := inv_reachable hv hu h
  have hloc := local_reachable hv hu hsep h
  have hlog := hA.log
  rw [← finished_mem hA hf] at hlog
  have hmem : ∀ c ∈ s.log, ∃ t seed, seeds[t]? = some seed ∧ (s.tasks t).committed = some c ∧ CellFrom nearest seed c :=
    inv_log_cells hA
  have hdis : s.log.Pairwise (fun c d => ∀ i ∈ c.members, i ∉ d.members) := by
    refine (hA.logged.pairwise_iff (fun hab i hi hi' => hab i hi' hi)).2 ?_
    rw [List.pairwise_filterMap]
    refine (List.nodup_range (n := seeds.length)).imp_of_mem ?_
    intro t t' ht ht' hne c hc d hd
    have hin : ∀ {t : Nat} {c : Cell D K}, t ∈ List.range seeds.length → (s.tasks t).committed = some c →
        ∃ seed, seeds[t]? = some seed ∧ CellFrom nearest seed c := by
      intro t c ht hc
      have htl := List.mem_range.1 ht
      refine ⟨_, List.getElem?_eq_getElem htl, ?_⟩
      have hok := hA.ok t _ (List.getElem?_eq_getElem htl)
      obtain ⟨o, ho⟩ := hf t htl
      rw [ho] at hok hc
      simp only [Task.committed] at hc
      subst hc
      exact hok
    obtain ⟨sd, h1, h2⟩ := hin ht hc
    obtain ⟨sd', h1', h2'⟩ := hin ht' hd
    exact fun i hi hi' => hsep.ne h1 h1' hne i (h2.near i hi) (h2'.near i hi')
  obtain ⟨a1, a2⟩ := applyCells_disjoint s.log hdis hlog
  refine ⟨fun seed hse => ?_, fun i hi => a2 i fun c hc hic => ?_⟩
  · obtain ⟨t, ht⟩ := List.getElem?_of_mem hse
    have htl := (List.getElem?_eq_some_iff.1 ht).1
    have hl := hloc t seed ht
    obtain ⟨o, ho⟩ := hf t htl
    -- cells that contain events near the seed belong to its task
    have hown : ∀ c ∈ s.log, ∀ i ∈ c.members, i ∈ near nearest seed → o = some c := by
      intro c hc i hic hin
      obtain ⟨t', sd', q1, q2, q3⟩ := hmem c hc
      by_cases htt : t' = t
      · subst htt
        rw [ho] at q2
        exact q2
      · exact absurd (q3.near i hic) (hsep.ne ht q1 (Ne.symm htt) i hin)
    rw [ho] at hl
    cases o with
    | none =>
      obtain ⟨w, w1, w2⟩ := hl
      refine ⟨(mem0, none), ?_, fun i hi => a2 i fun c hc hic => by simpa using hown c hc i hic hi⟩
      unfold resampleSeed
      rw [w1]
      simp [w2]
    | some c =>
      obtain ⟨w, c0, w1, w2, w3, rfl⟩ := hl
      have hcl : c0.sortMembers ∈ s.log := by
        refine hA.logged.mem_iff.2 (List.mem_filterMap.2 ⟨t, List.mem_range.2 htl, ?_⟩)
        rw [ho]
        rfl
      obtain ⟨m, m1, m2⟩ := a1 _ hcl
      have hs2 : c0.sortMembers.sortMembers = c0.sortMembers := by
        obtain ⟨t', sd', -, -, q3⟩ := hmem _ hcl
        exact sortMembers_of_sorted q3.2
      have hres : c0.resample cfg mem0 = some m := by
        rw [← m1]
        unfold Cell.resample
        rw [hs2]
      refine ⟨(m, some c0.sortMembers), ?_, fun i hi => ?_⟩
      · unfold resampleSeed
        rw [w1]
        simp only
        rw [if_neg w2, w3]
        simp [hres]
      · by_cases hic : i ∈ c0.sortMembers.members
        · exact m2 i hic
        · simp only
          rw [(resample_local (mem := mem0) (fun _ _ => rfl) m1).2 i hic]
          refine a2 i fun c hc hic' => ?_
          have := hown c hc i hic' hi
          simp only [Option.some.injEq] at this
          rw [← this] at hic'
          exact hic hic'
  · obtain ⟨t, seed, q1, -, q3⟩ := hmem c hc
    exact hi seed (List.mem_of_getElem? q1) (q3.near i hic)

end

end Cres

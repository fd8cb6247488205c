import Verif.Proofs.Choices

/-!
Lemmas for C98: resampling on one thread does not depend on the order of events in memory if there are no ties.
-/

set_option linter.unusedSectionVars false

namespace Cres

open Spec

/-- Different positions for different positions. -/
structure Relabels (n : Nat) (σ : Nat → Nat) : Prop where
  lt : ∀ i < n, σ i < n
  inj : ∀ i < n, ∀ j < n, σ i = σ j → i = j

theorem Relabels.surj {n : Nat} {σ : Nat → Nat} (h : Relabels n σ) {j : Nat} (hj : j < n) : ∃ i < n, σ i = j := by
  have hf : Function.Injective (fun i : Fin n => (⟨σ i, h.lt i i.2⟩ : Fin n)) := by
    intro a b hab
    exact Fin.ext (h.inj a a.2 b b.2 (by simpa using hab))
  obtain ⟨i, hi⟩ := (Finite.injective_iff_surjective.1 hf) ⟨j, hj⟩
  exact ⟨i, i.2, by simpa using congrArg Fin.val hi⟩

section Cells

variable {D K : Type*}

/-- A cell with other numbers for its members. -/
def Cell.relabel (σ : Nat → Nat) (c : Cell D K) : Cell D K := ⟨c.members.map σ, c.radius, c.weightSum⟩

theorem Cell.grow_relabel [Add K] [Zero K] [LinearOrder K] {w w' : Nat → Option K} {σ : Nat → Nat} :
    ∀ (nbs : List (Nat × D)) (c : Cell D K), (∀ x ∈ nbs, w' (σ x.1) = w x.1) →
    Cell.grow w' (nbs.map fun x => (σ x.1, x.2)) (c.relabel σ) = (Cell.grow w nbs c).map (Cell.relabel σ) := by
  intro nbs
  induction nbs with
  | nil => intro c _; rfl
  | cons x nbs ih =>
    obtain ⟨i, d⟩ := x
    intro c h
    have hi := h (i, d) List.mem_cons_self
    simp only at hi
    simp only [List.map_cons, Cell.grow, hi]
    cases w i with
    | none => rfl
    | some y =>
      have h2 := ih ⟨c.members ++ [i], d, c.weightSum + y⟩ fun x hx => h x (List.mem_cons_of_mem _ hx)
      simp only [Cell.relabel, List.map_append, List.map_cons, List.map_nil] at h2 ⊢
      by_cases h0 : 0 ≤ c.weightSum + y
      · simp [h0, Cell.relabel]
      · simp only [h0, if_false]
        exact h2

theorem Cell.grow_members [Add K] [Zero K] [LinearOrder K] {w : Nat → Option K} :
    ∀ (nbs : List (Nat × D)) (c c' : Cell D K), Cell.grow w nbs c = some c' →
    c.members ⊆ c'.members ∧ ∀ i ∈ c'.members, i ∈ c.members ∨ i ∈ nbs.map Prod.fst := by
  intro nbs
  induction nbs with
  | nil =>
    intro c c' h
    simp only [Cell.grow, Option.some.injEq] at h
    subst h
    exact ⟨List.Subset.refl _, fun i hi => Or.inl hi⟩
  | cons x nbs ih =>
    obtain ⟨i, d⟩ := x
    intro c c' h
    simp only [Cell.grow] at h
    cases hw : w i with
    | none => rw [hw] at h; simp at h
    | some y =>
      rw [hw] at h
      simp only at h
      split at h
      · simp only [Option.some.injEq] at h
        subst h
        refine ⟨List.subset_append_left _ _, fun j hj => ?_⟩
        simp only [List.mem_append, List.mem_singleton] at hj
        simp only [List.map_cons, List.mem_cons]
        tauto
      · obtain ⟨h1, h2⟩ := ih _ _ h
        refine ⟨fun j hj => h1 (List.mem_append_left _ hj), fun j hj => ?_⟩
        have := h2 j hj
        simp only [List.mem_append, List.mem_singleton] at this
        simp only [List.map_cons, List.mem_cons]
        tauto

end Cells

section Resample

variable {D K : Type*} [Zero D] [Field K] [LinearOrder K] [IsStrictOrderedRing K]

theorem average_perm {cfg : Cfg} {ws ws' : List (Weights K)} (hp : ws.Perm ws') (hb : FitsBuild cfg ws) (hne : ws ≠ [])
    {a a' : Weights K} (h : average cfg ws = some a) (h' : average cfg ws' = some a') : a = a' := by
  have hb' : FitsBuild cfg ws' := fun hm w hw => hb hm w (hp.mem_iff.2 hw)
  have hne' : ws' ≠ [] := by
    rintro rfl
    exact hne hp.eq_nil
  obtain ⟨h1, h2⟩ := average_spec hb h hne
  obtain ⟨h3, h4⟩ := average_spec hb' h' hne'
  obtain ⟨w, hw⟩ := List.exists_mem_of_ne_nil ws hne
  have hl : a.length = a'.length := (h1 w hw).symm.trans (h3 w (hp.mem_iff.1 hw))
  refine List.ext_getElem hl fun k hk hk' => ?_
  have h5 := h2 k
  have h6 := h4 k
  rw [List.getD_eq_getElem?_getD, List.getElem?_eq_getElem hk, Option.getD_some] at h5
  rw [List.getD_eq_getElem?_getD, List.getElem?_eq_getElem hk', Option.getD_some] at h6
  rw [h5, h6, (hp.map _).sum_eq, hp.length_eq]

variable {cfg : Cfg} {n L : Nat} {σ : Nat → Nat} {nearest nearest' : Nat → List (Nat × D)}

theorem resampleSeed_relabel (hσ : Relabels n σ) {mem mem' : Mem K} (hu : Uniform cfg n L mem)
    (hmem : ∀ i < n, mem' (σ i) = mem i) {seed : Nat} (hs : seed < n) (hlt : ∀ x ∈ nearest seed, x.1 < n)
    (hnear : nearest' (σ seed) = (nearest seed).map fun x => (σ x.1, x.2)) {r r' : Mem K × Option (Cell D K)}
    (h : resampleSeed cfg n nearest mem seed = some r) (h' : resampleSeed cfg n nearest' mem' (σ seed) = some r') :
    ∀ i < n, r'.1 (σ i) = r.1 i := by
  have hw : ∀ i < n, weightAt n mem' (σ i) = weightAt n mem i := by
    intro i hi
    unfold weightAt
    rw [if_pos (hσ.lt i hi), if_pos hi, hmem i hi]
  unfold resampleSeed at h h'
  rw [hw seed hs] at h'
  cases hws : weightAt n mem seed with
  | none => rw [hws] at h; simp at h
  | some w =>
    rw [hws] at h h'
    simp only at h h'
    by_cases h0 : 0 < w
    · rw [if_pos h0] at h h'
      simp only [Option.some.injEq] at h h'
      subst h h'
      exact hmem
    · rw [if_neg h0] at h h'
      cases hc : Cell.new cfg n mem seed (nearest seed) with
      | none => rw [hc] at h; simp at h
      | some c =>
        have hc' : Cell.new cfg n mem' (σ seed) (nearest' (σ seed)) = some (c.relabel σ) := by
          unfold Cell.new at hc ⊢
          rw [hw seed hs]
          rw [hws] at hc ⊢
          simp only at hc ⊢
          by_cases hd : cfg.debug = true ∧ ¬ w < 0
          · rw [if_pos hd] at hc; simp at hc
          · rw [if_neg hd] at hc ⊢
            rw [hnear]
            have := Cell.grow_relabel (w := weightAt n mem) (w' := weightAt n mem') (σ := σ) (nearest seed) ⟨[seed], 0, w⟩
              fun x hx => hw x.1 (hlt x hx)
            rw [hc] at this
            exact this
        have hml : ∀ i ∈ c.members, i < n := by
          unfold Cell.new at hc
          rw [hws] at hc
          simp only at hc
          by_cases hd : cfg.debug = true ∧ ¬ w < 0
          · rw [if_pos hd] at hc; simp at hc
          · rw [if_neg hd] at hc
            intro i hi
            rcases (Cell.grow_members _ _ _ hc).2 i hi with h1 | h1
            · simp only [List.mem_singleton] at h1
              rw [h1]; exact hs
            · obtain ⟨x, hx, rfl⟩ := List.mem_map.1 h1
              exact hlt x hx
        have hne : c.members ≠ [] := by
          unfold Cell.new at hc
          rw [hws] at hc
          simp only at hc
          by_cases hd : cfg.debug = true ∧ ¬ w < 0
          · rw [if_pos hd] at hc; simp at hc
          · rw [if_neg hd] at hc
            have := (Cell.grow_members _ _ _ hc).1 (show seed ∈ [seed] by simp)
            exact List.ne_nil_of_mem this
        rw [hc] at h
        rw [hc'] at h'
        simp only [Option.map_eq_some_iff] at h h'
        obtain ⟨m1, h1, rfl⟩ := h
        obtain ⟨m1', h1', rfl⟩ := h'
        unfold Cell.resample at h1 h1'
        simp only [Option.map_eq_some_iff] at h1 h1'
        obtain ⟨a, ha, rfl⟩ := h1
        obtain ⟨a', ha', rfl⟩ := h1'
        have p1 : c.sortMembers.members.Perm c.members := List.perm_insertionSort _ _
        have p2 : (c.relabel σ).sortMembers.members.Perm (c.members.map σ) := List.perm_insertionSort _ _
        have hp : (c.sortMembers.members.map mem).Perm ((c.relabel σ).sortMembers.members.map mem') := by
          refine (p1.map mem).trans (List.Perm.trans ?_ (p2.map mem').symm)
          rw [List.map_map]
          refine List.Perm.of_eq (List.map_congr_left fun i hi => ?_)
          exact (hmem i (hml i hi)).symm
        have haa : a = a' := by
          refine average_perm hp ?_ ?_ ha ha'
          · intro hm y hy
            obtain ⟨i, hi, rfl⟩ := List.mem_map.1 hy
            rw [hu.length i (hml i (p1.mem_iff.1 hi)), hu.single hm]
          · intro he
            rw [List.map_eq_nil_iff] at he
            rw [he] at p1
            exact hne p1.symm.eq_nil
        intro i hi
        simp only
        have hiff : σ i ∈ (c.relabel σ).sortMembers.members ↔ i ∈ c.sortMembers.members := by
          rw [p2.mem_iff, p1.mem_iff, List.mem_map]
          constructor
          · rintro ⟨j, hj, hji⟩
            rw [← hσ.inj j (hml j hj) i hi hji]
            exact hj
          · exact fun h => ⟨i, h, rfl⟩
        by_cases him : i ∈ c.sortMembers.members
        · rw [if_pos (hiff.2 him), if_pos him, haa]
        · rw [if_neg (fun h => him (hiff.1 h)), if_neg him, hmem i hi]

theorem resampleAll_relabel (hσ : Relabels n σ) : ∀ (seeds : List Nat) {mem mem' : Mem K}, Uniform cfg n L mem →
    (∀ i < n, mem' (σ i) = mem i) → (∀ i ∈ seeds, i < n) → (∀ i ∈ seeds, ∀ x ∈ nearest i, x.1 < n) →
    (∀ i ∈ seeds, (i :: (nearest i).map Prod.fst).Nodup) →
    (∀ i ∈ seeds, nearest' (σ i) = (nearest i).map fun x => (σ x.1, x.2)) → ∀ {r r' : Mem K × List (Cell D K)},
    resampleAll cfg n nearest seeds mem = some r → resampleAll cfg n nearest' (seeds.map σ) mem' = some r' →
    ∀ i < n, r'.1 (σ i) = r.1 i := by
  intro seeds
  induction seeds with
  | nil =>
    intro mem mem' hu hmem _ _ _ _ r r' h h'
    simp only [resampleAll, List.map_nil, Option.some.injEq] at h h'
    subst h h'
    exact hmem
  | cons seed seeds ih =>
    intro mem mem' hu hmem hs hlt hnd hnear r r' h h'
    simp only [List.map_cons, resampleAll] at h h'
    cases h1 : resampleSeed cfg n nearest mem seed with
    | none => rw [h1] at h; simp at h
    | some q =>
      cases h1' : resampleSeed cfg n nearest' mem' (σ seed) with
      | none => rw [h1'] at h'; simp at h'
      | some q' =>
        rw [h1] at h
        rw [h1'] at h'
        simp only [Option.map_eq_some_iff] at h h'
        obtain ⟨t, ht, rfl⟩ := h
        obtain ⟨t', ht', rfl⟩ := h'
        have hm := resampleSeed_relabel hσ hu hmem (hs seed List.mem_cons_self) (hlt seed List.mem_cons_self)
          (hnear seed List.mem_cons_self) h1 h1'
        have hu' : Uniform cfg n L q.1 := by
          have hone : resampleAll cfg n nearest [seed] mem = some (q.1, q.2.toList ++ []) := by simp [resampleAll, h1]
          exact ⟨hu.pos, hu.single, fun i hi => by
            rw [averageSeq_length (resampleAll_averageSeq [seed] hu hone).1, hu.length i hi]⟩
        exact ih (r := t) (r' := t') hu' hm (fun i hi => hs i (List.mem_cons_of_mem _ hi)) (fun i hi => hlt i (List.mem_cons_of_mem _ hi))
          (fun i hi => hnd i (List.mem_cons_of_mem _ hi)) (fun i hi => hnear i (List.mem_cons_of_mem _ hi)) ht ht'

end Resample

section Events

variable {K V D : Type*} [AddCommGroup D] [LinearOrder D] [IsOrderedAddMonoid D] [Field K] [LinearOrder K] [IsStrictOrderedRing K]
  [LinearOrder V]

/-- The events in memory are determined by their ids. -/
theorem eventsRead_perm {s s' : CresSettings K V D} (hs : SameExceptSearch s s') {m m' : Nat} {ds ds' : List (EventFile K V)}
    {events events' : List (Event K V)} (he : EventsRead s.program m ds events) (he' : EventsRead s'.program m' ds' events')
    {τ : Nat → Nat} (hlen : (allEvents ds').length = (allEvents ds).length) (hτ : Relabels (allEvents ds).length τ)
    (hpos : ∀ i < (allEvents ds).length, (allEvents ds')[τ i]? = (allEvents ds)[i]?) :
    (events.map (Event.reid τ)).Perm events' := by
  have hcl : s'.program.cluster = s.program.cluster := by
    simp [CresSettings.program, hs.io, hs.particles, hs.clustering]
  let F : Nat → Event K V := fun i => match (allEvents ds')[i]? with
    | some e => { Cluster.cluster s.io.ctx.multi s.particles s.clustering e with id := i }
    | none => ⟨0, [], []⟩
  have h1 : events' = (events'.map Event.id).map F := by
    rw [List.map_map]
    conv_lhs => rw [← List.map_id events']
    refine List.map_congr_left fun e hem => ?_
    obtain ⟨e0, e1, q1, q2, q3, -⟩ := he'.from_file e hem
    rw [hcl] at q2
    simp only [CresSettings.program, Outcome.ok.injEq] at q2
    simp only [_root_.id, Function.comp_apply, F, q1, q2]
    exact q3
  have h2 : events.map (Event.reid τ) = ((events.map Event.id).map τ).map F := by
    rw [List.map_map, List.map_map]
    refine List.map_congr_left fun e hem => ?_
    obtain ⟨e0, e1, q1, q2, q3, -⟩ := he.from_file e hem
    simp only [CresSettings.program, Outcome.ok.injEq] at q2
    have hl := (List.getElem?_eq_some_iff.1 q1).1
    simp only [Function.comp_apply, F, hpos e.id hl, q1, q2, Event.reid]
    rw [q3]
  rw [h1, h2]
  refine List.Perm.map _ ?_
  refine (he.ids.map τ).trans (List.Perm.trans ?_ he'.ids.symm)
  rw [hlen]
  rw [List.perm_ext_iff_of_nodup (List.Nodup.map_on (fun i hi j hj hij => hτ.inj i (List.mem_range.1 hi) j (List.mem_range.1 hj) hij)
    List.nodup_range) List.nodup_range]
  intro j
  rw [List.mem_map]
  constructor
  · rintro ⟨i, hi, rfl⟩
    exact List.mem_range.2 (hτ.lt i (List.mem_range.1 hi))
  · intro hj
    obtain ⟨i, hi, rfl⟩ := hτ.surj (List.mem_range.1 hj)
    exact ⟨i, List.mem_range.2 hi, rfl⟩

variable {s s' : CresSettings K V D} {evs evs' : List (Event K V)} {σ : Nat → Nat}

/-- The neighbours at corresponding positions. -/
theorem nearest_relabel (hs : SameExceptSearch s s') (hc : GoodChoices s) (hc' : GoodChoices s') (hd : IgnoresIds s.distance)
    (hlen : evs.length ≤ usizeMax) (hl : evs'.length = evs.length) (hm : IsMetricOn (· ∈ evs) s.distance)
    (hm' : IsMetricOn (· ∈ evs') s.distance) (hp : ∀ e ∈ evs', e.outgoingByPid ≠ []) (hn : NoChoice s evs')
    (hσ : Relabels evs.length σ) (hev : ∀ i < evs.length, ∃ e k, evs[i]? = some e ∧ evs'[σ i]? = some { e with id := k })
    {i : Nat} (hi : i < evs.length) (hneg : ∀ e, evs[i]? = some e → centralWeight e < 0) :
    s'.search.nearest s'.distance s'.maxCellSize evs' (σ i) =
      (s.search.nearest s.distance s.maxCellSize evs i).map fun x => (σ x.1, x.2) := by
  have hdw : ∀ i < evs.length, ∀ j < evs.length, distWrapper s.distance evs' (σ i) (σ j) = distWrapper s.distance evs i j := by
    intro i hi j hj
    obtain ⟨e, k, h1, h2⟩ := hev i hi
    obtain ⟨e', k', h1', h2'⟩ := hev j hj
    simp only [distWrapper, h1, h2, h1', h2']
    exact hd e e' k k'
  have h1 := search_neighbours hc hlen hm hi
  have h2 := search_neighbours (s := s') (events := evs') (seed := σ i) hc' (by rw [hl]; exact hlen)
    (by rw [hs.distance]; exact hm') (by rw [hl]; exact hσ.lt i hi)
  rw [hs.distance, hs.maxCellSize] at h2 ⊢
  have hlt : ∀ x ∈ s.search.nearest s.distance s.maxCellSize evs i, x.1 < evs.length := fun x hx =>
    List.mem_range.1 ((h1.mem x.1).1 (List.mem_map.2 ⟨x, hx, rfl⟩)).1
  have h3 : IsNeighbourList (distWrapper s.distance evs') (List.range evs'.length) (σ i) s.maxCellSize
      ((s.search.nearest s.distance s.maxCellSize evs i).map fun x => (σ x.1, x.2)) := by
    have hfst : ((s.search.nearest s.distance s.maxCellSize evs i).map fun x => (σ x.1, x.2)).map Prod.fst =
        ((s.search.nearest s.distance s.maxCellSize evs i).map Prod.fst).map σ := by
      simp [List.map_map, Function.comp_def]
    refine ⟨?_, fun p => ?_, fun x hx => ?_, ?_⟩
    · rw [hfst]
      refine List.Nodup.map_on (fun a ha b hb hab => ?_) h1.nodup
      obtain ⟨x, hx, rfl⟩ := List.mem_map.1 ha
      obtain ⟨y, hy, rfl⟩ := List.mem_map.1 hb
      exact hσ.inj _ (hlt x hx) _ (hlt y hy) hab
    · rw [hfst, List.mem_map, hl, List.mem_range]
      constructor
      · rintro ⟨j, hj, rfl⟩
        obtain ⟨g1, g2, g3⟩ := (h1.mem j).1 hj
        have hj := List.mem_range.1 g1
        exact ⟨hσ.lt j hj, fun h => g2 (hσ.inj j hj i hi h), by rw [hdw i hi j hj]; exact g3⟩
      · rintro ⟨g1, g2, g3⟩
        obtain ⟨j, hj, rfl⟩ := hσ.surj g1
        rw [hdw i hi j hj] at g3
        exact ⟨j, (h1.mem j).2 ⟨List.mem_range.2 hj, fun h => g2 (by rw [h]), g3⟩, rfl⟩
    · obtain ⟨y, hy, rfl⟩ := List.mem_map.1 hx
      simp only
      rw [hdw i hi _ (hlt y hy)]
      exact h1.dist_eq y hy
    · exact h1.sorted.map _ fun _ _ h => h
  refine C12_same_neighbours h2 h3 ?_
  intro x hx y hy hxi hyi hle heq
  have hx := List.mem_range.1 hx
  have hy := List.mem_range.1 hy
  have hil : σ i < evs'.length := by rw [hl]; exact hσ.lt i hi
  rw [distWrapper_get hil hx] at hle
  rw [distWrapper_get hil hx, distWrapper_get hil hy] at heq
  refine hn.distances (σ i) x y _ _ _ (List.getElem?_eq_getElem hil) (List.getElem?_eq_getElem hx) (List.getElem?_eq_getElem hy)
    (Ne.symm hxi) (Ne.symm hyi) (hp _ (List.getElem_mem _)) (hp _ (List.getElem_mem _)) (hp _ (List.getElem_mem _)) ?_ hle heq
  obtain ⟨e, k, g1, g2⟩ := hev i hi
  rw [List.getElem?_eq_getElem hil, Option.some.injEq] at g2
  rw [g2]
  exact hneg e g1

theorem sorts_relabel {sort sort' : (Nat → K) → List Nat → List Nat} (h : SortsByKey sort) (h' : SortsByKey sort')
    {key key' : Nat → K} {l l' : List Nat} {σ : Nat → Nat} (hp : (l.map σ).Perm l') (hkey : ∀ i ∈ l, key' (σ i) = key i)
    (hk : ∀ i ∈ l', ∀ j ∈ l', key' i = key' j → i = j) : sort' key' l' = (sort key l).map σ := by
  obtain ⟨h1, h2⟩ := h key l
  obtain ⟨h3, h4⟩ := h' key' l'
  have hp' : (sort' key' l').Perm ((sort key l).map σ) := h3.trans (hp.symm.trans (h1.map σ).symm)
  refine List.Perm.eq_of_pairwise (le := fun a b => key' a ≤ key' b) ?_ h4 ?_ hp'
  · intro a b ha hb hab hba
    exact hk a (h3.mem_iff.1 ha) b (h3.mem_iff.1 (hp'.mem_iff.2 hb)) (le_antisymm hab hba)
  · rw [List.pairwise_map]
    refine h2.imp_of_mem ?_
    intro a b ha hb hab
    rw [hkey a (h1.mem_iff.1 ha), hkey b (h1.mem_iff.1 hb)]
    exact hab

/-- The seeds at corresponding positions. -/
theorem seeds_relabel {sort sort' : (Nat → K) → List Nat → List Nat} (h : SortsByKey sort) (h' : SortsByKey sort')
    {strategy : Strategy} (hst : strategy ≠ .next) {cfg : Cfg} {L : Nat} {mem mem' : Mem K} {n : Nat}
    (hu : Uniform cfg n L mem) (hu' : Uniform cfg n L mem') (hσ : Relabels n σ) (hmem : ∀ i < n, mem' (σ i) = mem i)
    (hk : ∀ i < n, ∀ j < n, wt mem' 0 i < 0 → wt mem' 0 i = wt mem' 0 j → i = j) :
    selectSeeds sort' strategy n mem' = (selectSeeds sort strategy n mem).map (List.map σ) := by
  rw [selectSeeds_some hu, selectSeeds_some hu', Option.map_some, Option.some.injEq]
  have hw : ∀ i < n, wt mem' 0 (σ i) = wt mem 0 i := fun i hi => by unfold wt; rw [hmem i hi]
  have hp : (((List.range n).filter (fun i => decide (wt mem 0 i < 0))).map σ).Perm
      ((List.range n).filter (fun i => decide (wt mem' 0 i < 0))) := by
    rw [List.perm_ext_iff_of_nodup (List.Nodup.map_on ?_ (List.nodup_range.filter _)) (List.nodup_range.filter _)]
    · intro j
      simp only [List.mem_map, List.mem_filter, List.mem_range, decide_eq_true_eq]
      constructor
      · rintro ⟨i, ⟨h1, h2⟩, rfl⟩
        exact ⟨hσ.lt i h1, by rw [hw i h1]; exact h2⟩
      · rintro ⟨h1, h2⟩
        obtain ⟨i, hi, rfl⟩ := hσ.surj h1
        exact ⟨i, ⟨hi, by rw [← hw i hi]; exact h2⟩, rfl⟩
    · intro a ha b hb hab
      simp only [List.mem_filter, List.mem_range] at ha hb
      exact hσ.inj a ha.1 b hb.1 hab
  have hlt : ∀ i ∈ (List.range n).filter (fun i => decide (wt mem 0 i < 0)), i < n := by
    intro i hi
    simp only [List.mem_filter, List.mem_range] at hi
    exact hi.1
  have hk' : ∀ i ∈ (List.range n).filter (fun i => decide (wt mem' 0 i < 0)),
      ∀ j ∈ (List.range n).filter (fun i => decide (wt mem' 0 i < 0)), wt mem' 0 i = wt mem' 0 j → i = j := by
    intro i hi j hj hij
    simp only [List.mem_filter, List.mem_range, decide_eq_true_eq] at hi hj
    exact hk i hi.1 j hj.1 hi.2 hij
  cases strategy with
  | next => exact absurd rfl hst
  | mostNegative => exact sorts_relabel h h' hp (fun i hi => hw i (hlt i hi)) hk'
  | leastNegative =>
    exact sorts_relabel h h' hp (fun i hi => by rw [hw i (hlt i hi)]) fun i hi j hj hij => hk' i hi j hj (neg_injective hij)

end Events

end Cres

import Verif.Spec.Unweighted
import Verif.Proofs.Survivors
import Verif.Props.Main

/-!
Complete runs with unweighting compared to those without.
-/

set_option linter.unusedSectionVars false

namespace Cres

open Spec CombinedIO Program

section
variable {K V : Type*} [Field K] [LinearOrder K] [IsStrictOrderedRing K]

/-- Absolute weights are computed from the sum and the sum of negative weights. -/
theorem sum_neg_twice (l : List K) : l.sum - ((l.filter (· < 0)).sum + (l.filter (· < 0)).sum) = (l.map fun x => |x|).sum := by
  induction l with
  | nil => simp
  | cons a l ih =>
    by_cases h : a < 0
    · rw [List.filter_cons_of_pos (by simpa using h)]
      simp only [List.sum_cons, List.map_cons, abs_of_neg h, ← ih]
      ring
    · rw [List.filter_cons_of_neg (by simpa using h)]
      simp only [List.sum_cons, List.map_cons, abs_of_nonneg (not_lt.1 h), ← ih]
      ring

theorem abs_sum_zero {l : List K} (h : (l.map fun x => |x|).sum = 0) : ∀ x ∈ l, x = 0 := by
  induction l with
  | nil => simp
  | cons a l ih =>
    have h1 : 0 ≤ (l.map fun x => |x|).sum := List.sum_nonneg (by
      intro y hy
      obtain ⟨z, -, rfl⟩ := List.mem_map.1 hy
      exact abs_nonneg z)
    simp only [List.map_cons, List.sum_cons] at h
    have h2 : |a| = 0 := le_antisymm (by linarith) (abs_nonneg a)
    intro x hx
    rcases List.mem_cons.1 hx with rfl | hx
    · exact abs_eq_zero.1 h2
    · exact ih (by linarith) x hx

/-- If unweighting succeeds and sums of weights can be logged afterwards, they can be logged before unweighting. -/
theorem unweight_log {minWt : K} (hm : 0 < minWt) {rng : Nat → K} (hr : ∀ i, 0 ≤ rng i ∧ rng i < minWt)
    {events out : List (Event K V)} (hw : ∀ e ∈ events, e.weights ≠ []) {debug : Bool}
    (h : unweight debug minWt rng events = .ok out) (hd : debug = true) (hout : events = [] → out ≠ []) :
    (events.map centralWeight).sum ≠
      ((events.map centralWeight).filter (· < 0)).sum + ((events.map centralWeight).filter (· < 0)).sum := by
  intro hc
  have h0 := abs_sum_zero (l := events.map centralWeight) (by rw [← sum_neg_twice]; exact sub_eq_zero.2 hc)
  by_cases hne : events = []
  · rw [C26_trivial _ _ _ _ (Or.inr hne)] at h
    cases h
    exact hout hne hne
  obtain ⟨kept, h1, h2, -, raised, h3, h4⟩ := unweight_form hm hr debug hw hne
  have hk : kept = [] := by
    rw [List.eq_nil_iff_forall_not_mem]
    intro e he
    exact h2 e he (h0 _ (List.mem_map_of_mem (h1.subset he)))
  have hs : centralSum events = 0 := List.sum_eq_zero h0
  rw [h4, h3, hk] at h
  rw [if_pos (by simp [centralSum]), if_pos ⟨hd, hs⟩] at h
  cases h

/-- The sum of all weights, if those that do not belong to any event of `l` vanish. -/
theorem centralTotal_eq {l : List (Event K V)} {ws : List (List K)} (hnd : (l.map Event.id).Nodup)
    (h1 : ∀ e ∈ l, ws[e.id]? = some e.weights)
    (h2 : ∀ i < ws.length, (∀ e ∈ l, e.id ≠ i) → (ws.getD i []).headD 0 = 0) : centralTotal ws = centralSum l := by
  have e1 : centralTotal ws = ∑ i ∈ Finset.range ws.length, (ws.getD i []).headD 0 := by
    unfold centralTotal
    exact sum_positions (M := K) _ _ _ fun i w hi => by simp [List.getD_eq_getElem?_getD, hi]
  have e2 : centralSum l = ∑ i ∈ (l.map Event.id).toFinset, (ws.getD i []).headD 0 := by
    unfold centralSum
    rw [List.sum_toFinset _ hnd, List.map_map]
    refine congrArg List.sum (List.map_congr_left fun e he => ?_)
    simp [centralWeight, List.getD_eq_getElem?_getD, h1 e he]
  rw [e1, e2]
  symm
  refine Finset.sum_subset (fun i hi => ?_) (fun i hi hn => ?_)
  · obtain ⟨e, he, rfl⟩ := List.mem_map.1 (List.mem_toFinset.1 hi)
    exact Finset.mem_range.2 (List.getElem?_eq_some_iff.1 (h1 e he)).1
  · refine h2 i (Finset.mem_range.1 hi) fun e he hid => hn ?_
    rw [List.mem_toFinset, ← hid]
    exact List.mem_map_of_mem he

theorem runWeights_log {E : Type*} {cfg : Cfg} {infoLog : Bool}
    {resample unweight : List (Event K V) → Outcome E (List (Event K V))} {events resampled final : List (Event K V)}
    {ws : List (Weights K)} (h : runWeights cfg infoLog resample unweight events = .ok ws)
    (h1 : resample (identified events) = .ok resampled) (h2 : unweight resampled = .ok final) :
    logSumsPanics cfg infoLog (sortById final) = false := by
  unfold runWeights at h
  simp only at h
  rw [show List.filter (fun e : Event K V => !e.outgoingByPid.isEmpty) events = identified events from rfl, h1,
    Outcome.mapErr_ok, Outcome.bind_ok, h2, Outcome.mapErr_ok, Outcome.bind_ok] at h
  split at h
  · cases h
  · rename_i hl
    simpa using hl

theorem default_central (cfg : Cfg) : (defaultWeights cfg (K := K)).headD 0 = 0 := by
  unfold defaultWeights
  split_ifs <;> rfl

theorem withWeights_resampled_length {cfg : Cfg} {m : Nat} {D : Type*} [Zero D] [LinearOrder D] {nearest : Nat → List (Nat × D)}
    {seeds : List Nat} {events : List (Event K V)} (hv : ValidInput events.length nearest seeds)
    (hu : Uniform cfg events.length m (memOf events)) {s : State D K}
    (hr : Reachable cfg events.length nearest seeds (memOf events) s) (hfin : s.Finished seeds) :
    ∀ e ∈ withWeights events s.mem, e.weights.length = m := by
  obtain ⟨A, hA⟩ := inv_reachable hv hu hr
  intro e hev
  obtain ⟨i, hi⟩ := List.getElem?_of_mem hev
  unfold withWeights at hi
  rw [List.getElem?_mapIdx] at hi
  obtain ⟨e0, hi0, rfl⟩ := Option.map_eq_some_iff.1 hi
  simp only
  rw [finished_mem hA hfin]
  exact hA.uniform.length i (List.getElem?_eq_some_iff.1 hi0).1

end

section
variable {K V D P : Type*} [Zero D] [LinearOrder D] [DistNum D] [ExactComparison D] [Field K] [LinearOrder K] [IsStrictOrderedRing K]
  [LinearOrder V] [DecidableEq P]

theorem unweightStep_ok {E : Type*} {debug : Bool} {minWt : K} {rng : Nat → K} {evs out : List (Event K V)}
    (h : unweightStep (E := E) debug minWt rng evs = .ok out) : unweight debug minWt rng evs = .ok out := by
  simp only [unweightStep] at h
  split at h
  · rename_i hu
    simp only [Outcome.ok.injEq] at h
    rw [hu, h]
  · cases h
  · cases h

theorem goodChoices_noUnweight {s : CresSettings K V D} (hc : GoodChoices s) : GoodChoices { s with minWeight := 0 } :=
  ⟨hc.search, hc.seeds, fun i => ⟨(hc.rng i).1, Or.inl rfl⟩⟩

/-- Entries after unweighting `R` to `final`. -/
theorem unweighted_entries {minWt : K} (hm : 0 < minWt) {rng : Nat → K} (hr : ∀ i, 0 ≤ rng i ∧ rng i < minWt) {debug : Bool}
    {R final : List (Event K V)} (hw : ∀ e ∈ R, e.weights ≠ []) (h : unweight debug minWt rng R = .ok final) {default : List K}
    (hd : default.headD 0 = 0) {rs ws : List (List K)} (hl : ws.length = rs.length) (hR : (R.map Event.id).Nodup)
    (hF : (final.map Event.id).Nodup) (r1 : ∀ e ∈ R, rs[e.id]? = some e.weights)
    (r2 : ∀ i < rs.length, (∀ e ∈ R, e.id ≠ i) → rs[i]? = some default)
    (f1 : ∀ e ∈ final, ws[e.id]? = some e.weights)
    (f2 : ∀ i < ws.length, (∀ e ∈ final, e.id ≠ i) → ws[i]? = some default) :
    ∃ c, List.Forall₂ (Unweighted default minWt c) rs ws ∧
      (centralTotal ws = centralTotal rs ∨ ∀ w ∈ ws, w = default) ∧ ((∀ r ∈ rs, 0 ≤ r.headD 0) → 0 ≤ c) := by
  obtain ⟨survivors, c, g1, g2, g3, g4, g5⟩ := C26_survivors hm hr hw h
  have key : ∀ c', (final ≠ [] → c' = c) → List.Forall₂ (Unweighted default minWt c') rs ws := by
    intro c' hc'
    rw [List.forall₂_iff_get]
    refine ⟨hl.symm, fun i hi hi' => ?_⟩
    simp only [List.get_eq_getElem]
    by_cases hex : ∃ e ∈ final, e.id = i
    · obtain ⟨e, hem, rfl⟩ := hex
      rw [hc' (List.ne_nil_of_mem hem)]
      obtain ⟨e0, he0, q1, q2, q3⟩ := forall₂_mem g2 hem
      have hw1 := f1 e hem
      have hr1 := r1 e0 (g1.subset he0)
      rw [← q1, List.getElem?_eq_getElem hi, Option.some.injEq] at hr1
      rw [List.getElem?_eq_getElem hi', Option.some.injEq] at hw1
      rw [hw1, q3, hr1]
      exact .kept (g4 e0 he0)
    · have hw1 := f2 i hi' fun e hem hid => hex ⟨e, hem, hid⟩
      rw [List.getElem?_eq_getElem hi', Option.some.injEq] at hw1
      rw [hw1]
      refine .discarded ?_
      by_cases hexr : ∃ e ∈ R, e.id = i
      · obtain ⟨e, hem, rfl⟩ := hexr
        have hr1 := r1 e hem
        rw [List.getElem?_eq_getElem hi, Option.some.injEq] at hr1
        rw [hr1]
        by_contra hlt
        have : e ∈ survivors.filter (fun e => decide (minWt ≤ |centralWeight e|)) := by
          rw [g3]
          exact List.mem_filter.2 ⟨hem, decide_eq_true (not_lt.1 hlt)⟩
        obtain ⟨e', he', q⟩ := forall₂_mem g2.flip (List.mem_filter.1 this).1
        exact hex ⟨e', he', q.1⟩
      · have hr1 := r2 i hi fun e hem hid => hexr ⟨e, hem, hid⟩
        rw [List.getElem?_eq_getElem hi, Option.some.injEq] at hr1
        rw [hr1, hd, abs_zero]
        exact hm
  by_cases ho : final = []
  · refine ⟨1, key 1 fun h => absurd ho h, Or.inr fun w hw => ?_, fun _ => zero_le_one⟩
    obtain ⟨i, hi⟩ := List.getElem?_of_mem hw
    rw [f2 i (List.getElem?_eq_some_iff.1 hi).1 (by simp [ho])] at hi
    exact (Option.some.inj hi).symm
  · have hsum := C25_sum_preserved_partial hm.le (fun _ => hr) hw h (Or.inl ho)
    refine ⟨c, key c fun _ => rfl, Or.inl ?_, fun hpos => ?_⟩
    · rw [centralTotal_eq hF f1, centralTotal_eq hR r1, hsum]
      · intro i hi hn
        rw [List.getD_eq_getElem?_getD, r2 i hi hn]
        exact hd
      · intro i hi hn
        rw [List.getD_eq_getElem?_getD, f2 i hi hn]
        exact hd
    · by_contra hneg
      have hneg := not_le.1 hneg
      have hR0 : ∀ e ∈ R, 0 ≤ centralWeight e := fun e he => hpos _ (List.mem_of_getElem? (r1 e he))
      have h1 : ∀ e ∈ final, centralWeight e < 0 := by
        intro e hem
        obtain ⟨e0, he0, q1, q2, q3⟩ := forall₂_mem g2 hem
        have hp : 0 < centralWeight e0 := lt_of_le_of_ne (hR0 e0 (g1.subset he0)) (g4 e0 he0).symm
        have : centralWeight e = centralWeight e0 * survivorFactor minWt c |centralWeight e0| := by
          generalize survivorFactor minWt c |centralWeight e0| = f at q3
          unfold centralWeight
          rw [q3]
          cases hw0 : e0.weights with
          | nil => simp
          | cons a l => rfl
        rw [this]
        refine mul_neg_of_pos_of_neg hp ?_
        unfold survivorFactor
        split_ifs
        · exact mul_neg_of_pos_of_neg (div_pos hm (abs_pos.2 hp.ne')) hneg
        · exact hneg
      have h2 : centralSum final < 0 := by
        unfold centralSum
        have : ∀ l : List (Event K V), l ≠ [] → (∀ e ∈ l, centralWeight e < 0) → (l.map centralWeight).sum < 0 := by
          intro l
          induction l with
          | nil => simp
          | cons a l ih =>
            intro _ hl
            rw [List.map_cons, List.sum_cons]
            by_cases hn : l = []
            · rw [hn]
              simpa using hl a List.mem_cons_self
            · exact add_neg (hl a List.mem_cons_self) (ih hn fun e he => hl e (List.mem_cons_of_mem _ he))
        exact this final ho h1
      have h3 : 0 ≤ centralSum R := List.sum_nonneg (by
        intro x hx
        obtain ⟨e, he, rfl⟩ := List.mem_map.1 hx
        exact hR0 e he)
      rw [hsum] at h2
      exact absurd h2 (not_lt.2 h3)

/-- The weights that are passed on with unweighting, compared to those that can be passed on without. -/
theorem computesWeights_unweighted {s : CresSettings K V D} (hc : GoodChoices s) (h0 : 0 < s.minWeight) {m : Nat} (hm0 : 0 < m)
    (hm1 : s.io.ctx.multi = false → m = 1) {ds : List (EventFile K V)} {events : List (Event K V)}
    (he : EventsRead s.program m ds events) {ws : List (Weights K)} (h : s.program.ComputesWeights events (.ok ws)) :
    ∃ rs c, { s with minWeight := 0 }.program.ComputesWeights events (.ok rs) ∧
      List.Forall₂ (Unweighted (defaultWeights s.program.cfg) s.minWeight c) rs ws ∧
      (centralTotal ws = centralTotal rs ∨ ∀ w ∈ ws, w = defaultWeights s.program.cfg) ∧
      ((∀ r ∈ rs, 0 ≤ r.headD 0) → 0 ≤ c) := by
  have hg := cres_goodComponents hc
  have hids : (events.map Event.id).Perm (List.range events.length) := by rw [he.length_eq]; exact he.ids
  have hu := read_weights hg hm0 hm1 he
  have hrng : ∀ i, 0 ≤ s.rng i ∧ s.rng i < s.minWeight := fun i => ⟨(hc.rng i).1, (hc.rng i).2.resolve_left h0.ne'⟩
  generalize ho : (Outcome.ok ws : Outcome (CresError IOError) _) = o at h
  cases h with
  | @mk resampled hres =>
    have hres' := hres
    cases hres with
    | log _ => simp [runWeights, Outcome.mapErr, Outcome.bind] at ho
    | task _ _ _ => simp [runWeights, Outcome.mapErr, Outcome.bind] at ho
    | @ok events' hl hre =>
      obtain ⟨st, hr, hfin, rfl⟩ := hre
      obtain ⟨resampled, final, h1, h2, h3, h4, h5⟩ := runWeights_entries hids ho.symm
      simp only [Outcome.ok.injEq] at h1
      subst h1
      have hlogf := runWeights_log ho.symm rfl h2
      have hrl := withWeights_resampled_length (hg.valid (identified events)) hu hr hfin
      have hsubR := withWeights_subCollection (identified events) st.mem
      have hrefl : IsSubCollection (withWeights (identified events) st.mem) (withWeights (identified events) st.mem) :=
        List.Subperm.refl _
      have hne : ∀ e ∈ withWeights (identified events) st.mem, e.weights ≠ [] := by
        intro e hev hn
        have := hrl e hev
        rw [hn] at this
        simp only [List.length_nil] at this
        omega
      have hunw := unweightStep_ok h2
      have hsubF := C30_unweighter_subCollection h0.le hc.rng hne h2
      have hlog : s.program.cfg.debug = false ∨ s.program.infoLog = false ∨
          ((sortById (withWeights (identified events) st.mem)).map fun e => e.weights.headD 0).sum ≠
          (((sortById (withWeights (identified events) st.mem)).map fun e => e.weights.headD 0).filter (· < 0)).sum +
          (((sortById (withWeights (identified events) st.mem)).map fun e => e.weights.headD 0).filter (· < 0)).sum := by
        by_cases hdb : s.program.cfg.debug = false
        · exact Or.inl hdb
        by_cases hil : s.program.infoLog = false
        · exact Or.inr (Or.inl hil)
        right
        right
        have hdb : s.io.ctx.debug = true := by
          rw [show s.io.ctx.debug = s.program.cfg.debug from rfl]
          simpa using hdb
        have := unweight_log h0 hrng hne hunw hdb (fun _ hn => by
          subst hn
          revert hlogf
          simp [logSumsPanics, sortById, show s.program.cfg.debug = true from hdb, hil])
        have hp := (sortById_perm (withWeights (identified events) st.mem)).map (fun e => e.weights.headD 0)
        rw [hp.sum_eq, (hp.filter _).sum_eq]
        exact this
      obtain ⟨rs, hrs⟩ := runWeights_succeeds (E := IOError) (cfg := s.program.cfg) (infoLog := s.program.infoLog)
        (resample := fun _ => .ok (withWeights (identified events) st.mem)) (unweight := .ok) hids hsubR
        hrefl rfl rfl hne hlog
      obtain ⟨_, _, k1, k2, k3, k4, k5⟩ := runWeights_entries hids hrs
      cases k1
      cases k2
      obtain ⟨knd, klt, kset⟩ := k4 hsubR hrefl
      obtain ⟨fnd, flt, fset⟩ := h4 hsubR hsubF
      obtain ⟨c, hc1, hc2, hc3⟩ := unweighted_entries h0 hrng hne hunw (default_central s.program.cfg) (h3.trans k3.symm) knd fnd
        kset (by rw [k3]; exact k5) fset (by rw [h3]; exact h5)
      refine ⟨rs, c, ?_, hc1, hc2, hc3⟩
      rw [← hrs]
      have hun : { s with minWeight := 0 }.program.unweight = .ok := cres_unweight (s := { s with minWeight := 0 }) rfl
      have := Program.ComputesWeights.mk (p := { s with minWeight := 0 }.program) (events := events)
        (resampled := .ok (withWeights (identified events) st.mem)) ?_
      · rw [hun] at this
        exact this
      · cases hres' with
        | ok g1 g2 => exact .ok g1 g2

theorem readsEvents_congr {p q : Program K V D} (hio : q.io = p.io) (hcl : q.cluster = p.cluster) {s : CombinedIO K P} {fs : FS P}
    {r : Outcome (CresError IOError) (List (Event K V))} {x : CombinedIO K P × FS P} (h : p.ReadsEvents s fs r x) :
    q.ReadsEvents s fs r x := by
  cases h with
  | panic h => exact .panic (by rw [hio]; exact h)
  | done h1 h2 h3 => exact .done (by rw [hio]; exact h1) (by rw [hio, hcl]; exact h2) h3

/-- Another resampler or unweighter gets the same events. -/
theorem run_other_weights {p q : Program K V D} (hio : q.io = p.io) (hcl : q.cluster = p.cluster) {files : List (P × P)} {fs fs' : FS P}
    {events : List (Event K V)} {ws rs : List (Weights K)} {res : Outcome (CresError IOError) Unit}
    (h : p.Run files fs (some events) (some ws) res fs') (hcw : q.ComputesWeights events (.ok rs)) :
    ∃ res₀ fs₀, q.Run files fs (some events) (some rs) res₀ fs₀ := by
  generalize hws : some ws = ows at h
  generalize hev : some events = oevents at h
  cases h with
  | createErr _ | createPanic _ | readErr _ _ | readPanic _ _ | weightsErr _ _ _ | weightsPanic _ _ _ => simp at hws
  | update q1 q2 q3 =>
    cases hev
    exact ⟨_, _, .update (by rw [hio]; exact q1) (readsEvents_congr hio hcl q2) hcw⟩

end
end Cres

import Verif.Proofs.Written

/-!
Properties C82 and C83: which events keep their weights in the output files, and which relations between weights are kept.
-/

set_option linter.unusedSectionVars false

namespace Cres

open Spec CombinedIO Program

section

variable {K V D P : Type*} [Zero D] [LinearOrder D] [DistNum D] [ExactComparison D] [Zero K] [One K] [Add K] [Mul K] [Div K] [Neg K]
  [NatCast K] [LinearOrder K] [LinearOrder V] [DecidableEq P]

theorem reweighted_self (ev : Event K V) : reweighted ev.weights ev = ev := by
  unfold reweighted
  split_ifs <;> rfl

theorem wt_central {evs : List (Event K V)} {j : Nat} {e : Event K V} (h : evs[j]? = some e) :
    wt (memOf evs) 0 j = centralWeight e := by
  simp [wt, memOf, h, centralWeight, List.head?_eq_getElem?]

/-- The seeds of a run are the events with negative weight. -/
theorem cres_seeds {s : CresSettings K V D} (hc : GoodChoices s) {m : Nat} (hm0 : 0 < m)
    (hm1 : s.program.io.ctx.multi = false → m = 1) {ds : List (EventFile K V)} {events : List (Event K V)}
    (he : EventsRead s.program m ds events) (i : Nat) : i ∈ s.program.seeds (identified events) ↔
      i < (identified events).length ∧ wt (memOf (identified events)) 0 i < 0 := by
  obtain ⟨seeds, hsel, -, hmem⟩ := selectSeeds_mem hc.seeds s.strategy (read_weights (cres_goodComponents hc) hm0 hm1 he)
  have : s.program.seeds (identified events) =
      (selectSeeds s.sortSeeds s.strategy (identified events).length (memOf (identified events))).getD [] := rfl
  rw [this, hsel]
  exact hmem i

/-- The weights computed for an event that has no negative weight and is far from all such events. -/
theorem far_event {s : CresSettings K V D} (hc : GoodChoices s) (h0 : s.minWeight = 0) {m : Nat} (hm0 : 0 < m)
    (hm1 : s.program.io.ctx.multi = false → m = 1) {ds : List (EventFile K V)} {events : List (Event K V)}
    (he : EventsRead s.program m ds events) {ws : List (Weights K)} (hcw : s.program.ComputesWeights events (.ok ws))
    {i : Nat} {ev e : Event K V} (hev : (allEvents ds)[i]? = some ev) (hp : HasParticles s.program ev = true)
    (hread : AsRead s.program i ev e) (hw : 0 ≤ centralWeight ev)
    (hfar : ∀ i' e', ReadAt s.program ds i' e' → centralWeight e' < 0 → FarFrom s e' e) : ws[i]? = some ev.weights := by
  have hg := cres_goodComponents hc
  obtain ⟨st, hr, hfin, hrun⟩ := computesWeights_state hcw
  obtain ⟨j, e2, h1, h2, h3, h4, -⟩ := (event_written hg (cres_unweight h0) hm0 hm1 he hr hfin hrun i hev).1 hp
  have hee : e2 = e := by
    obtain ⟨a, a1, a2⟩ := hread
    obtain ⟨b, b1, b2⟩ := h2
    rw [a1, Outcome.ok.injEq] at b1
    rw [a2, b2, b1]
  subst hee
  rw [h4, ← h3]
  have hu := read_weights hg hm0 hm1 he
  have hj := (List.getElem?_eq_some_iff.1 h1).1
  refine congrArg some (unchanged_outside (hg.valid _) hu hr hfin j ?_ ?_)
  · rw [cres_seeds hc hm0 hm1 he]
    rintro ⟨-, hlt⟩
    rw [wt_central h1] at hlt
    have : centralWeight e2 = centralWeight ev := by
      obtain ⟨b, b1, b2⟩ := hread
      rw [b2]
      simp only [centralWeight, hg.cluster _ _ b1]
    rw [this] at hlt
    exact absurd hw (not_le.2 hlt)
  · intro seed hseed hmem
    obtain ⟨hlt, hneg⟩ := (cres_seeds hc hm0 hm1 he seed).1 hseed
    obtain ⟨x, hx, rfl⟩ := List.mem_map.1 hmem
    obtain ⟨g1, g2, es, ex, g3, g4, g5⟩ := C17_event_distances hc (identified events) hlt hx
    rw [h1, Option.some.injEq] at g4
    subst g4
    rw [wt_central g3] at hneg
    have hids := List.mem_filter.1 (List.mem_of_getElem? g3)
    obtain ⟨e0, e1, k1, k2, k3, -⟩ := he.from_file es hids.1
    obtain ⟨f1, f2⟩ := hfar es.id es ⟨e0, k1, by rw [HasParticles, k2]; rw [k3] at hids; exact hids.2, e1, k2, k3⟩ hneg
    cases hs : s.search with
    | naive _ =>
      rw [hs] at g5
      simp only at g5
      rw [g5] at g2
      exact absurd g2 (not_le.2 f2)
    | tree _ _ _ _ =>
      rw [hs] at g5
      simp only at g5
      rw [g5] at g2
      exact absurd g2 (not_le.2 f1)

/-- **C82**: in a run of the command line program without unweighting, for any distance, any arithmetic and any number of
threads, an event with non-negative weight that is further than the maximal cell size from all events with negative weight is
the same in the output files as in the input files. -/
theorem C82_far_events {s : CresSettings K V D} (hc : GoodChoices s) (h0 : s.minWeight = 0)
    {fs fs' : FS P} {files : List (P × P)} {ds : List (EventFile K V)}
    (hin : EventFiles s.io fs (files.map Prod.fst) ds) (hf : GoodFiles files) (hws : WeightsSupported s.io ds)
    {events : Option (List (Event K V))} {ws : List (Weights K)} {res : Outcome (CresError IOError) Unit}
    (h : s.program.Run files fs events (some ws) res fs') (hw : ∀ w ∈ ws, ∀ x ∈ w, ∀ d ∈ ds, Writable s.io d.kind x) :
    res = .ok () ∧ ∃ ds', EventFiles s.io fs' (files.map Prod.snd) ds' ∧ List.Forall₂ SameExceptWeights ds ds' ∧
      ∀ (i : Nat) ev e, (allEvents ds)[i]? = some ev → HasParticles s.program ev = true → AsRead s.program i ev e →
        0 ≤ centralWeight ev → (∀ i' e', ReadAt s.program ds i' e' → centralWeight e' < 0 → FarFrom s e' e) →
        (allEvents ds')[i]? = some ev := by
  have hg := cres_goodComponents hc
  obtain ⟨m, events', hm0, hm1, -, he, hcw, hres⟩ := supported_run hg (cres_unweight h0) hin hf hws h
  obtain ⟨h1, ds', h2, h3, h4⟩ := hres hw
  refine ⟨h1, ds', h2, h3, fun i ev e hev hp hread hpos hfar => ?_⟩
  rw [h4, List.getElem?_zipWith, far_event hc h0 hm0 hm1 he hcw hev hp hread hpos hfar, hev]
  simp only [reweighted_self]

/-- **C82**: if no event with particles has a negative weight, a run leaves all events with particles unchanged, and with
`multiweight` all other events, too. If the weights in the input files can be written, the run succeeds. -/
theorem C82_nothing_to_do {s : CresSettings K V D} (hc : GoodChoices s) (h0 : s.minWeight = 0)
    {fs fs' : FS P} {files : List (P × P)} {ds : List (EventFile K V)}
    (hin : EventFiles s.io fs (files.map Prod.fst) ds) (hf : GoodFiles files) (hws : WeightsSupported s.io ds)
    (hpos : ∀ ev ∈ allEvents ds, HasParticles s.program ev = true → 0 ≤ centralWeight ev)
    {events : Option (List (Event K V))} {ws : List (Weights K)} {res : Outcome (CresError IOError) Unit}
    (h : s.program.Run files fs events (some ws) res fs')
    (hw : ∀ ev ∈ allEvents ds, HasParticles s.program ev = true → ∀ x ∈ ev.weights, ∀ d ∈ ds, Writable s.io d.kind x)
    (hw0 : s.io.ctx.multi = false → ∀ d ∈ ds, Writable s.io d.kind 0) :
    res = .ok () ∧ ∃ ds', EventFiles s.io fs' (files.map Prod.snd) ds' ∧ List.Forall₂ SameExceptWeights ds ds' ∧
      ∀ (i : Nat) ev, (allEvents ds)[i]? = some ev → s.io.ctx.multi || HasParticles s.program ev →
        (allEvents ds')[i]? = some ev := by
  have hg := cres_goodComponents hc
  obtain ⟨m, events', hm0, hm1, -, he, hcw, hres⟩ := supported_run hg (cres_unweight h0) hin hf hws h
  obtain ⟨st, hr, hfin, hrun⟩ := computesWeights_state hcw
  have key : ∀ (i : Nat) ev, (allEvents ds)[i]? = some ev →
      (HasParticles s.program ev = true → ws[i]? = some ev.weights) ∧
      (HasParticles s.program ev = false → ws[i]? = some (defaultWeights s.program.cfg)) := by
    intro i ev hev
    have h2 := event_written hg (cres_unweight h0) hm0 hm1 he hr hfin hrun i hev
    refine ⟨fun hp => ?_, h2.2⟩
    obtain ⟨j, e, -, h3, -⟩ := h2.1 hp
    refine far_event hc h0 hm0 hm1 he hcw hev hp h3 (hpos ev (List.mem_of_getElem? hev) hp) ?_
    rintro i' e' ⟨ev', k1, k2, e1, k3, k4⟩ hneg
    rw [k4] at hneg
    have := hpos ev' (List.mem_of_getElem? k1) k2
    simp only [centralWeight, hg.cluster _ _ k3] at hneg this
    exact absurd this (not_le.2 hneg)
  have hl : ws.length = (allEvents ds).length := (weights_written_all (M := ℕ) hg (cres_unweight h0) hm0 hm1 he hr hfin hrun).1
  obtain ⟨h1, ds', h2, h3, h4⟩ := hres (by
    intro w hwm x hx d hd
    obtain ⟨i, hi⟩ := List.getElem?_of_mem hwm
    have hlt : i < (allEvents ds).length := by rw [← hl]; exact (List.getElem?_eq_some_iff.1 hi).1
    obtain ⟨k1, k2⟩ := key i _ (List.getElem?_eq_getElem hlt)
    cases hp : HasParticles s.program (allEvents ds)[i] with
    | true =>
      rw [k1 hp, Option.some.injEq] at hi
      exact hw _ (List.getElem_mem hlt) hp x (by rw [hi]; exact hx) d hd
    | false =>
      rw [k2 hp, Option.some.injEq] at hi
      subst hi
      cases hm : s.io.ctx.multi with
      | true => simp [defaultWeights, Program.cfg, CresSettings.program, hm] at hx
      | false =>
        have : x = 0 := by simpa [defaultWeights, Program.cfg, CresSettings.program, hm] using hx
        rw [this]
        exact hw0 hm d hd)
  refine ⟨h1, ds', h2, h3, fun i ev hev hor => ?_⟩
  obtain ⟨k1, k2⟩ := key i ev hev
  rw [h4, List.getElem?_zipWith, hev]
  cases hp : HasParticles s.program ev with
  | true => rw [k1 hp]; simp only [reweighted_self]
  | false =>
    rw [hp, Bool.or_false] at hor
    rw [k2 hp]
    simp [defaultWeights, Program.cfg, CresSettings.program, hor, reweighted]

end

/-! ## C83 -/

section

variable {K V D P : Type*} [Zero D] [LinearOrder D] [DistNum D] [ExactComparison D] [Field K] [LinearOrder K] [IsStrictOrderedRing K]
  [LinearOrder V] [DecidableEq P]

theorem zipWith_mul_sum (cs w : List K) :
    (List.zipWith (· * ·) cs w).sum = ∑ k ∈ Finset.range cs.length, cs.getD k 0 * w.getD k 0 := by
  induction cs generalizing w with
  | nil => simp
  | cons c cs ih =>
    cases w with
    | nil => simp
    | cons x w =>
      rw [List.zipWith_cons_cons, List.sum_cons, ih, List.length_cons, Finset.sum_range_succ']
      simp [add_comm]

/-- Averages preserve upper bounds on linear combinations. -/
theorem averageSeq_linear {n : Nat} {cells : List (List Nat)} {mem mem' : Nat → List K} (h : AverageSeq cells mem mem')
    (hc : CellsOK n cells) (cs : List K) (b : K)
    (hb : ∀ i < n, ∑ k ∈ Finset.range cs.length, cs.getD k 0 * wt mem k i ≤ b) :
    ∀ i < n, ∑ k ∈ Finset.range cs.length, cs.getD k 0 * wt mem' k i ≤ b := by
  induction h with
  | nil => exact hb
  | @cons c rest mem mem1 mem2 h1 _ ih =>
    refine ih (fun c' hc' => hc c' (List.mem_cons_of_mem _ hc')) fun i hi => ?_
    by_cases him : i ∈ c
    · have hpos : (0 : K) < (c.length : K) := by exact_mod_cast List.length_pos_of_mem him
      have e1 : ∀ l : List Nat, (l.map fun j => ∑ k ∈ Finset.range cs.length, cs.getD k 0 * wt mem k j).sum =
          ∑ k ∈ Finset.range cs.length, cs.getD k 0 * (l.map (wt mem k)).sum := by
        intro l
        induction l with
        | nil => simp
        | cons x l ihl => simp only [List.map_cons, List.sum_cons, ihl, mul_add, Finset.sum_add_distrib]
      have e2 : ∀ l : List Nat, (∀ j ∈ l, j < n) →
          (l.map fun j => ∑ k ∈ Finset.range cs.length, cs.getD k 0 * wt mem k j).sum ≤ (l.length : K) * b := by
        intro l hl
        induction l with
        | nil => simp
        | cons x l ihl =>
          have g1 := ihl fun j hj => hl j (List.mem_cons_of_mem _ hj)
          have g2 := hb x (hl x List.mem_cons_self)
          simp only [List.map_cons, List.sum_cons, List.length_cons, Nat.cast_add, Nat.cast_one, add_mul, one_mul]
          linarith
      have e3 : ∑ k ∈ Finset.range cs.length, cs.getD k 0 * wt mem1 k i =
          (∑ k ∈ Finset.range cs.length, cs.getD k 0 * (c.map (wt mem k)).sum) / (c.length : K) := by
        rw [Finset.sum_div]
        exact Finset.sum_congr rfl fun k _ => by rw [h1.mean i him k, mul_div_assoc]
      rw [e3, ← e1, div_le_iff₀ hpos, mul_comm]
      exact e2 c (hc c List.mem_cons_self).2
    · have : ∀ k, wt mem1 k i = wt mem k i := fun k => by unfold wt; rw [h1.outside i him]
      simp only [this]
      exact hb i hi

theorem combination_wt {evs : List (Event K V)} {j : Nat} {e : Event K V} (h : evs[j]? = some e) (cs : List K) :
    combination cs e = ∑ k ∈ Finset.range cs.length, cs.getD k 0 * wt (memOf evs) k j := by
  unfold combination
  rw [zipWith_mul_sum]
  simp [wt, memOf, h]

/-- **C83**: an upper bound on any linear combination of the weights of an event that holds for all events with particles in
the input files also holds for all events with particles in the output files of a run without unweighting with exact
arithmetic. -/
theorem C83_linear {s : CresSettings K V D} (hc : GoodChoices s) (h0 : s.minWeight = 0)
    {fs fs' : FS P} {files : List (P × P)} {ds : List (EventFile K V)}
    (hin : EventFiles s.io fs (files.map Prod.fst) ds) (hf : GoodFiles files) (hws : WeightsSupported s.io ds)
    {events : Option (List (Event K V))} {ws : List (Weights K)} {res : Outcome (CresError IOError) Unit}
    (h : s.program.Run files fs events (some ws) res fs') (hw : ∀ w ∈ ws, ∀ x ∈ w, ∀ d ∈ ds, Writable s.io d.kind x)
    {coeffs : List K} {b : K} (hb : ∀ ev ∈ allEvents ds, HasParticles s.program ev = true → combination coeffs ev ≤ b) :
    res = .ok () ∧ ∃ ds', EventFiles s.io fs' (files.map Prod.snd) ds' ∧ List.Forall₂ SameExceptWeights ds ds' ∧
      ∀ (i : Nat) ev ev', (allEvents ds)[i]? = some ev → HasParticles s.program ev = true → (allEvents ds')[i]? = some ev' →
        combination coeffs ev' ≤ b := by
  have hg := cres_goodComponents hc
  obtain ⟨m, events', hm0, hm1, -, he, hcw, hres⟩ := supported_run hg (cres_unweight h0) hin hf hws h
  obtain ⟨h1, ds', h2, h3, h4⟩ := hres hw
  refine ⟨h1, ds', h2, h3, fun i ev ev' hev hp hev' => ?_⟩
  obtain ⟨st, hr, hfin, hrun⟩ := computesWeights_state hcw
  obtain ⟨j, e, k1, -, k3, k4, k5⟩ := (event_written hg (cres_unweight h0) hm0 hm1 he hr hfin hrun i hev).1 hp
  have hu := read_weights hg hm0 hm1 he
  have hv := hg.valid (identified events')
  obtain ⟨A, hA⟩ := inv_reachable hv hu hr
  have hmem := finished_mem hA hfin
  obtain ⟨hav, hok⟩ := inv_averageSeq hv hu hA
  have key := averageSeq_linear hav hok coeffs b (by
    intro l hl
    have hl' := List.getElem?_eq_getElem hl
    rw [← combination_wt hl']
    have hids := List.mem_filter.1 (List.getElem_mem hl)
    generalize (identified events')[l] = x at hl' hids
    obtain ⟨e0, e1, g1, g2, g3, -⟩ := he.from_file x hids.1
    have hb' := hb e0 (List.mem_of_getElem? g1) (by rw [HasParticles, g2]; rw [g3] at hids; exact hids.2)
    rw [g3]
    unfold combination at hb' ⊢
    rw [hg.cluster _ _ g2] at *
    exact hb') j (List.getElem?_eq_some_iff.1 k1).1
  rw [h4, List.getElem?_zipWith, k4, hev] at hev'
  simp only [Option.some.injEq] at hev'
  have hne : st.mem j ≠ [] := by
    intro hnil
    rw [hnil] at k5
    exact absurd k5 hm0.ne
  have hw' : ev'.weights = st.mem j := by
    rw [← hev', reweighted]
    split_ifs with hif
    · exact absurd hif hne
    · rfl
  unfold combination
  rw [zipWith_mul_sum, hw', hmem]
  exact key

/-- **C82**: after a run on one thread in which all other events can be found, and in which all events have particles and the
sum of their weights is not negative, the weights in the output files are final: a further run on the output files leaves
all events with particles unchanged, with any number of threads, any distance, any maximal cell size and any clustering. -/
theorem C82_again {s : CresSettings K V D} (hc : GoodChoices s) (h0 : s.minWeight = 0)
    {fs fs' : FS P} {files : List (P × P)} {ds : List (EventFile K V)}
    (hin : EventFiles s.io fs (files.map Prod.fst) ds) (hf : GoodFiles files)
    (hnames : s.io.ctx.multi = true → s.io.ctx.names = []) (hpart : ∀ ev ∈ allEvents ds, HasParticles s.program ev = true)
    {events : List (Event K V)} {ws : List (Weights K)} {res : Outcome (CresError IOError) Unit}
    (h : s.program.Run files fs (some events) (some ws) res fs') (hone : OneThreadWeights s.program events ws)
    (hlen : events.length ≤ usizeMax) (hno : NoLimit s events) (hpos : 0 ≤ centralSum (allEvents ds))
    (hw : ∀ w ∈ ws, ∀ x ∈ w, ∀ d ∈ ds, Writable s.io d.kind x) (hw0 : ∀ d ∈ ds, Writable s.io d.kind 0) :
    res = .ok () ∧ ∃ ds', EventFiles s.io fs' (files.map Prod.snd) ds' ∧ List.Forall₂ SameExceptWeights ds ds' ∧
      ∀ (s2 : CresSettings K V D), GoodChoices s2 → s2.minWeight = 0 → s2.io = s.io →
      ∀ (files2 : List (P × P)) events2 ws2 res2 fs2, files2.map Prod.fst = files.map Prod.snd → GoodFiles files2 →
        s2.program.Run files2 fs' events2 (some ws2) res2 fs2 →
        res2 = .ok () ∧ ∃ ds2, EventFiles s.io fs2 (files2.map Prod.snd) ds2 ∧ List.Forall₂ SameExceptWeights ds' ds2 ∧
          ∀ (i : Nat) ev, (allEvents ds')[i]? = some ev → s.io.ctx.multi || HasParticles s2.program ev →
            (allEvents ds2)[i]? = some ev := by
  have hg := cres_goodComponents hc
  have hfil : (allEvents ds).filter (HasParticles s.program) = allEvents ds := List.filter_eq_self.2 hpart
  obtain ⟨hres, -, hwt⟩ := one_thread_weights hc h0 hin hf (Or.inl hnames) h hone hlen hno (by rw [hfil]; exact hpos)
  obtain ⟨h1, ds', h2, h3, h4⟩ := hres hw
  refine ⟨h1, ds', h2, h3, ?_⟩
  intro s2 hc2 h02 hio files2 events2 ws2 res2 fs2 hfiles hf2 hrun2
  obtain ⟨m, events', hm0, hm1, -, he, hcw, -⟩ := supported_run hg (cres_unweight h0) hin hf (Or.inl hnames) h
  obtain ⟨st, hr, hfin, hrun⟩ := computesWeights_state hcw
  have hev : ∀ ev' ∈ allEvents ds', 0 ≤ centralWeight ev' ∧ ev'.weights ∈ ws := by
    intro ev' hmem
    obtain ⟨i, hi⟩ := List.getElem?_of_mem hmem
    rw [h4] at hi
    have hi' := hi
    rw [List.getElem?_zipWith] at hi'
    split at hi'
    case h_2 => cases hi'
    rename_i w ev g1 g2
    simp only [Option.some.injEq] at hi'
    have hp := hpart ev (List.mem_of_getElem? g2)
    refine ⟨(hwt i ev ev' g2 hi).1 hp, ?_⟩
    obtain ⟨j, e, -, -, -, k4, k5⟩ := (event_written hg (cres_unweight h0) hm0 hm1 he hr hfin hrun i g2).1 hp
    rw [g1, Option.some.injEq] at k4
    rw [← hi', reweighted, if_neg]
    · exact List.mem_of_getElem? g1
    · intro hnil
      rw [← k4, hnil] at k5
      exact absurd k5 hm0.ne
  have hkind : ∀ d' ∈ ds', ∃ d ∈ ds, d.kind = d'.kind := by
    intro d' hd'
    obtain ⟨i, hi⟩ := List.getElem?_of_mem hd'
    have hl := h3.length_eq
    have hi2 := (List.getElem?_eq_some_iff.1 hi)
    obtain ⟨hlt, rfl⟩ := hi2
    have hlt' : i < ds.length := by omega
    have := (List.forall₂_iff_get.1 h3).2 i hlt' hlt
    exact ⟨ds[i], List.getElem_mem hlt', this.kind.symm⟩
  rw [← hio]
  refine C82_nothing_to_do hc2 h02 (by rw [hio, hfiles]; exact h2) hf2 (Or.inl (by rw [hio]; exact hnames))
    (fun ev hmem _ => (hev ev hmem).1) hrun2 ?_ ?_
  · intro ev hmem _ x hx d' hd'
    obtain ⟨d, hd, hk⟩ := hkind d' hd'
    rw [← hk, hio]
    exact hw _ (hev ev hmem).2 x hx d hd
  · intro _ d' hd'
    obtain ⟨d, hd, hk⟩ := hkind d' hd'
    rw [← hk, hio]
    exact hw0 d hd

end

/-! ### examples -/

/-- Settings for an example: the distance is the difference of the total momenta, and cells have at most size 1. -/
def exNear (multi : Bool) : CresSettings ℚ ℚ ℚ := { exSettings multi with maxCellSize := 1 }

theorem exNear_good (multi : Bool) : GoodChoices (exNear multi) :=
  ⟨(exSettings_good multi).search, (exSettings_good multi).seeds, (exSettings_good multi).rng⟩

theorem exNear_reads (multi : Bool) : ∃ s fs1 x, CombinedIO.new (exNear multi).io [((0 : ℕ), 10), (1, 11)] exProgFS = (.ok (), s, fs1) ∧
    (exNear multi).program.ReadsEvents s fs1 (.ok exProgEvents) x := by
  obtain ⟨s, fs1, x, h1, h2⟩ := exProg_reads multi
  refine ⟨s, fs1, x, h1, ?_⟩
  generalize hr : (Outcome.ok exProgEvents : Outcome (CresError IOError) _) = r at h2 ⊢
  cases h2 with
  | panic _ => cases hr
  | done a b c => exact .done a b c

/-- The event with weight 6 and momentum 9 is too far from the event with weight -2 and momentum 7. -/
theorem exNear_weights (multi : Bool) : (exNear multi).program.ComputesWeights exProgEvents (.ok [[2], [6], [2]]) := by
  have hdec : (runSchedule (exNear multi).program.cfg 3 ((exNear multi).program.nearest exProgEvents)
      ((exNear multi).program.seeds exProgEvents) (List.replicate (if multi then 11 else 9) 0) (State.init (memOf exProgEvents))).map
      (fun s => (s.tasks 0, s.mem 0, s.mem 1, s.mem 2)) = some (.done (some ⟨[1, 2], 1, 4⟩), [6], [2], [2]) := by
    cases multi <;> decide +kernel
  cases hr : runSchedule (exNear multi).program.cfg 3 ((exNear multi).program.nearest exProgEvents)
      ((exNear multi).program.seeds exProgEvents) (List.replicate (if multi then 11 else 9) 0) (State.init (memOf exProgEvents)) with
  | none => rw [hr] at hdec; simp at hdec
  | some st =>
    rw [hr] at hdec
    simp only [Option.map_some, Option.some.injEq, Prod.mk.injEq] at hdec
    have hid : identified exProgEvents = exProgEvents := by decide
    have hlog : logSumsPanics (exNear multi).program.cfg (exNear multi).program.infoLog exProgEvents = false := by
      cases multi <;> decide +kernel
    have hseeds : (exNear multi).program.seeds exProgEvents = [2] := by cases multi <;> decide +kernel
    have hres : (exNear multi).program.Resamples (exProgEvents.filter fun e => !e.outgoingByPid.isEmpty)
        (.ok (withWeights exProgEvents st.mem)) := by
      rw [show exProgEvents.filter (fun e => !e.outgoingByPid.isEmpty) = exProgEvents from hid]
      refine .ok hlog ⟨st, runSchedule_reachable _ Reachable.init hr, ?_, rfl⟩
      intro t ht
      rw [hseeds] at ht
      simp only [List.length_cons, List.length_nil, zero_add, Nat.lt_one_iff] at ht
      subst ht
      exact ⟨_, hdec.1⟩
    have hw : withWeights exProgEvents st.mem = [⟨1, [6], [(81, [9])]⟩, ⟨2, [2], [(81, [8])]⟩, ⟨0, [2], [(81, [7])]⟩] := by
      simp [withWeights, exProgEvents, hdec]
    rw [hw] at hres
    have := ComputesWeights.mk hres
    have hrun : runWeights (exNear multi).program.cfg (exNear multi).program.infoLog
        (fun _ => (.ok [⟨1, [6], [(81, [9])]⟩, ⟨2, [2], [(81, [8])]⟩, ⟨0, [2], [(81, [7])]⟩] : Outcome IOError (List (Event ℚ ℚ))))
        (exNear multi).program.unweight exProgEvents = .ok [[2], [6], [2]] := by
      cases multi <;> decide +kernel
    rw [hrun] at this
    exact this

theorem exProg_writable {multi : Bool} : ∀ w ∈ ([[2], [6], [2]] : List (List ℚ)), ∀ x ∈ w,
    ∀ d ∈ [exProgHepmc, exProgLhef], Writable (exSettings multi).io d.kind x := by
  intro w hw x hx d hd
  have h2 : (exSettings multi).io.ctx.float.finite x = true := by
    simp only [List.mem_cons, List.not_mem_nil, or_false] at hw
    rcases hw with rfl | rfl | rfl <;> simp only [List.mem_cons, List.not_mem_nil, or_false] at hx <;> subst hx <;>
      cases multi <;> decide +kernel
  simp only [List.mem_cons, List.not_mem_nil, or_false] at hd
  rcases hd with rfl | rfl <;> exact ⟨h2, trivial⟩

/-- The hypotheses of `C82_far_events` are met for the second of three events: it is unchanged, while the weights of
both other events change. -/
example (multi : Bool) : ∃ res fs', (exNear multi).program.Run [((0 : ℕ), 10), (1, 11)] exProgFS (some exProgEvents)
      (some [[2], [6], [2]]) res fs' ∧
    ∃ ds', EventFiles (exNear multi).io fs' [10, 11] ds' ∧ (allEvents ds')[1]? = some ⟨0, [6], [(21, [9])]⟩ := by
  obtain ⟨s, fs1, x, h1, h2⟩ := exNear_reads multi
  have h := Run.update h1 h2 (exNear_weights multi)
  refine ⟨_, _, h, ?_⟩
  have hin : EventFiles (exNear multi).io exProgFS ([((0 : ℕ), 10), (1, 11)].map Prod.fst) [exProgHepmc, exProgLhef] :=
    exProgFiles multi
  obtain ⟨-, ds', h3, -, h4⟩ := C82_far_events (exNear_good multi) rfl hin exProgGood (Or.inl fun _ => rfl) h
    exProg_writable
  refine ⟨ds', h3, h4 1 _ ⟨1, [6], [(81, [9])]⟩ rfl (by cases multi <;> decide +kernel)
    ⟨⟨0, [6], [(81, [9])]⟩, by cases multi <;> decide +kernel, rfl⟩ (by decide) ?_⟩
  rintro i' e' ⟨ev, k1, -, e1, k3, k4⟩ hneg
  have hlt : i' < 3 := (List.getElem?_eq_some_iff.1 k1).1
  have hcases : i' = 0 ∨ i' = 1 ∨ i' = 2 := by omega
  have key : ∀ (ev : Event ℚ ℚ), ev ∈ allEvents [exProgHepmc, exProgLhef] → ∀ i : ℕ,
      centralWeight { Cluster.cluster (exNear multi).io.ctx.multi (exNear multi).particles (exNear multi).clustering ev with id := i } < 0 →
      (exNear multi).maxCellSize < (exNear multi).distance
        { Cluster.cluster (exNear multi).io.ctx.multi (exNear multi).particles (exNear multi).clustering ev with id := i }
        ⟨1, [6], [(81, [9])]⟩ ∧ (exNear multi).maxCellSize < (exNear multi).distance ⟨1, [6], [(81, [9])]⟩
        { Cluster.cluster (exNear multi).io.ctx.multi (exNear multi).particles (exNear multi).clustering ev with id := i } := by
    intro ev hev i
    have : ∀ ev ∈ allEvents [exProgHepmc, exProgLhef],
      centralWeight (Cluster.cluster (exNear multi).io.ctx.multi (exNear multi).particles (exNear multi).clustering ev) < 0 →
      (exNear multi).maxCellSize < (exNear multi).distance
        (Cluster.cluster (exNear multi).io.ctx.multi (exNear multi).particles (exNear multi).clustering ev)
        ⟨1, [6], [(81, [9])]⟩ ∧ (exNear multi).maxCellSize < (exNear multi).distance ⟨1, [6], [(81, [9])]⟩
        (Cluster.cluster (exNear multi).io.ctx.multi (exNear multi).particles (exNear multi).clustering ev) := by
      cases multi <;> decide +kernel
    exact this ev hev
  have : e1 = Cluster.cluster (exNear multi).io.ctx.multi (exNear multi).particles (exNear multi).clustering ev := by
    simpa [CresSettings.program, eq_comm] using k3
  rw [k4, this] at hneg ⊢
  exact key ev (List.mem_of_getElem? k1) _ hneg

/-- The hypotheses of `C82_nothing_to_do` are met by a file with an event of weight 6. -/
example (multi : Bool) : ∃ events ws res fs', (exSettings multi).program.Run [((1 : ℕ), 11)] exProgFS events (some ws) res fs' ∧
    res = .ok () ∧ ∃ ds', EventFiles (exSettings multi).io fs' [11] ds' ∧ (allEvents ds')[0]? = some ⟨0, [6], [(21, [8])]⟩ := by
  have hin : EventFiles (exSettings multi).io exProgFS ([((1 : ℕ), 11)].map Prod.fst) [exProgLhef] :=
    .cons ⟨_, rfl, exProgLhef_ok multi⟩ .nil
  have hf : GoodFiles [((1 : ℕ), 11)] := ⟨by decide, by decide⟩
  obtain ⟨h1, events, ows, res, fs', h2⟩ := C69_cres_completes_partial (exSettings_good multi) rfl rfl (fun _ => rfl) hin hf
  obtain ⟨ws, rfl⟩ := h1 _ _ _ _ h2
  have hfin : ∀ x : ℚ, x = 6 ∨ x = 0 → Writable (exSettings multi).io exProgLhef.kind x := by
    rintro x (rfl | rfl) <;> refine ⟨?_, trivial⟩ <;> cases multi <;> decide +kernel
  obtain ⟨h3, ds', h4, -, h5⟩ := C82_nothing_to_do (exSettings_good multi) rfl hin hf (Or.inl fun _ => rfl)
    (by cases multi <;> decide +kernel) h2
    (by
      intro ev hev _ x hx d hd
      simp only [List.mem_singleton] at hd
      subst hd
      have hev : ev = ⟨0, [6], [(21, [8])]⟩ := by simpa [allEvents, exProgLhef] using hev
      subst hev
      exact hfin x (Or.inl (by simpa using hx)))
    (by
      intro _ d hd
      simp only [List.mem_singleton] at hd
      subst hd
      exact hfin 0 (Or.inr rfl))
  exact ⟨_, ws, res, fs', h2, h3, ds', h4, h5 0 _ rfl (by cases multi <;> decide +kernel)⟩

/-- The hypotheses of `C82_again` are met in the run of the example for C69. -/
example (multi : Bool) : ∃ fs' ds', EventFiles (exSettings multi).io fs' [10, 11] ds' ∧
    ∀ (files2 : List (ℕ × ℕ)) events2 ws2 res2 fs2, files2.map Prod.fst = [10, 11] → GoodFiles files2 →
      (exNear multi).program.Run files2 fs' events2 (some ws2) res2 fs2 → res2 = .ok () := by
  obtain ⟨res, fs', h⟩ := exProg_run multi
  obtain ⟨-, ds', h1, -, h2⟩ := C82_again (exSettings_good multi) rfl (exProgFiles multi) exProgGood (fun _ => rfl)
    (by cases multi <;> decide +kernel) h (exProg_oneThread multi) (by decide +kernel)
    (noLimit_of_metric ⟨fun x y _ _ => abs_sub_comm _ _, fun x y z _ _ _ => abs_sub_le _ _ _⟩ (by cases multi <;> decide +kernel))
    (by decide +kernel) exProg_writable (by
      intro d hd
      have h2 : (exSettings multi).io.ctx.float.finite 0 = true := by cases multi <;> decide +kernel
      simp only [List.mem_cons, List.not_mem_nil, or_false] at hd
      rcases hd with rfl | rfl <;> exact ⟨h2, trivial⟩)
  exact ⟨fs', ds', h1, fun files2 events2 ws2 res2 fs2 g1 g2 g3 =>
    (h2 (exNear multi) (exNear_good multi) rfl rfl files2 events2 ws2 res2 fs2 g1 g2 g3).1⟩

/-- The hypotheses of `C83_linear` are met in the run of the example for C69: no weight becomes larger than 6, and
none smaller than -2. -/
example (multi : Bool) : ∃ res fs', (exSettings multi).program.Run [((0 : ℕ), 10), (1, 11)] exProgFS
      (some exProgEvents) (some [[2], [6], [2]]) res fs' ∧
    (∀ ev ∈ allEvents [exProgHepmc, exProgLhef], HasParticles (exSettings multi).program ev = true → combination [1] ev ≤ 6) ∧
    (∀ ev ∈ allEvents [exProgHepmc, exProgLhef], HasParticles (exSettings multi).program ev = true → combination [-1] ev ≤ 2) := by
  obtain ⟨res, fs', h⟩ := exProg_run multi
  exact ⟨res, fs', h, by cases multi <;> decide +kernel, by cases multi <;> decide +kernel⟩

end Cres

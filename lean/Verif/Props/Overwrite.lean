import Verif.Proofs.Overwrite
import Verif.Props.Written

/-!
Property C103: a further run on output files.
-/

set_option linter.unusedSectionVars false

namespace Cres

open Spec CombinedIO Program

/-! ### outputs -/

section

variable {K V D P : Type*} [Zero K] [One K] [Add K] [Mul K] [Div K] [NatCast K] [LinearOrder K] [LinearOrder V] [DecidableEq P]

/-- The content of output files. -/
def outputs (io : IOConfig K V) (ds : List (EventFile K V)) (ws : List (List K)) : List (Option Bytes) :=
  List.zipWith (fun d w => some (Spec.output io d.toFileData w)) ds (splitWeights ds ws)

theorem updated_nil (io : IOConfig K V) (kind : Kind K) (r : Bytes) : updated io kind [] r = r := by
  cases kind <;> rfl

theorem record_overwrite {io : IOConfig K V} {fs : FS P} {paths : List P} {ds : List (EventFile K V)}
    (hin : EventFiles io fs paths ds) (hs : WeightsSupported io ds) {d : EventFile K V} (hd : d ∈ ds) {r : Bytes} (hr : r ∈ d.records)
    {w v : List K} (hw : CanStore io d w) (hv : CanStore io d v) (hl : w.length = v.length)
    (hlen : w = [] ∨ ∀ ev ∈ allEvents ds, w.length = ev.weights.length) :
    updated io d.kind v (updated io d.kind w r) = updated io d.kind v r ∧
      (NamedFiles io ds → (splitAtPattern (ascii "\nN") (updated io d.kind w r)).map Prod.snd =
        (splitAtPattern (ascii "\nN") r).map Prod.snd) := by
  obtain ⟨q, -, content, -, hc⟩ := forall₂_mem hin hd
  obtain ⟨ev, -, hev⟩ : ∃ ev ∈ d.events, RecordEvent io d.kind r ev := by
    obtain ⟨i, hi⟩ := List.getElem?_of_mem hr
    obtain ⟨h1, rfl⟩ := List.getElem?_eq_some_iff.1 hi
    have h2 := hc.2.length_eq
    exact ⟨d.events[i], List.getElem_mem _, (List.forall₂_iff_get.1 hc.2).2 i h1 (by omega)⟩
  rcases hlen with rfl | hlen
  · rw [updated_nil]
    exact ⟨rfl, fun _ => rfl⟩
  obtain ⟨r', hu, -⟩ := hw.2 r hr ev hev
  obtain ⟨r2, hu2, -⟩ := hv.2 r hr ev hev
  have hmem := recordEvent_mem hin hd hr hev
  have hl1 := hlen ev hmem
  rw [updated_eq hu]
  rcases hs with hn | ⟨hnf, hnan⟩
  · rw [single_weights hn hin ev hmem] at hl1
    obtain ⟨x, rfl⟩ := List.length_eq_one_iff.1 hl1
    obtain ⟨y, rfl⟩ := List.length_eq_one_iff.1 (hl.symm.trans hl1)
    refine ⟨?_, fun hnf => absurd (hn hnf.multi) hnf.nonempty⟩
    rw [updated_eq hu2]
    apply updated_eq
    rw [kind_overwrite hn hev (isEventFile_quoted hc r hr) (hw.1 x (by simp)) hu, hu2]
  · have hk := hnf.hepmc d hd
    rw [hnf.weights ev hmem] at hl1
    rw [hk] at hev hu hu2
    obtain ⟨x, xs, rfl⟩ := List.exists_cons_of_ne_nil (l := w) (by rintro rfl; simp at hl1)
    obtain ⟨y, ys, rfl⟩ := List.exists_cons_of_ne_nil (l := v) (by rintro rfl; simp at hl)
    have hfw : ∀ z ∈ x :: xs, io.ctx.float.finite z = true := fun z hz => by simpa [Storable, hk] using hw.1 z hz
    have hfv : ∀ z ∈ y :: ys, io.ctx.float.finite z = true := fun z hz => by simpa [Storable, hk] using hv.1 z hz
    have := HepMC.overwrite_named io.ctx hnf.multi hnf.nonempty hev hfw hu (hfv y (by simp)) ys (by simpa using hl.symm)
    refine ⟨?_, fun _ => this.2⟩
    rw [hk]
    rw [updated_eq hu2]
    apply updated_eq
    rw [← hu2]
    exact this.1

theorem splitWeights_same : ∀ {ds ds' : List (EventFile K V)}, List.Forall₂ (fun d d' => d'.records.length = d.records.length) ds ds' →
    ∀ ws : List (List K), splitWeights ds' ws = splitWeights ds ws
  | _, _, .nil, _ => rfl
  | _, _, .cons h hs, ws => by simp only [splitWeights, h, splitWeights_same hs]

theorem zipWith_overwrite (io : IOConfig K V) (kind : Kind K) {R : List K → List K → Prop} : ∀ {ws vs : List (List K)},
    List.Forall₂ R ws vs → ∀ rs : List Bytes,
    (∀ r ∈ rs, ∀ w v, R w v → updated io kind v (updated io kind w r) = updated io kind v r) →
    List.zipWith (updated io kind) vs (List.zipWith (updated io kind) ws rs) = List.zipWith (updated io kind) vs rs
  | _, _, .nil, rs, _ => by simp
  | _, _, .cons _ _, [], _ => by simp
  | _, _, .cons h hs, r :: rs, H => by
    simp only [List.zipWith_cons_cons, H r (by simp) _ _ h, zipWith_overwrite io kind hs rs fun r' hr' => H r' (by simp [hr'])]

theorem outputs_overwrite (io : IOConfig K V) {R : List K → List K → Prop} : ∀ (ds : List (EventFile K V)) {ws vs : List (List K)},
    List.Forall₂ R ws vs →
    (∀ d ∈ ds, ∀ r ∈ d.records, ∀ w v, R w v → updated io d.kind v (updated io d.kind w r) = updated io d.kind v r) →
    (ds.map (·.records.length)).sum ≤ ws.length →
    outputs io (List.zipWith (EventFile.reweight io) ds (splitWeights ds ws)) vs = outputs io ds vs
  | [], _, _, _, _, _ => rfl
  | d :: ds, ws, vs, h, H, hl => by
    have hl' : d.records.length + (ds.map (·.records.length)).sum ≤ ws.length := by simpa using hl
    have e1 : (d.reweight io (ws.take d.records.length)).records.length = d.records.length := by
      simp only [EventFile.reweight, List.length_zipWith, List.length_take]
      omega
    have ih := outputs_overwrite io ds (List.forall₂_drop d.records.length h) (fun d' hd' => H d' (by simp [hd']))
      (by rw [List.length_drop]; omega)
    unfold outputs at ih ⊢
    simp only [splitWeights, List.zipWith_cons_cons, e1, ih]
    congr 2
    unfold Spec.output
    change d.header ++ (List.zipWith (updated io d.kind) _ (List.zipWith _ _ _)).flatten ++ d.kind.footer = _
    rw [zipWith_overwrite io d.kind (List.forall₂_take d.records.length h) d.records (H d (by simp))]

/-- What a run writes, byte for byte. -/
theorem run_contents [Zero D] [LinearOrder D] {p : Program K V D} {m : Nat} {fs fs' : FS P}
    {files : List (P × P)} {ds : List (EventFile K V)}
    (hm : ∀ ev ∈ allEvents ds, ev.weights.length = m) (hin : EventFiles p.io fs (files.map Prod.fst) ds) (hf : GoodFiles files)
    {events : Option (List (Event K V))} {ws : List (Weights K)} {res : Outcome (CresError IOError) Unit}
    (h : p.Run files fs events (some ws) res fs') (hw : ∀ w ∈ ws, ∀ d ∈ ds, CanStore p.io d w) :
    (files.map Prod.snd).map fs' = outputs p.io ds ws := by
  obtain ⟨s0, fs0, hnew, hread, -⟩ := reads_files hm hin hf
  have hin' := eventFiles_inputs hin
  have hup : ∀ x ∈ ws.zip (items (ds.map EventFile.toFileData)), ∃ r, x.2.1.update p.io x.1 x.2.2 = .ok r := by
    rintro ⟨w, k, r⟩ hx
    obtain ⟨hx1, hx2⟩ := List.of_mem_zip hx
    obtain ⟨d', hd', hx2⟩ := List.mem_flatMap.1 hx2
    obtain ⟨d, hd, rfl⟩ := List.mem_map.1 hd'
    obtain ⟨r0, hr0, e⟩ := List.mem_map.1 hx2
    simp only [Prod.mk.injEq] at e
    obtain ⟨rfl, rfl⟩ := e
    obtain ⟨q, -, content, -, hc⟩ := forall₂_mem hin hd
    obtain ⟨i, hi⟩ := List.getElem?_of_mem hr0
    obtain ⟨h1, rfl⟩ := List.getElem?_eq_some_iff.1 hi
    have h2 := hc.2.length_eq
    obtain ⟨r', hu, -⟩ := (hw w hx1 d hd).2 _ hr0 _ ((List.forall₂_iff_get.1 hc.2).2 i h1 (by omega))
    exact ⟨r', hu⟩
  generalize hws : some ws = ows at h
  cases h with
  | createErr _ | createPanic _ | readErr _ _ | readPanic _ _ | weightsErr _ _ _ | weightsPanic _ _ _ => simp at hws
  | @update s fs1 events ws' x h1 h2 h3 =>
    simp only [Option.some.injEq] at hws
    subst hws
    rw [hnew] at h1
    simp only [Prod.mk.injEq, true_and] at h1
    obtain ⟨rfl, rfl⟩ := h1
    obtain ⟨⟨k, hk⟩, -, -⟩ := hread _ _ h2
    have hx : x = (List.replicate k Op.next).foldl (CombinedIO.step p.io) (CombinedIO.new p.io files fs).2 := by
      rw [hk, hnew]
    obtain ⟨-, h5, -⟩ := C42_update_all p.io hin' hf.disjoint hf.nodup (List.replicate k Op.next) ws hup hx
    have hfl := hin.length_eq
    rw [List.length_map] at hfl
    apply List.ext_getElem?
    intro j
    unfold outputs
    rw [List.getElem?_map, List.getElem?_map, List.getElem?_zipWith]
    cases hj : ds[j]? with
    | none =>
      have := List.getElem?_eq_none_iff.1 hj
      rw [List.getElem?_eq_none (by omega)]
      rfl
    | some d =>
      have hlt := (List.getElem?_eq_some_iff.1 hj).1
      have hfj : files[j]? = some files[j] := List.getElem?_eq_getElem (by omega)
      rw [splitWeights_get ds ws j d hj, hfj]
      simp only [Option.map_some, Option.some.injEq]
      rw [h5 j files[j] d.toFileData hfj (by simp [hj])]
      unfold Spec.output
      rw [zipWith_take_right]

end

section

variable {K V D P : Type*} [Zero D] [LinearOrder D] [DistNum D] [ExactComparison D] [Zero K] [One K] [Add K] [Mul K] [Div K]
  [Neg K] [NatCast K] [LinearOrder K] [LinearOrder V] [DecidableEq P]

/-- Whether an event has particles after clustering does not depend on its weights. -/
theorem hasParticles_reweighted {s s2 : CresSettings K V D} (hio : s2.io = s.io) (hp : s2.particles = s.particles)
    (hcl : s2.clustering = s.clustering) (w : List K) (ev : Event K V) :
    HasParticles s2.program (reweighted w ev) = HasParticles s.program ev := by
  unfold HasParticles
  simp only [CresSettings.program, hio, hp, hcl]
  have : (reweighted w ev).outgoingByPid = ev.outgoingByPid := by
    unfold reweighted
    split_ifs <;> rfl
  unfold Cluster.cluster
  rw [this]

/-- All weights that a run computes can be written. -/
theorem supported_can {p : Program K V D} (hg : GoodComponents p) (hun : p.unweight = .ok) {fs fs' : FS P}
    {files : List (P × P)} {ds : List (EventFile K V)} (hin : EventFiles p.io fs (files.map Prod.fst) ds) (hf : GoodFiles files)
    (hs : WeightsSupported p.io ds) {oevents : Option (List (Event K V))} {ws : List (Weights K)}
    {res : Outcome (CresError IOError) Unit} (h : p.Run files fs oevents (some ws) res fs')
    (hw : ∀ w ∈ ws, ∀ x ∈ w, ∀ d ∈ ds, Writable p.io d.kind x) :
    ∃ m events, 0 < m ∧ (p.io.ctx.multi = false → m = 1) ∧ (∀ ev ∈ allEvents ds, ev.weights.length = m) ∧
      EventsRead p m ds events ∧ p.ComputesWeights events (.ok ws) ∧ ∀ w ∈ ws, ∀ d ∈ ds, CanWrite p.io d w := by
  obtain ⟨m, hm0, hm1, hm, hcan⟩ := supported_weights hin hs
  obtain ⟨events, h2, he, hcw⟩ := run_events_all hm hin hf h
  have hlen := (weights_length hg hun hm0 hm1 he hcw).2
  exact ⟨m, events, hm0, hm1, hm, he, hcw, fun w hwm => hcan w (hlen w hwm) (hw w hwm) fun hlt h =>
    weights_equal hg hun hm0 hm1 he hcw hm0 hlt h w hwm⟩

/-- The weights of a run in which no event with particles has a negative weight. -/
theorem weights_kept {s : CresSettings K V D} (hc : GoodChoices s) (h0 : s.minWeight = 0)
    {fs fs' : FS P} {files : List (P × P)} {ds : List (EventFile K V)}
    (hin : EventFiles s.io fs (files.map Prod.fst) ds) (hf : GoodFiles files) (hws : WeightsSupported s.io ds)
    (hpos : ∀ ev ∈ allEvents ds, HasParticles s.program ev = true → 0 ≤ centralWeight ev)
    {events : Option (List (Event K V))} {ws : List (Weights K)} {res : Outcome (CresError IOError) Unit}
    (h : s.program.Run files fs events (some ws) res fs') :
    ws = (allEvents ds).map fun ev => if HasParticles s.program ev then ev.weights else defaultWeights s.program.cfg := by
  have hg := cres_goodComponents hc
  obtain ⟨m, events', hm0, hm1, -, he, hcw, -⟩ := supported_run hg (cres_unweight h0) hin hf hws h
  obtain ⟨st, hr, hfin, hrun⟩ := computesWeights_state hcw
  have hl : ws.length = (allEvents ds).length := (weights_length hg (cres_unweight h0) hm0 hm1 he hcw).1
  apply List.ext_getElem?
  intro i
  rw [List.getElem?_map]
  cases hev : (allEvents ds)[i]? with
  | none =>
    have := List.getElem?_eq_none_iff.1 hev
    rw [List.getElem?_eq_none (by omega)]
    rfl
  | some ev =>
    have h2 := event_written hg (cres_unweight h0) hm0 hm1 he hr hfin hrun i hev
    simp only [Option.map_some]
    cases hp : HasParticles s.program ev with
    | false => simpa using h2.2 hp
    | true =>
      obtain ⟨j, e, -, h3, -⟩ := h2.1 hp
      simp only [if_true]
      refine far_event hc h0 hm0 hm1 he hcw hev hp h3 (hpos ev (List.mem_of_getElem? hev) hp) ?_
      rintro i' e' ⟨ev', k1, k2, e1, k3, k4⟩ hneg
      rw [k4] at hneg
      have := hpos ev' (List.mem_of_getElem? k1) k2
      simp only [centralWeight, hg.cluster _ _ k3] at hneg this
      exact absurd this (not_le.2 hneg)

/-- What holds after a run: the output files with their bytes, and lengths of weights. -/
theorem run_written {s : CresSettings K V D} (hc : GoodChoices s) (h0 : s.minWeight = 0)
    {fs fs' : FS P} {files : List (P × P)} {ds : List (EventFile K V)}
    (hin : EventFiles s.io fs (files.map Prod.fst) ds) (hf : GoodFiles files) (hws : WeightsSupported s.io ds)
    {events : Option (List (Event K V))} {ws : List (Weights K)} {res : Outcome (CresError IOError) Unit}
    (h : s.program.Run files fs events (some ws) res fs') (hw : ∀ w ∈ ws, ∀ x ∈ w, ∀ d ∈ ds, Writable s.io d.kind x) :
    res = .ok () ∧ (files.map Prod.snd).map fs' = outputs s.io ds ws ∧
    EventFiles s.io fs' (files.map Prod.snd) (List.zipWith (EventFile.reweight s.io) ds (splitWeights ds ws)) ∧
    List.Forall₂ SameExceptWeights ds (List.zipWith (EventFile.reweight s.io) ds (splitWeights ds ws)) ∧
    allEvents (List.zipWith (EventFile.reweight s.io) ds (splitWeights ds ws)) = List.zipWith reweighted ws (allEvents ds) ∧
    WeightsSupported s.io (List.zipWith (EventFile.reweight s.io) ds (splitWeights ds ws)) ∧
    ws.length = (allEvents ds).length ∧ (ds.map (·.records.length)).sum = (allEvents ds).length ∧
    (∀ w ∈ ws, ∀ d ∈ ds, CanWrite s.io d w) ∧
    ∃ m, 0 < m ∧ (∀ ev ∈ allEvents ds, ev.weights.length = m) ∧
      List.Forall₂ (fun w ev => if HasParticles s.program ev then w.length = m else w = defaultWeights s.program.cfg) ws (allEvents ds) := by
  have hg := cres_goodComponents hc
  obtain ⟨m, events', hm0, hm1, hm, he, hcw, hcan⟩ := supported_can (p := s.program) hg (cres_unweight h0) hin hf hws h hw
  obtain ⟨-, hl, h3⟩ := run_files (p := s.program) hm hin hf h
  obtain ⟨g1, g2, g3, g4⟩ := h3 hcan
  have hcont := run_contents (p := s.program) hm hin hf h fun w hw d hd => (hcan w hw d hd).2
  have hsum : (ds.map (·.records.length)).sum = (allEvents ds).length := by
    have hel : ∀ d ∈ ds, d.events.length = d.records.length := by
      intro d hd
      obtain ⟨q, -, content, -, hc⟩ := forall₂_mem hin hd
      exact hc.2.length_eq.symm
    clear g1 g2 g3 g4 hcont h3 hl hcan hm he hws hw hin
    induction ds with
    | nil => rfl
    | cons d ds ih =>
      have ih := ih (fun d' hd' => hel d' (by simp [hd']))
      simp only [allEvents, List.flatMap_cons, List.length_append, List.map_cons, List.sum_cons] at ih ⊢
      rw [ih, hel d (by simp)]
  have hwl := (weights_length hg (cres_unweight h0) hm0 hm1 he hcw).2
  obtain ⟨st, hr, hfin, hrun⟩ := computesWeights_state hcw
  have hlens : List.Forall₂ (fun w ev => if HasParticles s.program ev then w.length = m else w = defaultWeights s.program.cfg)
      ws (allEvents ds) := by
    rw [List.forall₂_iff_get]
    refine ⟨hl, fun i hi hi' => ?_⟩
    have h2 := event_written hg (cres_unweight h0) hm0 hm1 he hr hfin hrun i (List.getElem?_eq_getElem hi')
    simp only [List.get_eq_getElem]
    split_ifs with hp
    · obtain ⟨j, e, -, -, -, k4, k5⟩ := h2.1 hp
      rw [List.getElem?_eq_getElem hi, Option.some.injEq] at k4
      rw [k4, k5]
    · have := h2.2 (by simpa using hp)
      rwa [List.getElem?_eq_getElem hi, Option.some.injEq] at this
  refine ⟨g1, hcont, g2, g3, g4, ?_, hl, hsum, hcan, m, hm0, hm, hlens⟩
  rcases hws with hn | ⟨hnf, hnan⟩
  · exact .inl hn
  refine .inr ⟨?_, hnan⟩
  have hdef : defaultWeights s.program.cfg = ([] : List K) := by
    rw [defaultWeights, show s.program.cfg.multi = true from hnf.multi, if_pos rfl]
  have horig : ∀ d' ∈ List.zipWith (EventFile.reweight s.io) ds (splitWeights ds ws), d'.kind = .hepmc2 ∧ ∀ r' ∈ d'.records,
      ∃ d ∈ ds, ∃ r ∈ d.records, (splitAtPattern (ascii "\nN") r').map Prod.snd = (splitAtPattern (ascii "\nN") r).map Prod.snd := by
    intro d' hd'
    obtain ⟨j, hj⟩ := List.getElem?_of_mem hd'
    rw [List.getElem?_zipWith] at hj
    split at hj
    case h_2 => cases hj
    rename_i d w' k1 k2
    simp only [Option.some.injEq] at hj
    subst hj
    have hd := List.mem_of_getElem? k1
    refine ⟨hnf.hepmc d hd, fun r' hr' => ?_⟩
    obtain ⟨i, hi⟩ := List.getElem?_of_mem hr'
    change (List.zipWith _ _ _)[i]? = _ at hi
    rw [List.getElem?_zipWith] at hi
    split at hi
    case h_2 => cases hi
    rename_i w r k3 k4
    simp only [Option.some.injEq] at hi
    subst hi
    rw [splitWeights_get ds ws j d k1, Option.some.injEq] at k2
    have hwm : w ∈ ws := by
      have := List.mem_of_getElem? k3
      rw [← k2] at this
      exact List.mem_of_mem_drop (List.mem_of_mem_take this)
    have hr := List.mem_of_getElem? k4
    refine ⟨d, hd, r, hr, ?_⟩
    refine (record_overwrite hin (.inr ⟨hnf, hnan⟩) hd hr (hcan w hwm d hd).2 (hcan w hwm d hd).2 rfl ?_).2 hnf
    rcases hwl w hwm with g | g
    · exact .inr fun ev hev => by rw [g, hm ev hev]
    · exact .inl (g.trans hdef)
  have hline : ∀ {r r' : Bytes} {n : Nat} {es : Bytes}, (splitAtPattern (ascii "\nN") r').map Prod.snd = (splitAtPattern (ascii "\nN") r).map Prod.snd →
      (NamesLine r n es ↔ NamesLine r' n es) := by
    intro r r' n es e
    unfold NamesLine
    cases g : splitAtPattern (ascii "\nN") r <;> cases g' : splitAtPattern (ascii "\nN") r' <;> rw [g, g'] at e <;> simp at e ⊢
    rename_i x x'
    obtain ⟨a, b⟩ := x
    obtain ⟨a', b'⟩ := x'
    simp only at e
    subst e
    simp
  have hfirst : ∀ {r r' : Bytes}, (splitAtPattern (ascii "\nN") r').map Prod.snd = (splitAtPattern (ascii "\nN") r).map Prod.snd →
      (FirstNameIn s.io.ctx.names r ↔ FirstNameIn s.io.ctx.names r') := by
    intro r r' e
    unfold FirstNameIn
    simp only [hline e]
  obtain ⟨order, ho1, ho2⟩ := hnf.names
  refine ⟨hnf.multi, hnf.nonempty, hnf.nodup, fun d' hd' => (horig d' hd').1, ?_, ⟨order, ho1, fun d' hd' r' hr' => ?_⟩, ?_⟩
  · intro ev' hev'
    change ev' ∈ allEvents (List.zipWith (EventFile.reweight s.program.io) ds (splitWeights ds ws)) at hev'
    rw [g4] at hev'
    obtain ⟨i, hi⟩ := List.getElem?_of_mem hev'
    rw [List.getElem?_zipWith] at hi
    split at hi
    case h_2 => cases hi
    rename_i w ev k1 k2
    simp only [Option.some.injEq] at hi
    rw [← hi]
    have hevm := List.mem_of_getElem? k2
    rw [← hnf.weights ev hevm]
    unfold reweighted
    split_ifs with hw0
    · rfl
    · rcases hwl w (List.mem_of_getElem? k1) with g | g
      · rw [g, hm ev hevm]
      · exact absurd (g.trans hdef) hw0
  · obtain ⟨d, hd, r, hr, e⟩ := (horig d' hd').2 r' hr'
    obtain ⟨names, ⟨n, es, rest, q1, q2⟩, q3⟩ := ho2 d hd r hr
    exact ⟨names, ⟨n, es, rest, (hline e).1 q1, q2⟩, q3⟩
  · refine hnf.first.imp (fun H d' hd' r' hr' => ?_) (fun H d' hd' r' hr' => ?_)
    · obtain ⟨d, hd, r, hr, e⟩ := (horig d' hd').2 r' hr'
      exact (hfirst e).1 (H d hd r hr)
    · obtain ⟨d, hd, r, hr, e⟩ := (horig d' hd').2 r' hr'
      exact fun h => H d hd r hr ((hfirst e).2 h)

theorem same_kinds {ds ds' : List (EventFile K V)} (h : List.Forall₂ SameExceptWeights ds ds') {d' : EventFile K V} (hd' : d' ∈ ds') :
    ∃ d ∈ ds, d.kind = d'.kind := by
  obtain ⟨i, hi⟩ := List.getElem?_of_mem hd'
  have hl := h.length_eq
  obtain ⟨hlt, rfl⟩ := List.getElem?_eq_some_iff.1 hi
  have hlt' : i < ds.length := by omega
  exact ⟨ds[i], List.getElem_mem hlt', ((List.forall₂_iff_get.1 h).2 i hlt' hlt).kind.symm⟩

/-- **C103**: a run on the output files of another run leaves no trace of that run except for the weights it ends with: if a
run on the original input files ends with the same weights, its output files are the same, byte for byte. Both runs without
unweighting have the same settings for reading and clustering; all other settings can be different. -/
theorem C103_overwrite {s s2 s3 : CresSettings K V D} (hc : GoodChoices s) (h0 : s.minWeight = 0) (hc2 : GoodChoices s2)
    (h02 : s2.minWeight = 0) (hc3 : GoodChoices s3) (h03 : s3.minWeight = 0) (hio : s2.io = s.io) (hp : s2.particles = s.particles)
    (hcl : s2.clustering = s.clustering) (hio3 : s3.io = s.io)
    {fs fs' : FS P} {files : List (P × P)} {ds : List (EventFile K V)}
    (hin : EventFiles s.io fs (files.map Prod.fst) ds) (hf : GoodFiles files) (hws : WeightsSupported s.io ds)
    {events : Option (List (Event K V))} {ws : List (Weights K)} {res : Outcome (CresError IOError) Unit}
    (h : s.program.Run files fs events (some ws) res fs') (hw : ∀ w ∈ ws, ∀ x ∈ w, ∀ d ∈ ds, Writable s.io d.kind x)
    {files2 : List (P × P)} (hfiles : files2.map Prod.fst = files.map Prod.snd) (hf2 : GoodFiles files2)
    {events2 : Option (List (Event K V))} {ws2 : List (Weights K)} {res2 : Outcome (CresError IOError) Unit} {fs2 : FS P}
    (h2 : s2.program.Run files2 fs' events2 (some ws2) res2 fs2) (hw2 : ∀ w ∈ ws2, ∀ x ∈ w, ∀ d ∈ ds, Writable s.io d.kind x)
    {files3 : List (P × P)} (hfiles3 : files3.map Prod.fst = files.map Prod.fst) (hf3 : GoodFiles files3)
    {events3 : Option (List (Event K V))} {res3 : Outcome (CresError IOError) Unit} {fs3 : FS P}
    (h3 : s3.program.Run files3 fs events3 (some ws2) res3 fs3) :
    res = .ok () ∧ res2 = .ok () ∧ res3 = .ok () ∧ (files2.map Prod.snd).map fs2 = (files3.map Prod.snd).map fs3 := by
  obtain ⟨r1, c1, i1, sm1, ev1, ws1, l1, sum1, can1, m, hm0, hm, len1⟩ := run_written hc h0 hin hf hws h hw
  rw [← hio] at i1 ws1
  obtain ⟨r2, c2, -, -, -, -, l2, -, -, m2, -, hm2, len2⟩ := run_written hc2 h02 (by rw [hfiles]; exact i1) hf2 ws1 h2 (by
    intro w hwm x hx d' hd'
    rw [hio] at hd' ⊢
    obtain ⟨d, hd, hk⟩ := same_kinds sm1 hd'
    rw [← hk]
    exact hw2 w hwm x hx d hd)
  rw [← hio3] at hin hws hw2
  rw [← hfiles3] at hin
  obtain ⟨r3, c3, -, -, -, -, l3, -, can3, -⟩ := run_written hc3 h03 hin hf3 hws h3 hw2
  refine ⟨r1, r2, r3, ?_⟩
  rw [c2, c3, hio, hio3]
  rw [hio3] at hin hws hw2 can3
  rw [hio, ev1] at len2 hm2
  refine outputs_overwrite s.io ds (R := fun w v => w.length = v.length ∧ (w = [] ∨ w.length = m) ∧ (∀ d ∈ ds, CanStore s.io d w) ∧
    ∀ d ∈ ds, CanStore s.io d v) ?_ ?_ (by omega)
  · rw [List.forall₂_iff_get]
    refine ⟨by omega, fun i hi hi' => ?_⟩
    have hi1 : i < (allEvents ds).length := by omega
    have hi2 : i < (List.zipWith reweighted ws (allEvents ds)).length := by rw [List.length_zipWith]; omega
    have a1 := (List.forall₂_iff_get.1 len1).2 i hi hi1
    have a2 := (List.forall₂_iff_get.1 len2).2 i hi' hi2
    have a3 := hm2 _ (List.getElem_mem hi2)
    simp only [List.get_eq_getElem, List.getElem_zipWith, hasParticles_reweighted hio hp hcl] at a1 a2 a3 ⊢
    have hcan : (∀ d ∈ ds, CanStore s.io d ws[i]) ∧ ∀ d ∈ ds, CanStore s.io d ws2[i] :=
      ⟨fun d hd => (can1 _ (List.getElem_mem hi) d hd).2, fun d hd => (can3 _ (List.getElem_mem hi') d hd).2⟩
    by_cases hpt : HasParticles s.program (allEvents ds)[i] = true
    · rw [if_pos hpt] at a1 a2
      have hne : ws[i] ≠ [] := by
        intro hnil
        rw [hnil] at a1
        exact absurd a1 hm0.ne
      rw [reweighted, if_neg hne] at a3
      exact ⟨by rw [a2]; exact a3, .inr a1, hcan⟩
    · rw [if_neg hpt] at a1 a2
      have hd2 : defaultWeights s2.program.cfg = (defaultWeights s.program.cfg : List K) := by
        simp only [defaultWeights, Program.cfg, CresSettings.program, hio]
        rfl
      refine ⟨by rw [a2, a1, hd2], ?_, hcan⟩
      rcases hws with hn | ⟨hnf, -⟩
      · have b1 := single_weights hn hin _ (List.getElem_mem hi1)
        rw [hm _ (List.getElem_mem hi1)] at b1
        rw [a1, b1]
        unfold defaultWeights
        split_ifs
        · exact .inl rfl
        · exact .inr rfl
      · left
        rw [a1, defaultWeights, show s.program.cfg.multi = true from hnf.multi, if_pos rfl]
  · rintro d hd r hr w v ⟨q1, q2, q3, q4⟩
    refine (record_overwrite hin hws hd hr (q3 d hd) (q4 d hd) q1 (q2.imp_right fun q ev hev => by rw [q, hm ev hev])).1

/-- **C103**: if a run ends without negative weights, a further run on its output files writes the same files again, byte for
byte. -/
theorem C103_again {s s2 : CresSettings K V D} (hc : GoodChoices s) (h0 : s.minWeight = 0) (hc2 : GoodChoices s2)
    (h02 : s2.minWeight = 0) (hio : s2.io = s.io) (hp : s2.particles = s.particles) (hcl : s2.clustering = s.clustering)
    {fs fs' : FS P} {files : List (P × P)} {ds : List (EventFile K V)}
    (hin : EventFiles s.io fs (files.map Prod.fst) ds) (hf : GoodFiles files) (hws : WeightsSupported s.io ds)
    {events : Option (List (Event K V))} {ws : List (Weights K)} {res : Outcome (CresError IOError) Unit}
    (h : s.program.Run files fs events (some ws) res fs') (hw : ∀ w ∈ ws, ∀ x ∈ w, ∀ d ∈ ds, Writable s.io d.kind x)
    (hpos : ∀ w ∈ ws, 0 ≤ w.headD 0)
    {files2 : List (P × P)} (hfiles : files2.map Prod.fst = files.map Prod.snd) (hf2 : GoodFiles files2)
    {events2 : Option (List (Event K V))} {ws2 : List (Weights K)} {res2 : Outcome (CresError IOError) Unit} {fs2 : FS P}
    (h2 : s2.program.Run files2 fs' events2 (some ws2) res2 fs2) :
    res2 = .ok () ∧ ws2 = ws ∧ (files2.map Prod.snd).map fs2 = (files.map Prod.snd).map fs' := by
  obtain ⟨r1, c1, i1, sm1, ev1, ws1, l1, sum1, can1, m, hm0, hm, len1⟩ := run_written hc h0 hin hf hws h hw
  have hlen : ∀ (i : Nat) w ev, ws[i]? = some w → (allEvents ds)[i]? = some ev →
      if HasParticles s.program ev then w.length = m else w = defaultWeights s.program.cfg := by
    intro i w ev q1 q2
    obtain ⟨a1, rfl⟩ := List.getElem?_eq_some_iff.1 q1
    obtain ⟨a2, rfl⟩ := List.getElem?_eq_some_iff.1 q2
    exact (List.forall₂_iff_get.1 len1).2 i a1 a2
  have e2 : ws2 = ws := by
    rw [← hio] at i1 ws1
    rw [weights_kept hc2 h02 (by rw [hfiles]; exact i1) hf2 ws1 ?_ h2]
    · rw [hio, ev1]
      apply List.ext_getElem?
      intro i
      rw [List.getElem?_map, List.getElem?_zipWith]
      cases hwi : ws[i]? with
      | none => rfl
      | some w =>
        have hi : i < ws.length := (List.getElem?_eq_some_iff.1 hwi).1
        have hev := List.getElem?_eq_getElem (l := allEvents ds) (i := i) (by omega)
        rw [hev]
        have := hlen i w _ hwi hev
        simp only [Option.map_some, Option.some.injEq, hasParticles_reweighted hio hp hcl]
        split_ifs at this ⊢ with hpt
        · unfold reweighted
          rw [if_neg]
          rintro rfl
          exact absurd this hm0.ne
        · rw [this]
          simp only [defaultWeights, Program.cfg, CresSettings.program, hio]
          rfl
    · intro ev' hev' hp'
      rw [hio, ev1] at hev'
      obtain ⟨i, hi⟩ := List.getElem?_of_mem hev'
      rw [List.getElem?_zipWith] at hi
      split at hi
      case h_2 => cases hi
      rename_i w ev k1 k2
      simp only [Option.some.injEq] at hi
      subst hi
      rw [hasParticles_reweighted hio hp hcl] at hp'
      have := hlen i w ev k1 k2
      rw [if_pos hp'] at this
      have hne : w ≠ [] := by
        rintro rfl
        exact absurd this hm0.ne
      have h5 := hpos w (List.mem_of_getElem? k1)
      rw [reweighted, if_neg hne]
      exact h5
  subst e2
  obtain ⟨-, g2, -, g4⟩ := C103_overwrite hc h0 hc2 h02 hc h0 hio hp hcl rfl hin hf hws h hw hfiles hf2 h2 hw rfl hf h
  exact ⟨g2, rfl, g4⟩

end

section

variable {K V D P : Type*} [Zero D] [LinearOrder D] [DistNum D] [ExactComparison D] [Field K] [LinearOrder K] [IsStrictOrderedRing K]
  [LinearOrder V] [DecidableEq P]

/-- **C103**: after a run on one thread with exact arithmetic in which all other events can be found, and in which the sum of
the weights of events with particles is not negative, a further run on the output files writes the same files again, byte for
byte. The further run can have any number of threads, any distance, any order of seeds and any maximal cell size. -/
theorem C103_one_thread {s s2 : CresSettings K V D} (hc : GoodChoices s) (h0 : s.minWeight = 0) (hc2 : GoodChoices s2)
    (h02 : s2.minWeight = 0) (hio : s2.io = s.io) (hp : s2.particles = s.particles) (hcl : s2.clustering = s.clustering)
    {fs fs' : FS P} {files : List (P × P)} {ds : List (EventFile K V)}
    (hin : EventFiles s.io fs (files.map Prod.fst) ds) (hf : GoodFiles files) (hws : WeightsSupported s.io ds)
    {events : List (Event K V)} {ws : List (Weights K)} {res : Outcome (CresError IOError) Unit}
    (h : s.program.Run files fs (some events) (some ws) res fs') (hone : OneThreadWeights s.program events ws)
    (hlen : events.length ≤ usizeMax) (hno : NoLimit s events)
    (hpos : 0 ≤ centralSum ((allEvents ds).filter (HasParticles s.program)))
    (hw : ∀ w ∈ ws, ∀ x ∈ w, ∀ d ∈ ds, Writable s.io d.kind x)
    {files2 : List (P × P)} (hfiles : files2.map Prod.fst = files.map Prod.snd) (hf2 : GoodFiles files2)
    {events2 : Option (List (Event K V))} {ws2 : List (Weights K)} {res2 : Outcome (CresError IOError) Unit} {fs2 : FS P}
    (h2 : s2.program.Run files2 fs' events2 (some ws2) res2 fs2) :
    res2 = .ok () ∧ ws2 = ws ∧ (files2.map Prod.snd).map fs2 = (files.map Prod.snd).map fs' := by
  refine C103_again hc h0 hc2 h02 hio hp hcl hin hf hws h hw ?_ hfiles hf2 h2
  obtain ⟨-, -, hwt⟩ := one_thread_weights hc h0 hin hf hws h hone hlen hno hpos
  obtain ⟨-, -, -, -, -, -, l1, -, -, m, hm0, -, len1⟩ := run_written hc h0 hin hf hws h hw
  intro w hwm
  obtain ⟨i, hi⟩ := List.getElem?_of_mem hwm
  obtain ⟨hlt, rfl⟩ := List.getElem?_eq_some_iff.1 hi
  have hi1 : i < (allEvents ds).length := by omega
  have hev := List.getElem?_eq_getElem hi1
  have a1 := (List.forall₂_iff_get.1 len1).2 i hlt hi1
  simp only [List.get_eq_getElem] at a1
  obtain ⟨b1, -⟩ := hwt i _ (reweighted ws[i] (allEvents ds)[i]) hev (by rw [List.getElem?_zipWith, hi, hev])
  split_ifs at a1 with hpt
  · have hne : ws[i] ≠ [] := by
      intro hnil
      rw [hnil] at a1
      exact absurd a1 hm0.ne
    have := b1 hpt
    rw [reweighted, if_neg hne] at this
    exact this
  · rw [a1]
    unfold defaultWeights
    split_ifs <;> exact le_rfl

end

/-! ### examples -/

/-- The hypotheses of `C103_again` are met: a run with a maximal cell size of 1 changes the weights 6, 6 and -2 to 2, 6 and 2.
A further run without this limit writes the same files. -/
example (multi : Bool) : ∃ res fs' events2 ws2 res2 fs2,
    (exNear multi).program.Run [((0 : ℕ), 10), (1, 11)] exProgFS (some exProgEvents) (some [[2], [6], [2]]) res fs' ∧
    (exSettings multi).program.Run [((10 : ℕ), 20), (11, 21)] fs' events2 (some ws2) res2 fs2 ∧
    res2 = .ok () ∧ ws2 = [[2], [6], [2]] ∧ fs2 20 = fs' 10 ∧ fs2 21 = fs' 11 ∧ fs' 10 ≠ exProgFS 0 := by
  obtain ⟨s, fs1, x, h1, h2⟩ := exNear_reads multi
  have h := Run.update h1 h2 (exNear_weights multi)
  have hin : EventFiles (exNear multi).io exProgFS ([((0 : ℕ), 10), (1, 11)].map Prod.fst) [exProgHepmc, exProgLhef] :=
    exProgFiles multi
  obtain ⟨-, c1, i1, -⟩ := run_written (exNear_good multi) rfl hin exProgGood (Or.inl fun _ => rfl) h exProg_writable
  have hf2 : GoodFiles [((10 : ℕ), 20), (11, 21)] := ⟨by decide, by decide⟩
  obtain ⟨k1, events2, ows, res2, fs2, h3⟩ := C69_cres_completes_partial (s := exSettings multi) (files := [((10 : ℕ), 20), (11, 21)])
    (exSettings_good multi) rfl rfl (fun _ => rfl) i1 hf2
  obtain ⟨ws2, rfl⟩ := k1 _ _ _ _ h3
  obtain ⟨g1, g2, g3⟩ := C103_again (exNear_good multi) rfl (exSettings_good multi) rfl rfl rfl rfl hin exProgGood
    (Or.inl fun _ => rfl) h exProg_writable (by decide) rfl hf2 h3
  simp only [List.map_cons, List.map_nil, List.cons.injEq, and_true] at g3
  refine ⟨_, _, _, _, _, _, h, h3, g1, g2, g3.1, g3.2, ?_⟩
  have c2 : (outputs (exNear multi).io [exProgHepmc, exProgLhef] [[2], [6], [2]])[0]? ≠ some (exProgFS 0) := by
    cases multi <;> decide +kernel
  rw [← c1] at c2
  simpa using c2

end Cres

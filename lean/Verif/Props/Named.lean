import Verif.Proofs.Named
import Verif.Proofs.Negative
import Verif.Props.Main

/-!
# C78: named weights in files
-/

set_option linter.unusedSectionVars false

namespace Cres

open Spec CombinedIO Program Cres.Path

section

variable {K V P : Type*} [Zero K] [One K] [Add K] [Mul K] [Div K] [NatCast K] [LinearOrder K] [LinearOrder V] [DecidableEq P]

/-- Files have the same header and records with any selection of names. -/
theorem selecting_same {io : IOConfig K V} {fs : FS P} {sel : List Bytes} : ∀ {paths : List P} {ds dn : List (EventFile K V)},
    EventFiles io fs paths ds → EventFiles (selecting io sel) fs paths dn →
    List.Forall₂ (fun d d' : EventFile K V => d'.toFileData = d.toFileData) ds dn := by
  intro paths ds dn h h'
  induction h generalizing dn with
  | nil => cases h'; exact .nil
  | cons h1 _ ih =>
    cases h' with
    | cons h2 h3 =>
      obtain ⟨c, g1, g2⟩ := h1
      obtain ⟨c', g3, g4⟩ := h2
      rw [g1] at g3
      cases g3
      exact .cons (readable_unique (cfg := io) (readable_of_textFile (cfg := selecting io sel) g4.1) (readable_of_textFile g2.1)) (ih h3)

/-- The event read from an updated record when `n` is selected. -/
def reweightedFor (names order : List Bytes) (n : Bytes) (w : List K) (e : Event K V) : Event K V :=
  if w = [] then e
  else if n ∈ names then { e with weights := [w.getD 0 0, w.getD (order.idxOf n + 1) 0] }
  else { e with weights := w.getD 0 0 :: e.weights.tail }

theorem reweightedFor_particles (names order : List Bytes) (n : Bytes) (w : List K) (e : Event K V) :
    (reweightedFor names order n w e).outgoingByPid = e.outgoingByPid := by
  unfold reweightedFor
  split_ifs <;> rfl

/-- Reading the updated files when `n` is selected. -/
theorem named_reread {io : IOConfig K V} {fs fs' : FS P} {paths paths' : List P} {ds dn : List (EventFile K V)}
    (hin : EventFiles io fs paths ds) (hnf : NamedFiles io ds) (hnan : io.ctx.debug = true → ∀ w, io.ctx.float.isNaN w = false)
    {ws : List (List K)} (hw : ∀ w ∈ ws, w = [] ∨ w.length = io.ctx.names.length + 1)
    (hfin : ∀ w ∈ ws, ∀ x ∈ w, io.ctx.float.finite x = true)
    (h01 : (∀ ev ∈ allEvents ds, weightNo 0 ev = weightNo 1 ev) → ∀ w ∈ ws, w.getD 0 0 = w.getD 1 0) (hl : ws.length = (allEvents ds).length)
    (hout : EventFiles io fs' paths' (List.zipWith (EventFile.reweight io) ds (splitWeights ds ws))) {n : Bytes}
    (hdn : EventFiles (selecting io [n]) fs paths dn)
    {order : List Bytes} (hord : order.Perm io.ctx.names)
    (horder : ∀ d ∈ ds, ∀ r ∈ d.records, ∃ names, RecordNames r names ∧
      names.filter (fun n => decide (n ∈ io.ctx.names)) = order)
    (hn : n ∈ io.ctx.names ∨ ∀ d ∈ ds, ∀ r ∈ d.records, ∀ names, RecordNames r names → names.head? ≠ some n) :
    ∃ dn', EventFiles (selecting io [n]) fs' paths' dn' ∧ List.Forall₂ SameExceptWeights dn dn' ∧
      allEvents dn' = List.zipWith (reweightedFor io.ctx.names order n) ws (allEvents dn) ∧
      (n ∈ io.ctx.names → (allEvents dn).map (weightNo 1) = (allEvents ds).map (weightNo (order.idxOf n + 1))) := by
  have hsame := selecting_same hin hdn
  have hel : ∀ d ∈ ds, d.events.length = d.records.length := by
    intro d hd
    obtain ⟨q, -, content, -, hc⟩ := forall₂_mem hin hd
    exact hc.2.length_eq.symm
  have heln : ∀ d ∈ dn, d.events.length = d.records.length := by
    intro d hd
    obtain ⟨q, -, content, -, hc⟩ := forall₂_mem hdn hd
    exact hc.2.length_eq.symm
  have hsplit : splitWeights dn ws = splitWeights ds ws := by
    clear hout hin hdn hl hel heln hnf horder hn hw hfin h01
    induction hsame generalizing ws with
    | nil => rfl
    | cons h _ ih => rw [splitWeights, splitWeights, h, ih]
  have hlenn : (allEvents dn).length = (allEvents ds).length := by
    clear hout hin hdn hl hnf horder hn hsplit h01
    induction hsame with
    | nil => rfl
    | @cons d d' ds dn h _ ih =>
      have := ih (fun x hx => hel x (by simp [hx])) (fun x hx => heln x (by simp [hx]))
      have h1 := hel d (by simp)
      have h2 := heln d' (by simp)
      rw [h] at h2
      simp only [allEvents, List.flatMap_cons, List.length_append] at this ⊢
      omega
  -- each record
  have hrec : ∀ d ∈ ds, ∀ r ∈ d.records, ∀ ev evn, RecordEvent io d.kind r ev → RecordEvent (selecting io [n]) d.kind r evn →
      (n ∈ io.ctx.names → weightNo 1 evn = weightNo (order.idxOf n + 1) ev) ∧
      ∀ w ∈ ws, RecordEvent (selecting io [n]) d.kind (updated io d.kind w r) (reweightedFor io.ctx.names order n w evn) := by
    intro d hd r hr ev evn hev hevn
    have hmem := recordEvent_mem hin hd hr hev
    have hk := hnf.hepmc d hd
    rw [hk] at hev hevn ⊢
    obtain ⟨names, k1, k2⟩ := horder d hd r hr
    have key : ∀ w ∈ ws, w.length = io.ctx.names.length + 1 → (∀ x ∈ w, io.ctx.float.finite x = true) → _ :=
      fun w hwm h1 h2 => named_record (ws := w) io.ctx hnf.multi hnf.nonempty hnf.nodup hev (hnf.weights ev hmem)
        (h1.trans (hnf.weights ev hmem).symm) h2 hord k1 k2
        (named_first hin hnf hnan hd hr (fun h => h01 h w hwm) h1) hnan
    have hidx : n ∈ io.ctx.names → order[order.idxOf n]? = some n := by
      intro h
      have h1 : order.idxOf n < order.length := List.idxOf_lt_length_iff.2 (hord.mem_iff.2 h)
      rw [List.getElem?_eq_getElem h1, List.getElem_idxOf]
    refine ⟨fun h => ?_, fun w hwm => ?_⟩
    · have := named_read io.ctx hnf.multi hnf.nonempty hnf.nodup hev (hnf.weights ev hmem) hord k1 k2 hnan |>.2 (hidx h)
      have := hevn.symm.trans this
      simp only [Outcome.ok.injEq] at this
      rw [this]
      rfl
    · rcases hw w hwm with rfl | hwl
      · rw [updated_eq (cfg := io) (kind := .hepmc2) (w := []) (record := r) (record' := r) rfl]
        simpa [reweightedFor] using hevn
      · obtain ⟨r', g1, -, g3⟩ := key w hwm hwl (hfin w hwm)
        have hne : w ≠ [] := by
          rintro rfl
          simp at hwl
        rw [updated_eq (cfg := io) (kind := .hepmc2) g1]
        unfold reweightedFor
        rw [if_neg hne]
        split_ifs with hnn
        · exact ((g3 n evn hevn).1 _ (hidx hnn)).2
        · refine (g3 n evn hevn).2 hnn ?_
          exact hn.resolve_left hnn d hd r hr names k1
  have hpair : List.Forall₂ (fun d d' : EventFile K V => d'.toFileData = d.toFileData ∧
      List.Forall₂ (RecordEvent io d.kind) d.records d.events ∧
      List.Forall₂ (RecordEvent (selecting io [n]) d.kind) d.records d'.events) ds dn := by
    refine forall₂_of_get hsame.length_eq fun i d d' g1 g2 => ?_
    have h1 := forall₂_get hsame g1 g2
    obtain ⟨q, -, content, -, hc⟩ := forall₂_mem hin (List.mem_of_getElem? g1)
    obtain ⟨q', -, content', -, hc'⟩ := forall₂_mem hdn (List.mem_of_getElem? g2)
    have h2 := hc'.2
    rw [show d'.kind = d.kind from congrArg FileData.kind h1, show d'.records = d.records from congrArg FileData.records h1] at h2
    exact ⟨h1, hc.2, h2⟩
  let G : EventFile K V → List (List K) → FileData K := fun d w => (d.reweight io w).toFileData
  refine ⟨List.zipWith (fun d w => ⟨G d w, List.zipWith (reweightedFor io.ctx.names order n) w d.events⟩) dn (splitWeights dn ws),
    ?_, ?_, split_events _ G dn ws heln, fun hnn => ?_⟩
  · rw [hsplit]
    clear hsplit hlenn hsame hdn hin hnf horder hn hel heln hw hfin h01 hl
    induction hpair generalizing ws paths' with
    | nil => cases hout; exact .nil
    | @cons d d' ds dn h _ ih =>
      rw [splitWeights, List.zipWith_cons_cons] at hout ⊢
      cases hout with
      | cons h1 h2 =>
        refine .cons ?_ (ih h2 fun d hd r hr ev evn e1 e2 =>
          ⟨(hrec d (by simp [hd]) r hr ev evn e1 e2).1, fun w hw => (hrec d (by simp [hd]) r hr ev evn e1 e2).2 w
            (List.mem_of_mem_drop hw)⟩)
        obtain ⟨content, g1, g2, -⟩ := h1
        obtain ⟨e1, e2, e3⟩ := h
        have hG : G d' (ws.take d.records.length) = (d.reweight io (ws.take d.records.length)).toFileData := by
          simp only [G, EventFile.reweight, e1]
        refine ⟨content, g1, ?_, ?_⟩
        · simp only [hG]
          exact g2
        · simp only [hG]
          simp only [EventFile.reweight]
          refine forall₂_of_get ?_ ?_
          · rw [List.length_zipWith, List.length_zipWith, e3.length_eq]
          · intro i r evn' k1 k2
            rw [List.getElem?_zipWith] at k1 k2
            cases hw : (ws.take d.records.length)[i]? with
            | none => simp [hw] at k1
            | some w =>
              cases hr : d.records[i]? with
              | none => simp [hw, hr] at k1
              | some r0 =>
                cases hen : d'.events[i]? with
                | none => simp [hw, hen] at k2
                | some evn =>
                  simp only [hw, hr, hen, Option.some.injEq] at k1 k2
                  subst k1 k2
                  obtain ⟨ev, hev⟩ : ∃ ev, d.events[i]? = some ev :=
                    ⟨_, List.getElem?_eq_getElem (e2.length_eq ▸ (List.getElem?_eq_some_iff.1 hr).1)⟩
                  exact (hrec d (by simp) r0 (List.mem_of_getElem? hr) ev evn (forall₂_get e2 hr hev) (forall₂_get e3 hr hen)).2 w
                    (List.mem_of_mem_take (List.mem_of_getElem? hw))
  · rw [← hlenn] at hl
    clear hsplit hlenn hsame hdn hin hnf horder hn hel hw hfin h01 hout hrec hpair
    induction dn generalizing ws with
    | nil => exact .nil
    | cons d ds ih =>
      have h1 := heln d (by simp)
      have hl' : ws.length = d.records.length + (allEvents ds).length := by
        rw [hl]
        simp [allEvents, h1]
      refine .cons ⟨rfl, rfl, ?_, ?_⟩ (ih ?_ fun d' hd' => heln d' (by simp [hd']))
      · simp only [G, EventFile.reweight, List.length_zipWith, List.length_take]
        omega
      · refine forall₂_of_get ?_ ?_
        · simp only [List.length_zipWith, List.length_take]
          omega
        · intro i e e' g1 g2
          simp only [List.getElem?_zipWith, g1] at g2
          cases hw : (ws.take d.records.length)[i]? with
          | none => rw [hw] at g2; simp at g2
          | some w =>
            simp only [hw, Option.some.injEq] at g2
            subst g2
            exact reweightedFor_particles _ _ _ _ _
      · rw [List.length_drop]
        omega
  · clear hsplit hlenn hsame hdn hin hnf horder hn hel heln hw hfin h01 hout hl
    induction hpair with
    | nil => rfl
    | @cons d d' ds dn h _ ih =>
      have ih := ih fun d hd r hr => hrec d (by simp [hd]) r hr
      obtain ⟨e1, e2, e3⟩ := h
      have hrec' := hrec d (by simp)
      simp only [allEvents, List.flatMap_cons, List.map_append] at ih ⊢
      rw [ih]
      congr 1
      clear ih hrec e1
      generalize d.records = rs at *
      generalize d.events = es at *
      generalize d'.events = es' at *
      induction e2 generalizing es' with
      | nil => cases e3; rfl
      | cons h1 _ ih =>
        cases e3 with
        | cons h2 h3 =>
          rw [List.map_cons, List.map_cons, ih (fun r hr => hrec' r (by simp [hr])) _ h3, (hrec' _ (by simp) _ _ h1 h2).1 hnn]

/-- **C78**: the weights with a selected name can be read from the input files. For each event the weight is one of those
that are read with all selected names. -/
theorem C78_selected_read {io : IOConfig K V} {fs : FS P} {paths : List P} {ds : List (EventFile K V)}
    (hin : EventFiles io fs paths ds) (hnf : NamedFiles io ds) (hnan : io.ctx.debug = true → ∀ w, io.ctx.float.isNaN w = false) :
    ∃ order : List Bytes, order.Perm io.ctx.names ∧ ∀ (k : Nat) n, order[k]? = some n →
      ∃ dn, EventFiles (selecting io [n]) fs paths dn ∧
        allEvents dn = (allEvents ds).map fun ev => { ev with weights := [weightNo 0 ev, weightNo (k + 1) ev] } := by
  obtain ⟨order, ho1, ho2⟩ := hnf.names
  refine ⟨order, ho1, fun k n hk => ?_⟩
  refine ⟨ds.map fun d => ⟨d.toFileData, d.events.map fun ev => { ev with weights := [weightNo 0 ev, weightNo (k + 1) ev] }⟩, ?_, ?_⟩
  · unfold EventFiles
    rw [List.forall₂_map_right_iff]
    refine forall₂_of_get hin.length_eq fun i q d g1 g2 => ?_
    obtain ⟨content, e1, e2, e3⟩ := forall₂_get hin g1 g2
    have hd := List.mem_of_getElem? g2
    refine ⟨content, e1, e2, ?_⟩
    rw [List.forall₂_map_right_iff]
    refine forall₂_of_get e3.length_eq fun j r ev g3 g4 => ?_
    have hev := forall₂_get e3 g3 g4
    have hr := List.mem_of_getElem? g3
    have hmem := recordEvent_mem hin hd hr hev
    obtain ⟨names, k1, k2⟩ := ho2 d hd r hr
    simp only
    rw [hnf.hepmc d hd] at hev ⊢
    exact (named_read io.ctx hnf.multi hnf.nonempty hnf.nodup hev (hnf.weights ev hmem) ho1 k1 k2 hnan).2 hk
  · simp only [allEvents, List.flatMap_map, List.map_flatMap]

end

variable {K V D P : Type*} [Zero D] [LinearOrder D] [Field K] [LinearOrder K] [IsStrictOrderedRing K] [LinearOrder V]
  [DecidableEq P]

theorem weightNo_reweighted (k : Nat) (w : List K) (e : Event K V) :
    weightNo k (reweighted w e) = if w = [] then weightNo k e else w.getD k 0 := by
  unfold reweighted weightNo
  split_ifs <;> rfl

theorem weightNo_reweightedFor {names order : List Bytes} {n : Bytes} (h : n ∈ names) (w : List K) (e : Event K V) :
    weightNo 1 (reweightedFor names order n w e) = if w = [] then weightNo 1 e else w.getD (order.idxOf n + 1) 0 := by
  unfold reweightedFor weightNo
  split_ifs <;> rfl

theorem reweightedFor_map {names order : List Bytes} {n : Bytes} (hn : n ∈ names) : ∀ (ws : List (List K)) (es es' : List (Event K V)),
    es'.map (weightNo 1) = es.map (weightNo (order.idxOf n + 1)) →
    (List.zipWith (reweightedFor names order n) ws es').map (weightNo 1) =
      (List.zipWith reweighted ws es).map (weightNo (order.idxOf n + 1))
  | [], _, _, _ => by simp
  | w :: ws, [], [], _ => by simp
  | w :: ws, [], e' :: es', h => by simp at h
  | w :: ws, e :: es, [], h => by simp at h
  | w :: ws, e :: es, e' :: es', h => by
    rw [List.map_cons, List.map_cons, List.cons.injEq] at h
    rw [List.zipWith_cons_cons, List.zipWith_cons_cons, List.map_cons, List.map_cons, reweightedFor_map hn ws es es' h.2,
      weightNo_reweighted, weightNo_reweightedFor hn, h.1]

theorem reweightedFor_tail {names order : List Bytes} {n : Bytes} (hn : n ∉ names) : ∀ (ws : List (List K)) (es : List (Event K V)),
    ws.length = es.length →
    (List.zipWith (reweightedFor names order n) ws es).map (fun e => e.weights.tail) = es.map fun e => e.weights.tail
  | [], [], _ => rfl
  | w :: ws, e :: es, h => by
    rw [List.zipWith_cons_cons, List.map_cons, List.map_cons, reweightedFor_tail hn ws es (by simpa using h)]
    congr 1
    unfold reweightedFor
    rw [if_neg hn]
    split_ifs <;> rfl
  | [], e :: es, h => by simp at h
  | w :: ws, [], h => by simp at h

/-- **C78**, for any clustering and neighbour search: a run without unweighting on HepMC2 files with selected names. If the
new weights are finite the run succeeds, the output files have the same particles in each event, and the sum of central
weights is conserved. This also holds for the weights with each of the selected names, read with this name from the input
files and from the output files. All other weights are the same in both. -/
theorem C78_named_partial {p : Program K V D} (hg : GoodComponents p) (hun : p.unweight = .ok) {fs fs' : FS P}
    {files : List (P × P)} {ds : List (EventFile K V)} (hin : EventFiles p.io fs (files.map Prod.fst) ds) (hf : GoodFiles files)
    (hnf : NamedFiles p.io ds) (hnan : p.io.ctx.debug = true → ∀ w, p.io.ctx.float.isNaN w = false)
    {events : Option (List (Event K V))} {ws : List (Weights K)} {res : Outcome (CresError IOError) Unit}
    (h : p.Run files fs events (some ws) res fs') (hfin : ∀ w ∈ ws, ∀ x ∈ w, p.io.ctx.float.finite x = true) :
    res = .ok () ∧
    (∃ ds', EventFiles p.io fs' (files.map Prod.snd) ds' ∧ List.Forall₂ SameExceptWeights ds ds' ∧
      centralSum (allEvents ds') = centralSum (allEvents ds)) ∧
    NamedWeightsKept p.io fs (files.map Prod.fst) fs' (files.map Prod.snd) ds := by
  have hcfg : p.cfg.multi = true := hnf.multi
  obtain ⟨-, hl, h1⟩ := run_files hnf.weights hin hf h
  obtain ⟨evs, -, he, hcw⟩ := run_events_all hnf.weights hin hf h
  obtain ⟨-, hlen, hpass⟩ := weights_passed_all hg hun (Nat.succ_pos _) (by rw [hnf.multi]; simp) he hcw
  have hsum := hpass
  have h01 := weights_equal hg hun (Nat.succ_pos _) (by rw [hnf.multi]; simp) he hcw (Nat.succ_pos _)
    (show 1 < p.io.ctx.names.length + 1 by have := List.length_pos_iff.2 hnf.nonempty; omega)
  have hwl : ∀ w ∈ ws, w = [] ∨ w.length = p.io.ctx.names.length + 1 := by
    intro w hw
    rcases hlen w hw with h | h
    · exact .inr h
    · rw [defaultWeights, hcfg, if_pos rfl] at h
      exact .inl h
  simp only [hnf.multi, Bool.true_or, List.filter_true] at hsum
  obtain ⟨h2, h3, h4, h5⟩ := h1 fun w hw => canWrite_named hin hnf hnan (hwl w hw) (hfin w hw) fun h => h01 h w hw
  refine ⟨h2, ⟨_, h3, h4, ?_⟩, fun n dn hdn => ?_⟩
  · have := hsum 0
    unfold weightSumNo at this
    rw [show (weightNo 0 : Event K V → K) = centralWeight from funext weightNo_zero] at this
    rw [h5]
    exact this
  · obtain ⟨order, ho1, ho2⟩ := hnf.names
    refine ⟨fun hn => ?_, fun hn hh => ?_⟩
    · obtain ⟨dn', g1, g2, g3, g4⟩ := named_reread hin hnf hnan hwl hfin h01 hl h3 hdn ho1 ho2 (.inl hn)
      refine ⟨dn', g1, g2, ?_⟩
      unfold weightSumNo
      rw [g3, reweightedFor_map hn ws _ _ (g4 hn), g4 hn]
      exact hsum _
    · obtain ⟨dn', g1, g2, g3, -⟩ := named_reread hin hnf hnan hwl hfin h01 hl h3 hdn ho1 ho2
        (.inr fun d hd r hr names hnames hhead => hh d hd r hr (firstNameIn_head hnames hhead))
      refine ⟨dn', g1, g2, ?_⟩
      rw [g3, reweightedFor_tail hn ws _ ?_]
      rw [hl]
      have hs := selecting_same hin hdn
      have e1 : ∀ (ds dn : List (EventFile K V)), (∀ d ∈ ds, d.events.length = d.records.length) →
          (∀ d ∈ dn, d.events.length = d.records.length) →
          List.Forall₂ (fun d d' : EventFile K V => d'.toFileData = d.toFileData) ds dn → (allEvents ds).length = (allEvents dn).length := by
        intro ds dn k1 k2 k3
        induction k3 with
        | nil => rfl
        | @cons d d' ds dn h _ ih =>
          have := ih (fun x hx => k1 x (by simp [hx])) (fun x hx => k2 x (by simp [hx]))
          have h1 := k1 d (by simp)
          have h2 := k2 d' (by simp)
          rw [h] at h2
          simp only [allEvents, List.flatMap_cons, List.length_append] at this ⊢
          omega
      refine e1 ds dn (fun d hd => ?_) (fun d hd => ?_) hs
      · obtain ⟨q, -, content, -, hc⟩ := forall₂_mem hin hd
        exact hc.2.length_eq.symm
      · obtain ⟨q, -, content, -, hc⟩ := forall₂_mem hdn hd
        exact hc.2.length_eq.symm

end Cres

namespace Cres

open Spec CombinedIO Program Cres.Path

variable {K V D P : Type*} [Zero D] [LinearOrder D] [DistNum D] [ExactComparison D] [Field K] [LinearOrder K] [IsStrictOrderedRing K] [LinearOrder V]
  [DecidableEq P]

/-- **C78** for the command line program without unweighting. -/
theorem C78_cres_partial {s : CresSettings K V D} (hc : GoodChoices s) (h0 : s.minWeight = 0) {fs fs' : FS P}
    {files : List (P × P)} {ds : List (EventFile K V)} (hin : EventFiles s.io fs (files.map Prod.fst) ds) (hf : GoodFiles files)
    (hnf : NamedFiles s.io ds) (hnan : s.io.ctx.debug = true → ∀ w, s.io.ctx.float.isNaN w = false)
    {events : Option (List (Event K V))} {ws : List (Weights K)} {res : Outcome (CresError IOError) Unit}
    (h : s.program.Run files fs events (some ws) res fs') (hfin : ∀ w ∈ ws, ∀ x ∈ w, s.io.ctx.float.finite x = true) :
    res = .ok () ∧
    (∃ ds', EventFiles s.io fs' (files.map Prod.snd) ds' ∧ List.Forall₂ SameExceptWeights ds ds' ∧
      centralSum (allEvents ds') = centralSum (allEvents ds)) ∧
    NamedWeightsKept s.io fs (files.map Prod.fst) fs' (files.map Prod.snd) ds := by
  refine C78_named_partial (p := s.program) (cres_goodComponents hc) ?_ hin hf hnf hnan h hfin
  funext evs
  simp only [CresSettings.program, unweightStep]
  rw [C26_trivial _ _ _ _ (Or.inl h0)]

/-- **C78**: in release builds every run on such files without unweighting gets as far as updating the weights, and there is
such a run. -/
theorem C78_completes {s : CresSettings K V D} (hc : GoodChoices s) (h0 : s.minWeight = 0) (hd : s.io.ctx.debug = false)
    {fs : FS P} {files : List (P × P)} {ds : List (EventFile K V)} (hin : EventFiles s.io fs (files.map Prod.fst) ds)
    (hf : GoodFiles files) (hnf : NamedFiles s.io ds) :
    (∀ events ws res fs', s.program.Run files fs events ws res fs' → ∃ ws', ws = some ws') ∧
    ∃ events ws res fs', s.program.Run files fs events ws res fs' := by
  refine run_completes (p := s.program) hd (Nat.succ_pos _) ?_ (cres_goodComponents hc) ?_ hnf.weights hin hf ?_
  · intro h
    rw [show s.program.io.ctx.multi = true from hnf.multi] at h
    simp at h
  · funext evs
    simp only [CresSettings.program, unweightStep]
    rw [C26_trivial _ _ _ _ (Or.inl h0)]
  · intro ev hev
    exact ⟨_, rfl, eventFiles_id hin ev hev⟩

/-- **C78** for runs of the command line program, starting from the paths of input files and output directory. -/
theorem C78_main_partial {s : CresSettings K V D} (hc : GoodChoices s) (h0 : s.minWeight = 0)
    {cwd : List Bytes} {outdir : Bytes} {ins : List (Bytes × Bytes)}
    {tags : List (Option (Stripper.XmlTag K))} {fs fs' : FS (List Bytes)} (hg : GoodInputs s.io cwd outdir ins tags fs)
    {io : IOConfig K V} (hio : io = { s.io with scaling := channelScales tags }) {ds : List (EventFile K V)}
    (hin : EventFiles io fs ((eventInputs ins tags).map fun x => locate cwd x.1 ++ [x.2]) ds)
    (hnf : NamedFiles io ds) (hnan : io.ctx.debug = true → ∀ w, io.ctx.float.isNaN w = false)
    {ws : List (Weights K)} {res : Outcome MainError Unit}
    (h : MainRun s cwd outdir (ins.map fun x => x.1 ++ x.2) fs (some ws) res fs')
    (hfin : ∀ w ∈ ws, ∀ x ∈ w, io.ctx.float.finite x = true) :
    res = .ok () ∧
    (∃ ds', EventFiles io fs' ((eventInputs ins tags).map fun x => locate cwd outdir ++ [x.2]) ds' ∧
      List.Forall₂ SameExceptWeights ds ds' ∧ centralSum (allEvents ds') = centralSum (allEvents ds)) ∧
    NamedWeightsKept io fs ((eventInputs ins tags).map fun x => locate cwd x.1 ++ [x.2]) fs'
      ((eventInputs ins tags).map fun x => locate cwd outdir ++ [x.2]) ds := by
  obtain ⟨h1, h2, h3⟩ := hg.files
  generalize hws : some ws = ows at h
  cases h with
  | scalingErr _ | scalingPanic _ => simp at hws
  | @run files io' events ws' res fs' g1 g2 =>
    subst hws
    rw [h1] at g1
    simp only [Outcome.ok.injEq, Prod.mk.injEq] at g1
    obtain ⟨rfl, rfl⟩ := g1
    have hc' : GoodChoices { s with io := { s.io with scaling := channelScales tags } } := ⟨hc.search, hc.seeds, hc.rng⟩
    subst hio
    obtain ⟨h4, ⟨ds', h5, h6⟩, h7⟩ := C78_cres_partial hc' h0 (by rw [h3]; exact hin) h2 hnf hnan g2 hfin
    rw [List.map_map] at h5
    refine ⟨by rw [h4]; rfl, ⟨ds', h5, h6⟩, ?_⟩
    rw [h3, List.map_map] at h7
    exact h7

/-! ### examples -/

/-- Settings with selected names. -/
def exNamedSettings : CresSettings ℚ ℚ ℚ :=
  { exSettings true with io := { (exSettings true).io with ctx := ratCtx true false [ascii "c", ascii "b"] } }

/-- A file with two events. The names in the second event can be in a different order. -/
def exNamedFile (swap : Bool) : EventFile ℚ ℚ :=
  ⟨⟨.hepmc2, ascii "H\n", [ascii "E 1 2 3 4 5 6 7 8 9 0 0 4 -2 1 5 10\nN 4 \"a\" \"b\" \"x\" \"c\"\nP 1 21 0 0 0 7 0 1 0 0 0\n",
    ascii "E 1 2 3 4 5 6 7 8 9 0 0 4 6 21 5 4\n" ++
      (if swap then ascii "N 4 \"a\" \"c\" \"x\" \"b\"\n" else ascii "N 4 \"a\" \"b\" \"x\" \"c\"\n") ++
      ascii "P 1 21 0 0 0 9 0 1 0 0 0\n"]⟩,
   [⟨0, [-2, 1, 10], [(21, [7])]⟩, ⟨0, [6, 21, 4], [(21, [9])]⟩]⟩

theorem exNamedFile_ok (swap : Bool) :
    IsEventFile exNamedSettings.io ((exNamedFile swap).header ++ (exNamedFile swap).records.flatten) (exNamedFile swap) := by
  refine ⟨⟨by cases swap <;> decide +kernel, ?_, ⟨rfl, by simp [exNamedFile], by cases swap <;> decide +kernel, ?_, ?_, ?_, ?_⟩, ?_⟩, ?_⟩
  · exact fun rest => detectFormat_append _ (b := 72) (h := [10]) (by decide) (Or.inr (by decide)) rest
  · unfold Contains; cases swap <;> decide +kernel
  · cases swap <;> decide +kernel
  · unfold Contains; cases swap <;> decide +kernel
  · cases swap <;> decide +kernel
  · cases swap <;> decide +kernel
  · refine .cons ?_ (.cons ?_ .nil)
    · show HepMC.parse _ _ = _
      cases swap <;> decide +kernel
    · show HepMC.parse _ _ = _
      cases swap <;> decide +kernel

/-- The input file. -/
def exNamedFS (swap : Bool) : FS ℕ
  | 0 => some ((exNamedFile swap).header ++ (exNamedFile swap).records.flatten)
  | _ => none

theorem exNamedFiles (swap : Bool) : EventFiles exNamedSettings.io (exNamedFS swap) [0] [exNamedFile swap] :=
  .cons ⟨_, rfl, exNamedFile_ok swap⟩ .nil

theorem exNamedGood : GoodFiles [(0, 10)] := ⟨by decide, by decide⟩

/-- The events read from the file, in a different order. -/
def exNamedEvents : List (Event ℚ ℚ) := [⟨1, [6, 21, 4], [(81, [9])]⟩, ⟨0, [-2, 1, 10], [(81, [7])]⟩]

/-- Execution of a list of reading steps for the items in the file. -/
def exNamedRead (swap : Bool) : List ReadAction → ReadState IOError EventRecord ℚ ℚ → Option (ReadState IOError EventRecord ℚ ℚ)
  | [], s => some s
  | a :: as, s => (readStep (tryConvert exNamedSettings.io.ctx) exNamedSettings.program.cluster (fun r => r.1 == .ntuple)
      ((fileItems exNamedSettings.io [(exNamedFile swap).toFileData]).map .ok) s a).bind (exNamedRead swap as)

theorem exNamedRead_reachable {swap : Bool} {as : List ReadAction} {s s' : ReadState IOError EventRecord ℚ ℚ}
    (h : exNamedRead swap as s = some s')
    (hs : ReadReachable (tryConvert exNamedSettings.io.ctx) exNamedSettings.program.cluster (fun r => r.1 == .ntuple)
      ((fileItems exNamedSettings.io [(exNamedFile swap).toFileData]).map .ok) s) :
    ReadReachable (tryConvert exNamedSettings.io.ctx) exNamedSettings.program.cluster (fun r => r.1 == .ntuple)
      ((fileItems exNamedSettings.io [(exNamedFile swap).toFileData]).map .ok) s' := by
  induction as generalizing s with
  | nil =>
    simp only [exNamedRead, Option.some.injEq] at h
    exact h ▸ hs
  | cons a as ih =>
    simp only [exNamedRead] at h
    cases hst : readStep (tryConvert exNamedSettings.io.ctx) exNamedSettings.program.cluster (fun r => r.1 == .ntuple)
        ((fileItems exNamedSettings.io [(exNamedFile swap).toFileData]).map .ok) s a with
    | none => rw [hst] at h; cases h
    | some s1 =>
      rw [hst] at h
      exact ih h (.step hs hst)

theorem exNamed_reads (swap : Bool) : ∃ s fs1 x, CombinedIO.new exNamedSettings.io [((0 : ℕ), 10)] (exNamedFS swap) = (.ok (), s, fs1) ∧
    exNamedSettings.program.ReadsEvents s fs1 (.ok exNamedEvents) x := by
  obtain ⟨h1, -⟩ := files_items (exNamedFiles swap)
  obtain ⟨s, fs1, h3, h4⟩ := new_ready (files := [((0 : ℕ), 10)]) (eventFiles_inputs (exNamedFiles swap)) exNamedGood.disjoint
    (by
      intro d hd
      obtain ⟨d', hd', rfl⟩ := List.mem_map.1 hd
      exact h1 d' hd')
  refine ⟨s, fs1, ?_⟩
  have h5 := recordItems_ready _ 5 s fs1 h4
  rw [if_pos (by simp [fileItems, exNamedFile])] at h5
  generalize hx : s.recordItems exNamedSettings.io 5 fs1 = y at h5
  obtain ⟨y, x⟩ := y
  simp only at h5
  subst h5
  refine ⟨x, h3, ?_⟩
  have hdec : (exNamedRead swap [.main, .main, .task 1, .main, .task 0] .init).map
      (fun s => (s.stopped.isSome, s.pending.isEmpty, s.result)) = some (true, true, .ok exNamedEvents) := by
    cases swap <;> decide +kernel
  cases hr : exNamedRead swap [.main, .main, .task 1, .main, .task 0] .init with
  | none => rw [hr] at hdec; simp at hdec
  | some r =>
    rw [hr] at hdec
    simp only [Option.map_some, Option.some.injEq, Prod.mk.injEq] at hdec
    rw [← hdec.2.2]
    exact .done hx (exNamedRead_reachable hr .init) ⟨hdec.1, by simpa using hdec.2.1⟩

/-- The events are averaged. -/
theorem exNamed_weights : exNamedSettings.program.ComputesWeights exNamedEvents (.ok [[2, 11, 7], [2, 11, 7]]) := by
  have hdec : (runSchedule exNamedSettings.program.cfg 2 (exNamedSettings.program.nearest exNamedEvents)
      (exNamedSettings.program.seeds exNamedEvents) (List.replicate 11 0) (State.init (memOf exNamedEvents))).map
      (fun s => (s.tasks 0, s.mem 0, s.mem 1)) = some (.done (some ⟨[0, 1], 2, 4⟩), [2, 11, 7], [2, 11, 7]) := by
    decide +kernel
  cases hr : runSchedule exNamedSettings.program.cfg 2 (exNamedSettings.program.nearest exNamedEvents)
      (exNamedSettings.program.seeds exNamedEvents) (List.replicate 11 0) (State.init (memOf exNamedEvents)) with
  | none => rw [hr] at hdec; simp at hdec
  | some st =>
    rw [hr] at hdec
    simp only [Option.map_some, Option.some.injEq, Prod.mk.injEq] at hdec
    have hid : identified exNamedEvents = exNamedEvents := by decide
    have hlog : logSumsPanics exNamedSettings.program.cfg exNamedSettings.program.infoLog exNamedEvents = false := by
      decide +kernel
    have hseeds : exNamedSettings.program.seeds exNamedEvents = [1] := by decide +kernel
    have hres : exNamedSettings.program.Resamples (exNamedEvents.filter fun e => !e.outgoingByPid.isEmpty)
        (.ok (withWeights exNamedEvents st.mem)) := by
      rw [show exNamedEvents.filter (fun e => !e.outgoingByPid.isEmpty) = exNamedEvents from hid]
      refine .ok hlog ⟨st, runSchedule_reachable _ Reachable.init hr, ?_, rfl⟩
      intro t ht
      rw [hseeds] at ht
      simp only [List.length_cons, List.length_nil, zero_add, Nat.lt_one_iff] at ht
      subst ht
      exact ⟨_, hdec.1⟩
    have hw : withWeights exNamedEvents st.mem = [⟨1, [2, 11, 7], [(81, [9])]⟩, ⟨0, [2, 11, 7], [(81, [7])]⟩] := by
      simp [withWeights, exNamedEvents, hdec]
    rw [hw] at hres
    have := ComputesWeights.mk hres
    have hrun : runWeights exNamedSettings.program.cfg exNamedSettings.program.infoLog
        (fun _ => (.ok [⟨1, [2, 11, 7], [(81, [9])]⟩, ⟨0, [2, 11, 7], [(81, [7])]⟩] : Outcome IOError (List (Event ℚ ℚ))))
        exNamedSettings.program.unweight exNamedEvents = .ok [[2, 11, 7], [2, 11, 7]] := by
      decide +kernel
    rw [hrun] at this
    exact this

theorem exNamed_run (swap : Bool) : ∃ res fs', exNamedSettings.program.Run [((0 : ℕ), 10)] (exNamedFS swap)
    (some exNamedEvents) (some [[2, 11, 7], [2, 11, 7]]) res fs' := by
  obtain ⟨s, fs1, x, h1, h2⟩ := exNamed_reads swap
  exact ⟨_, _, .update h1 h2 exNamed_weights⟩

theorem exNamedSettings_good : GoodChoices exNamedSettings :=
  ⟨(exSettings_good true).search, (exSettings_good true).seeds, (exSettings_good true).rng⟩

theorem exNamed_finite : ∀ w ∈ ([[2, 11, 7], [2, 11, 7]] : List (List ℚ)), ∀ x ∈ w,
    exNamedSettings.io.ctx.float.finite x = true := by
  decide +kernel

theorem exNamed_first (swap : Bool) : ∀ d ∈ [exNamedFile swap], ∀ r ∈ d.records, ¬ FirstNameIn exNamedSettings.io.ctx.names r := by
  intro d hd r hr
  rw [List.mem_singleton] at hd
  subst hd
  have key : ((splitAtPattern (ascii "\nN") r).bind fun x => (u32Entry x.2).bind fun y => HepMC.stringEntry y.1).map Prod.snd =
      some (ascii "a") := by
    have hr' : r = (exNamedFile swap).records[0]'(by simp [exNamedFile]) ∨ r = (exNamedFile swap).records[1]'(by simp [exNamedFile]) := by
      simpa [exNamedFile] using hr
    rcases hr' with rfl | rfl <;> cases swap <;> decide +kernel
  rintro ⟨n, entries, rest, name, h1, ⟨before, line, h2, h3⟩, h4⟩
  rw [h2, Option.bind_some, h3, Option.bind_some, h4] at key
  simp only [Option.map_some, Option.some.injEq] at key
  subst key
  revert h1
  decide +kernel

/-- The file of the example with names in the same order in both records. -/
theorem exNamed_files : NamedFiles exNamedSettings.io [exNamedFile false] where
  multi := rfl
  nonempty := by decide +kernel
  nodup := by decide +kernel
  hepmc := by simp [exNamedFile]
  weights := by decide +kernel
  names := by
    refine ⟨[ascii "b", ascii "c"], .swap _ _ _, ?_⟩
    intro d hd r hr
    rw [List.mem_singleton] at hd
    subst hd
    have hr' : r = (exNamedFile false).records[0]'(by simp [exNamedFile]) ∨ r = (exNamedFile false).records[1]'(by simp [exNamedFile]) := by
      simpa [exNamedFile] using hr
    refine ⟨[ascii "a", ascii "b", ascii "x", ascii "c"], ?_, by decide +kernel⟩
    rcases hr' with rfl | rfl
    · exact ⟨4, ascii " \"a\" \"b\" \"x\" \"c\"\nP 1 21 0 0 0 7 0 1 0 0 0\n", ascii "\nP 1 21 0 0 0 7 0 1 0 0 0\n",
        ⟨ascii "E 1 2 3 4 5 6 7 8 9 0 0 4 -2 1 5 10", ascii " 4 \"a\" \"b\" \"x\" \"c\"\nP 1 21 0 0 0 7 0 1 0 0 0\n",
          by decide +kernel, by decide +kernel⟩, by decide +kernel⟩
    · exact ⟨4, ascii " \"a\" \"b\" \"x\" \"c\"\nP 1 21 0 0 0 9 0 1 0 0 0\n", ascii "\nP 1 21 0 0 0 9 0 1 0 0 0\n",
        ⟨ascii "E 1 2 3 4 5 6 7 8 9 0 0 4 6 21 5 4", ascii " 4 \"a\" \"b\" \"x\" \"c\"\nP 1 21 0 0 0 9 0 1 0 0 0\n",
          by decide +kernel, by decide +kernel⟩, by decide +kernel⟩
  first := .inr (exNamed_first false)

/-- The hypotheses of `C78_cres_partial` and `C78_completes` are met in this run: four weights, two of which are selected
in a different order, and one event with negative weight. -/
example : ∃ res fs', GoodChoices exNamedSettings ∧ exNamedSettings.minWeight = 0 ∧
    EventFiles exNamedSettings.io (exNamedFS false) ([((0 : ℕ), 10)].map Prod.fst) [exNamedFile false] ∧
    GoodFiles [((0 : ℕ), 10)] ∧ NamedFiles exNamedSettings.io [exNamedFile false] ∧ exNamedSettings.io.ctx.debug = false ∧
    exNamedSettings.program.Run [((0 : ℕ), 10)] (exNamedFS false) (some exNamedEvents) (some [[2, 11, 7], [2, 11, 7]]) res fs' ∧
    (∀ w ∈ ([[2, 11, 7], [2, 11, 7]] : List (List ℚ)), ∀ x ∈ w, exNamedSettings.io.ctx.float.finite x = true) := by
  obtain ⟨res, fs', h⟩ := exNamed_run false
  exact ⟨res, fs', exNamedSettings_good, rfl, exNamedFiles false, exNamedGood, exNamed_files, rfl, h, exNamed_finite⟩

/-- The hypotheses of `C76_cres`, `C77_no_negative` and `C77_completes` are met in this run, with weights with
selected names. -/
example : ∃ res fs', GoodChoices exNamedSettings ∧ exNamedSettings.minWeight = 0 ∧ exNamedSettings.io.ctx.debug = false ∧
    WeightsSupported exNamedSettings.io [exNamedFile false] ∧ exNamedSettings.io.ctx.names.length = 2 ∧
    exNamedSettings.program.Run [((0 : ℕ), 10)] (exNamedFS false) (some exNamedEvents) (some [[2, 11, 7], [2, 11, 7]]) res fs' ∧
    NoLimit exNamedSettings exNamedEvents ∧
    0 ≤ centralSum ((allEvents [exNamedFile false]).filter (HasParticles exNamedSettings.program)) ∧
    (∀ w ∈ ([[2, 11, 7], [2, 11, 7]] : List (List ℚ)), ∀ x ∈ w, ∀ d ∈ [exNamedFile false],
      Writable exNamedSettings.io d.kind x) := by
  obtain ⟨res, fs', h⟩ := exNamed_run false
  refine ⟨res, fs', exNamedSettings_good, rfl, rfl, .inr ⟨exNamed_files, fun h => nomatch h⟩, rfl, h,
    noLimit_of_metric ⟨fun x y _ _ => abs_sub_comm _ _, fun x y z _ _ _ => abs_sub_le _ _ _⟩ (by decide +kernel),
    by decide +kernel, ?_⟩
  intro w hw x hx d hd
  rw [List.mem_singleton] at hd
  subst hd
  exact ⟨exNamed_finite w hw x hx, trivial⟩

/-- **C78** as stated, in short: the sum of weights is conserved for each selected name that occurs in all records. -/
def C78_claim : Prop :=
  ∀ (s : CresSettings ℚ ℚ ℚ) (fs fs' : FS ℕ) (files : List (ℕ × ℕ)) (ds : List (EventFile ℚ ℚ)), GoodChoices s → s.minWeight = 0 →
    s.io.ctx.debug = false → EventFiles s.io fs (files.map Prod.fst) ds → GoodFiles files →
    s.io.ctx.multi = true → s.io.ctx.names ≠ [] → s.io.ctx.names.Nodup → (∀ d ∈ ds, d.kind = .hepmc2) →
    (∀ ev ∈ allEvents ds, ev.weights.length = s.io.ctx.names.length + 1) →
    (∀ d ∈ ds, ∀ r ∈ d.records, ¬ FirstNameIn s.io.ctx.names r) →
    ∀ events ws res, s.program.Run files fs events (some ws) res fs' →
    (∀ w ∈ ws, ∀ x ∈ w, s.io.ctx.float.finite x = true) →
    NamedWeightsKept s.io fs (files.map Prod.fst) fs' (files.map Prod.snd) ds

/-- The event when only the name `b` is selected. -/
def exNamedFileB : EventFile ℚ ℚ :=
  ⟨(exNamedFile true).toFileData, [⟨0, [-2, 1], [(21, [7])]⟩, ⟨0, [6, 4], [(21, [9])]⟩]⟩

/-- **C78** fails if the names are in a different order in different events: weights with different names are averaged. In
the example the sum of the weights with name `b` is 5 before and 18 after the run. -/
theorem C78_violated : ¬ C78_claim := by
  intro hclaim
  obtain ⟨res, fs', h⟩ := exNamed_run true
  have hkept := hclaim exNamedSettings (exNamedFS true) fs' [(0, 10)] [exNamedFile true] exNamedSettings_good rfl rfl (exNamedFiles true) exNamedGood
    rfl (by decide +kernel) (by decide +kernel) (by simp [exNamedFile]) (by decide +kernel) (exNamed_first true) _ _ _ h exNamed_finite
  have hfiles := run_files (p := exNamedSettings.program) (m := 3) (ds := [exNamedFile true]) (files := [(0, 10)])
    (by decide +kernel) (exNamedFiles true) exNamedGood h
  have hcan : CanWrite exNamedSettings.program.io (exNamedFile true) [2, 11, 7] := by
    refine ⟨fun x hx => ⟨exNamed_finite [2, 11, 7] (by simp) x hx, trivial⟩, fun x hx => exNamed_finite [2, 11, 7] (by simp) x hx,
      fun r hr ev hev => ?_⟩
    have hr' : r = (exNamedFile true).records[0]'(by simp [exNamedFile]) ∨ r = (exNamedFile true).records[1]'(by simp [exNamedFile]) := by
      simpa [exNamedFile] using hr
    have hev' : HepMC.parse exNamedSettings.io.ctx r = .ok ev := hev
    rcases hr' with rfl | rfl
    · have h1 : HepMC.parse exNamedSettings.io.ctx ((exNamedFile true).records[0]'(by simp [exNamedFile])) =
          .ok ⟨0, [-2, 1, 10], [(21, [7])]⟩ := by decide +kernel
      rw [h1, Outcome.ok.injEq] at hev'
      subst hev'
      refine ⟨updated exNamedSettings.program.io .hepmc2 [2, 11, 7] ((exNamedFile true).records[0]'(by simp [exNamedFile])), ?_, ?_⟩
      · decide +kernel
      · show HepMC.parse exNamedSettings.io.ctx _ = _
        decide +kernel
    · have h1 : HepMC.parse exNamedSettings.io.ctx ((exNamedFile true).records[1]'(by simp [exNamedFile])) =
          .ok ⟨0, [6, 21, 4], [(21, [9])]⟩ := by decide +kernel
      rw [h1, Outcome.ok.injEq] at hev'
      subst hev'
      refine ⟨updated exNamedSettings.program.io .hepmc2 [2, 11, 7] ((exNamedFile true).records[1]'(by simp [exNamedFile])), ?_, ?_⟩
      · decide +kernel
      · show HepMC.parse exNamedSettings.io.ctx _ = _
        decide +kernel
  obtain ⟨-, hout, -⟩ := hfiles.2.2 (by
    intro w hw d hd
    have hw' : w = [2, 11, 7] := by simpa using hw
    rw [List.mem_singleton] at hd
    subst hw' hd
    exact hcan)
  have hb : EventFiles (selecting exNamedSettings.io [ascii "b"]) (exNamedFS true) ([((0 : ℕ), 10)].map Prod.fst) [exNamedFileB] := by
    refine .cons ⟨_, rfl, (exNamedFile_ok true).1, .cons ?_ (.cons ?_ .nil)⟩ .nil
    · show HepMC.parse _ _ = _
      decide +kernel
    · show HepMC.parse _ _ = _
      decide +kernel
  obtain ⟨dn', h1, -, h3⟩ := (hkept (ascii "b") [exNamedFileB] hb).1 (by decide +kernel)
  have hsame := selecting_same (sel := [ascii "b"]) hout h1
  generalize hL : List.zipWith (EventFile.reweight exNamedSettings.program.io) [exNamedFile true]
    (splitWeights [exNamedFile true] [[2, 11, 7], [2, 11, 7]]) = L at hsame
  have hL' : L = [EventFile.reweight exNamedSettings.program.io (exNamedFile true) [[2, 11, 7], [2, 11, 7]]] := hL.symm
  subst hL'
  cases hsame with
  | @cons _ d' _ _ e1 e2 =>
    cases e2
    cases h1 with
    | cons g1 _ =>
      obtain ⟨content, -, -, g2⟩ := g1
      rw [show d'.kind = .hepmc2 from congrArg FileData.kind e1, show d'.records =
        [updated exNamedSettings.io .hepmc2 [2, 11, 7] ((exNamedFile true).records[0]'(by simp [exNamedFile])),
         updated exNamedSettings.io .hepmc2 [2, 11, 7] ((exNamedFile true).records[1]'(by simp [exNamedFile]))]
        from congrArg FileData.records e1] at g2
      have p1 : HepMC.parse (selecting exNamedSettings.io [ascii "b"]).ctx
          (updated exNamedSettings.io .hepmc2 [2, 11, 7] ((exNamedFile true).records[0]'(by simp [exNamedFile]))) =
          .ok ⟨0, [2, 11], [(21, [7])]⟩ := by decide +kernel
      have p2 : HepMC.parse (selecting exNamedSettings.io [ascii "b"]).ctx
          (updated exNamedSettings.io .hepmc2 [2, 11, 7] ((exNamedFile true).records[1]'(by simp [exNamedFile]))) =
          .ok ⟨0, [2, 7], [(21, [9])]⟩ := by decide +kernel
      simp only [allEvents, List.flatMap_cons, List.flatMap_nil, List.append_nil] at h3
      generalize d'.events = es at g2 h3
      cases g2 with
      | cons r1 r2 =>
        cases r2 with
        | cons r2 r3 =>
          cases r3
          have r1' := p1.symm.trans r1
          have r2' := p2.symm.trans r2
          rw [Outcome.ok.injEq] at r1' r2'
          subst r1' r2'
          revert h3
          decide +kernel

end Cres

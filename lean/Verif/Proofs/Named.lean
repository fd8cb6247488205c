import Verif.Spec.Named
import Verif.Props.Program

/-!
Named weights in records and files.
-/

set_option linter.unusedSectionVars false

namespace Cres

open Spec CombinedIO Program

variable {K V D P : Type*}

theorem filter_congr_get {α : Type*} {p : α → Bool} : ∀ {l l' : List α}, l.length = l'.length →
    (∀ (i : Nat) a a', l[i]? = some a → l'[i]? = some a' → a = a' ∨ (p a = false ∧ p a' = false)) → l.filter p = l'.filter p
  | [], [], _, _ => rfl
  | a :: l, a' :: l', hl, h => by
    have ih := filter_congr_get (l := l) (l' := l') (by simpa using hl) fun i x x' h1 h2 =>
      h (i + 1) x x' (by simpa using h1) (by simpa using h2)
    rcases h 0 a a' rfl rfl with rfl | ⟨h1, h2⟩
    · rw [List.filter_cons, List.filter_cons, ih]
    · rw [List.filter_cons, List.filter_cons, ih, h1, h2]
      rfl

theorem filter_fst_single {α β : Type*} [DecidableEq α] : ∀ {L : List (α × β)}, (L.map Prod.fst).Nodup → ∀ {k : Nat} {x : α × β},
    L[k]? = some x → L.filter (fun y => decide (y.1 = x.1)) = [x]
  | [], _, k, x, h => by simp at h
  | y :: L, hnd, 0, x, h => by
    simp only [List.getElem?_cons_zero, Option.some.injEq] at h
    subst h
    rw [List.map_cons, List.nodup_cons] at hnd
    rw [List.filter_cons, decide_eq_true rfl, if_pos rfl, List.filter_eq_nil_iff.2]
    intro z hz
    simp only [decide_eq_true_eq]
    intro he
    exact hnd.1 (he ▸ List.mem_map_of_mem hz)
  | y :: L, hnd, k + 1, x, h => by
    rw [List.map_cons, List.nodup_cons] at hnd
    have h' : L[k]? = some x := by simpa using h
    rw [List.filter_cons, decide_eq_false, if_neg (by simp), filter_fst_single hnd.2 h']
    intro he
    exact hnd.1 (he ▸ List.mem_map_of_mem (List.mem_of_getElem? h'))

/-- The weight with one of the selected names. -/
theorem selected_single {sel nms order : List Bytes} {all : List K} (hl : nms.length ≤ all.length)
    (ho : nms.filter (fun n => decide (n ∈ sel)) = order) (hnd : order.Nodup) {k : Nat} {n : Bytes} (hk : order[k]? = some n) :
    ∃ w, (HepMC.selected sel nms all)[k]? = some w ∧ HepMC.selected [n] nms all = [w] := by
  have hfst : ((nms.zip all).filter (fun x => decide (x.1 ∈ sel))).map Prod.fst = order := by
    rw [← ho]
    conv_rhs => rw [← List.map_fst_zip hl]
    rw [List.filter_map]
    rfl
  have hsel : n ∈ sel := by
    have := List.mem_of_getElem? hk
    rw [← ho] at this
    simpa using (List.mem_filter.1 this).2
  have h1 := hk
  rw [← hfst, List.getElem?_map] at h1
  obtain ⟨x, h2, rfl⟩ := Option.map_eq_some_iff.1 h1
  refine ⟨x.2, ?_, ?_⟩
  · unfold HepMC.selected
    rw [List.getElem?_map, h2]
    rfl
  · have h3 := filter_fst_single (by rw [hfst]; exact hnd) h2
    rw [List.filter_filter] at h3
    unfold HepMC.selected
    rw [List.filter_congr (q := fun a => decide (a.1 = x.1) && decide (a.1 ∈ sel)) ?_, h3]
    · rfl
    · intro a _
      by_cases ha : a.1 = x.1
      · simp [ha, hsel]
      · simp [ha]

theorem selected_unchanged {nms : List Bytes} {all all' : List K} {n : Bytes} (hl : all'.length = all.length)
    (h : ∀ i : Nat, nms[i]? = some n → all'[i]? = all[i]?) : HepMC.selected [n] nms all' = HepMC.selected [n] nms all := by
  unfold HepMC.selected
  rw [filter_congr_get (l' := nms.zip all) (by simp [List.length_zip, hl])]
  rintro i ⟨m, w⟩ ⟨m', w'⟩ h1 h2
  rw [List.getElem?_zip_eq_some] at h1 h2
  have hm : m = m' := Option.some.inj (h1.1.symm.trans h2.1)
  subst hm
  by_cases hmn : m = n
  · subst hmn
    left
    have := h i h1.1
    simp only at h1 h2
    rw [h1.2, h2.2, Option.some.injEq] at this
    rw [this]
  · right
    simp [hmn]

section

variable [Zero K] [Mul K] [Div K] [LinearOrder V]

/-- The weight that is read when one name is selected. -/
theorem named_read (c : ParseCtx K V) (hm : c.multi = true) (hne : c.names ≠ []) (hd : c.names.Nodup) {record : Bytes}
    {ev : Event K V} (hp : HepMC.parse c record = .ok ev) (hlen : ev.weights.length = c.names.length + 1)
    {order names : List Bytes} (hord : order.Perm c.names) (hr : RecordNames record names)
    (hf : names.filter (fun n => decide (n ∈ c.names)) = order)
    (hnan : c.debug = true → ∀ w, c.float.isNaN w = false) :
    (FirstNameIn c.names record → weightNo 0 ev = weightNo 1 ev) ∧ ∀ {n : Bytes} {k : Nat}, order[k]? = some n →
    HepMC.parse { c with names := [n] } record = .ok { ev with weights := [weightNo 0 ev, weightNo (k + 1) ev] } := by
  obtain ⟨n0, entries, rest, ⟨before, line, hl1, hl2⟩, hcount⟩ := hr
  have hl1' : splitAtPattern [10, 78] record = some (before, line) := hl1
  obtain ⟨nms, all, w0, h1, hw0, hsub, h5, h8, ⟨pre, nline, es, nn, rr, h10, h11, h12⟩, -⟩ :=
    HepMC.parse_named c hm hne hd hp hlen
  rw [hl1'] at h10
  cases h10
  rw [hl2] at h11
  cases h11
  obtain ⟨extra, hextra⟩ : ∃ extra, names = nms ++ extra := by
    rw [show n0 = min n0 all.length + (n0 - min n0 all.length) by omega] at hcount
    obtain ⟨ra, as1, as2, z1, z2⟩ := HepMC.count_add hcount
    rw [h12] at z1
    simp only [Option.some.injEq, Prod.mk.injEq] at z1
    exact ⟨as2, by rw [z2, z1.2]⟩
  have hfilter : nms.filter (fun n => decide (n ∈ c.names)) = order := by
    have hle : c.names.length ≤ (nms.filter (fun n => decide (n ∈ c.names))).length :=
      (List.subperm_of_subset hd (fun n hn => List.mem_filter.2 ⟨hsub n hn, by simpa using hn⟩)).length_le
    rw [hextra, List.filter_append] at hf
    have hlen' := congrArg List.length hf
    rw [List.length_append, hord.length_eq] at hlen'
    have : extra.filter (fun n => decide (n ∈ c.names)) = [] := List.length_eq_zero_iff.1 (by omega)
    rw [this, List.append_nil] at hf
    exact hf
  have hnd : order.Nodup := hord.nodup_iff.2 hd
  have hacc : ∀ w, HepMC.Accepts c w := by
    intro w
    unfold HepMC.Accepts
    cases hdb : c.debug with
    | false => rfl
    | true => rw [hnan hdb w]; rfl
  refine ⟨?_, fun {n k} hk => ?_⟩
  · rintro ⟨n1, es1, r1, name, hname, ⟨before1, line1, z1, z2⟩, z3⟩
    have z1' : splitAtPattern [10, 78] record = some (before1, line1) := z1
    rw [hl1'] at z1'
    cases z1'
    rw [hl2] at z2
    cases z2
    have hnn : nms ≠ [] := by
      rintro rfl
      obtain ⟨m, hm⟩ := List.exists_mem_of_ne_nil _ hne
      simpa using hsub m hm
    have hhead : nms.head? = some name := by
      generalize min n0 all.length = m at h12
      cases m with
      | zero =>
        simp only [count, Option.some.injEq, Prod.mk.injEq] at h12
        exact absurd h12.2.symm hnn
      | succ m =>
        simp only [count, z3] at h12
        cases hc : count HepMC.stringEntry m r1 with
        | none => simp [hc] at h12
        | some y =>
          simp only [hc, Option.some.injEq, Prod.mk.injEq] at h12
          rw [← h12.2]
          rfl
    obtain ⟨nms', rfl⟩ : ∃ l, nms = name :: l := by
      cases nms with
      | nil => simp at hhead
      | cons a l =>
        simp only [List.head?_cons, Option.some.injEq] at hhead
        exact ⟨l, by rw [hhead]⟩
    cases all with
    | nil => simp at hw0
    | cons a all =>
      simp only [List.head?_cons, Option.some.injEq] at hw0
      subst hw0
      simp [weightNo, h5, HepMC.selected, hname]
  have hn : n ∈ nms := hsub n (hord.mem_iff.1 (List.mem_of_getElem? hk))
  have e1 := h8 [n] (by simp) (by simpa using hn) fun w _ => hacc w
  obtain ⟨w, k1, k2⟩ := selected_single h1 hfilter hnd hk
  rw [show ({ c with names := [n] } : ParseCtx K V) = c.withNames [n] from rfl, e1, k2]
  simp [weightNo, h5, List.getD_eq_getElem?_getD, k1]

/-- Updating a record of named files, and what is read from it when one name is selected. -/
theorem named_record (c : ParseCtx K V) (hm : c.multi = true) (hne : c.names ≠ []) (hd : c.names.Nodup) {record : Bytes}
    {ev : Event K V} {ws : List K} (hp : HepMC.parse c record = .ok ev) (hlen : ev.weights.length = c.names.length + 1)
    (hws : ws.length = ev.weights.length) (hfin : ∀ w ∈ ws, c.float.finite w = true) {order names : List Bytes}
    (hord : order.Perm c.names) (hr : RecordNames record names)
    (hf : names.filter (fun n => decide (n ∈ c.names)) = order) (h01 : FirstNameIn c.names record → ws[0]? = ws[1]?)
    (hnan : c.debug = true → ∀ w, c.float.isNaN w = false) :
    ∃ record', HepMC.update c ws record = .ok record' ∧ HepMC.parse c record' = .ok { ev with weights := ws } ∧
      ∀ n evn, HepMC.parse { c with names := [n] } record = .ok evn →
        (∀ k, order[k]? = some n → weightNo 1 evn = weightNo (k + 1) ev ∧
          HepMC.parse { c with names := [n] } record' = .ok { evn with weights := [ws.getD 0 0, ws.getD (k + 1) 0] }) ∧
        (n ∉ c.names → names.head? ≠ some n →
          HepMC.parse { c with names := [n] } record' = .ok { evn with weights := ws.getD 0 0 :: evn.weights.tail }) := by
  obtain ⟨n0, entries, rest, ⟨before, line, hl1, hl2⟩, hcount⟩ := hr
  have hl1' : splitAtPattern [10, 78] record = some (before, line) := hl1
  obtain ⟨nms, all, all', w0, w0', h1, h2, h3, h4, hsub, h5, h6, h7, h8, h9, ⟨pre, nline, es, nn, rr, h10, h11, h12⟩, h13⟩ :=
    HepMC.update_named c hm hne hd hp hlen hws hfin (by
      intro pre nline es nn rr n g1 g2 g3 g4
      exact h01 ⟨nn, es, rr, n, g4, ⟨pre, nline, g1, g2⟩, g3⟩)
  rw [hl1'] at h10
  cases h10
  rw [hl2] at h11
  cases h11
  -- the names that are read are those in the record, up to names without weight
  obtain ⟨extra, hextra⟩ : ∃ extra, names = nms ++ extra := by
    rw [show n0 = min n0 all.length + (n0 - min n0 all.length) by omega] at hcount
    obtain ⟨ra, as1, as2, z1, z2⟩ := HepMC.count_add hcount
    rw [h12] at z1
    simp only [Option.some.injEq, Prod.mk.injEq] at z1
    exact ⟨as2, by rw [z2, z1.2]⟩
  have hfilter : nms.filter (fun n => decide (n ∈ c.names)) = order := by
    have hle : c.names.length ≤ (nms.filter (fun n => decide (n ∈ c.names))).length :=
      (List.subperm_of_subset hd (fun n hn => List.mem_filter.2 ⟨hsub n hn, by simpa using hn⟩)).length_le
    rw [hextra, List.filter_append] at hf
    have hlen' := congrArg List.length hf
    rw [List.length_append, hord.length_eq] at hlen'
    have : extra.filter (fun n => decide (n ∈ c.names)) = [] := List.length_eq_zero_iff.1 (by omega)
    rw [this, List.append_nil] at hf
    exact hf
  have hnd : order.Nodup := hord.nodup_iff.2 hd
  have hacc : ∀ w, HepMC.Accepts c w := by
    intro w
    unfold HepMC.Accepts
    cases hdb : c.debug with
    | false => rfl
    | true => rw [hnan hdb w]; rfl
  have h9' : ∃ record', HepMC.update c ws record = .ok record' ∧
      ∀ sel, sel ≠ [] → (∀ n ∈ sel, n ∈ nms) → (∀ w ∈ HepMC.selected sel nms all', HepMC.Accepts c w) →
        HepMC.parse (c.withNames sel) record' = .ok { ev with weights := w0' :: HepMC.selected sel nms all' } := by
    rcases h9 with h9 | ⟨e, pre, nline, es', nn', -, g2, g3, -, g5⟩
    · exact h9
    · rw [hl1'] at g2
      cases g2
      rw [hl2] at g3
      cases g3
      rw [hcount] at g5
      cases g5
  obtain ⟨record', g1, g2⟩ := h9'
  have hw0 : ws.getD 0 0 = w0' := by rw [h6]; rfl
  refine ⟨record', g1, ?_, ?_⟩
  · have := g2 c.names hne hsub fun w _ => hacc w
    rw [← h6] at this
    exact this
  · intro n evn hpn
    have hn := h13 n evn hpn
    have e1 := h8 [n] (by simp) (by simpa using hn) fun w _ => hacc w
    have e2 := g2 [n] (by simp) (by simpa using hn) fun w _ => hacc w
    have e3 := hpn.symm.trans e1
    simp only [Outcome.ok.injEq] at e3
    subst e3
    refine ⟨fun k hk => ?_, fun hns hnh => ?_⟩
    · obtain ⟨w, k1, k2⟩ := selected_single h1 hfilter hnd hk
      obtain ⟨w', k3, k4⟩ := selected_single (all := all') (by omega) hfilter hnd hk
      refine ⟨?_, ?_⟩
      · simp only [weightNo, h5, k2]
        simp [List.getD_eq_getElem?_getD, k1]
      · rw [show ({ c with names := [n] } : ParseCtx K V) = c.withNames [n] from rfl, e2, k4, hw0]
        have : ws.getD (k + 1) 0 = w' := by rw [h6]; simp [List.getD_eq_getElem?_getD, k3]
        rw [this]
    · rw [show ({ c with names := [n] } : ParseCtx K V) = c.withNames [n] from rfl, e2, hw0]
      rw [selected_unchanged h2 (all := all) (n := n)]
      · rfl
      · intro i hi
        refine h7 i ?_ ?_
        · rcases Nat.eq_zero_or_pos i with rfl | hpos
          · rw [hextra] at hnh
            exfalso
            apply hnh
            rw [List.head?_eq_getElem?, List.getElem?_append_left (List.getElem?_eq_some_iff.1 hi).1, hi]
          · exact hpos
        · intro m hm'
          rw [hi] at hm'
          cases hm'
          exact hns

end

section

variable [Zero D] [LinearOrder D] [Zero K] [One K] [Add K] [Mul K] [Div K] [NatCast K] [LinearOrder K] [LinearOrder V]
  [DecidableEq P]

theorem firstNameIn_head {r : Bytes} {names : List Bytes} (h : RecordNames r names) {n : Bytes} (hn : names.head? = some n) :
    FirstNameIn [n] r := by
  obtain ⟨k, entries, rest, h1, h2⟩ := h
  cases k with
  | zero =>
    simp only [count, Option.some.injEq, Prod.mk.injEq] at h2
    rw [← h2.2] at hn
    simp at hn
  | succ k =>
    simp only [count] at h2
    cases hs : HepMC.stringEntry entries with
    | none => simp [hs] at h2
    | some x =>
      obtain ⟨r1, m⟩ := x
      simp only [hs] at h2
      cases hc : count HepMC.stringEntry k r1 with
      | none => simp [hc] at h2
      | some y =>
        simp only [hc, Option.some.injEq, Prod.mk.injEq] at h2
        rw [← h2.2] at hn
        simp only [List.head?_cons, Option.some.injEq] at hn
        exact ⟨_, entries, r1, n, by simp, h1, by rw [hs, hn]⟩

/-- The event in a record is one of those in the files. -/
theorem recordEvent_mem {io : IOConfig K V} {fs : FS P} {paths : List P} {ds : List (EventFile K V)}
    (hin : EventFiles io fs paths ds) {d : EventFile K V} (hd : d ∈ ds) {r : Bytes} (hr : r ∈ d.records) {ev : Event K V}
    (h : RecordEvent io d.kind r ev) : ev ∈ allEvents ds := by
  obtain ⟨q, -, content, -, hc⟩ := forall₂_mem hin hd
  obtain ⟨i, hi⟩ := List.getElem?_of_mem hr
  have hl : i < d.events.length := by
    rw [← hc.2.length_eq]
    exact (List.getElem?_eq_some_iff.1 hi).1
  have := forall₂_get hc.2 hi (List.getElem?_eq_getElem hl)
  rw [recordEvent_unique h this]
  exact List.mem_flatMap.2 ⟨d, hd, List.getElem_mem hl⟩

/-- If the name of the first weight is selected, this weight is read twice. -/
theorem named_first {io : IOConfig K V} {fs : FS P} {paths : List P} {ds : List (EventFile K V)}
    (hin : EventFiles io fs paths ds) (hnf : NamedFiles io ds) (hnan : io.ctx.debug = true → ∀ w, io.ctx.float.isNaN w = false)
    {d : EventFile K V} (hd : d ∈ ds) {r : Bytes} (hr : r ∈ d.records) {w : List K}
    (h01 : (∀ ev ∈ allEvents ds, weightNo 0 ev = weightNo 1 ev) → w.getD 0 0 = w.getD 1 0)
    (hw : w.length = io.ctx.names.length + 1) : FirstNameIn io.ctx.names r → w[0]? = w[1]? := by
  intro hfirst
  have hall : ∀ d ∈ ds, ∀ r ∈ d.records, FirstNameIn io.ctx.names r := by
    rcases hnf.first with h | h
    · exact h
    · exact absurd hfirst (h d hd r hr)
  have hpos : 0 < io.ctx.names.length := List.length_pos_iff.2 hnf.nonempty
  have := h01 fun ev hev => by
    obtain ⟨order, ho1, ho2⟩ := hnf.names
    obtain ⟨d, hd, he⟩ := List.mem_flatMap.1 hev
    obtain ⟨q, -, content, -, hc⟩ := forall₂_mem hin hd
    obtain ⟨r, hr, hev'⟩ := forall₂_mem hc.2 he
    obtain ⟨names, k1, k2⟩ := ho2 d hd r hr
    rw [hnf.hepmc d hd] at hev'
    exact (named_read io.ctx hnf.multi hnf.nonempty hnf.nodup hev' (hnf.weights ev hev) ho1 k1 k2 hnan).1 (hall d hd r hr)
  rw [List.getElem?_eq_getElem (by omega), List.getElem?_eq_getElem (by omega)]
  rw [List.getD_eq_getElem?_getD, List.getD_eq_getElem?_getD, List.getElem?_eq_getElem (by omega),
    List.getElem?_eq_getElem (by omega), Option.getD_some, Option.getD_some] at this
  rw [this]

theorem canWrite_named {io : IOConfig K V} {fs : FS P} {paths : List P} {ds : List (EventFile K V)}
    (hin : EventFiles io fs paths ds) (hnf : NamedFiles io ds) (hnan : io.ctx.debug = true → ∀ w, io.ctx.float.isNaN w = false)
    {w : List K} (hw : w = [] ∨ w.length = io.ctx.names.length + 1) (hfin : ∀ x ∈ w, io.ctx.float.finite x = true)
    (h01 : (∀ ev ∈ allEvents ds, weightNo 0 ev = weightNo 1 ev) → w.getD 0 0 = w.getD 1 0) :
    ∀ d ∈ ds, CanWrite io d w := by
  intro d hd
  have hk := hnf.hepmc d hd
  have hwr : ∀ x ∈ w, Writable io d.kind x := fun x hx => ⟨hfin x hx, by rw [hk]; trivial⟩
  refine ⟨hwr, fun x hx => (writable_storable (hwr x hx)).1, fun r hr ev hev => ?_⟩
  unfold Rewritten
  rw [map_stored hwr]
  have hmem := recordEvent_mem hin hd hr hev
  rcases hw with rfl | hw
  · exact ⟨r, by rw [hk]; rfl, by simpa [reweighted] using hev⟩
  · have hne : w ≠ [] := by
      rintro rfl
      simp at hw
    obtain ⟨order, ho1, ho2⟩ := hnf.names
    obtain ⟨names, k1, k2⟩ := ho2 d hd r hr
    rw [hk] at hev ⊢
    obtain ⟨r', g1, g2, -⟩ := named_record io.ctx hnf.multi hnf.nonempty hnf.nodup hev (hnf.weights ev hmem)
      (hw.trans (hnf.weights ev hmem).symm) hfin ho1 k1 k2 (named_first hin hnf hnan hd hr h01 hw) hnan
    refine ⟨r', g1, ?_⟩
    simp only [reweighted, hne, if_false]
    exact g2

theorem supported_weights_stored {p : Program K V D} {fs : FS P} {paths : List P} {ds : List (EventFile K V)}
    (hin : EventFiles p.io fs paths ds) (hs : WeightsSupported p.io ds) :
    ∃ m, 0 < m ∧ (p.io.ctx.multi = false → m = 1) ∧ (∀ ev ∈ allEvents ds, ev.weights.length = m) ∧
      (∀ w : List K, (w.length = m ∨ w = defaultWeights p.cfg) → (∀ x ∈ w, ∀ d ∈ ds, Writable p.io d.kind x) →
        (1 < m → (∀ ev ∈ allEvents ds, weightNo 0 ev = weightNo 1 ev) → w.getD 0 0 = w.getD 1 0) →
        ∀ d ∈ ds, CanWrite p.io d w) ∧
      ∀ w : List K, (w.length = m ∨ w = defaultWeights p.cfg) → (∀ x ∈ w, ∀ d ∈ ds, Storable p.io d.kind x) →
        (1 < m → (∀ ev ∈ allEvents ds, weightNo 0 ev = weightNo 1 ev) → w.getD 0 0 = w.getD 1 0) →
        ∀ d ∈ ds, CanStore p.io d w := by
  rcases hs with hn | ⟨hnf, hnan⟩
  · exact ⟨1, Nat.one_pos, fun _ => rfl, single_weights hn hin, fun w hw hx _ => canWrite_central hn hin (default_length hw) hx,
      fun w hw hx _ => canStore_central hn hin (default_length hw) hx⟩
  · have key : ∀ w : List K, (w.length = p.io.ctx.names.length + 1 ∨ w = defaultWeights p.cfg) → (∀ x ∈ w, ∀ d ∈ ds, Storable p.io d.kind x) →
        (1 < p.io.ctx.names.length + 1 → (∀ ev ∈ allEvents ds, weightNo 0 ev = weightNo 1 ev) → w.getD 0 0 = w.getD 1 0) →
        ∀ d ∈ ds, CanWrite p.io d w := by
      intro w hw hx h01 d hd
      refine canWrite_named hin hnf hnan ?_ (fun x hxw => by
        have := hx x hxw d hd
        rw [hnf.hepmc d hd] at this
        exact this)
        (h01 (by have := List.length_pos_iff.2 hnf.nonempty; omega)) d hd
      rcases hw with h | h
      · exact .inr h
      · rw [defaultWeights, show p.cfg.multi = true from hnf.multi, if_pos rfl] at h
        exact .inl h
    exact ⟨_, Nat.succ_pos _, by rw [hnf.multi]; simp, hnf.weights,
      fun w hw hx h01 d hd => key w hw (fun x hxw d hd => (writable_storable (hx x hxw d hd)).1) h01 d hd,
      fun w hw hx h01 d hd => (key w hw hx h01 d hd).2⟩

/-- What is needed about the weights in files. -/
theorem supported_weights {p : Program K V D} {fs : FS P} {paths : List P} {ds : List (EventFile K V)}
    (hin : EventFiles p.io fs paths ds) (hs : WeightsSupported p.io ds) :
    ∃ m, 0 < m ∧ (p.io.ctx.multi = false → m = 1) ∧ (∀ ev ∈ allEvents ds, ev.weights.length = m) ∧
      ∀ w : List K, (w.length = m ∨ w = defaultWeights p.cfg) → (∀ x ∈ w, ∀ d ∈ ds, Writable p.io d.kind x) →
        (1 < m → (∀ ev ∈ allEvents ds, weightNo 0 ev = weightNo 1 ev) → w.getD 0 0 = w.getD 1 0) →
        ∀ d ∈ ds, CanWrite p.io d w := by
  obtain ⟨m, h1, h2, h3, h4, -⟩ := supported_weights_stored hin hs
  exact ⟨m, h1, h2, h3, h4⟩
end

end Cres

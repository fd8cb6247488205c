import Verif.Proofs.Select
import Verif.Proofs.HepMCNamed
import Verif.Props.Named

/-!
Reading files with fewer selected names.
-/

set_option linter.unusedSectionVars false

namespace Cres

open Spec CombinedIO Program

section
variable {K : Type*}

theorem onlyWeights_positions (N : List Bytes) : ∀ (order : List Bytes) (pre ws : List K), order.length ≤ ws.length →
    onlyWeights (HepMC.positions N pre.length order) (pre ++ ws) = HepMC.selected N order ws := by
  intro order pre ws h
  have := HepMC.selected_eq_positions N order pre ws h
  unfold onlyWeights
  have h2 : (List.filterMap _root_.id ((HepMC.selected N order ws).map some)) = HepMC.selected N order ws := by
    simp [List.filterMap_map]
  rw [← h2, this, List.filterMap_map]
  rfl

/-- The weights with some of the names. -/
theorem selected_selected {N N' : List Bytes} (hsub : ∀ n ∈ N', n ∈ N) : ∀ (nms : List Bytes) (all : List K),
    HepMC.selected N' (nms.filter fun n => decide (n ∈ N)) (HepMC.selected N nms all) = HepMC.selected N' nms all := by
  intro nms
  induction nms with
  | nil => intro all; rfl
  | cons m nms ih =>
    intro all
    cases all with
    | nil => simp [HepMC.selected]
    | cons a all =>
      have ih := ih all
      unfold HepMC.selected at ih ⊢
      by_cases hm : m ∈ N
      · by_cases hm' : m ∈ N'
        · simp [hm, hm', ih]
        · simp [hm, hm', ih]
      · have hm' : m ∉ N' := fun h => hm (hsub m h)
        simp [hm, hm', ih]

/-- The position of one of the names. -/
theorem selected_getD [Zero K] {N' : List Bytes} {n : Bytes} (hn : n ∈ N') : ∀ (order : List Bytes) (t : List K),
    (HepMC.selected N' order t).getD ((order.filter fun n => decide (n ∈ N')).idxOf n) 0 =
      if n ∈ order then t.getD (order.idxOf n) 0 else 0 := by
  intro order
  induction order with
  | nil => intro t; simp [HepMC.selected]
  | cons m order ih =>
    intro t
    cases t with
    | nil => simp [HepMC.selected]
    | cons a t =>
      have ih := ih t
      unfold HepMC.selected at ih ⊢
      by_cases hmn : m = n
      · subst hmn
        simp [hn]
      · have hmn' : n ≠ m := fun h => hmn h.symm
        by_cases hm' : m ∈ N'
        · simp only [List.zip_cons_cons, List.filter_cons, hm', decide_true, if_true, List.map_cons, List.idxOf_cons_ne _ hmn,
            List.getD_cons_succ, ih, List.mem_cons, hmn', false_or]
        · simp only [List.zip_cons_cons, List.filter_cons, hm', decide_false, List.idxOf_cons_ne _ hmn,
            List.getD_cons_succ, ih, List.mem_cons, hmn', false_or]
          simpa using ih

end

section

variable {K V P : Type*} [Zero K] [One K] [Add K] [Mul K] [Div K] [NatCast K] [LinearOrder K] [LinearOrder V] [DecidableEq P]

/-- The weights that are read when fewer names are selected. -/
theorem named_read_fewer (c : ParseCtx K V) (hm : c.multi = true) (hne : c.names ≠ []) (hd : c.names.Nodup) {record : Bytes}
    {ev : Event K V} (hp : HepMC.parse c record = .ok ev) (hlen : ev.weights.length = c.names.length + 1)
    {order names : List Bytes} (hord : order.Perm c.names) (hr : RecordNames record names)
    (hf : names.filter (fun n => decide (n ∈ c.names)) = order)
    (hnan : c.debug = true → ∀ w, c.float.isNaN w = false) {N' : List Bytes} (hne' : N' ≠ []) (hsub' : ∀ n ∈ N', n ∈ c.names) :
    HepMC.parse { c with names := N' } record = .ok (keepingWeights (0 :: HepMC.positions N' 1 order) ev) := by
  obtain ⟨n0, entries, rest, ⟨before, line, hl1, hl2⟩, hcount⟩ := hr
  have hl1' : splitAtPattern [10, 78] record = some (before, line) := hl1
  obtain ⟨nms, all, w0, h1, hw0, hsub, h5, h8, ⟨pre, nline, es, nn, rr, h10, h11, h12⟩, -⟩ :=
    HepMC.parse_named c hm hne hd hp hlen
  rw [hl1'] at h10
  cases h10
  rw [hl2] at h11
  cases h11
  obtain ⟨extra, hextra⟩ : ∃ extra, names = nms ++ extra := by
    rw [show n0 = min n0 all.length + (n0 - min n0 all.length) by omega] at hcount
    obtain ⟨ra, as1, as2, z1, z2⟩ := HepMC.count_add hcount
    rw [h12] at z1
    simp only [Option.some.injEq, Prod.mk.injEq] at z1
    exact ⟨as2, by rw [z2, z1.2]⟩
  have hfilter : nms.filter (fun n => decide (n ∈ c.names)) = order := by
    have hle : c.names.length ≤ (nms.filter (fun n => decide (n ∈ c.names))).length :=
      (List.subperm_of_subset hd (fun n hn => List.mem_filter.2 ⟨hsub n hn, by simpa using hn⟩)).length_le
    rw [hextra, List.filter_append] at hf
    have hlen' := congrArg List.length hf
    rw [List.length_append, hord.length_eq] at hlen'
    have : extra.filter (fun n => decide (n ∈ c.names)) = [] := List.length_eq_zero_iff.1 (by omega)
    rw [this, List.append_nil] at hf
    exact hf
  have hacc : ∀ w, HepMC.Accepts c w := by
    intro w
    unfold HepMC.Accepts
    cases hdb : c.debug with
    | false => rfl
    | true => rw [hnan hdb w]; rfl
  have e1 := h8 N' hne' (fun n hn => hsub n (hsub' n hn)) fun w _ => hacc w
  rw [show ({ c with names := N' } : ParseCtx K V) = c.withNames N' from rfl, e1]
  unfold keepingWeights
  rw [h5]
  have hle : order.length ≤ (HepMC.selected c.names nms all).length := by
    rw [HepMC.selected_length_eq _ _ _ h1, hfilter]
  have h2 := onlyWeights_positions N' order [w0] (HepMC.selected c.names nms all) hle
  rw [← hfilter, selected_selected hsub'] at h2
  have h3 : onlyWeights (0 :: HepMC.positions N' 1 order) (w0 :: HepMC.selected c.names nms all) =
      w0 :: onlyWeights (HepMC.positions N' 1 order) (w0 :: HepMC.selected c.names nms all) := by
    simp [onlyWeights]
  rw [h3, ← hfilter]
  congr 3
  exact h2.symm

/-- The name of the first weight. -/
theorem firstNameIn_iff {r : Bytes} {names order N N' : List Bytes} (hr : RecordNames r names) (hf : names.filter (fun n => decide (n ∈ N)) = order)
    (hne : order ≠ []) (hN : FirstNameIn N r) : FirstNameIn N' r ↔ ∃ n ∈ N', order.head? = some n := by
  obtain ⟨k, entries, rest, ⟨before, line, z1, z2⟩, h2⟩ := hr
  have huniq : ∀ {m es}, NamesLine r m es → es = entries := by
    rintro m es ⟨before', line', z3, z4⟩
    rw [z1] at z3
    cases z3
    rw [z2] at z4
    cases z4
    rfl
  obtain ⟨m, es, r1, name, g1, g2, g3⟩ := hN
  obtain rfl := huniq g2
  have hhead : order.head? = some name := by
    cases k with
    | zero =>
      simp only [count, Option.some.injEq, Prod.mk.injEq] at h2
      rw [← h2.2] at hf
      exact absurd hf.symm hne
    | succ k =>
      simp only [count, g3] at h2
      cases hc : count HepMC.stringEntry k r1 with
      | none => simp [hc] at h2
      | some y =>
        simp only [hc, Option.some.injEq, Prod.mk.injEq] at h2
        rw [← hf, ← h2.2]
        simp [g1]
  constructor
  · rintro ⟨m', es', r', name', k1, k2, k3⟩
    obtain rfl := huniq k2
    rw [g3] at k3
    simp only [Option.some.injEq, Prod.mk.injEq] at k3
    exact ⟨name', k1, k3.2 ▸ hhead⟩
  · rintro ⟨n, k1, k2⟩
    rw [hhead, Option.some.injEq] at k2
    exact ⟨m, es, r1, name, k2 ▸ k1, g2, g3⟩

/-- Files with named weights, read with fewer names. -/
theorem named_files_fewer {io : IOConfig K V} {fs : FS P} {paths : List P} {ds : List (EventFile K V)}
    (hin : EventFiles io fs paths ds) (hnf : NamedFiles io ds) (hnan : io.ctx.debug = true → ∀ w, io.ctx.float.isNaN w = false)
    {order : List Bytes} (hord : order.Perm io.ctx.names)
    (horder : ∀ d ∈ ds, ∀ r ∈ d.records, ∃ names, RecordNames r names ∧
      names.filter (fun n => decide (n ∈ io.ctx.names)) = order)
    {N' : List Bytes} (hne : N' ≠ []) (hnd : N'.Nodup) (hsub : ∀ n ∈ N', n ∈ io.ctx.names) :
    ∃ ds', EventFiles (selecting io N') fs paths ds' ∧
      allEvents ds' = (allEvents ds).map (keepingWeights (0 :: HepMC.positions N' 1 order)) ∧
      List.Forall₂ (fun d d' : EventFile K V => d'.toFileData = d.toFileData) ds ds' ∧
      NamedFiles (selecting io N') ds' := by
  have hone : order ≠ [] := by
    rintro rfl
    exact hnf.nonempty (List.nil_perm.1 hord)
  have hevents : allEvents (ds.map fun d => (⟨d.toFileData, d.events.map (keepingWeights (0 :: HepMC.positions N' 1 order))⟩ : EventFile K V)) =
      (allEvents ds).map (keepingWeights (0 :: HepMC.positions N' 1 order)) := by
    simp only [allEvents, List.flatMap_map, List.map_flatMap]
  refine ⟨ds.map fun d => ⟨d.toFileData, d.events.map (keepingWeights (0 :: HepMC.positions N' 1 order))⟩, ?_, hevents, ?_, ?_⟩
  · unfold EventFiles
    rw [List.forall₂_map_right_iff]
    refine forall₂_of_get hin.length_eq fun i q d g1 g2 => ?_
    obtain ⟨content, e1, e2, e3⟩ := forall₂_get hin g1 g2
    have hd := List.mem_of_getElem? g2
    refine ⟨content, e1, e2, ?_⟩
    rw [List.forall₂_map_right_iff]
    refine forall₂_of_get e3.length_eq fun j r ev g3 g4 => ?_
    have hev := forall₂_get e3 g3 g4
    have hr := List.mem_of_getElem? g3
    have hmem := recordEvent_mem hin hd hr hev
    obtain ⟨names, k1, k2⟩ := horder d hd r hr
    simp only
    rw [hnf.hepmc d hd] at hev ⊢
    exact named_read_fewer io.ctx hnf.multi hnf.nonempty hnf.nodup hev (hnf.weights ev hmem) hord k1 k2 hnan hne hsub
  · rw [List.forall₂_map_right_iff]
    exact List.forall₂_same.2 fun _ _ => rfl
  · refine ⟨hnf.multi, hne, hnd, ?_, ?_, ⟨order.filter fun n => decide (n ∈ N'), ?_, ?_⟩, ?_⟩
    · intro d hd
      obtain ⟨d0, h1, rfl⟩ := List.mem_map.1 hd
      exact hnf.hepmc d0 h1
    · intro ev hev
      rw [hevents] at hev
      obtain ⟨e0, h1, rfl⟩ := List.mem_map.1 hev
      have hlen := hnf.weights e0 h1
      obtain ⟨w0, ws, hw⟩ : ∃ w0 ws, e0.weights = w0 :: ws := by
        cases hw : e0.weights with
        | nil => rw [hw] at hlen; simp at hlen
        | cons a l => exact ⟨a, l, rfl⟩
      rw [hw, List.length_cons, Nat.add_right_cancel_iff] at hlen
      have hle : order.length ≤ ws.length := by rw [hord.length_eq, hlen]
      have h2 := onlyWeights_positions N' order [w0] ws hle
      have h3 : onlyWeights (0 :: HepMC.positions N' 1 order) (w0 :: ws) =
          w0 :: onlyWeights (HepMC.positions N' 1 order) (w0 :: ws) := by
        simp [onlyWeights]
      show (onlyWeights _ e0.weights).length = N'.length + 1
      rw [hw, h3, List.length_cons, show onlyWeights (HepMC.positions N' 1 order) (w0 :: ws) = _ from h2,
        HepMC.selected_length_eq _ _ _ hle, Nat.add_right_cancel_iff]
      refine List.Perm.length_eq ((List.perm_ext_iff_of_nodup ((hord.nodup_iff.2 hnf.nodup).filter _) hnd).2 fun n => ?_)
      simp only [List.mem_filter, decide_eq_true_eq, and_iff_right_iff_imp]
      exact fun h => hord.mem_iff.2 (hsub n h)
    · refine (List.perm_ext_iff_of_nodup ((hord.nodup_iff.2 hnf.nodup).filter _) hnd).2 fun n => ?_
      simp only [List.mem_filter, decide_eq_true_eq, and_iff_right_iff_imp]
      exact fun h => hord.mem_iff.2 (hsub n h)
    · intro d hd r hr
      obtain ⟨d0, h1, rfl⟩ := List.mem_map.1 hd
      obtain ⟨names, k1, k2⟩ := horder d0 h1 r hr
      refine ⟨names, k1, ?_⟩
      rw [← k2, List.filter_filter]
      refine List.filter_congr fun n _ => ?_
      show decide (n ∈ N') = _
      by_cases hn : n ∈ N' <;> simp [hn, hsub]
    · have hrec : ∀ d ∈ ds.map (fun d => (⟨d.toFileData, d.events.map (keepingWeights (0 :: HepMC.positions N' 1 order))⟩ : EventFile K V)),
          ∃ d0 ∈ ds, d0.records = d.records := by
        intro d hd
        obtain ⟨d0, h1, rfl⟩ := List.mem_map.1 hd
        exact ⟨d0, h1, rfl⟩
      rcases hnf.first with h | h
      · by_cases hh : ∃ n ∈ N', order.head? = some n
        · left
          intro d hd r hr
          obtain ⟨d0, h1, h2⟩ := hrec d hd
          rw [← h2] at hr
          obtain ⟨names, k1, k2⟩ := horder d0 h1 r hr
          exact (firstNameIn_iff k1 k2 hone (h d0 h1 r hr)).2 hh
        · right
          intro d hd r hr
          obtain ⟨d0, h1, h2⟩ := hrec d hd
          rw [← h2] at hr
          obtain ⟨names, k1, k2⟩ := horder d0 h1 r hr
          exact fun hf => hh ((firstNameIn_iff k1 k2 hone (h d0 h1 r hr)).1 hf)
      · right
        intro d hd r hr hf
        obtain ⟨d0, h1, h2⟩ := hrec d hd
        rw [← h2] at hr
        obtain ⟨m, es, r1, name, g1, g2⟩ := hf
        exact h d0 h1 r hr ⟨m, es, r1, name, hsub name g1, g2⟩

end

end Cres

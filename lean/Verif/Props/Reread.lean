import Verif.Proofs.Reread

/-!
# C68: output files can be read again
-/

namespace Cres

open Spec CombinedIO

variable {K V P : Type*}

/-- **C68** as stated: if all events in a file can be read and their weights updated with weights that can be written, the
output file can be read, it has the same header, and it has one record for each record of the input file. -/
def C68_claim : Prop :=
  ∀ (cfg : IOConfig ℚ ℚ) (content : Bytes) (d : FileData ℚ) (ws : List (List ℚ)), Readable cfg content d →
    (∀ r ∈ d.records, ∃ ev, RecordEvent cfg d.kind r ev) → ws.length = d.records.length →
    (∀ w ∈ ws, w.length ≤ 1 ∧ ∀ x ∈ w, Writable cfg d.kind x) →
    ∃ records', records'.length = d.records.length ∧ Readable cfg (Spec.output cfg d ws) ⟨d.kind, d.header, records'⟩

/-- A Les Houches Event File in which the tag `</event>` follows directly after the weight. -/
def lhefTight : FileData ℚ where
  kind := .lhef
  header := ascii "<LesHouchesEvents>\n</init>"
  records := [ascii "\n<event>\n2 0 5</event>"]

/-- **C68** fails for a record in which the tag `</event>` follows directly after the weight: the tag is removed together
with the old weight, and no event is found in the output file. -/
theorem C68_violated : ¬ C68_claim := by
  intro h
  have hr : Readable (exIO false) (lhefTight.header ++ lhefTight.records.flatten) lhefTight := by
    apply readable_lhef
    · decide +kernel
    · decide +kernel
  obtain ⟨records', h1, h2⟩ := h (exIO false) _ lhefTight [[7]] hr
    (by
      intro r hr
      have hr : r = ascii "\n<event>\n2 0 5</event>" := by simpa [lhefTight] using hr
      subst hr
      exact ⟨{ id := 0, weights := [5], outgoingByPid := [] }, by
        show Lhef.parse _ _ = _
        decide +kernel⟩) rfl
    (by
      intro w hw
      have hw : w = [7] := by simpa using hw
      subst hw
      refine ⟨by decide, fun x hx => ?_⟩
      have hx : x = 7 := by simpa using hx
      subst hx
      exact ⟨by decide +kernel, trivial⟩)
  have ho : Spec.output (exIO false) lhefTight [[7]] = ascii "<LesHouchesEvents>\n</init>\n<event>\n2 0 7\n</LesHouchesEvents>\n" := by
    decide +kernel
  rw [ho] at h2
  obtain ⟨-, r, g1, -, -, g4⟩ := h2
  have hn : Reader.new (exIO false) (ascii "<LesHouchesEvents>\n</init>\n<event>\n2 0 7\n</LesHouchesEvents>\n") .lhef =
      .ok ⟨ascii "\n<event>\n2 0 7\n</LesHouchesEvents>\n", ascii "<LesHouchesEvents>\n</init>", none⟩ := by decide +kernel
  have g1' : Reader.new (exIO false) (ascii "<LesHouchesEvents>\n</init>\n<event>\n2 0 7\n</LesHouchesEvents>\n") .lhef = .ok r := g1
  rw [hn, Outcome.ok.injEq] at g1'
  subst g1'
  have hnone : (Reader.readRaw false .lhef
      ⟨ascii "\n<event>\n2 0 7\n</LesHouchesEvents>\n", ascii "<LesHouchesEvents>\n</init>", none⟩).1 = none := by decide +kernel
  change Reads false .lhef _ records' at g4
  cases g4 with
  | done _ => simp [lhefTight] at h1
  | more g5 _ => rw [g5] at hnone; simp at hnone

theorem isEventFile_quoted [Zero K] [Mul K] [Div K] [LinearOrder V] {cfg : IOConfig K V} {content : Bytes} {d : EventFile K V}
    (h : IsEventFile cfg content d) : ∀ r ∈ d.records, ∀ s, d.kind = .stripperXml s → Quoted cfg.ctx.float r := by
  intro r hr s hs
  have := h.1.2.2
  rw [hs] at this
  exact this.2.2.1 r hr

/-- Writing weights with which all records can be updated. -/
theorem event_file_rewritten [Zero K] [Mul K] [Div K] [LinearOrder V] {cfg : IOConfig K V}
    {content : Bytes} {d : EventFile K V} (h : IsEventFile cfg content d) {ws : List (List K)}
    (hlen : ws.length = d.records.length) (hw : ∀ w ∈ ws, ∀ x ∈ w, Storable cfg d.kind x)
    (hrew : ∀ (i : Nat) w r ev, ws[i]? = some w → d.records[i]? = some r → d.events[i]? = some ev →
      ∃ r', Rewritten cfg d.kind w r r' ev) :
    (∀ x ∈ ws.zip d.records, ∃ r', d.kind.update cfg x.1 x.2 = .ok r') ∧
    IsEventFile cfg (Spec.output cfg d.toFileData ws) (d.store cfg ws) := by
  have hev := h.2
  have hget : ∀ (i : Nat) w r, ws[i]? = some w → d.records[i]? = some r →
      ∃ ev r', d.events[i]? = some ev ∧ updated cfg d.kind w r = r' ∧ Rewritten cfg d.kind w r r' ev := by
    intro i w r h1 h2
    have hi : i < d.events.length := by
      rw [← hev.length_eq]
      exact (List.getElem?_eq_some_iff.1 h2).1
    obtain ⟨r', hr'⟩ := hrew i w r _ h1 h2 (List.getElem?_eq_getElem hi)
    exact ⟨_, r', List.getElem?_eq_getElem hi, updated_eq hr'.1, hr'⟩
  refine ⟨?_, ?_, ?_⟩
  · intro x hx
    obtain ⟨i, hi⟩ := List.getElem?_of_mem hx
    obtain ⟨w, r⟩ := x
    rw [List.getElem?_zip_eq_some] at hi
    obtain ⟨ev, r', -, -, hr'⟩ := hget i w r hi.1 hi.2
    exact ⟨r', hr'.1⟩
  · refine textFile_rewritten h hlen hw (forall₂_of_get (by simp [List.length_zip, List.length_zipWith]) ?_)
    rintro i ⟨w, r⟩ r' hi hr'
    rw [List.getElem?_zip_eq_some] at hi
    obtain ⟨ev, r'', -, h2, h3⟩ := hget i w r hi.1 hi.2
    rw [List.getElem?_zipWith, hi.1, hi.2] at hr'
    simp only [Option.some.injEq] at hr'
    rw [← hr', h2]
    exact h3.1
  · refine forall₂_of_get (by simp [EventFile.store, List.length_zipWith, hev.length_eq]) ?_
    intro i r' ev' hr' hev'
    simp only [EventFile.store] at hr' hev'
    rw [List.getElem?_zipWith] at hr' hev'
    cases hwi : ws[i]? with
    | none => rw [hwi] at hr'; simp at hr'
    | some w =>
      cases hri : d.records[i]? with
      | none => rw [hwi, hri] at hr'; simp at hr'
      | some r =>
        obtain ⟨ev, r'', h1, h2, h3⟩ := hget i w r hwi hri
        rw [hwi, hri] at hr'
        rw [hwi, h1] at hev'
        simp only [Option.some.injEq] at hr' hev'
        subst hev'
        rw [← hr', h2]
        exact h3.2

theorem zipWith_congr_left {α β γ : Type*} {f g : α → β → γ} : ∀ {l : List α} {l' : List β}, (∀ a ∈ l, f a = g a) →
    List.zipWith f l l' = List.zipWith g l l'
  | [], _, _ => rfl
  | _ :: _, [], _ => rfl
  | a :: l, b :: l', h => by
    rw [List.zipWith_cons_cons, List.zipWith_cons_cons, h a (by simp), zipWith_congr_left fun x hx => h x (by simp [hx])]

/-- If all weights can be read exactly, the events have these weights. -/
theorem store_eq_reweight [Zero K] [Mul K] [Div K] {cfg : IOConfig K V} {d : EventFile K V} {ws : List (List K)}
    (hw : ∀ w ∈ ws, ∀ x ∈ w, Writable cfg d.kind x) : d.store cfg ws = d.reweight cfg ws := by
  unfold EventFile.store EventFile.reweight
  rw [zipWith_congr_left (g := reweighted) fun w hwm => by rw [map_stored (hw w hwm)]]

/-- **C68** for text files in UTF-8 of one of the three formats (`TextFile`): an output file is again an event file with the
same header and as many records, in the same order. The events in the records are those in the input file with the new
weights. Central weights only; in exact arithmetic.

Not covered: Les Houches Event Files without white space before `</event>`, see `C68_violated`, and files that end within
the first line or tag of an event, see C35 and C37. -/
theorem C68_event_file_partial [Zero K] [Mul K] [Div K] [LinearOrder V] {cfg : IOConfig K V} (hn : cfg.ctx.multi = true → cfg.ctx.names = [])
    {content : Bytes} {d : EventFile K V} (h : IsEventFile cfg content d) {ws : List (List K)}
    (hlen : ws.length = d.records.length) (hw : ∀ w ∈ ws, w.length ≤ 1 ∧ ∀ x ∈ w, Writable cfg d.kind x) :
    (∀ x ∈ ws.zip d.records, ∃ r', d.kind.update cfg x.1 x.2 = .ok r') ∧
    IsEventFile cfg (Spec.output cfg d.toFileData ws) ⟨⟨d.kind, d.header, List.zipWith (updated cfg d.kind) ws d.records⟩,
      List.zipWith reweighted ws d.events⟩ := by
  have hst := store_eq_reweight fun w hwm => (hw w hwm).2
  unfold EventFile.reweight at hst
  rw [← hst]
  refine event_file_rewritten h hlen (fun w hwm x hx => (writable_storable ((hw w hwm).2 x hx)).1) ?_
  intro i w r ev h1 h2 h3
  have hwi := hw w (List.mem_of_getElem? h1)
  exact rewritten_exists hn (forall₂_get h.2 h2 h3) (isEventFile_quoted h r (List.mem_of_getElem? h2)) hwi.1
    fun x hx => (writable_storable (hwi.2 x hx)).1

/-- **C68**: in particular the output file can be opened and all records can be read. -/
theorem C68_readable_partial [Zero K] [Mul K] [Div K] [LinearOrder V] {cfg : IOConfig K V} (hn : cfg.ctx.multi = true → cfg.ctx.names = [])
    {content : Bytes} {d : EventFile K V} (h : IsEventFile cfg content d) {ws : List (List K)}
    (hlen : ws.length = d.records.length) (hw : ∀ w ∈ ws, w.length ≤ 1 ∧ ∀ x ∈ w, Writable cfg d.kind x) :
    ∃ records', records'.length = d.records.length ∧
      Readable cfg (Spec.output cfg d.toFileData ws) ⟨d.kind, d.header, records'⟩ :=
  ⟨_, by simp [List.length_zipWith, hlen], readable_of_textFile (C68_event_file_partial hn h hlen hw).2.1⟩

/-! ### several files -/

theorem eventFiles_inputs [Zero K] [Mul K] [Div K] [LinearOrder V] {cfg : IOConfig K V} {fs : FS P} {files : List (P × P)}
    {ds : List (EventFile K V)} (h : EventFiles cfg fs (files.map Prod.fst) ds) :
    Inputs cfg fs files (ds.map EventFile.toFileData) := by
  unfold EventFiles at h
  rw [List.forall₂_map_left_iff] at h
  unfold Inputs
  rw [List.forall₂_map_right_iff]
  refine h.imp ?_
  rintro f d ⟨content, h1, h2⟩
  exact ⟨content, h1, readable_of_textFile h2.1⟩

theorem splitWeights_length (ds : List (EventFile K V)) (ws : List (List K)) : (splitWeights ds ws).length = ds.length := by
  induction ds generalizing ws with
  | nil => rfl
  | cons d ds ih => simp [splitWeights, ih]

theorem splitWeights_get : ∀ (ds : List (EventFile K V)) (ws : List (List K)) (j : Nat) (d : EventFile K V), ds[j]? = some d →
    (splitWeights ds ws)[j]? = some ((ws.drop (total ((ds.map EventFile.toFileData).take j))).take d.records.length)
  | [], _, j, d, h => by simp at h
  | d' :: ds, ws, 0, d, h => by
    simp only [List.getElem?_cons_zero, Option.some.injEq] at h
    subst h
    simp [splitWeights, total]
  | d' :: ds, ws, j + 1, d, h => by
    rw [splitWeights, List.getElem?_cons_succ, splitWeights_get ds _ j d (by simpa using h)]
    simp [total, List.drop_drop]

theorem splitWeights_flatten : ∀ (ds : List (EventFile K V)) (ws : List (List K)),
    ws.length = total (ds.map EventFile.toFileData) → (splitWeights ds ws).flatten = ws
  | [], ws, h => by
    have : ws = [] := by simpa [total] using h
    simp [splitWeights, this]
  | d :: ds, ws, h => by
    rw [splitWeights, List.flatten_cons, splitWeights_flatten ds _ (by
      simp only [total, List.map_cons, List.sum_cons] at h ⊢
      rw [List.length_drop]
      omega), List.take_append_drop]

theorem zipWith_take_right {α β γ : Type*} (f : α → β → γ) (a : List α) (b : List β) :
    List.zipWith f (a.take b.length) b = List.zipWith f a b := by
  induction b generalizing a with
  | nil => simp
  | cons x b ih =>
    cases a with
    | nil => rfl
    | cons y a => simp [ih]

/-- All records of the file can be updated with these weights. -/
def CanStore [Zero K] [Mul K] [Div K] [LinearOrder V] (cfg : IOConfig K V) (d : EventFile K V) (w : List K) : Prop :=
  (∀ x ∈ w, Storable cfg d.kind x) ∧
  ∀ r ∈ d.records, ∀ ev, RecordEvent cfg d.kind r ev → ∃ r', Rewritten cfg d.kind w r r' ev

/-- The same, and the weights that are read are the same. -/
def CanWrite [Zero K] [Mul K] [Div K] [LinearOrder V] (cfg : IOConfig K V) (d : EventFile K V) (w : List K) : Prop :=
  (∀ x ∈ w, Writable cfg d.kind x) ∧ CanStore cfg d w

theorem canStore_central [Zero K] [Mul K] [Div K] [LinearOrder V] {cfg : IOConfig K V} (hn : cfg.ctx.multi = true → cfg.ctx.names = [])
    {fs : FS P} {paths : List P} {ds : List (EventFile K V)} (hin : EventFiles cfg fs paths ds) {w : List K} (hl : w.length ≤ 1)
    (hw : ∀ x ∈ w, ∀ d ∈ ds, Storable cfg d.kind x) : ∀ d ∈ ds, CanStore cfg d w := by
  intro d hd
  obtain ⟨q, -, content, -, hc⟩ := forall₂_mem hin hd
  exact ⟨fun x hx => hw x hx d hd, fun r hr ev hev =>
    rewritten_exists hn hev (isEventFile_quoted hc r hr) hl fun x hx => hw x hx d hd⟩

theorem canWrite_central [Zero K] [Mul K] [Div K] [LinearOrder V] {cfg : IOConfig K V} (hn : cfg.ctx.multi = true → cfg.ctx.names = [])
    {fs : FS P} {paths : List P} {ds : List (EventFile K V)} (hin : EventFiles cfg fs paths ds) {w : List K} (hl : w.length ≤ 1)
    (hw : ∀ x ∈ w, ∀ d ∈ ds, Writable cfg d.kind x) : ∀ d ∈ ds, CanWrite cfg d w := by
  intro d hd
  exact ⟨fun x hx => hw x hx d hd, canStore_central hn hin hl (fun x hx d hd => (writable_storable (hw x hx d hd)).1) d hd⟩

/-- Writing weights with which all records can be updated, to several files. -/
theorem all_files_stored [Zero K] [Mul K] [Div K] [LinearOrder V] [DecidableEq P] {cfg : IOConfig K V}
    {fs : FS P} {files : List (P × P)} {ds : List (EventFile K V)}
    (hin : EventFiles cfg fs (files.map Prod.fst) ds) (hdis : ∀ p ∈ files.map Prod.fst, p ∉ files.map Prod.snd)
    (hnodup : (files.map Prod.snd).Nodup) (ops : List (Op K)) {ws : List (List K)}
    (hlen : ws.length = total (ds.map EventFile.toFileData))
    (hw : ∀ w ∈ ws, ∀ d ∈ ds, CanStore cfg d w) {x : CombinedIO K P × FS P}
    (hx : x = ops.foldl (step cfg) (CombinedIO.new cfg files fs).2) :
    (x.1.updateAll cfg ws x.2).1 = .ok ws.length ∧
    EventFiles cfg (x.1.updateAll cfg ws x.2).2.2 (files.map Prod.snd)
      (List.zipWith (EventFile.store cfg) ds (splitWeights ds ws)) := by
  have hfl := hin.length_eq
  rw [List.length_map] at hfl
  have hin' := eventFiles_inputs hin
  -- the number of weights for file `j`
  have htot : ∀ (j : Nat) (d : EventFile K V), ds[j]? = some d → total ((ds.map EventFile.toFileData).take j) + d.records.length ≤ ws.length := by
    intro j d hd
    rw [hlen]
    have hjl := (List.getElem?_eq_some_iff.1 hd).1
    have hsplit : ds = ds.take j ++ d :: ds.drop (j + 1) := by
      rw [← (List.getElem?_eq_some_iff.1 hd).2]
      simp
    rw [← List.map_take]
    conv_rhs => rw [hsplit]
    simp [total]
  have hfile : ∀ (j : Nat) (d : EventFile K V), ds[j]? = some d →
      (∀ x ∈ ((ws.drop (total ((ds.map EventFile.toFileData).take j))).take d.records.length).zip d.records,
        ∃ r', d.kind.update cfg x.1 x.2 = .ok r') ∧
      IsEventFile cfg (Spec.output cfg d.toFileData ((ws.drop (total ((ds.map EventFile.toFileData).take j))).take d.records.length))
        (d.store cfg ((ws.drop (total ((ds.map EventFile.toFileData).take j))).take d.records.length)) := by
    intro j d hd
    have hjl := (List.getElem?_eq_some_iff.1 hd).1
    obtain ⟨p, hp⟩ : ∃ p, (files.map Prod.fst)[j]? = some p := ⟨_, List.getElem?_eq_getElem (by simp; omega)⟩
    obtain ⟨content, -, hc⟩ := forall₂_get hin hp hd
    have hdm := List.mem_of_getElem? hd
    have hdw : ∀ w ∈ (ws.drop (total ((ds.map EventFile.toFileData).take j))).take d.records.length, CanStore cfg d w :=
      fun w hwm => hw w (List.mem_of_mem_drop (List.mem_of_mem_take hwm)) d hdm
    refine event_file_rewritten hc ?_ (fun w hwm => (hdw w hwm).1) ?_
    · rw [List.length_take, List.length_drop]
      have := htot j d hd
      omega
    · intro i w r ev h1 h2 h3
      exact (hdw w (List.mem_of_getElem? h1)).2 r (List.mem_of_getElem? h2) ev (forall₂_get hc.2 h2 h3)
  have hup : ∀ x ∈ ws.zip (items (ds.map EventFile.toFileData)), ∃ r, x.2.1.update cfg x.1 x.2.2 = .ok r := by
    clear hin hin' hfl hx hnodup hdis htot
    have gen : ∀ (ds : List (EventFile K V)) (ws : List (List K)), (∀ (j : Nat) (d : EventFile K V), ds[j]? = some d →
        ∀ x ∈ ((ws.drop (total ((ds.map EventFile.toFileData).take j))).take d.records.length).zip d.records,
          ∃ r', d.kind.update cfg x.1 x.2 = .ok r') →
        ∀ x ∈ ws.zip (items (ds.map EventFile.toFileData)), ∃ r, x.2.1.update cfg x.1 x.2.2 = .ok r := by
      intro ds
      induction ds with
      | nil => intro ws _ x hx; simp [items] at hx
      | cons d ds ih =>
        rintro ws h ⟨w, k, r⟩ hx
        have hit : items ((d :: ds).map EventFile.toFileData) = d.records.map (d.kind, ·) ++ items (ds.map EventFile.toFileData) := by
          simp [items]
        rw [hit] at hx
        obtain ⟨i, hi⟩ := List.getElem?_of_mem hx
        rw [List.getElem?_zip_eq_some] at hi
        obtain ⟨hi1, hi2⟩ := hi
        simp only at hi1 hi2
        by_cases hlt : i < d.records.length
        · rw [List.getElem?_append_left (by simpa using hlt), List.getElem?_map] at hi2
          obtain ⟨r0, hr0, he⟩ := Option.map_eq_some_iff.1 hi2
          cases he
          refine h 0 d rfl (w, r) ?_
          refine List.mem_of_getElem? (i := i) ?_
          rw [List.getElem?_zip_eq_some]
          exact ⟨by simp [total, List.getElem?_take, hlt, hi1], hr0⟩
        · rw [List.getElem?_append_right (by simpa using hlt), List.length_map] at hi2
          refine ih (ws.drop d.records.length) ?_ (w, k, r) ?_
          · intro j d' hd'
            have := h (j + 1) d' (by simpa using hd')
            simpa [total, List.drop_drop] using this
          · refine List.mem_of_getElem? (i := i - d.records.length) ?_
            rw [List.getElem?_zip_eq_some]
            refine ⟨?_, hi2⟩
            rw [List.getElem?_drop, ← hi1]
            congr 1
            omega
    exact gen ds ws fun j d hd => (hfile j d hd).1
  obtain ⟨h1, h2, -⟩ := C42_update_all cfg hin' hdis hnodup ops ws hup hx
  refine ⟨by rw [h1, hlen, Nat.min_self], ?_⟩
  refine forall₂_of_get (by simp [List.length_zipWith, splitWeights_length, hfl]) ?_
  intro j p d' hp hd'
  rw [List.getElem?_map] at hp
  obtain ⟨f, hf, rfl⟩ := Option.map_eq_some_iff.1 hp
  rw [List.getElem?_zipWith] at hd'
  cases hdj : ds[j]? with
  | none => rw [hdj] at hd'; simp at hd'
  | some d =>
    rw [hdj, splitWeights_get ds ws j d hdj] at hd'
    simp only [Option.some.injEq] at hd'
    subst hd'
    refine ⟨_, h2 j f d.toFileData hf (by simp [hdj]), ?_⟩
    have := (hfile j d hdj).2
    rw [Spec.output, zipWith_take_right] at this
    exact this

/-- The same for weights that can be read exactly. -/
theorem all_files_rewritten [Zero K] [Mul K] [Div K] [LinearOrder V] [DecidableEq P] {cfg : IOConfig K V}
    {fs : FS P} {files : List (P × P)} {ds : List (EventFile K V)}
    (hin : EventFiles cfg fs (files.map Prod.fst) ds) (hdis : ∀ p ∈ files.map Prod.fst, p ∉ files.map Prod.snd)
    (hnodup : (files.map Prod.snd).Nodup) (ops : List (Op K)) {ws : List (List K)}
    (hlen : ws.length = total (ds.map EventFile.toFileData))
    (hw : ∀ w ∈ ws, ∀ d ∈ ds, CanWrite cfg d w) {x : CombinedIO K P × FS P}
    (hx : x = ops.foldl (step cfg) (CombinedIO.new cfg files fs).2) :
    (x.1.updateAll cfg ws x.2).1 = .ok ws.length ∧
    EventFiles cfg (x.1.updateAll cfg ws x.2).2.2 (files.map Prod.snd)
      (List.zipWith (EventFile.reweight cfg) ds (splitWeights ds ws)) := by
  have h := all_files_stored hin hdis hnodup ops hlen (fun w hwm d hd => (hw w hwm d hd).2) hx
  have e : List.zipWith (EventFile.store cfg) ds (splitWeights ds ws) = List.zipWith (EventFile.reweight cfg) ds (splitWeights ds ws) := by
    clear h hx hlen hin
    induction ds generalizing ws with
    | nil => rfl
    | cons d ds ih =>
      rw [splitWeights, List.zipWith_cons_cons, List.zipWith_cons_cons, store_eq_reweight, ih]
      · exact fun w hwm d' hd' => hw w (List.mem_of_mem_drop hwm) d' (by simp [hd'])
      · exact fun w hwm => (hw w (List.mem_of_mem_take hwm) d (by simp)).1
  rw [e] at h
  exact h

/-- **C68** for several files of any formats, after any calls: `update_all_weights` with weights for all records succeeds,
and the output files are event files with the same headers, the same number of records each and the same events with the
new weights. -/
theorem C68_all_files_partial [Zero K] [Mul K] [Div K] [LinearOrder V] [DecidableEq P] {cfg : IOConfig K V}
    (hn : cfg.ctx.multi = true → cfg.ctx.names = []) {fs : FS P} {files : List (P × P)} {ds : List (EventFile K V)}
    (hin : EventFiles cfg fs (files.map Prod.fst) ds) (hdis : ∀ p ∈ files.map Prod.fst, p ∉ files.map Prod.snd)
    (hnodup : (files.map Prod.snd).Nodup) (ops : List (Op K)) {ws : List (List K)}
    (hlen : ws.length = total (ds.map EventFile.toFileData))
    (hw : ∀ w ∈ ws, w.length ≤ 1 ∧ ∀ x ∈ w, ∀ d ∈ ds, Writable cfg d.kind x) {x : CombinedIO K P × FS P}
    (hx : x = ops.foldl (step cfg) (CombinedIO.new cfg files fs).2) :
    (x.1.updateAll cfg ws x.2).1 = .ok ws.length ∧
    EventFiles cfg (x.1.updateAll cfg ws x.2).2.2 (files.map Prod.snd)
      (List.zipWith (EventFile.reweight cfg) ds (splitWeights ds ws)) := by
  exact all_files_rewritten hin hdis hnodup ops hlen (fun w hwm => canWrite_central hn hin (hw w hwm).1 (hw w hwm).2) hx

/-! ### examples -/

theorem prefix_append_iff {m h rest : Bytes} (hl : m.length ≤ h.length) : m <+: h ++ rest ↔ m <+: h :=
  ⟨fun h1 => List.prefix_of_prefix_length_le h1 (List.prefix_append h rest) hl, fun h1 => h1.trans (List.prefix_append h rest)⟩

/-- Which format is recognised from the beginning of a text that does not start with white space. -/
theorem detectFormat_append (feat : Features) {b : UInt8} {h : Bytes} (hb : isAsciiWs b = false)
    (hl : 17 ≤ (b :: h).length ∨ (b ≠ 114 ∧ b ≠ 60)) (rest : Bytes) :
    detectFormat feat (some (b :: h ++ rest)) = detectFormat feat (some (b :: h)) := by
  have htrim : ∀ t, trimAsciiStart (b :: t) = b :: t := by
    intro t
    simp [trimAsciiStart, hb]
  have key : ∀ m : Bytes, m.length ≤ 17 → (b ≠ 114 ∧ b ≠ 60 → ∃ c m', m = c :: m' ∧ c ≠ b) →
      (m <+: b :: (h ++ rest) ↔ m <+: b :: h) := by
    intro m hm hc
    rcases hl with hl | hl
    · rw [← List.cons_append]
      exact prefix_append_iff (by omega)
    · obtain ⟨c, m', rfl, hne⟩ := hc hl
      simp [List.cons_prefix_cons, hne]
  have k1 := key (ascii "root") (by decide) (fun hl => ⟨114, ascii "oot", rfl, hl.1.symm⟩)
  have k2 := key (ascii "<?xml") (by decide) (fun hl => ⟨60, ascii "?xml", rfl, hl.2.symm⟩)
  have k3 := key (ascii "<LesHouchesEvents") (by decide) (fun hl => ⟨60, ascii "LesHouchesEvents", rfl, hl.2.symm⟩)
  simp only [detectFormat, List.cons_append, htrim, k1, k2, k3]

/-- The example files of C42 with their events. -/
def exHepmcEvents : EventFile ℚ ℚ := ⟨exHepmc, [⟨0, [5], []⟩, ⟨0, [6], []⟩]⟩

/-- With two incoming particles. -/
def exLhefEvents : EventFile ℚ ℚ :=
  ⟨⟨.lhef, exLhef.header, [ascii "\n<event>\n2 0 5\n21 -1\n21 -1\n</event>"]⟩, [⟨0, [5], []⟩]⟩

/-- With a longer header. -/
def exXmlEvents : EventFile ℚ ℚ :=
  ⟨⟨.stripperXml 2, ascii "<?xml version?><r>", exXml.records⟩, [⟨0, [6], []⟩, ⟨0, [8], []⟩]⟩

theorem exHepmcEvents_ok (debug : Bool) :
    IsEventFile (exIO debug) (exHepmc.header ++ exHepmc.records.flatten) exHepmcEvents := by
  refine ⟨⟨by decide +kernel, ?_, ⟨rfl, by simp [exHepmcEvents, exHepmc], by decide +kernel, ?_, ?_, ?_, ?_⟩, ?_⟩, ?_⟩
  · exact fun rest => detectFormat_append _ (b := 72) (h := [10]) (by decide) (Or.inr (by decide)) rest
  · unfold Contains; decide +kernel
  · decide +kernel
  · unfold Contains; decide +kernel
  · decide +kernel
  · decide +kernel
  · refine .cons ?_ (.cons ?_ .nil)
    · show HepMC.parse _ _ = _
      cases debug <;> decide +kernel
    · show HepMC.parse _ _ = _
      cases debug <;> decide +kernel

theorem exLhefEvents_ok (debug : Bool) :
    IsEventFile (exIO debug) (exLhefEvents.header ++ exLhefEvents.records.flatten ++ ascii "\n</LesHouchesEvents>\n") exLhefEvents := by
  refine ⟨⟨by decide +kernel, ?_, ⟨⟨_, rfl, ?_⟩, by decide +kernel, ?_, ?_, ?_⟩, ?_⟩, ?_⟩
  · exact fun rest => detectFormat_append _ (b := 60) (h := ascii "LesHouchesEvents>\n</init>") (by decide)
      (Or.inl (by decide)) rest
  · unfold Contains; decide +kernel
  · unfold Contains; decide +kernel
  · decide +kernel
  · unfold Contains; decide +kernel
  · intro r hr
    have hr : r = ascii "\n<event>\n2 0 5\n21 -1\n21 -1\n</event>" := by simpa [exLhefEvents, exLhef] using hr
    exact ⟨10, by decide, by rw [hr]; decide +kernel⟩
  · refine .cons ?_ .nil
    show Lhef.parse _ _ = _
    cases debug <;> decide +kernel

theorem quoted_of_some {K : Type*} {F : FloatFormat K} {record r rest : Bytes} {w : K} (h1 : Stripper.weightStart record = some r)
    (h2 : F.double r = some (rest, w)) (h3 : ascii "\"" <+: rest) : Quoted F record := by
  intro r' w' rest' h1' h2'
  rw [h1] at h1'
  cases h1'
  rw [h2] at h2'
  cases h2'
  exact h3

theorem exXmlEvents_ok (debug : Bool) :
    IsEventFile (exIO debug) (exXmlEvents.header ++ exXmlEvents.records.flatten) exXmlEvents := by
  refine ⟨⟨by decide +kernel, ?_, ⟨rfl, by simp [exXmlEvents, exXml], ?_, ?_, ?_⟩, by decide +kernel, ?_, ascii "a", 2, 2, rfl, rfl,
    fun _ => le_rfl⟩, ?_⟩
  · exact fun rest => detectFormat_append _ (b := 60) (h := ascii "?xml version?><r>") (by decide) (Or.inl (by decide)) rest
  · unfold Contains; decide +kernel
  · decide +kernel
  · unfold Contains; decide +kernel
  · intro r hr
    have hr : r = ascii "<se w=\"3\"></se>" ∨ r = ascii "<se w=\"4\"></se></r>" := by simpa [exXmlEvents, exXml] using hr
    rcases hr with rfl | rfl
    · exact quoted_of_some (r := ascii "3\"></se>") (w := 3) (rest := ascii "\"></se>") (by decide +kernel)
        (by cases debug <;> decide +kernel) (by decide)
    · exact quoted_of_some (r := ascii "4\"></se></r>") (w := 4) (rest := ascii "\"></se></r>") (by decide +kernel)
        (by cases debug <;> decide +kernel) (by decide)
  · refine .cons ?_ (.cons ?_ .nil)
    · exact ⟨⟨0, [3], []⟩, 3, by cases debug <;> decide +kernel, rfl, by cases debug <;> decide +kernel, by decide +kernel⟩
    · exact ⟨⟨0, [4], []⟩, 4, by cases debug <;> decide +kernel, rfl, by cases debug <;> decide +kernel, by decide +kernel⟩

/-- The three files for examples. -/
def exEventFS : FS ℕ
  | 0 => some (exHepmcEvents.header ++ exHepmcEvents.records.flatten)
  | 1 => some (exLhefEvents.header ++ exLhefEvents.records.flatten ++ ascii "\n</LesHouchesEvents>\n")
  | 2 => some (exXmlEvents.header ++ exXmlEvents.records.flatten)
  | _ => none

theorem exEventFiles (debug : Bool) :
    EventFiles (exIO debug) exEventFS [0, 1, 2] [exHepmcEvents, exLhefEvents, exXmlEvents] :=
  .cons ⟨_, rfl, exHepmcEvents_ok debug⟩ (.cons ⟨_, rfl, exLhefEvents_ok debug⟩ (.cons ⟨_, rfl, exXmlEvents_ok debug⟩ .nil))

theorem exWritable (debug : Bool) {x : ℚ} (hx : x = 2 ∨ x = 4 ∨ x = 6) {d : EventFile ℚ ℚ}
    (hd : d ∈ [exHepmcEvents, exLhefEvents, exXmlEvents]) : Writable (exIO debug) d.kind x := by
  have h1 : (exIO debug).ctx.float.finite x = true ∧ (exIO debug).ctx.float.finite (x / 2) = true := by
    rcases hx with rfl | rfl | rfl <;> cases debug <;> decide +kernel
  simp only [List.mem_cons, List.not_mem_nil, or_false] at hd
  rcases hd with rfl | rfl | rfl
  · exact ⟨h1.1, trivial⟩
  · exact ⟨h1.1, trivial⟩
  · exact ⟨h1.1, by norm_num, mul_div_cancel₀ x (by norm_num), h1.2⟩

/-- The hypotheses of `C68_all_files_partial` are met by three files of different formats with five records. The second
record is left as it is. -/
example (debug : Bool) : EventFiles (exIO debug) exEventFS ([(0, 10), (1, 11), (2, 12)].map Prod.fst)
      [exHepmcEvents, exLhefEvents, exXmlEvents] ∧
    (∀ w ∈ ([[2], [], [4], [4], [6]] : List (List ℚ)), w.length ≤ 1 ∧
      ∀ x ∈ w, ∀ d ∈ [exHepmcEvents, exLhefEvents, exXmlEvents], Writable (exIO debug) d.kind x) := by
  refine ⟨exEventFiles debug, fun w hw => ?_⟩
  simp only [List.mem_cons, List.not_mem_nil, or_false] at hw
  rcases hw with rfl | rfl | rfl | rfl | rfl <;> refine ⟨by decide, fun x hx d hd => exWritable debug ?_ hd⟩ <;> simp_all

/-- The events in the output files in this case. -/
example : (List.zipWith (EventFile.reweight (exIO true)) [exHepmcEvents, exLhefEvents, exXmlEvents]
      (splitWeights [exHepmcEvents, exLhefEvents, exXmlEvents] [[2], [], [4], [4], [6]])).map (fun d => d.events.map Event.weights) =
    [[[2], [6]], [[4]], [[4], [6]]] := by decide +kernel

end Cres

import Verif.Proofs.UpdateShape
import Verif.Props.CombinedIO

/-!
Updating the weights in an event file gives an event file.
-/

namespace Cres

open Spec CombinedIO

variable {K V P : Type*}

theorem readable_of_textFile {cfg : IOConfig K V} {content : Bytes} {d : FileData K} (h : TextFile cfg content d) :
    Readable cfg content d := by
  obtain ⟨kind, header, records⟩ := d
  obtain ⟨hv, hd, h⟩ := h
  cases kind with
  | hepmc2 =>
    obtain ⟨hs, he⟩ := h
    refine readable_hepmc ?_ (hepmc_read_of_split hs hv he)
    rw [← hs.whole]
    exact hd _
  | lhef =>
    obtain ⟨hs, -⟩ := h
    refine readable_lhef ?_ (lhef_read_of_split hs hv)
    obtain ⟨t, ht, -⟩ := hs.beginning
    rw [← ht, List.append_assoc]
    exact hd _
  | stripperXml s =>
    obtain ⟨hs, he, -, name, n, m, h1, h2, h3⟩ := h
    refine readable_stripper ?_ (stripper_read_of_split hs hv he) h1 h2 h3
    rw [← hs.whole]
    exact hd _

/-- New records for old ones, with the events in them. -/
def Rewritten [Zero K] [Mul K] [Div K] [LinearOrder V] (cfg : IOConfig K V) (kind : Kind K) (ws : List K) (r r' : Bytes) (ev : Event K V) : Prop :=
  kind.update cfg ws r = .ok r' ∧ RecordEvent cfg kind r' (reweighted (ws.map (stored kind)) ev)

theorem writable_storable [Zero K] [Mul K] [Div K] {cfg : IOConfig K V} {kind : Kind K} {w : K} (h : Writable cfg kind w) :
    Storable cfg kind w ∧ stored kind w = w := by
  obtain ⟨h1, h2⟩ := h
  cases kind with
  | hepmc2 => exact ⟨h1, rfl⟩
  | lhef => exact ⟨h1, rfl⟩
  | stripperXml s => exact ⟨⟨h2.2.2, by rw [h2.2.1]; exact h1⟩, h2.2.1⟩

theorem map_stored [Zero K] [Mul K] [Div K] {cfg : IOConfig K V} {kind : Kind K} {w : List K} (h : ∀ x ∈ w, Writable cfg kind x) :
    w.map (stored kind) = w := by
  conv_rhs => rw [← List.map_id w]
  exact List.map_congr_left fun x hx => (writable_storable (h x hx)).2

theorem recordEvent_presented [Zero K] [Mul K] [Div K] [LinearOrder V] {cfg : IOConfig K V} {kind : Kind K} {r : Bytes} {ev : Event K V}
    (h : RecordEvent cfg kind r ev) (hq : ∀ s, kind = .stripperXml s → Quoted cfg.ctx.float r) :
    ∃ r', kind.present cfg r = .ok r' ∧
      match kind with
      | .hepmc2 => HepMC.parse cfg.ctx r' = .ok ev
      | .lhef => Lhef.parse cfg.ctx r' = .ok ev
      | .stripperXml _ => Stripper.parse cfg.ctx r' = .ok ev := by
  cases kind with
  | hepmc2 => exact ⟨r, rfl, h⟩
  | lhef => exact ⟨r, rfl, h⟩
  | stripperXml s =>
    obtain ⟨ev0, w, h1, h2, h3, rfl⟩ := h
    obtain ⟨w', r', h4, h5, h6⟩ := C41_read_partial (s := s) cfg.ctx h1 (hq s rfl) (by
      intro w' hw'
      rw [h2] at hw'
      cases hw'
      exact h3)
    rw [h2] at h4
    cases h4
    exact ⟨r', h5, h6⟩

/-- The weight of a record whose event can be read can be replaced. -/
theorem rewritten_exists [Zero K] [Mul K] [Div K] [LinearOrder V] {cfg : IOConfig K V} (hn : cfg.ctx.multi = true → cfg.ctx.names = [])
    {kind : Kind K} {r : Bytes} {ev : Event K V} (h : RecordEvent cfg kind r ev)
    (hq : ∀ s, kind = .stripperXml s → Quoted cfg.ctx.float r) {ws : List K} (hl : ws.length ≤ 1)
    (hw : ∀ w ∈ ws, Storable cfg kind w) : ∃ r', Rewritten cfg kind ws r r' ev := by
  match ws, hl, hw with
  | [], _, _ => exact ⟨r, by cases kind <;> rfl, by simpa [reweighted] using h⟩
  | [w], _, hw =>
    have h1 := hw w (by simp)
    have hre : reweighted ([w].map (stored kind)) ev = { ev with weights := [stored kind w] } := by simp [reweighted]
    unfold Rewritten
    rw [hre]
    cases kind with
    | hepmc2 =>
      obtain ⟨r', g1, -, g2⟩ := C38_hepmc_update_partial cfg.ctx hn h h1
      exact ⟨r', g1, g2⟩
    | lhef =>
      obtain ⟨r', g1, -, g2⟩ := C40_lhef_update_partial cfg.ctx h h1
      exact ⟨r', g1, g2⟩
    | stripperXml s =>
      obtain ⟨h2, h3⟩ := h1
      obtain ⟨ev0, w0, e1, e2, -, rfl⟩ := h
      obtain ⟨r', g1, -, g2⟩ := write_divided cfg.ctx e1 (hq s rfl) h2
      exact ⟨r', g1, _, w / s, g2, rfl, h3, rfl⟩

theorem forall₂_get {α β : Type*} {R : α → β → Prop} {l : List α} {l' : List β} (h : List.Forall₂ R l l') {i : Nat}
    {a : α} {b : β} (ha : l[i]? = some a) (hb : l'[i]? = some b) : R a b := by
  induction h generalizing i with
  | nil => simp at ha
  | cons h _ ih =>
    cases i with
    | zero =>
      simp only [List.getElem?_cons_zero, Option.some.injEq] at ha hb
      subst ha hb
      exact h
    | succ i => exact ih (by simpa using ha) (by simpa using hb)

theorem forall₂_of_get {α β : Type*} {R : α → β → Prop} {l : List α} {l' : List β} (hl : l.length = l'.length)
    (h : ∀ (i : Nat) a b, l[i]? = some a → l'[i]? = some b → R a b) : List.Forall₂ R l l' := by
  induction l generalizing l' with
  | nil =>
    cases l' with
    | nil => exact .nil
    | cons => simp at hl
  | cons a l ih =>
    cases l' with
    | nil => simp at hl
    | cons b l' =>
      exact .cons (h 0 a b rfl rfl) (ih (by simpa using hl) fun i x y hx hy => h (i + 1) x y (by simpa using hx) (by simpa using hy))

theorem forall₂_mem {α β : Type*} {R : α → β → Prop} {l : List α} {l' : List β} (h : List.Forall₂ R l l') {b : β} (hb : b ∈ l') :
    ∃ a ∈ l, R a b := by
  induction h with
  | nil => simp at hb
  | cons h _ ih =>
    rcases List.mem_cons.1 hb with rfl | hb
    · exact ⟨_, by simp, h⟩
    · obtain ⟨a, ha, hr⟩ := ih hb
      exact ⟨a, by simp [ha], hr⟩

theorem forall₂_dropLast {α β : Type*} {R : α → β → Prop} {l : List α} {l' : List β} (h : List.Forall₂ R l l') :
    List.Forall₂ R l.dropLast l'.dropLast := by
  induction h with
  | nil => exact .nil
  | cons h t ih =>
    cases t with
    | nil => exact .nil
    | cons h' t' => exact .cons h ih

theorem forall₂_getLast {α β : Type*} {R : α → β → Prop} {l : List α} {l' : List β} (h : List.Forall₂ R l l') (hne : l ≠ []) :
    ∃ a b, l = l.dropLast ++ [a] ∧ l' = l'.dropLast ++ [b] ∧ R a b := by
  induction h with
  | nil => exact absurd rfl hne
  | @cons a b l l' h t ih =>
    cases t with
    | nil => exact ⟨a, b, rfl, rfl, h⟩
    | cons h' t' =>
      obtain ⟨x, y, h1, h2, h3⟩ := ih (by simp)
      refine ⟨x, y, ?_, ?_, h3⟩
      · rw [List.dropLast_cons_of_ne_nil (by simp), List.cons_append, ← h1]
      · rw [List.dropLast_cons_of_ne_nil (by simp), List.cons_append, ← h2]

/-- If each record keeps the properties that separate it from others, the file does. `Q` lists what is known about the
update of a record. -/
theorem textFile_rewritten [Zero K] [Mul K] [Div K] [LinearOrder V] {cfg : IOConfig K V} {content : Bytes} {d : EventFile K V}
    (h : IsEventFile cfg content d) {records' : List Bytes} {ws : List (List K)} (hl : ws.length = d.records.length)
    (hw : ∀ w ∈ ws, ∀ x ∈ w, Storable cfg d.kind x)
    (hu : List.Forall₂ (fun (x : List K × Bytes) r' => d.kind.update cfg x.1 x.2 = .ok r') (ws.zip d.records) records') :
    TextFile cfg (d.header ++ records'.flatten ++ d.kind.footer) ⟨d.kind, d.header, records'⟩ := by
  obtain ⟨⟨kind, header, records⟩, events⟩ := d
  obtain ⟨⟨hv, hd, h⟩, hev⟩ := h
  simp only at hv hd h hev hl hw hu ⊢
  -- the updates by record
  have hlen' : records'.length = records.length := by
    have := hu.length_eq
    rw [List.length_zip, hl, Nat.min_self] at this
    exact this.symm
  have hu2 : List.Forall₂ (fun r r' => ∃ w ev, (∀ x ∈ w, Storable cfg kind x) ∧ RecordEvent cfg kind r ev ∧
      kind.update cfg w r = .ok r') records records' := by
    refine forall₂_of_get hlen'.symm fun i r r' hr hr' => ?_
    have hi : i < records.length := (List.getElem?_eq_some_iff.1 hr).1
    obtain ⟨w, hwi⟩ : ∃ w, ws[i]? = some w := ⟨_, List.getElem?_eq_getElem (by omega)⟩
    obtain ⟨ev, hevi⟩ : ∃ ev, events[i]? = some ev :=
      ⟨_, List.getElem?_eq_getElem (by rw [← hev.length_eq]; exact hi)⟩
    refine ⟨w, ev, hw w (List.mem_of_getElem? hwi), forall₂_get hev hr hevi, ?_⟩
    exact forall₂_get hu (a := (w, r)) (by rw [List.getElem?_zip_eq_some]; exact ⟨hwi, hr⟩) hr'
  have hfoot : ∀ {k : Kind K}, (∀ hk : k = .lhef, False) → k.footer = [] := by
    intro k hk
    cases k
    · rfl
    · exact absurd rfl hk
    · rfl
  cases kind with
  | hepmc2 =>
    obtain ⟨hs, he⟩ := h
    have hparts := validUtf8_parts (b := 69) (by decide) (by rw [hs.whole]; exact hv) hs.nonempty
      (fun r hr => by
        obtain ⟨t, ht⟩ := hs.starts r hr
        exact ⟨t, ht.symm⟩)
    have hshape : List.Forall₂ (fun r r' => r ∈ records ∧ ascii "E" <+: r' ∧ ¬ Contains r' (ascii "\nE") ∧ validUtf8 r' = true ∧
        (r.getLast? = some 10 → r'.getLast? = some 10) ∧ (r ≠ ascii "E" → r' ≠ ascii "E")) records records' := by
      refine forall₂_of_get hlen'.symm fun i r r' hr hr' => ?_
      obtain ⟨w, ev, h1, -, h2⟩ := forall₂_get hu2 hr hr'
      have hm := List.mem_of_getElem? hr
      exact ⟨hm, HepMC.update_shape h2 h1 (hs.starts r hm) (hs.one r hm) (hparts.2 r hm)⟩
    have hne' : records' ≠ [] := by
      rintro rfl
      exact hs.nonempty (List.length_eq_zero_iff.1 hlen'.symm)
    have hfo : (Kind.hepmc2 : Kind K).footer = [] := rfl
    rw [hfo, List.append_nil]
    refine ⟨?_, hd, ⟨rfl, hne', hs.header_end, hs.header_events, ?_, ?_, ?_⟩, ?_⟩
    · rw [validUtf8_append hparts.1]
      refine validUtf8_flatten fun r' hr' => ?_
      obtain ⟨r, -, hx⟩ := forall₂_mem hshape hr'
      exact hx.2.2.2.1
    · intro r' hr'
      obtain ⟨r, -, hx⟩ := forall₂_mem hshape hr'
      exact hx.2.1
    · intro r' hr'
      obtain ⟨r, -, hx⟩ := forall₂_mem hshape hr'
      exact hx.2.2.1
    · intro r' hr'
      obtain ⟨r, hr, hx⟩ := forall₂_mem (forall₂_dropLast hshape) hr'
      exact hx.2.2.2.2.1 (hs.ends r hr)
    · -- the last record
      obtain ⟨r, r', h1, h2, -, h3, h4, -, -, h5⟩ := forall₂_getLast hshape hs.nonempty
      have hr : r ≠ ascii "E" := by
        rintro rfl
        apply he
        rw [← hs.whole, h1]
        have hend : (header ++ records.dropLast.flatten).getLast? = some 10 := by
          rw [List.getLast?_append]
          rcases List.eq_nil_or_concat records.dropLast with h0 | ⟨l, a, h0⟩
          · rw [h0]; simpa using hs.header_end
          · have := hs.ends a (by rw [h0]; simp)
            rw [h0]
            simp [List.getLast?_append, this]
        obtain ⟨t, ht⟩ := List.getLast?_eq_some_iff.1 hend
        refine ⟨t, ?_⟩
        have : header ++ (records.dropLast ++ [ascii "E"]).flatten = (header ++ records.dropLast.flatten) ++ ascii "E" := by simp
        rw [this, ht, List.append_assoc]
        rfl
      have hr' := h5 hr
      rintro hsuf
      rw [h2] at hsuf
      have hsuf2 : r' <:+ header ++ (records'.dropLast ++ [r']).flatten := ⟨header ++ records'.dropLast.flatten, by simp⟩
      apply h4
      refine (List.suffix_of_suffix_length_le hsuf hsuf2 ?_).isInfix
      obtain ⟨t, ht⟩ := h3
      cases t with
      | nil => exact absurd ht.symm (by simpa using hr')
      | cons => rw [← ht]; simp [ascii]
  | lhef =>
    obtain ⟨hs, hws⟩ := h
    obtain ⟨rem, hrem, _⟩ := hs.beginning
    have hvalid : validUtf8 header = true ∧ ∀ r ∈ records, validUtf8 r = true := by
      rw [← hrem, List.append_assoc] at hv
      obtain ⟨h', hh'⟩ := hs.header_end
      have hh : header = h' ++ ascii "\n</init" ++ [62] := by
        rw [← hh', List.append_assoc]; rfl
      rw [hh, validUtf8_split_after (by decide), ← hh] at hv
      refine ⟨hv.1, (validUtf8_parts_end (b := 62) (by decide) hv.2 ?_).1⟩
      intro r hr
      obtain ⟨a, ha⟩ := hs.ends r hr
      exact ⟨a ++ ascii "</event", by rw [← ha, List.append_assoc]; rfl⟩
    have hshape : List.Forall₂ (fun r r' => (∃ b, isAsciiWs b = true ∧ b :: ascii "</event>" <:+ r') ∧
        ¬ Contains r'.dropLast (ascii "</event>") ∧ validUtf8 r' = true) records records' := by
      refine forall₂_of_get hlen'.symm fun i r r' hr hr' => ?_
      obtain ⟨w, ev, h1, h3, h2⟩ := forall₂_get hu2 hr hr'
      have hm := List.mem_of_getElem? hr
      obtain ⟨b, hb, hb'⟩ := hws r hm
      exact Lhef.update_shape h3 h2 h1 hb hb' (hs.once r hm) (hvalid.2 r hm)
    have hmem : ∀ r' ∈ records', (∃ b, isAsciiWs b = true ∧ b :: ascii "</event>" <:+ r') ∧
        ¬ Contains r'.dropLast (ascii "</event>") ∧ validUtf8 r' = true := by
      intro r' hr'
      obtain ⟨r, -, hx⟩ := forall₂_mem hshape hr'
      exact hx
    refine ⟨?_, hd, ⟨⟨_, rfl, ?_⟩, hs.header_end, hs.header_once, ?_, ?_⟩, fun r' hr' => (hmem r' hr').1⟩
    · rw [List.append_assoc, validUtf8_append hvalid.1, validUtf8_append (validUtf8_flatten fun r' hr' => (hmem r' hr').2.2)]
      show validUtf8 Lhef.footer = true
      decide +kernel
    · show ¬ Contains Lhef.footer _
      unfold Contains
      decide +kernel
    · intro r' hr'
      obtain ⟨b, -, hb⟩ := (hmem r' hr').1
      exact (List.suffix_cons _ _).trans hb
    · exact fun r' hr' => (hmem r' hr').2.1
  | stripperXml s =>
    obtain ⟨hs, he, hq, name, n, m, hx1, hx2, hx3⟩ := h
    have hparts := validUtf8_parts (b := 60) (by decide) (by rw [hs.whole]; exact hv) hs.nonempty
      (fun r hr => head_of_se (hs.starts r hr))
    have hshape : List.Forall₂ (fun r r' => ascii "<se" <+: r' ∧ ¬ Contains r'.tail (ascii "<se") ∧ validUtf8 r' = true ∧
        Quoted cfg.ctx.float r' ∧ (r ≠ ascii "<se" → r' ≠ ascii "<se")) records records' := by
      refine forall₂_of_get hlen'.symm fun i r r' hr hr' => ?_
      obtain ⟨w, ev, h1, -, h2⟩ := forall₂_get hu2 hr hr'
      have hm := List.mem_of_getElem? hr
      exact Stripper.update_shape h2 (fun x hx => (h1 x hx).1) (hq r hm) (hs.starts r hm) (hs.once r hm) (hparts.2 r hm)
    have hmem : ∀ r' ∈ records', ascii "<se" <+: r' ∧ ¬ Contains r'.tail (ascii "<se") ∧ validUtf8 r' = true ∧
        Quoted cfg.ctx.float r' := by
      intro r' hr'
      obtain ⟨r, -, hx⟩ := forall₂_mem hshape hr'
      exact ⟨hx.1, hx.2.1, hx.2.2.1, hx.2.2.2.1⟩
    have hne' : records' ≠ [] := by
      rintro rfl
      exact hs.nonempty (List.length_eq_zero_iff.1 hlen'.symm)
    have hfo : (Kind.stripperXml s : Kind K).footer = [] := rfl
    rw [hfo, List.append_nil]
    refine ⟨?_, hd, ⟨rfl, hne', hs.header_events, fun r' hr' => (hmem r' hr').1, fun r' hr' => (hmem r' hr').2.1⟩, ?_,
      fun r' hr' => (hmem r' hr').2.2.2, name, n, m, hx1, hx2, by rw [hlen']; exact hx3⟩
    · rw [validUtf8_append hparts.1]
      exact validUtf8_flatten fun r' hr' => (hmem r' hr').2.2.1
    · obtain ⟨r, r', h1, h2, h3, h4, -, -, h5⟩ := forall₂_getLast hshape hs.nonempty
      have hr : r ≠ ascii "<se" := by
        rintro rfl
        apply he
        rw [← hs.whole, h1]
        exact ⟨header ++ records.dropLast.flatten, by simp⟩
      have hr' := h5 hr
      intro hsuf
      rw [h2] at hsuf
      apply h4
      obtain ⟨t, ht⟩ := h3
      have hsuf2 : r'.tail <:+ header ++ (records'.dropLast ++ [r']).flatten :=
        (List.tail_suffix r').trans ⟨header ++ records'.dropLast.flatten, by simp⟩
      refine (List.suffix_of_suffix_length_le hsuf hsuf2 ?_).isInfix
      cases t with
      | nil => exact absurd ht.symm (by simpa using hr')
      | cons => rw [← ht]; simp [ascii]

end Cres

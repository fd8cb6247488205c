import Verif.Proofs.DiskTrace
import Verif.Model.Compressed

/-!
Executions of operations on compressed files in the order in which the program performs them.
-/

set_option linter.unusedSectionVars false

namespace Cres

namespace Compressed

variable {P : Type*} [DecidableEq P]

theorem writeAt_length (raw data : Bytes) (pos : Nat) : (writeAt raw pos data).length = max raw.length (pos + data.length) := by
  unfold writeAt
  simp only [List.length_append, List.length_take, List.length_replicate, List.length_drop]
  omega

theorem writeAt_getElem? (raw data : Bytes) (pos i : Nat) (hi : i < raw.length) :
    (writeAt raw pos data)[i]? = if pos ≤ i ∧ i < pos + data.length then data[i - pos]? else raw[i]? := by
  have hl : ((raw ++ List.replicate (pos - raw.length) 0).take pos).length = pos := by
    simp only [List.length_append, List.length_take, List.length_replicate]
    omega
  unfold writeAt
  by_cases h1 : i < pos
  · rw [if_neg (by omega), List.append_assoc, List.getElem?_append_left (by omega), List.getElem?_take_of_lt h1,
      List.getElem?_append_left hi]
  · by_cases h2 : i < pos + data.length
    · rw [if_pos ⟨by omega, h2⟩, List.append_assoc, List.getElem?_append_right (by omega), hl,
        List.getElem?_append_left (by omega)]
    · rw [if_neg (by omega), List.getElem?_append_right (by simp only [List.length_append, hl]; omega), List.getElem?_drop]
      congr 1
      simp only [List.length_append, hl]
      omega

/-- The file contains the first `pos` bytes of `C`, and it is not longer than `C`. -/
structure Good (C : Bytes) (pos : Nat) (raw : Bytes) : Prop where
  pos_le : pos ≤ raw.length
  length_le : raw.length ≤ C.length
  same : raw.take pos = C.take pos

theorem Good.getElem? {C raw : Bytes} {pos : Nat} (h : Good C pos raw) {i : Nat} (hi : i < pos) : raw[i]? = C[i]? := by
  rw [← List.getElem?_take_of_lt hi, h.same, List.getElem?_take_of_lt hi]

theorem good_of {C raw : Bytes} {pos : Nat} (h1 : pos ≤ raw.length) (h2 : raw.length ≤ C.length)
    (h3 : ∀ i < pos, raw[i]? = C[i]?) : Good C pos raw := by
  refine ⟨h1, h2, List.ext_getElem? fun i => ?_⟩
  by_cases hi : i < pos
  · rw [List.getElem?_take_of_lt hi, List.getElem?_take_of_lt hi, h3 i hi]
  · rw [List.getElem?_take_eq_none (by omega), List.getElem?_take_eq_none (by omega)]

theorem prefix_drop {C data : Bytes} {q : Nat} (hd : data <+: C.drop q) : data ≠ [] → q + data.length ≤ C.length := by
  intro hne
  have h1 := hd.length_le
  have h2 : 0 < data.length := List.length_pos_iff.2 hne
  rw [List.length_drop] at h1
  omega

theorem prefix_drop_getElem? {C data : Bytes} {q i : Nat} (hd : data <+: C.drop q) (h1 : q ≤ i) (h2 : i < q + data.length) :
    data[i - q]? = C[i]? := by
  obtain ⟨t, ht⟩ := hd
  rw [show C[i]? = (C.drop q)[i - q]? by rw [List.getElem?_drop]; congr 1; omega, ← ht, List.getElem?_append_left (by omega)]

theorem Good.other {C raw data : Bytes} {pos q : Nat} (h : Good C pos raw) (hd : data <+: C.drop q) (hne : data ≠ []) :
    Good C pos (writeAt raw q data) := by
  have := prefix_drop hd hne
  have h1 := h.pos_le
  have h2 := h.length_le
  refine good_of (by rw [writeAt_length]; omega) (by rw [writeAt_length]; omega) fun i hi => ?_
  rw [writeAt_getElem? _ _ _ _ (by omega)]
  split_ifs with hc
  · exact prefix_drop_getElem? hd hc.1 hc.2
  · exact h.getElem? hi

theorem writeAt_inside {raw data : Bytes} {pos : Nat} (h : pos ≤ raw.length) :
    writeAt raw pos data = raw.take pos ++ data ++ raw.drop (pos + data.length) := by
  unfold writeAt
  rw [Nat.sub_eq_zero_of_le h, List.replicate_zero, List.append_nil]

theorem Good.self {C raw data : Bytes} {pos : Nat} (h : Good C pos raw) (hd : data <+: C.drop pos) :
    Good C (pos + data.length) (writeAt raw pos data) := by
  have h1 := h.pos_le
  have h2 := h.length_le
  have h3 := hd.length_le
  rw [List.length_drop] at h3
  refine ⟨by rw [writeAt_length]; omega, by rw [writeAt_length]; omega, ?_⟩
  rw [writeAt_inside h1, h.same]
  obtain ⟨t, ht⟩ := hd
  have hl : (C.take pos).length = pos := by rw [List.length_take]; omega
  have : C = C.take pos ++ data ++ t := by rw [List.append_assoc, ht, List.take_append_drop]
  conv_rhs => rw [this]
  have hl' : pos + data.length ≤ (C.take pos ++ data).length := by rw [List.length_append, hl]
  rw [List.take_append_of_le_length hl', List.take_append_of_le_length hl']

theorem Good.finish {C raw : Bytes} {pos : Nat} (h : Good C pos raw) : writeAt raw pos (C.drop pos) = C := by
  have h1 := h.pos_le
  have h2 := h.length_le
  rw [writeAt_inside h1, h.same, List.take_append_drop, List.drop_eq_nil_of_le (by rw [List.length_drop]; omega), List.append_nil]

theorem put_path (files : FS P) (w : Writer P) (data : Bytes) : (w.put files data).2.path = w.path ∧
    (w.put files data).2.chunks = w.chunks ∧ (w.put files data).2.pos = w.pos + data.length := by
  unfold Writer.put
  split_ifs with h
  · rw [h]; exact ⟨rfl, rfl, rfl⟩
  · exact ⟨rfl, rfl, rfl⟩

theorem put_of_ne {files : FS P} {w : Writer P} {data : Bytes} {q : P} (h : q ≠ w.path) : (w.put files data).1 q = files q := by
  unfold Writer.put
  split_ifs
  · rfl
  · exact Function.update_of_ne h _ _

theorem put_self {files : FS P} {w : Writer P} {data raw : Bytes} (h : files w.path = some raw) :
    (w.put files data).1 w.path = some (if data = [] then raw else writeAt raw w.pos data) := by
  unfold Writer.put
  split_ifs
  · exact h
  · rw [h]; exact Function.update_self _ _ _

theorem put_inside {files : FS P} {w : Writer P} {data raw : Bytes} (h : files w.path = some raw) (hp : w.pos ≤ raw.length) :
    (w.put files data).1 w.path = some (writeAt raw w.pos data) := by
  rw [put_self h]
  split_ifs with hd
  · rw [hd, writeAt_inside hp, List.append_nil, List.length_nil, Nat.add_zero, List.take_append_drop]
  · rfl

variable {enc : Encoder}

theorem take_drop_prefix {X C : Bytes} (h : X <+: C) (pos n : Nat) : (X.drop pos).take n <+: C.drop pos :=
  by
  obtain ⟨t, rfl⟩ := h
  exact (List.take_prefix _ _).trans ⟨t.drop (pos - X.length), List.drop_append.symm⟩

theorem out_prefix (enc : Encoder) (ws : List Bytes) (w : Bytes) : enc.out ws <+: enc.complete (ws ++ [w]) :=
  (enc.grows ws w).trans (enc.ends _)

/-- The open file of a writer. `k` is 0 if there may already be more in the file than was written by this writer. -/
structure Live (enc : Encoder) (files : FS P) (w : Writer P) (k : Nat) : Prop where
  file : ∃ raw, files w.path = some raw ∧ Good (enc.complete w.chunks) w.pos raw ∧ (0 < k → raw.length = w.pos)
  avail : w.pos ≤ (enc.out w.chunks).length
  header : k ≤ 1 → ∃ h, w.chunks = [h]

theorem Live.emit {files : FS P} {w : Writer P} {k : Nat} (h : Live enc files w k) (n : Nat) :
    Live enc (w.emit enc files n).1 (w.emit enc files n).2 k := by
  obtain ⟨raw, h1, h2, h3⟩ := h.file
  unfold Writer.emit
  generalize hdata : ((enc.out w.chunks).drop w.pos).take n = data
  obtain ⟨p1, p2, p3⟩ := put_path files w data
  have hl : data.length ≤ (enc.out w.chunks).length - w.pos := by
    rw [← hdata, List.length_take, List.length_drop]; omega
  have ha := h.avail
  refine ⟨⟨writeAt raw w.pos data, ?_, ?_, fun hk => ?_⟩, ?_, ?_⟩
  · rw [p1]; exact put_inside h1 h2.pos_le
  · rw [p2, p3]; exact h2.self (hdata ▸ take_drop_prefix (enc.ends _) _ _)
  · rw [p3, writeAt_length, h3 hk]; omega
  · rw [p2, p3]; omega
  · rw [p2]; exact h.header

theorem Live.finish {files : FS P} {w : Writer P} {k : Nat} (h : Live enc files w k) :
    w.finish enc files w.path = some (enc.complete w.chunks) := by
  obtain ⟨raw, h1, h2, -⟩ := h.file
  unfold Writer.finish
  rw [put_inside h1 h2.pos_le, h2.finish]

theorem finish_of_ne {files : FS P} {w : Writer P} {q : P} (h : q ≠ w.path) : w.finish enc files q = files q := put_of_ne h

theorem Live.congr {files files' : FS P} {w : Writer P} {k : Nat} (h : Live enc files w k) (he : files' w.path = files w.path) :
    Live enc files' w k := by
  obtain ⟨raw, h1, h2, h3⟩ := h.file
  exact ⟨⟨raw, he.trans h1, h2, h3⟩, h.avail, h.header⟩

theorem Live.write {files : FS P} {w : Writer P} {k : Nat} (h : Live enc files w (k + 1)) (data : Bytes) :
    Live enc files { w with chunks := w.chunks ++ [data] } (k + 2) := by
  obtain ⟨raw, h1, h2, h3⟩ := h.file
  have h3 := h3 (Nat.succ_pos k)
  have ha := h.avail
  have hp := out_prefix enc w.chunks data
  have hlen := hp.length_le
  refine ⟨⟨raw, h1, ⟨h2.pos_le, ?_, ?_⟩, fun _ => h3⟩, ?_, fun hk => absurd hk (by omega)⟩
  · show raw.length ≤ (enc.complete (w.chunks ++ [data])).length
    omega
  · show raw.take w.pos = (enc.complete (w.chunks ++ [data])).take w.pos
    rw [h2.same]
    obtain ⟨t, ht⟩ := enc.ends w.chunks
    obtain ⟨t', ht'⟩ := hp
    rw [← ht, ← ht', List.take_append_of_le_length ha, List.take_append_of_le_length ha]
  · show w.pos ≤ (enc.out (w.chunks ++ [data])).length
    exact ha.trans (enc.grows _ _).length_le

/-- Relation between the state if everything is written at once without compression and the actual files. -/
structure Holds (enc : Encoder) (raw0 fs0 : FS P) (outs : List P) (st : Sketch P) (d : Disk P) : Prop where
  outs : ∀ q ∈ st.touched, q ∈ outs
  untouched : ∀ q, q ∉ st.touched → d.files q = raw0 q ∧ st.fs q = fs0 q
  done : ∀ q ∈ st.touched, (∀ k, st.cur ≠ some (q, k)) → ∃ ws : List Bytes, st.fs q = some ws.flatten ∧
    d.files q = some (enc.complete ws)
  closed : st.cur = none → d.writers = []
  live : ∀ p k, st.cur = some (p, k) → p ∈ st.touched ∧ ∃ w, d.writers = [w] ∧ w.path = p ∧ st.fs p = some w.chunks.flatten ∧
    Live enc d.files w k

variable {raw0 fs0 : FS P} {outs : List P} {st : Sketch P} {d : Disk P}

theorem Holds.emit (h : Holds enc raw0 fs0 outs st d) {i : Nat} {w : Writer P} (hi : d.writers[i]? = some w) (n : Nat) :
    Holds enc raw0 fs0 outs st ⟨(w.emit enc d.files n).1, d.writers.set i (w.emit enc d.files n).2⟩ := by
  rcases hc : st.cur with _ | ⟨p, k⟩
  · rw [h.closed hc] at hi
    simp at hi
  · obtain ⟨h0, w', h1, h2, h3, h4⟩ := h.live p k hc
    rw [h1] at hi
    have hi0 : i = 0 := by
      rcases i with _ | i
      · rfl
      · simp at hi
    subst hi0
    simp only [List.getElem?_cons_zero, Option.some.injEq] at hi
    subst hi
    obtain ⟨p1, p2, -⟩ := put_path d.files w' (((enc.out w'.chunks).drop w'.pos).take n)
    refine ⟨h.outs, fun q hq => ?_, fun q hq hcq => ?_, fun hcn => (by rw [hc] at hcn; cases hcn), fun p' k' hc' => ?_⟩
    · have : q ≠ w'.path := by rintro rfl; rw [h2] at hq; exact hq h0
      exact ⟨(put_of_ne this).trans (h.untouched q hq).1, (h.untouched q hq).2⟩
    · have : q ≠ w'.path := by rintro rfl; rw [h2] at hcq; exact hcq k hc
      obtain ⟨ws, g1, g2⟩ := h.done q hq hcq
      exact ⟨ws, g1, (put_of_ne this).trans g2⟩
    · rw [hc, Option.some.injEq, Prod.mk.injEq] at hc'
      obtain ⟨rfl, rfl⟩ := hc'
      refine ⟨h0, (w'.emit enc d.files n).2, ?_, p1.trans h2, ?_, h4.emit n⟩
      · show d.writers.set 0 _ = _
        rw [h1]; rfl
      · rw [h3]; unfold Writer.emit; rw [p2]

/-- While a file is opened: it was created, and its header was perhaps already written. -/
structure Half (enc : Encoder) (raw0 fs0 : FS P) (outs : List P) (st : Sketch P) (p : P) (hd : Bytes) (chunks : List Bytes)
    (d : Disk P) : Prop where
  mayOpen : st.MayOpen outs p hd
  outs : ∀ q ∈ st.touched, q ∈ outs
  untouched : ∀ q, q ∉ st.touched → q ≠ p → d.files q = raw0 q ∧ st.fs q = fs0 q
  done : ∀ q ∈ st.touched, q ≠ p → (∀ k, st.cur ≠ some (q, k)) → ∃ ws : List Bytes, st.fs q = some ws.flatten ∧
    d.files q = some (enc.complete ws)
  new : ∃ w old, d.writers = w :: old ∧ w.path = p ∧ w.chunks = chunks ∧ w.pos ≤ (enc.out chunks).length ∧
    (∃ raw, d.files p = some raw ∧ Good (enc.complete [hd]) w.pos raw ∧ ((∀ k, st.cur ≠ some (p, k)) → raw.length = w.pos)) ∧
    (st.cur = none → old = []) ∧
    ∀ q k, st.cur = some (q, k) → q ∈ st.touched ∧ ∃ w', old = [w'] ∧ w'.path = q ∧ st.fs q = some w'.chunks.flatten ∧
      (q ≠ p → Live enc d.files w' k) ∧ (q = p → w'.chunks = [hd] ∧ w'.pos ≤ (enc.out [hd]).length)

theorem Holds.create (h : Holds enc raw0 fs0 outs st d) {p : P} {hd : Bytes} (hm : st.MayOpen outs p hd) :
    Half enc raw0 fs0 outs st p hd [] ⟨Function.update d.files p (some []), ⟨p, 0, []⟩ :: d.writers⟩ := by
  refine ⟨hm, h.outs, fun q hq hqp => ?_, fun q hq hqp hc => ?_, ⟨p, 0, []⟩, d.writers, rfl, rfl, rfl, Nat.zero_le _,
    ⟨[], Function.update_self _ _ _, ⟨Nat.le_refl _, Nat.zero_le _, by simp⟩, fun _ => rfl⟩, h.closed, fun q k hc => ?_⟩
  · exact ⟨(Function.update_of_ne hqp _ _).trans (h.untouched q hq).1, (h.untouched q hq).2⟩
  · obtain ⟨ws, g1, g2⟩ := h.done q hq hc
    exact ⟨ws, g1, (Function.update_of_ne hqp _ _).trans g2⟩
  · obtain ⟨h0, w', h1, h2, h3, h4⟩ := h.live q k hc
    refine ⟨h0, w', h1, h2, h3, fun hqp => h4.congr ?_, fun hqp => ?_⟩
    · exact Function.update_of_ne (by rw [h2]; exact hqp) _ _
    · subst hqp
      obtain ⟨x, hx⟩ := h4.header (hm.current k hc)
      have := hm.same h0
      rw [h3, hx] at this
      simp only [List.flatten_cons, List.flatten_nil, List.append_nil, Option.some.injEq] at this
      exact ⟨by rw [hx, this], by rw [← this, ← hx]; exact h4.avail⟩

variable {p : P} {hd : Bytes} {chunks : List Bytes}

/-- The header is a part of what is written. -/
theorem header_prefix (enc : Encoder) {chunks : List Bytes} {hd : Bytes} (hch : chunks = [] ∨ chunks = [hd]) :
    enc.out chunks <+: enc.complete [hd] := by
  rcases hch with rfl | rfl
  · exact out_prefix enc [] hd
  · exact enc.ends _

theorem Half.emit (h : Half enc raw0 fs0 outs st p hd chunks d) (hch : chunks = [] ∨ chunks = [hd]) {i : Nat} {w : Writer P}
    (hi : d.writers[i]? = some w) (n : Nat) :
    Half enc raw0 fs0 outs st p hd chunks ⟨(w.emit enc d.files n).1, d.writers.set i (w.emit enc d.files n).2⟩ := by
  obtain ⟨wn, old, h1, h2, h3, h4, ⟨raw, h5, h6, h7⟩, h8, h9⟩ := h.new
  obtain ⟨p1, p2, p3⟩ := put_path d.files w (((enc.out w.chunks).drop w.pos).take n)
  rw [h1] at hi
  rcases i with _ | i
  · -- the new file
    simp only [List.getElem?_cons_zero, Option.some.injEq] at hi
    subst hi
    have hpre := take_drop_prefix (header_prefix enc hch) wn.pos n
    have hlen : (((enc.out chunks).drop wn.pos).take n).length ≤ (enc.out chunks).length - wn.pos := by
      rw [List.length_take, List.length_drop]; omega
    have p1' := p1
    rw [h3] at p1 p2 p3
    refine ⟨h.mayOpen, h.outs, fun q hq hqp => ?_, fun q hq hqp hc => ?_, (wn.emit enc d.files n).2, old, ?_, p1'.trans h2, ?_, ?_,
      ⟨writeAt raw wn.pos (((enc.out chunks).drop wn.pos).take n), ?_, ?_, ?_⟩, h8, fun q k hc => ?_⟩
    · exact ⟨(put_of_ne (h2 ▸ hqp)).trans (h.untouched q hq hqp).1, (h.untouched q hq hqp).2⟩
    · obtain ⟨ws, g1, g2⟩ := h.done q hq hqp hc
      exact ⟨ws, g1, (put_of_ne (h2 ▸ hqp)).trans g2⟩
    · show d.writers.set 0 _ = _
      rw [h1]; rfl
    · unfold Writer.emit; rw [h3, p2]
    · unfold Writer.emit; rw [h3, p3]; omega
    · show (wn.emit enc d.files n).1 p = _
      unfold Writer.emit
      subst h2
      rw [h3]
      exact put_inside h5 h6.pos_le
    · unfold Writer.emit; rw [h3, p3]; exact h6.self hpre
    · intro hc
      unfold Writer.emit
      rw [h3, p3, writeAt_length, h7 hc]
      omega
    · obtain ⟨g1, w', g2, g3, g4, g5, g6⟩ := h9 q k hc
      refine ⟨g1, w', g2, g3, g4, fun hqp => (g5 hqp).congr ?_, g6⟩
      exact put_of_ne (by rw [g3, h2]; exact hqp)
  · -- the old file
    simp only [List.getElem?_cons_succ] at hi
    rcases hcur : st.cur with _ | ⟨q0, k0⟩
    · rw [h8 hcur] at hi
      simp at hi
    obtain ⟨g1, w', g2, g3, g4, g5, g6⟩ := h9 q0 k0 hcur
    rw [g2] at hi
    have hi0 : i = 0 := by
      rcases i with _ | i
      · rfl
      · simp at hi
    subst hi0
    simp only [List.getElem?_cons_zero, Option.some.injEq] at hi
    subst hi
    have hset : d.writers.set (0 + 1) (w'.emit enc d.files n).2 = [wn, (w'.emit enc d.files n).2] := by
      rw [h1, g2]; rfl
    rw [hset]
    have hne : ∀ q, q ≠ q0 → (w'.emit enc d.files n).1 q = d.files q := fun q hq => put_of_ne (g3 ▸ hq)
    have hnew : ∃ raw, (w'.emit enc d.files n).1 p = some raw ∧ Good (enc.complete [hd]) wn.pos raw ∧
        ((∀ k, st.cur ≠ some (p, k)) → raw.length = wn.pos) := by
      by_cases hqp : q0 = p
      · subst hqp
        have hw := (g6 rfl).1
        refine ⟨if ((enc.out w'.chunks).drop w'.pos).take n = [] then raw
            else writeAt raw w'.pos (((enc.out w'.chunks).drop w'.pos).take n), ?_, ?_, fun hc => absurd hcur (hc k0)⟩
        · unfold Writer.emit
          have := put_self (files := d.files) (w := w') (data := ((enc.out w'.chunks).drop w'.pos).take n) (g3 ▸ h5)
          rw [g3] at this
          exact this
        · split_ifs with he
          · exact h6
          · exact h6.other (by rw [hw]; exact take_drop_prefix (enc.ends _) _ _) he
      · exact ⟨raw, (hne p (Ne.symm hqp)).trans h5, h6, h7⟩
    refine ⟨h.mayOpen, h.outs, fun q hq hqp => ?_, fun q hq hqp hc => ?_, wn, [(w'.emit enc d.files n).2], rfl, h2, h3, h4,
      hnew, fun hc => (by rw [hc] at hcur; cases hcur), fun q k hc => ?_⟩
    · have : q ≠ q0 := by rintro rfl; exact hq g1
      exact ⟨(hne q this).trans (h.untouched q hq hqp).1, (h.untouched q hq hqp).2⟩
    · have : q ≠ q0 := by rintro rfl; exact hc k0 hcur
      obtain ⟨ws, e1, e2⟩ := h.done q hq hqp hc
      exact ⟨ws, e1, (hne q this).trans e2⟩
    · rw [hcur, Option.some.injEq, Prod.mk.injEq] at hc
      obtain ⟨rfl, rfl⟩ := hc
      refine ⟨g1, _, rfl, p1.trans g3, ?_, fun hqp => (g5 hqp).emit n, fun hqp => ?_⟩
      · unfold Writer.emit
        rw [p2, g4]
      · obtain ⟨e1, e2⟩ := g6 hqp
        refine ⟨p2.trans e1, ?_⟩
        unfold Writer.emit
        rw [p3, List.length_take, List.length_drop, e1]
        omega

theorem Half.write (h : Half enc raw0 fs0 outs st p hd [] d) {w : Writer P} {ws : List (Writer P)} (hw : d.writers = w :: ws) :
    Half enc raw0 fs0 outs st p hd [hd] ⟨d.files, { w with chunks := w.chunks ++ [hd] } :: ws⟩ := by
  obtain ⟨wn, old, h1, h2, h3, h4, h5, h8, h9⟩ := h.new
  rw [h1, List.cons.injEq] at hw
  obtain ⟨rfl, rfl⟩ := hw
  refine ⟨h.mayOpen, h.outs, h.untouched, h.done, { wn with chunks := wn.chunks ++ [hd] }, old, rfl, h2, ?_, ?_, h5, h8, h9⟩
  · show wn.chunks ++ [hd] = [hd]
    rw [h3]; rfl
  · exact h4.trans (enc.grows [] hd).length_le

/-- What a file contains after it was created and closed. -/
theorem create_done (st : Sketch P) (p : P) (hd : Bytes) {q : P} (hq : q ≠ p) : st.fs.create p hd q = st.fs q :=
  Function.update_of_ne hq _ _

theorem create_self (st : Sketch P) (p : P) (hd : Bytes) : st.fs.create p hd p = some hd := Function.update_self _ _ _

theorem Half.dropOld (h : Half enc raw0 fs0 outs st p hd [hd] d) : Holds enc raw0 fs0 outs (st.opened p hd)
    ⟨finishAll enc d.files (d.writers.drop 1), d.writers.take 1⟩ := by
  obtain ⟨wn, old, h1, h2, h3, h4, ⟨raw, h5, h6, h7⟩, h8, h9⟩ := h.new
  rw [h1]
  show Holds enc raw0 fs0 outs (st.opened p hd) ⟨finishAll enc d.files old, [wn]⟩
  have hcount : 0 < st.count p → ∀ k, st.cur ≠ some (p, k) := by
    intro h0 k hk
    unfold Sketch.count at h0
    rw [hk] at h0
    simp at h0
  have key : (∃ raw, finishAll enc d.files old p = some raw ∧ Good (enc.complete [hd]) wn.pos raw ∧
      (0 < st.count p → raw.length = wn.pos)) ∧
      ∀ q, q ≠ p → ((∀ k, st.cur ≠ some (q, k)) → finishAll enc d.files old q = d.files q) ∧
        ∀ k, st.cur = some (q, k) → ∃ ws : List Bytes, st.fs q = some ws.flatten ∧
          finishAll enc d.files old q = some (enc.complete ws) := by
    rcases hcur : st.cur with _ | ⟨q0, k0⟩
    · rw [h8 hcur]
      exact ⟨⟨raw, h5, h6, fun h0 => h7 (hcount h0)⟩, fun q hq => ⟨fun _ => rfl, fun k hk => by cases hk⟩⟩
    · obtain ⟨g1, w', g2, g3, g4, g5, g6⟩ := h9 q0 k0 hcur
      rw [g2]
      show (∃ raw, w'.finish enc d.files p = _ ∧ _) ∧ ∀ q, q ≠ p → (_ → w'.finish enc d.files q = _) ∧
        ∀ k, _ → ∃ ws, _ ∧ w'.finish enc d.files q = _
      refine ⟨?_, fun q hq => ⟨fun hc => ?_, fun k hk => ?_⟩⟩
      · by_cases hqp : q0 = p
        · subst hqp
          refine ⟨if (enc.complete w'.chunks).drop w'.pos = [] then raw
            else writeAt raw w'.pos ((enc.complete w'.chunks).drop w'.pos), ?_, ?_, fun h0 => absurd hcur (hcount h0 k0)⟩
          · have := put_self (files := d.files) (w := w') (data := (enc.complete w'.chunks).drop w'.pos) (g3 ▸ h5)
            rw [g3] at this
            exact this
          · split_ifs with he
            · exact h6
            · exact h6.other (by rw [(g6 rfl).1]; exact List.prefix_rfl) he
        · exact ⟨raw, (finish_of_ne (by rw [g3]; exact Ne.symm hqp)).trans h5, h6, fun h0 => h7 (hcount h0)⟩
      · exact finish_of_ne (by rw [g3]; rintro rfl; exact hc k0 rfl)
      · rw [Option.some.injEq, Prod.mk.injEq] at hk
        obtain ⟨rfl, rfl⟩ := hk
        have := (g5 hq).finish
        rw [g3] at this
        exact ⟨w'.chunks, g4, this⟩
  obtain ⟨⟨raw', k1, k2, k3⟩, k4⟩ := key
  refine ⟨fun q hq => ?_, fun q hq => ?_, fun q hq hc => ?_, fun hc => (by cases hc), fun q k hc => ?_⟩
  · rcases List.mem_cons.1 hq with rfl | hq
    · exact h.mayOpen.out
    · exact h.outs q hq
  · obtain ⟨e1, e2⟩ := (not_or.1 (fun h' => hq (List.mem_cons.2 h')) : q ≠ p ∧ q ∉ st.touched)
    have hnc : ∀ k, st.cur ≠ some (q, k) := fun k hk => e2 (h9 q k hk).1
    exact ⟨((k4 q e1).1 hnc).trans (h.untouched q e2 e1).1, (create_done st p hd e1).trans (h.untouched q e2 e1).2⟩
  · have hqp : q ≠ p := by rintro rfl; exact hc _ rfl
    have hq' : q ∈ st.touched := (List.mem_cons.1 hq).resolve_left hqp
    by_cases hcq : ∃ k, st.cur = some (q, k)
    · obtain ⟨k, hk⟩ := hcq
      obtain ⟨ws, e1, e2⟩ := (k4 q hqp).2 k hk
      exact ⟨ws, (create_done st p hd hqp).trans e1, e2⟩
    · have hnc : ∀ k, st.cur ≠ some (q, k) := fun k hk => hcq ⟨k, hk⟩
      obtain ⟨ws, e1, e2⟩ := h.done q hq' hqp hnc
      exact ⟨ws, (create_done st p hd hqp).trans e1, ((k4 q hqp).1 hnc).trans e2⟩
  · have hc' : some (p, st.count p) = some (q, k) := hc
    rw [Option.some.injEq, Prod.mk.injEq] at hc'
    obtain ⟨rfl, rfl⟩ := hc'
    refine ⟨List.mem_cons_self, wn, rfl, h2, ?_, ⟨⟨raw', ?_, ?_, k3⟩, ?_, fun _ => ⟨hd, h3⟩⟩⟩
    · show st.fs.create p hd p = _
      rw [create_self, h3]
      simp
    · rw [h2]; exact k1
    · rw [h3]; exact k2
    · rw [h3]; exact h4

theorem Holds.write (h : Holds enc raw0 fs0 outs st d) {k : Nat} (hc : st.cur = some (p, k + 1)) {w : Writer P}
    {ws : List (Writer P)} (hw : d.writers = w :: ws) (data : Bytes) :
    Holds enc raw0 fs0 outs ⟨st.fs.append p data, some (p, k + 2), st.touched⟩
      ⟨d.files, { w with chunks := w.chunks ++ [data] } :: ws⟩ := by
  obtain ⟨h0, w', h1, h2, h3, h4⟩ := h.live p (k + 1) hc
  rw [h1, List.cons.injEq] at hw
  obtain ⟨rfl, rfl⟩ := hw
  refine ⟨h.outs, fun q hq => ?_, fun q hq hcq => ?_, fun hcn => (by cases hcn), fun q j hcq => ?_⟩
  · have : q ≠ p := by rintro rfl; exact hq h0
    exact ⟨(h.untouched q hq).1, (Function.update_of_ne this _ _).trans (h.untouched q hq).2⟩
  · have : q ≠ p := by rintro rfl; exact hcq _ rfl
    obtain ⟨ws, g1, g2⟩ := h.done q hq (fun j hj => by
      rw [hc, Option.some.injEq, Prod.mk.injEq] at hj; exact this hj.1.symm)
    exact ⟨ws, (Function.update_of_ne this _ _).trans g1, g2⟩
  · have hcq' : some (p, k + 2) = some (q, j) := hcq
    rw [Option.some.injEq, Prod.mk.injEq] at hcq'
    obtain ⟨rfl, rfl⟩ := hcq'
    refine ⟨h0, _, rfl, h2, ?_, h4.write data⟩
    show FS.append _ _ _ _ = _
    unfold FS.append
    rw [Function.update_self, h3]
    simp

theorem Holds.finish (h : Holds enc raw0 fs0 outs st d) :
    Holds enc raw0 fs0 outs ⟨st.fs, none, st.touched⟩ ⟨finishAll enc d.files d.writers, []⟩ := by
  rcases hc : st.cur with _ | ⟨p, k⟩
  · rw [h.closed hc]
    exact ⟨h.outs, h.untouched, fun q hq _ => h.done q hq (fun k hk => by rw [hc] at hk; cases hk), fun _ => rfl, fun _ _ hk => by cases hk⟩
  · obtain ⟨h0, w', h1, h2, h3, h4⟩ := h.live p k hc
    rw [h1]
    show Holds _ _ _ _ _ ⟨w'.finish enc d.files, []⟩
    refine ⟨h.outs, fun q hq => ?_, fun q hq _ => ?_, fun _ => rfl, fun _ _ hk => by cases hk⟩
    · have : q ≠ w'.path := by rintro rfl; rw [h2] at hq; exact hq h0
      exact ⟨(finish_of_ne this).trans (h.untouched q hq).1, (h.untouched q hq).2⟩
    · by_cases hq' : q = p
      · subst hq'
        have := h4.finish
        rw [h2] at this
        exact ⟨w'.chunks, h3, this⟩
      · obtain ⟨ws, g1, g2⟩ := h.done q hq (fun j hj => by rw [hc, Option.some.injEq, Prod.mk.injEq] at hj; exact hq' hj.1.symm)
        exact ⟨ws, g1, (finish_of_ne (by rw [h2]; exact hq')).trans g2⟩

theorem Holds.dropNew (h : Holds enc raw0 fs0 outs st d) : Holds enc raw0 fs0 outs ⟨st.fs, none, st.touched⟩
    ⟨finishAll enc d.files (d.writers.take 1), d.writers.drop 1⟩ := by
  have h1 : d.writers.take 1 = d.writers ∧ d.writers.drop 1 = [] := by
    rcases hc : st.cur with _ | ⟨p, k⟩
    · rw [h.closed hc]; exact ⟨rfl, rfl⟩
    · obtain ⟨-, w', h1, -⟩ := h.live p k hc
      rw [h1]; exact ⟨rfl, rfl⟩
  rw [h1.1, h1.2]
  exact h.finish

/-- If a file is closed directly after it was opened. -/
theorem Half.dropNew (h : Half enc raw0 fs0 outs st p hd [hd] d) :
    ∃ st', st'.fs = st.fs.create p hd ∧ Holds enc raw0 fs0 outs st'
      ⟨finishAll enc d.files (d.writers.take 1), d.writers.drop 1⟩ := by
  obtain ⟨wn, old, h1, h2, h3, h4, ⟨raw, h5, h6, h7⟩, h8, h9⟩ := h.new
  rw [h1]
  show ∃ st', _ ∧ Holds enc raw0 fs0 outs st' ⟨wn.finish enc d.files, old⟩
  have hfin : wn.finish enc d.files p = some (enc.complete [hd]) := by
    unfold Writer.finish
    rw [h3]
    subst h2
    rw [put_inside h5 h6.pos_le, h6.finish]
  have hne : ∀ q, q ≠ p → wn.finish enc d.files q = d.files q := fun q hq => finish_of_ne (h2 ▸ hq)
  by_cases hsh : ∃ k, st.cur = some (p, k)
  · obtain ⟨k, hk⟩ := hsh
    obtain ⟨g1, w', g2, g3, g4, -, g6⟩ := h9 p k hk
    obtain ⟨g6, g7⟩ := g6 rfl
    refine ⟨⟨st.fs.create p hd, some (p, 0), p :: st.touched⟩, rfl, fun q hq => ?_, fun q hq => ?_, fun q hq hc => ?_,
      fun hc => (by cases hc), fun q j hc => ?_⟩
    · rcases List.mem_cons.1 hq with rfl | hq
      · exact h.mayOpen.out
      · exact h.outs q hq
    · obtain ⟨e1, e2⟩ := (not_or.1 (fun h' => hq (List.mem_cons.2 h')) : q ≠ p ∧ q ∉ st.touched)
      exact ⟨(hne q e1).trans (h.untouched q e2 e1).1, (create_done st p hd e1).trans (h.untouched q e2 e1).2⟩
    · have hqp : q ≠ p := by rintro rfl; exact hc _ rfl
      obtain ⟨ws, e1, e2⟩ := h.done q ((List.mem_cons.1 hq).resolve_left hqp) hqp (fun j hj => by
        rw [hk, Option.some.injEq, Prod.mk.injEq] at hj; exact hqp hj.1.symm)
      exact ⟨ws, (create_done st p hd hqp).trans e1, (hne q hqp).trans e2⟩
    · have hc' : some (p, 0) = some (q, j) := hc
      rw [Option.some.injEq, Prod.mk.injEq] at hc'
      obtain ⟨rfl, rfl⟩ := hc'
      have hle := (enc.ends [hd]).length_le
      refine ⟨List.mem_cons_self, w', g2, g3, ?_, ⟨⟨enc.complete [hd], ?_, ?_, fun h0 => absurd h0 (by omega)⟩, ?_, fun _ => ⟨hd, g6⟩⟩⟩
      · show st.fs.create p hd p = _
        rw [create_self, g6]
        simp
      · rw [g3]; exact hfin
      · rw [g6]; exact ⟨by omega, Nat.le_refl _, rfl⟩
      · rw [g6]; exact g7
  · have hnp : ∀ k, st.cur ≠ some (p, k) := fun k hk => hsh ⟨k, hk⟩
    refine ⟨⟨st.fs.create p hd, st.cur, p :: st.touched⟩, rfl, fun q hq => ?_, fun q hq => ?_, fun q hq hc => ?_,
      h8, fun q j hc => ?_⟩
    · rcases List.mem_cons.1 hq with rfl | hq
      · exact h.mayOpen.out
      · exact h.outs q hq
    · obtain ⟨e1, e2⟩ := (not_or.1 (fun h' => hq (List.mem_cons.2 h')) : q ≠ p ∧ q ∉ st.touched)
      exact ⟨(hne q e1).trans (h.untouched q e2 e1).1, (create_done st p hd e1).trans (h.untouched q e2 e1).2⟩
    · by_cases hqp : q = p
      · subst hqp
        exact ⟨[hd], (create_self st q hd).trans (by simp), hfin⟩
      · obtain ⟨ws, e1, e2⟩ := h.done q ((List.mem_cons.1 hq).resolve_left hqp) hqp hc
        exact ⟨ws, (create_done st p hd hqp).trans e1, (hne q hqp).trans e2⟩
    · have hqp : q ≠ p := by rintro rfl; exact hnp j hc
      obtain ⟨g1, w', g2, g3, g4, g5, -⟩ := h9 q j hc
      exact ⟨List.mem_cons_of_mem _ g1, w', g2, g3, (create_done st p hd hqp).trans g4, (g5 hqp).congr (hne _ (g3 ▸ hqp))⟩

theorem exec_create {ops : List (FileOp P)} {files : FS P} (he : Exec enc d (.create p :: ops) files)
    (h : Holds enc raw0 fs0 outs st d) (hm : st.MayOpen outs p hd) :
    ∃ d', Half enc raw0 fs0 outs st p hd [] d' ∧ Exec enc d' ops files := by
  generalize hops : FileOp.create p :: ops = l at he
  induction he with
  | emit hi _ ih => exact ih (h.emit hi _) hops
  | create he _ =>
    obtain ⟨h1, rfl⟩ := List.cons.inj hops
    cases h1
    exact ⟨_, h.create hm, he⟩
  | _ => cases hops

theorem exec_header {ops : List (FileOp P)} {files : FS P} (he : Exec enc d (.write hd :: ops) files)
    (h : Half enc raw0 fs0 outs st p hd [] d) :
    ∃ d', Half enc raw0 fs0 outs st p hd [hd] d' ∧ Exec enc d' ops files := by
  generalize hops : FileOp.write hd :: ops = l at he
  induction he with
  | emit hi _ ih => exact ih (h.emit (Or.inl rfl) hi _) hops
  | write hw he _ =>
    obtain ⟨h1, rfl⟩ := List.cons.inj hops
    cases h1
    exact ⟨_, h.write hw, he⟩
  | _ => cases hops

theorem exec_dropOld {ops : List (FileOp P)} {files : FS P} (he : Exec enc d (.dropOld :: ops) files)
    (h : Half enc raw0 fs0 outs st p hd [hd] d) :
    ∃ d', Holds enc raw0 fs0 outs (st.opened p hd) d' ∧ Exec enc d' ops files := by
  generalize hops : FileOp.dropOld :: ops = l at he
  induction he with
  | emit hi _ ih => exact ih (h.emit (Or.inr rfl) hi _) hops
  | dropOld he _ =>
    obtain ⟨-, rfl⟩ := List.cons.inj hops
    exact ⟨_, h.dropOld, he⟩
  | _ => cases hops

theorem exec_refused {ops : List (FileOp P)} {files : FS P} (he : Exec enc d (.dropNew :: ops) files)
    (h : Half enc raw0 fs0 outs st p hd [hd] d) :
    ∃ st' d', st'.fs = st.fs.create p hd ∧ Holds enc raw0 fs0 outs st' d' ∧ Exec enc d' ops files := by
  generalize hops : FileOp.dropNew :: ops = l at he
  induction he with
  | emit hi _ ih => exact ih (h.emit (Or.inr rfl) hi _) hops
  | dropNew he _ =>
    obtain ⟨-, rfl⟩ := List.cons.inj hops
    obtain ⟨st', h1, h2⟩ := h.dropNew
    exact ⟨st', _, h1, h2, he⟩
  | _ => cases hops

theorem exec_write {ops : List (FileOp P)} {files : FS P} {data : Bytes} (he : Exec enc d (.write data :: ops) files)
    (h : Holds enc raw0 fs0 outs st d) {k : Nat} (hc : st.cur = some (p, k + 1)) :
    ∃ d', Holds enc raw0 fs0 outs ⟨st.fs.append p data, some (p, k + 2), st.touched⟩ d' ∧ Exec enc d' ops files := by
  generalize hops : FileOp.write data :: ops = l at he
  induction he with
  | emit hi _ ih => exact ih (h.emit hi _) hops
  | write hw he _ =>
    obtain ⟨h1, rfl⟩ := List.cons.inj hops
    cases h1
    exact ⟨_, h.write hc hw data, he⟩
  | _ => cases hops

theorem exec_drop {ops : List (FileOp P)} {files : FS P} (he : Exec enc d (.dropNew :: ops) files)
    (h : Holds enc raw0 fs0 outs st d) :
    ∃ d', Holds enc raw0 fs0 outs ⟨st.fs, none, st.touched⟩ d' ∧ Exec enc d' ops files := by
  generalize hops : FileOp.dropNew :: ops = l at he
  induction he with
  | emit hi _ ih => exact ih (h.emit hi _) hops
  | dropNew he _ =>
    obtain ⟨-, rfl⟩ := List.cons.inj hops
    exact ⟨_, h.dropNew, he⟩
  | _ => cases hops

theorem exec_finished {files : FS P} (he : Exec enc d [] files) (h : Holds enc raw0 fs0 outs st d) :
    ∀ q, (files q = raw0 q ∧ st.fs q = fs0 q) ∨
      q ∈ outs ∧ ∃ ws : List Bytes, st.fs q = some ws.flatten ∧ files q = some (enc.complete ws) := by
  generalize hops : ([] : List (FileOp P)) = l at he
  induction he with
  | emit hi _ ih => exact ih (h.emit hi _) hops
  | finished =>
    intro q
    have h' := h.finish
    by_cases hq : q ∈ st.touched
    · exact Or.inr ⟨h.outs q hq, h'.done q hq fun k hk => by cases hk⟩
    · exact Or.inl (h'.untouched q hq)
  | _ => cases hops

/-- All files after an execution. -/
theorem ends_compressed {ops : List (FileOp P)} {fs files : FS P} (ht : Ends outs st ops fs) (h : Holds enc raw0 fs0 outs st d)
    (he : Exec enc d ops files) : ∀ q, (files q = raw0 q ∧ fs q = fs0 q) ∨
      q ∈ outs ∧ ∃ ws : List Bytes, fs q = some ws.flatten ∧ files q = some (enc.complete ws) := by
  induction ht generalizing d with
  | done => exact exec_finished he h
  | refused hm =>
    obtain ⟨d1, h1, he⟩ := exec_create he h hm
    obtain ⟨d2, h2, he⟩ := exec_header he h1
    obtain ⟨st', d3, hst, h3, he⟩ := exec_refused he h2
    rw [← hst]
    exact exec_finished he h3
  | opened hm _ ih =>
    obtain ⟨d1, h1, he⟩ := exec_create he h hm
    obtain ⟨d2, h2, he⟩ := exec_header he h1
    obtain ⟨d3, h3, he⟩ := exec_dropOld he h2
    exact ih h3 he
  | write hc _ ih =>
    obtain ⟨d1, h1, he⟩ := exec_write he h hc
    exact ih h1 he
  | drop _ ih =>
    obtain ⟨d1, h1, he⟩ := exec_drop he h
    exact ih h1 he

theorem holds_start (raw0 fs0 : FS P) : Holds enc raw0 fs0 outs ⟨fs0, none, []⟩ ⟨raw0, []⟩ :=
  ⟨fun _ h => absurd h (by simp), fun _ _ => ⟨rfl, rfl⟩, fun _ h => absurd h (by simp), fun _ => rfl, fun _ _ h => by cases h⟩

/-- There is always an execution. -/
theorem ends_possible {ops : List (FileOp P)} {fs : FS P} (ht : Ends outs st ops fs) (d : Disk P)
    (hd : ∀ p k, st.cur = some (p, k) → d.writers ≠ []) : ∃ files, Exec enc d ops files := by
  induction ht generalizing d with
  | done => exact ⟨_, .finished⟩
  | refused hm => exact ⟨_, .create (.write rfl (.dropNew .finished))⟩
  | opened hm _ ih =>
    have h1 := fun files (w : Writer P) => ih ⟨files, [w]⟩ (fun _ _ _ => by simp)
    obtain ⟨files, h⟩ := h1 _ _
    exact ⟨files, .create (.write rfl (.dropOld h))⟩
  | write hc _ ih =>
    cases hw : d.writers with
    | nil => exact absurd hw (hd _ _ hc)
    | cons w ws =>
      have h1 := fun files (w : Writer P) => ih ⟨files, w :: ws⟩ (fun _ _ _ => by simp)
      obtain ⟨files, h⟩ := h1 _ _
      exact ⟨files, .write hw h⟩
  | drop _ ih =>
    obtain ⟨files, h⟩ := ih ⟨_, _⟩ (fun _ _ hk => by cases hk)
    exact ⟨files, .dropNew h⟩

theorem _root_.Cres.Ends.create_mem {ops : List (FileOp P)} {fs : FS P} (h : Ends outs st ops fs) :
    ∀ p, .create p ∈ ops → p ∈ outs := by
  induction h with
  | done => simp
  | refused hm =>
    intro p hp
    simp only [List.mem_cons, FileOp.create.injEq, reduceCtorEq, List.not_mem_nil, or_false] at hp
    rw [hp]; exact hm.out
  | opened hm _ ih =>
    intro p hp
    simp only [List.mem_cons, FileOp.create.injEq, reduceCtorEq, false_or] at hp
    rcases hp with rfl | hp
    · exact hm.out
    · exact ih p hp
  | write _ _ ih =>
    intro p hp
    simp only [List.mem_cons, reduceCtorEq, false_or] at hp
    exact ih p hp
  | drop _ ih =>
    intro p hp
    simp only [List.mem_cons, reduceCtorEq, false_or] at hp
    exact ih p hp

/-- Other files than output files do not change. -/
theorem faulty_other {ops : List (FileOp P)} {files : FS P} (he : Faulty d ops files) (hc : ∀ p, .create p ∈ ops → p ∈ outs)
    (hw : ∀ w ∈ d.writers, w.path ∈ outs) : ∀ q, q ∉ outs → files q = d.files q := by
  induction he with
  | stopped => exact fun _ _ => rfl
  | disturbed h _ ih =>
    exact fun q hq => (ih hc hw q hq).trans (h q fun w hw' heq => hq (heq ▸ hw w hw'))
  | @create d p ops files _ ih =>
    intro q hq
    have hp := hc p List.mem_cons_self
    refine (ih (fun p' hp' => hc p' (List.mem_cons_of_mem _ hp')) (fun w hw' => ?_) q hq).trans
      (Function.update_of_ne (by rintro rfl; exact hq hp) _ _)
    rcases List.mem_cons.1 hw' with rfl | hw'
    · exact hp
    · exact hw w hw'
  | write _ ih => exact ih (fun p' hp' => hc p' (List.mem_cons_of_mem _ hp')) hw
  | dropOld _ ih =>
    exact ih (fun p' hp' => hc p' (List.mem_cons_of_mem _ hp')) (fun w hw' => hw w (List.mem_of_mem_take hw'))
  | dropNew _ ih =>
    exact ih (fun p' hp' => hc p' (List.mem_cons_of_mem _ hp')) (fun w hw' => hw w (List.mem_of_mem_drop hw'))

theorem finishAll_of_ne (ws : List (Writer P)) : ∀ (files : FS P) (q : P), (∀ w ∈ ws, w.path ≠ q) →
    finishAll enc files ws q = files q := by
  induction ws with
  | nil => exact fun _ _ _ => rfl
  | cons w ws ih =>
    intro files q hq
    show finishAll enc (w.finish enc files) ws q = _
    rw [ih _ _ fun w' hw' => hq w' (List.mem_cons_of_mem _ hw')]
    exact finish_of_ne (Ne.symm (hq w List.mem_cons_self))

/-- The content of the writers plays no role. -/
theorem Faulty.paths {d d' : Disk P} {ops : List (FileOp P)} {files : FS P} (h : Faulty d ops files) (hf : d'.files = d.files)
    (hp : d'.writers.map Writer.path = d.writers.map Writer.path) : Faulty d' ops files := by
  induction h generalizing d' with
  | stopped => rw [← hf]; exact .stopped
  | @disturbed d files files' ops h _ ih =>
    refine .disturbed (files := files) (fun q hq => ?_) (ih rfl hp)
    rw [hf]
    refine h q fun w hw heq => ?_
    have := List.mem_map_of_mem (f := Writer.path) hw
    rw [← hp] at this
    obtain ⟨w', hw', he⟩ := List.mem_map.1 this
    exact hq w' hw' (he.trans heq)
  | create _ ih => exact .create (ih (by rw [hf]) (by rw [List.map_cons, List.map_cons, hp]))
  | write _ ih => exact .write (ih hf hp)
  | dropOld _ ih => exact .dropOld (ih hf (by rw [List.map_take, List.map_take, hp]))
  | dropNew _ ih => exact .dropNew (ih hf (by rw [List.map_drop, List.map_drop, hp]))

/-- Executions without failures are among them. -/
theorem Exec.faulty {ops : List (FileOp P)} {files : FS P} (h : Exec enc d ops files) : Faulty d ops files := by
  induction h with
  | finished => exact .disturbed (fun q hq => finishAll_of_ne _ _ q hq) .stopped
  | @emit d i n w ops files hi _ ih =>
    refine .disturbed (files := (w.emit enc d.files n).1)
      (fun q hq => put_of_ne (Ne.symm (hq w (List.mem_of_getElem? hi)))) (ih.paths rfl ?_)
    obtain ⟨p1, -, -⟩ := put_path d.files w (((enc.out w.chunks).drop w.pos).take n)
    rw [List.map_set]
    refine List.ext_getElem? fun j => ?_
    rw [List.getElem?_set]
    split_ifs with h1 h2
    · subst h1
      rw [List.getElem?_map, hi]
      exact congrArg some p1.symm
    · subst h1
      rw [List.getElem?_map, hi]
      rw [List.length_map] at h2
      exact absurd (List.getElem?_eq_some_iff.1 hi).1 h2
    · rfl
  | create _ ih => exact .create ih
  | write hw _ ih =>
    refine .write (ih.paths rfl ?_)
    rw [hw]; rfl
  | @dropOld d ops files _ ih =>
    exact .disturbed (fun q hq => finishAll_of_ne _ _ q fun w hw => hq w (List.mem_of_mem_drop hw)) (.dropOld ih)
  | @dropNew d ops files _ ih =>
    exact .disturbed (fun q hq => finishAll_of_ne _ _ q fun w hw => hq w (List.mem_of_mem_take hw)) (.dropNew ih)

end Compressed

end Cres

import Verif.Model.Disk

/-!
Lemmas about writing to files with a buffer.
-/

set_option linter.unusedSectionVars false

namespace Cres

variable {P : Type*} [DecidableEq P]

theorem writeAt_take {C data : Bytes} {pos L : Nat} (hL : L ≤ C.length) (hp : pos ≤ L) (hd : data <+: C.drop pos) :
    writeAt (C.take L) pos data = C.take (max L (pos + data.length)) := by
  obtain ⟨rest, hr⟩ := hd
  have hC : C = C.take pos ++ data ++ rest := by rw [List.append_assoc, hr, List.take_append_drop]
  have hlen : (C.take L).length = L := by rw [List.length_take]; omega
  have hlp : (C.take pos).length = pos := by rw [List.length_take]; omega
  unfold writeAt
  rw [hlen, Nat.sub_eq_zero_of_le hp, List.replicate_zero, List.append_nil, List.take_take, min_eq_left hp]
  have hle : pos + data.length ≤ C.length := by
    have := congrArg List.length hC
    simp only [List.length_append, hlp] at this
    omega
  have ht : C.take (pos + data.length) = C.take pos ++ data := by
    conv_lhs => rw [hC]
    rw [List.take_left']
    simp only [List.length_append, hlp]
  rcases le_total L (pos + data.length) with h | h
  · rw [max_eq_right h, ht, List.drop_eq_nil_of_le (by omega), List.append_nil]
  · rw [max_eq_left h, ← ht, List.drop_take]
    conv_rhs => rw [show L = (pos + data.length) + (L - (pos + data.length)) by omega, List.take_add]

/-- The file of `w` contains a part of `C` that reaches at least up to the position of `w`. -/
def At (C : Bytes) (files : FS P) (w : Writer P) (L : Nat) : Prop :=
  files w.path = some (C.take L) ∧ w.pos ≤ L ∧ L ≤ C.length

theorem put_other {files : FS P} {w : Writer P} {data : Bytes} {n : Nat} {q : P} (h : q ≠ w.path) :
    (w.put files data n).1 q = files q := by
  unfold Writer.put
  split_ifs
  · rfl
  · exact Function.update_of_ne h _ _

theorem put_writer {files : FS P} {w : Writer P} {data : Bytes} {n : Nat} :
    (w.put files data n).2 = { w with pos := w.pos + (data.take n).length } := by
  unfold Writer.put
  split_ifs with h
  · rw [h]
    rfl
  · rfl

theorem put_at {C data : Bytes} {files : FS P} {w : Writer P} {L : Nat} (h : At C files w L) (hd : data <+: C.drop w.pos)
    (n : Nat) : At C (w.put files data n).1 (w.put files data n).2 (max L (w.pos + (data.take n).length)) := by
  obtain ⟨h1, h2, h3⟩ := h
  have hd' : data.take n <+: C.drop w.pos := (List.take_prefix _ _).trans hd
  have hle : w.pos + (data.take n).length ≤ C.length := by
    have := hd'.length_le
    rw [List.length_drop] at this
    omega
  refine ⟨?_, ?_, by omega⟩
  · rw [put_writer]
    unfold Writer.put
    split_ifs with hn
    · rw [hn]
      simp only [List.length_nil, Nat.add_zero, max_eq_left h2]
      exact h1
    · simp only [Function.update_self, Option.some.injEq]
      rw [h1, Option.getD_some, writeAt_take h3 h2 hd']
  · rw [put_writer]
    simp only
    omega

theorem prefix_drop_add {C data : Bytes} {pos : Nat} (hd : data <+: C.drop pos) (n : Nat) :
    data.drop n <+: C.drop (pos + (data.take n).length) := by
  obtain ⟨rest, hr⟩ := hd
  refine ⟨rest, ?_⟩
  rw [← List.drop_drop, ← hr]
  conv_rhs => rw [← List.take_append_drop n data, List.append_assoc]
  rw [List.drop_left' (by simp)]

/-- The rest of the buffer of `w` belongs at its position of `C`. -/
structure Fits (C : Bytes) (files : FS P) (w : Writer P) (L : Nat) : Prop where
  content : At C files w L
  buf : w.buf <+: C.drop w.pos

theorem flush_other {files : FS P} {w : Writer P} {n : Nat} {q : P} (h : q ≠ w.path) : (w.flush files n).1 q = files q :=
  put_other h

theorem flush_nil {files : FS P} {w : Writer P} {n : Nat} (h : w.buf = []) : w.flush files n = (files, w) := by
  unfold Writer.flush Writer.put
  rw [h]
  simp only [List.take_nil, if_true, List.drop_nil]
  rw [← h]

theorem flush_writer {files : FS P} {w : Writer P} {n : Nat} :
    (w.flush files n).2 = { w with pos := w.pos + (w.buf.take n).length, buf := w.buf.drop n } := by
  unfold Writer.flush
  rw [put_writer]

theorem flush_fits {C : Bytes} {files : FS P} {w : Writer P} {L : Nat} (h : Fits C files w L) (n : Nat) :
    Fits C (w.flush files n).1 (w.flush files n).2 (max L (w.pos + (w.buf.take n).length)) := by
  have h1 := put_at h.content h.buf n
  refine ⟨⟨?_, ?_, h1.2.2⟩, ?_⟩
  · have := h1.1
    rw [put_writer] at this
    rw [flush_writer]
    exact this
  · have := h1.2.1
    rw [put_writer] at this
    rw [flush_writer]
    exact this
  · rw [flush_writer]
    exact prefix_drop_add h.buf n

/-! ### interrupted executions -/

/-- Files have their original content, or they are output files and contain the first part of what is to be written, and
buffers contain what comes next in the file. -/
structure Weak (C : P → Bytes) (fs0 : FS P) (outs : List P) (files : FS P) (ws : List (Writer P)) : Prop where
  content : ∀ p, files p = fs0 p ∨ p ∈ outs ∧ ∃ L ≤ (C p).length, files p = some ((C p).take L)
  writers : ∀ w ∈ ws, w.path ∈ outs ∧ (w.buf = [] ∨ ∃ L, Fits (C w.path) files w L)

theorem weak_grow {C : P → Bytes} {fs0 : FS P} {outs : List P} {files files' : FS P} {ws : List (Writer P)}
    (h : Weak C fs0 outs files ws) {p : P} (hp : p ∈ outs) (ho : ∀ q, q ≠ p → files' q = files q) {L L' : Nat}
    (hL : files p = some ((C p).take L)) (hlt : L ≤ (C p).length) (hL' : files' p = some ((C p).take L'))
    (hlt' : L' ≤ (C p).length) (hle : L ≤ L') : Weak C fs0 outs files' ws := by
  constructor
  · intro q
    by_cases hq : q = p
    · subst hq
      exact Or.inr ⟨hp, L', hlt', hL'⟩
    · rw [ho q hq]
      exact h.content q
  · intro w hw
    obtain ⟨h1, h2⟩ := h.writers w hw
    refine ⟨h1, ?_⟩
    rcases h2 with h2 | ⟨l, ⟨g1, g2, g3⟩, g4⟩
    · exact Or.inl h2
    · refine Or.inr ?_
      by_cases hq : w.path = p
      · refine ⟨L', ⟨by rw [hq]; exact hL', ?_, by rw [hq]; exact hlt'⟩, g4⟩
        rw [hq, hL, Option.some.injEq] at g1
        have := congrArg List.length g1
        rw [hq] at g3
        rw [List.length_take, List.length_take] at this
        omega
      · exact ⟨l, ⟨by rw [ho _ hq]; exact g1, g2, g3⟩, g4⟩

theorem weak_flush {C : P → Bytes} {fs0 : FS P} {outs : List P} {files : FS P} {w : Writer P} {ws : List (Writer P)}
    (h : Weak C fs0 outs files (w :: ws)) (n : Nat) : Weak C fs0 outs (w.flush files n).1 ((w.flush files n).2 :: ws) := by
  obtain ⟨h1, h2⟩ := h.writers w List.mem_cons_self
  rcases h2 with h2 | ⟨L, h2⟩
  · rw [flush_nil h2]
    exact h
  · have h3 := flush_fits h2 n
    have hpath : (w.flush files n).2.path = w.path := by rw [flush_writer]
    have h4 : Weak C fs0 outs (w.flush files n).1 ws := by
      refine weak_grow ⟨h.content, fun w' hw' => h.writers w' (List.mem_cons_of_mem _ hw')⟩ h1 (fun q hq => flush_other hq)
        h2.content.1 h2.content.2.2 ?_ h3.content.2.2 (le_max_left _ _)
      have := h3.content.1
      rw [hpath] at this
      exact this
    refine ⟨h4.content, ?_⟩
    intro w' hw'
    rcases List.mem_cons.1 hw' with rfl | hw'
    · rw [hpath]
      exact ⟨h1, Or.inr ⟨_, h3⟩⟩
    · exact h4.writers w' hw'

theorem weak_dropped {C : P → Bytes} {fs0 : FS P} {outs : List P} {faults : Bool} {files files' : FS P} {ws : List (Writer P)}
    (hd : Dropped faults files ws files') (h : Weak C fs0 outs files ws) : Weak C fs0 outs files' [] := by
  induction hd with
  | nil => exact h
  | cons n _ _ ih =>
    have := weak_flush h n
    exact ih ⟨this.content, fun w' hw' => this.writers w' (List.mem_cons_of_mem _ hw')⟩

theorem weak_dropped_rest {C : P → Bytes} {fs0 : FS P} {outs : List P} {faults : Bool} {files files' : FS P}
    {ws rest : List (Writer P)} (hd : Dropped faults files ws files') (h : Weak C fs0 outs files (ws ++ rest)) :
    Weak C fs0 outs files' rest := by
  induction hd with
  | nil => exact h
  | cons n _ _ ih =>
    have := weak_flush (by exact h) n
    exact ih ⟨this.content, fun w' hw' => this.writers w' (List.mem_cons_of_mem _ hw')⟩

/-- What a call of `write_all` does, for a writer to which `c` was written before. -/
theorem write_step {cap : Nat} {faults b : Bool} {files : FS P} {w : Writer P} {ws : List (Writer P)} {data : Bytes} {d' : Disk P}
    (h : Disk.Step cap faults ⟨files, w :: ws⟩ (.write data) b d') {c : Bytes} {L : Nat} (hf : Fits c files w L)
    (hl : w.pos + w.buf.length = c.length) :
    ∃ w' L', d'.writers = w' :: ws ∧ w'.path = w.path ∧ (∀ q, q ≠ w.path → d'.files q = files q) ∧ L ≤ L' ∧
      Fits (c ++ data) d'.files w' L' ∧
      (b = true → w'.pos + w'.buf.length = (c ++ data).length ∧ (w.buf.length ≤ cap → w'.buf.length ≤ cap) ∧
        (w.pos = 0 → w.buf = [] → w'.pos = 0 ∨ w'.buf = [])) := by
  obtain ⟨⟨h1, h2, h3⟩, h4⟩ := hf
  have hbuf : w.buf = c.drop w.pos := h4.eq_of_length (by rw [List.length_drop]; omega)
  have hposle : w.pos ≤ c.length := by omega
  have hf' : Fits (c ++ data) files w L := by
    refine ⟨⟨?_, h2, by rw [List.length_append]; omega⟩, ?_⟩
    · rw [h1, List.take_append_of_le_length h3]
    · rw [List.drop_append_of_le_length hposle, ← hbuf]
      exact List.prefix_append _ _
  cases h with
  | buffered hfit =>
    refine ⟨{ w with buf := w.buf ++ data }, L, rfl, rfl, fun _ _ => rfl, le_rfl, ⟨hf'.content, ?_⟩, fun _ => ⟨?_, ?_, ?_⟩⟩
    · show w.buf ++ data <+: (c ++ data).drop w.pos
      rw [List.drop_append_of_le_length hposle, ← hbuf]
      exact List.prefix_rfl
    · simp only [List.length_append]
      omega
    · intro _
      simp only [Writer.fits, Bool.and_eq_true, decide_eq_true_eq] at hfit
      simp only [List.length_append]
      exact hfit.1
    · intro hp _
      exact Or.inl hp
  | @flushFails _ _ _ _ n hfit _ hn =>
    refine ⟨_, _, rfl, by rw [flush_writer], fun q hq => flush_other hq, le_max_left _ _, flush_fits hf' n, fun hb => ?_⟩
    cases hb
  | flushed hfit hcap =>
    have h5 := flush_fits hf' w.buf.length
    have hw2 := flush_writer (files := files) (w := w) (n := w.buf.length)
    rw [List.take_length, List.drop_length] at hw2
    have hpath : (w.flush files w.buf.length).2.path = w.path := by rw [hw2]
    refine ⟨_, _, rfl, hpath, fun q hq => flush_other hq, le_max_left _ _, ⟨h5.content, ?_⟩, fun _ => ⟨?_, ?_, ?_⟩⟩
    · rw [hw2]
      simp only
      rw [hl, List.drop_left]
      exact List.prefix_rfl
    · rw [hw2]
      simp only [List.length_append]
      omega
    · intro _
      exact hcap.le
    · intro hp hb
      rw [hw2]
      simp only [hp, hb, List.length_nil]
      exact Or.inl trivial
  | @direct _ _ _ _ n hfit hcap hn hfa =>
    have h5 := flush_fits hf' w.buf.length
    have hw2 := flush_writer (files := files) (w := w) (n := w.buf.length)
    rw [List.take_length, List.drop_length] at hw2
    have hd : data <+: (c ++ data).drop (w.flush files w.buf.length).2.pos := by
      rw [hw2]
      simp only
      rw [hl, List.drop_left]
      exact List.prefix_rfl
    have h6 := put_at h5.content hd n
    have hw3 := put_writer (files := (w.flush files w.buf.length).1) (w := (w.flush files w.buf.length).2) (data := data) (n := n)
    have hpath2 : (w.flush files w.buf.length).2.path = w.path := by rw [hw2]
    have hbnil : ((w.flush files w.buf.length).2.put (w.flush files w.buf.length).1 data n).2.buf = [] := by
      rw [hw3, hw2]
    refine ⟨_, _, rfl, by rw [hw3, hw2], fun q hq => ?_, (le_max_left _ _).trans (le_max_left _ _), ⟨h6, ?_⟩, fun hb => ⟨?_, ?_, ?_⟩⟩
    · show ((w.flush files w.buf.length).2.put (w.flush files w.buf.length).1 data n).1 q = files q
      rw [put_other (by rw [hpath2]; exact hq), flush_other hq]
    · rw [hbnil]
      exact List.nil_prefix
    · have hb : n = data.length := by simpa using hb
      rw [hbnil, hw3, hw2, hb]
      simp only [List.length_nil, List.take_length, List.length_append]
      omega
    · intro _
      rw [hbnil]
      exact Nat.zero_le _
    · intro _ _
      exact Or.inr hbnil

theorem fits_extend {c C : Bytes} {files : FS P} {w : Writer P} {L : Nat} (h : Fits c files w L) (hp : c <+: C) :
    Fits C files w L := by
  obtain ⟨⟨h1, h2, h3⟩, h4⟩ := h
  obtain ⟨r, rfl⟩ := hp
  refine ⟨⟨?_, h2, by rw [List.length_append]; omega⟩, ?_⟩
  · rw [h1, List.take_append_of_le_length h3]
  · rw [List.drop_append_of_le_length (h2.trans h3)]
    exact h4.trans (List.prefix_append _ _)

theorem weak_write {C : P → Bytes} {fs0 : FS P} {outs : List P} {files : FS P} {w : Writer P} {ws : List (Writer P)}
    (h : Weak C fs0 outs files (w :: ws)) {cap : Nat} {faults b : Bool} {data : Bytes} {d' : Disk P}
    (hs : Disk.Step cap faults ⟨files, w :: ws⟩ (.write data) b d') {c : Bytes} {L : Nat} (hf : Fits c files w L)
    (hl : w.pos + w.buf.length = c.length) (hC : c ++ data <+: C w.path) : Weak C fs0 outs d'.files d'.writers := by
  obtain ⟨w', L', h1, h2, h3, h4, h5, -⟩ := write_step hs hf hl
  have hw := (h.writers w List.mem_cons_self).1
  have g1 := fits_extend hf ((List.prefix_append c data).trans hC)
  have g2 := fits_extend h5 hC
  have h6 : Weak C fs0 outs d'.files ws := by
    refine weak_grow ⟨h.content, fun w' hw' => h.writers w' (List.mem_cons_of_mem _ hw')⟩ hw h3 g1.content.1 g1.content.2.2 ?_
      g2.content.2.2 h4
    have := g2.content.1
    rw [h2] at this
    exact this
  refine ⟨h6.content, ?_⟩
  rw [h1]
  intro w1 hw1
  rcases List.mem_cons.1 hw1 with rfl | hw1
  · rw [h2]
    exact ⟨hw, Or.inr ⟨L', g2⟩⟩
  · exact h6.writers w1 hw1

/-! ### the relation to writing without buffer -/

/-- Relation between the files if everything were written at once (`ideal`), the actual files and the writers. -/
structure Agree (cap : Nat) (faults : Bool) (fs0 : FS P) (outs touched : List P) (ideal files : FS P) (ws : List (Writer P)) :
    Prop where
  untouched : ∀ p, p ∉ touched → files p = fs0 p ∧ ideal p = fs0 p
  content : ∀ p ∈ touched, p ∈ outs ∧ ∃ c L, ideal p = some c ∧ files p = some (c.take L) ∧ L ≤ c.length ∧ c.length ≤ L + cap ∧
    (faults = false → L = c.length ∨ ∃ w ∈ ws, w.path = p ∧ w.pos ≤ L ∧ w.pos + w.buf.length = c.length)
  writers : ∀ w ∈ ws, w.path ∈ touched ∧ (w.buf = [] ∨ ∃ c L, ideal w.path = some c ∧ Fits c files w L)

theorem Agree.weak {cap : Nat} {faults : Bool} {fs0 : FS P} {outs touched : List P} {ideal files : FS P} {ws : List (Writer P)}
    (h : Agree cap faults fs0 outs touched ideal files ws) {C : P → Bytes}
    (hC : ∀ p ∈ touched, ∀ c, ideal p = some c → c <+: C p) : Weak C fs0 outs files ws := by
  constructor
  · intro p
    by_cases hp : p ∈ touched
    · obtain ⟨h1, c, L, h2, h3, h4, -⟩ := h.content p hp
      have h5 := hC p hp c h2
      refine Or.inr ⟨h1, L, h4.trans h5.length_le, ?_⟩
      rw [h3]
      obtain ⟨r, hr⟩ := h5
      rw [← hr, List.take_append_of_le_length h4]
    · exact Or.inl (h.untouched p hp).1
  · intro w hw
    obtain ⟨h1, h2⟩ := h.writers w hw
    refine ⟨(h.content _ h1).1, ?_⟩
    rcases h2 with h2 | ⟨c, L, h2, h3⟩
    · exact Or.inl h2
    · exact Or.inr ⟨L, fits_extend h3 (hC _ h1 c h2)⟩

/-- Removing a writer. -/
theorem Agree.drop {cap : Nat} {faults : Bool} {fs0 : FS P} {outs touched : List P} {ideal files : FS P}
    {ws1 ws2 : List (Writer P)} {w : Writer P} (h : Agree cap faults fs0 outs touched ideal files (ws1 ++ w :: ws2)) {n : Nat}
    (hn : faults = false → w.buf.length ≤ n) :
    Agree cap faults fs0 outs touched ideal (w.flush files n).1 (ws1 ++ ws2) := by
  have hsub : ∀ w' ∈ ws1 ++ ws2, w' ∈ ws1 ++ w :: ws2 := by
    intro w' hw'
    rcases List.mem_append.1 hw' with g | g
    · exact List.mem_append_left _ g
    · exact List.mem_append_right _ (List.mem_cons_of_mem _ g)
  obtain ⟨hw, hb⟩ := h.writers w (List.mem_append_right _ List.mem_cons_self)
  rcases hb with hb | ⟨c, L, hc, hfit⟩
  · rw [flush_nil hb]
    refine ⟨h.untouched, ?_, fun w' hw' => h.writers w' (hsub w' hw')⟩
    intro p hp
    obtain ⟨g1, c, L, g2, g3, g4, g5, g6⟩ := h.content p hp
    refine ⟨g1, c, L, g2, g3, g4, g5, fun hfa => ?_⟩
    rcases g6 hfa with g6 | ⟨w', hw', k1, k2, k3⟩
    · exact Or.inl g6
    · rcases List.mem_append.1 hw' with g | g
      · exact Or.inr ⟨w', List.mem_append_left _ g, k1, k2, k3⟩
      · rcases List.mem_cons.1 g with rfl | g
        · rw [hb, List.length_nil] at k3
          exact Or.inl (by omega)
        · exact Or.inr ⟨w', List.mem_append_right _ g, k1, k2, k3⟩
  · have h3 := flush_fits hfit n
    have hpath : (w.flush files n).2.path = w.path := by rw [flush_writer]
    have h4 := h3.content.1
    rw [hpath] at h4
    refine ⟨?_, ?_, ?_⟩
    · intro p hp
      rw [flush_other (by rintro rfl; exact hp hw)]
      exact h.untouched p hp
    · intro p hp
      obtain ⟨g1, c', L', g2, g3, g4, g5, g6⟩ := h.content p hp
      by_cases hpw : p = w.path
      · subst hpw
        rw [hc, Option.some.injEq] at g2
        subst g2
        have hLL : L = L' := by
          have := hfit.content.1
          rw [g3, Option.some.injEq] at this
          have := congrArg List.length this
          rw [List.length_take, List.length_take] at this
          have := hfit.content.2.2
          omega
        subst hLL
        refine ⟨g1, c, _, hc, h4, h3.content.2.2, by omega, fun hfa => ?_⟩
        have hnn := hn hfa
        rw [List.take_of_length_le hnn]
        rcases g6 hfa with g6 | ⟨w', hw', k1, k2, k3⟩
        · left
          have h32 := h3.content.2.2
          rw [List.take_of_length_le hnn] at h32
          omega
        · rcases List.mem_append.1 hw' with g | g
          · exact Or.inr ⟨w', List.mem_append_left _ g, k1, by omega, k3⟩
          · rcases List.mem_cons.1 g with rfl | g
            · left
              have := hfit.content.2.2
              omega
            · exact Or.inr ⟨w', List.mem_append_right _ g, k1, by omega, k3⟩
      · refine ⟨g1, c', L', g2, by rw [flush_other hpw]; exact g3, g4, g5, fun hfa => ?_⟩
        rcases g6 hfa with g6 | ⟨w', hw', k1, k2, k3⟩
        · exact Or.inl g6
        · rcases List.mem_append.1 hw' with g | g
          · exact Or.inr ⟨w', List.mem_append_left _ g, k1, k2, k3⟩
          · rcases List.mem_cons.1 g with rfl | g
            · exact absurd k1.symm hpw
            · exact Or.inr ⟨w', List.mem_append_right _ g, k1, k2, k3⟩
    · intro w' hw'
      obtain ⟨k1, k2⟩ := h.writers w' (hsub w' hw')
      refine ⟨k1, ?_⟩
      rcases k2 with k2 | ⟨c', L', k2, k3⟩
      · exact Or.inl k2
      · refine Or.inr ⟨c', ?_⟩
        by_cases hpw : w'.path = w.path
        · rw [hpw, hc, Option.some.injEq] at k2
          subst k2
          refine ⟨_, by rw [hpw]; exact hc, ⟨by rw [hpw]; exact h4, ?_, h3.content.2.2⟩, k3.buf⟩
          have hLL : L = L' := by
            have := hfit.content.1
            have g3 := k3.content.1
            rw [hpw, this, Option.some.injEq] at g3
            have := congrArg List.length g3
            rw [List.length_take, List.length_take] at this
            have := hfit.content.2.2
            have := k3.content.2.2
            omega
          have := k3.content.2.1
          omega
        · exact ⟨L', k2, ⟨by rw [flush_other hpw]; exact k3.content.1, k3.content.2⟩, k3.buf⟩

/-- Other writers are not affected by removing one. -/
theorem Agree.fits_drop {cap : Nat} {faults : Bool} {fs0 : FS P} {outs touched : List P} {ideal files : FS P}
    {ws : List (Writer P)} {w w' : Writer P} (h : Agree cap faults fs0 outs touched ideal files ws) (hw : w ∈ ws) (n : Nat)
    {c : Bytes} {L : Nat} (hc : ideal w'.path = some c) (hf : Fits c files w' L) : ∃ L', Fits c (w.flush files n).1 w' L' := by
  obtain ⟨-, hb⟩ := h.writers w hw
  rcases hb with hb | ⟨c', M, hc', hfit⟩
  · rw [flush_nil hb]
    exact ⟨L, hf⟩
  · by_cases hpw : w'.path = w.path
    · rw [← hpw, hc, Option.some.injEq] at hc'
      subst hc'
      have h3 := flush_fits hfit n
      have hpath : (w.flush files n).2.path = w.path := by rw [flush_writer]
      have h4 := h3.content.1
      rw [hpath] at h4
      have hLL : M = L := by
        have := hfit.content.1
        have g3 := hf.content.1
        rw [hpw, this, Option.some.injEq] at g3
        have := congrArg List.length g3
        rw [List.length_take, List.length_take] at this
        have := hfit.content.2.2
        have := hf.content.2.2
        omega
      refine ⟨_, ⟨by rw [hpw]; exact h4, ?_, h3.content.2.2⟩, hf.buf⟩
      have := hf.content.2.1
      omega
    · exact ⟨L, ⟨by rw [flush_other hpw]; exact hf.content.1, hf.content.2⟩, hf.buf⟩

theorem Agree.fits_dropped {cap : Nat} {faults : Bool} {fs0 : FS P} {outs touched : List P} {ideal files files' : FS P}
    {ws1 ws : List (Writer P)} (hd : Dropped faults files ws files')
    (h : Agree cap faults fs0 outs touched ideal files (ws1 ++ ws)) {w' : Writer P} {c : Bytes} {L : Nat}
    (hc : ideal w'.path = some c) (hf : Fits c files w' L) : ∃ L', Fits c files' w' L' := by
  induction hd generalizing L with
  | nil => exact ⟨L, hf⟩
  | cons n hn _ ih =>
    obtain ⟨L', h1⟩ := h.fits_drop (List.mem_append_right _ List.mem_cons_self) n hc hf
    exact ih (h.drop hn) h1

theorem Agree.dropped {cap : Nat} {faults : Bool} {fs0 : FS P} {outs touched : List P} {ideal files files' : FS P}
    {ws1 ws : List (Writer P)} (hd : Dropped faults files ws files')
    (h : Agree cap faults fs0 outs touched ideal files (ws1 ++ ws)) : Agree cap faults fs0 outs touched ideal files' ws1 := by
  induction hd with
  | nil => rw [List.append_nil] at h; exact h
  | cons n hn _ ih => exact ih (h.drop hn)

/-- The writer `w` is the one to which all of `c` was written. -/
structure Live (cap : Nat) (files : FS P) (w : Writer P) (c : Bytes) (k : Nat) : Prop where
  fits : ∃ L, Fits c files w L
  length : w.pos + w.buf.length = c.length
  buf : w.buf.length ≤ cap
  header : k ≤ 1 → w.pos = 0 ∨ w.buf = []

theorem Agree.write {cap : Nat} {faults faults' : Bool} {fs0 : FS P} {outs touched : List P} {ideal files : FS P} {w : Writer P}
    (h : Agree cap faults fs0 outs touched ideal files [w]) {c : Bytes} {k : Nat} (hc : ideal w.path = some c)
    (hl : Live cap files w c (k + 1)) {data : Bytes} {d' : Disk P} (hs : Disk.Step cap faults' ⟨files, [w]⟩ (.write data) true d') :
    ∃ w', d'.writers = [w'] ∧ w'.path = w.path ∧ Live cap d'.files w' (c ++ data) (k + 2) ∧
      Agree cap faults fs0 outs touched (ideal.append w.path data) d'.files [w'] := by
  obtain ⟨L, hf⟩ := hl.fits
  obtain ⟨w', L', h1, h2, h3, h4, h5, h6⟩ := write_step hs hf hl.length
  obtain ⟨h7, h8, -⟩ := h6 rfl
  have hw := (h.writers w List.mem_cons_self).1
  have hid : ∀ q, q ≠ w.path → ideal.append w.path data q = ideal q := fun q hq => Function.update_of_ne hq _ _
  have hid2 : ideal.append w.path data w.path = some (c ++ data) := by
    unfold FS.append
    rw [Function.update_self, hc, Option.getD_some]
  refine ⟨w', h1, h2, ⟨⟨L', h5⟩, h7, h8 hl.buf, by omega⟩, ?_, ?_, ?_⟩
  · intro p hp
    have hne : p ≠ w.path := by rintro rfl; exact hp hw
    rw [h3 p hne, hid p hne]
    exact h.untouched p hp
  · intro p hp
    by_cases hpw : p = w.path
    · subst hpw
      refine ⟨(h.content _ hp).1, c ++ data, L', hid2, by rw [← h2]; exact h5.content.1, h5.content.2.2, ?_, fun _ => Or.inr
        ⟨w', List.mem_cons_self, h2, h5.content.2.1, h7⟩⟩
      have := h8 hl.buf
      have := h5.content.2.1
      omega
    · obtain ⟨g1, c', M, g2, g3, g4, g5, g6⟩ := h.content p hp
      refine ⟨g1, c', M, by rw [hid p hpw]; exact g2, by rw [h3 p hpw]; exact g3, g4, g5, fun hfa => ?_⟩
      rcases g6 hfa with g6 | ⟨w1, hw1, k1, -⟩
      · exact Or.inl g6
      · rw [List.mem_singleton] at hw1
        subst hw1
        exact absurd k1.symm hpw
  · intro w1 hw1
    rw [List.mem_singleton] at hw1
    subst hw1
    rw [h2]
    exact ⟨hw, Or.inr ⟨c ++ data, L', hid2, h5⟩⟩

/-- Creating a file with a header. -/
theorem Agree.create {cap : Nat} {faults faults' : Bool} {fs0 : FS P} {outs touched : List P} {ideal files : FS P}
    {ws : List (Writer P)} (h : Agree cap faults fs0 outs touched ideal files ws) {p : P} (hp : p ∈ outs) {header : Bytes}
    (hh : p ∈ touched → ideal p = some header) (hold : ∀ w ∈ ws, w.path = p → w.pos = 0 ∨ w.buf = []) {d' : Disk P}
    (hs : Disk.Step cap faults' ⟨Function.update files p (some []), ⟨p, 0, []⟩ :: ws⟩ (.write header) true d') :
    ∃ w', d'.writers = w' :: ws ∧ w'.path = p ∧ Live cap d'.files w' header 1 ∧
      Agree cap faults fs0 outs (p :: touched) (ideal.create p header) d'.files (w' :: ws) := by
  have hf : Fits [] (Function.update files p (some [])) ⟨p, 0, []⟩ 0 := ⟨⟨by simp, le_rfl, le_rfl⟩, List.nil_prefix⟩
  obtain ⟨w', L', h1, h2, h3, -, h5, h6⟩ := write_step hs hf rfl
  simp only [List.nil_append] at h5 h6 h2 h3
  obtain ⟨h7, h8, h9⟩ := h6 trivial
  have hid : ∀ q, q ≠ p → ideal.create p header q = ideal q := fun q hq => Function.update_of_ne hq _ _
  have hid2 : ideal.create p header p = some header := Function.update_self _ _ _
  have hfi : ∀ q, q ≠ p → d'.files q = files q := fun q hq => by rw [h3 q hq, Function.update_of_ne hq]
  refine ⟨w', h1, h2, ⟨⟨L', h5⟩, h7, h8 (Nat.zero_le _), fun _ => h9 trivial trivial⟩, ?_, ?_, ?_⟩
  · intro q hq
    have hne : q ≠ p := by rintro rfl; exact hq List.mem_cons_self
    rw [hfi q hne, hid q hne]
    exact h.untouched q fun hm => hq (List.mem_cons_of_mem _ hm)
  · intro q hq
    by_cases hqp : q = p
    · subst hqp
      refine ⟨hp, header, L', hid2, by rw [← h2]; exact h5.content.1, h5.content.2.2, ?_, fun _ => Or.inr
        ⟨w', List.mem_cons_self, h2, h5.content.2.1, h7⟩⟩
      have := h8 (Nat.zero_le _)
      have := h5.content.2.1
      omega
    · obtain ⟨g1, c', M, g2, g3, g4, g5, g6⟩ := h.content q (List.mem_of_ne_of_mem hqp hq)
      refine ⟨g1, c', M, by rw [hid q hqp]; exact g2, by rw [hfi q hqp]; exact g3, g4, g5, fun hfa => ?_⟩
      rcases g6 hfa with g6 | ⟨w1, hw1, k1⟩
      · exact Or.inl g6
      · exact Or.inr ⟨w1, List.mem_cons_of_mem _ hw1, k1⟩
  · intro w1 hw1
    rcases List.mem_cons.1 hw1 with rfl | hw1
    · rw [h2]
      exact ⟨List.mem_cons_self, Or.inr ⟨header, L', hid2, h5⟩⟩
    · obtain ⟨k1, k2⟩ := h.writers w1 hw1
      refine ⟨List.mem_cons_of_mem _ k1, ?_⟩
      rcases k2 with k2 | ⟨c, M, k2, k3⟩
      · exact Or.inl k2
      · by_cases hqp : w1.path = p
        · rcases hold w1 hw1 hqp with h0 | h0
          · rw [hqp] at k1 k2
            have := hh k1
            rw [k2, Option.some.injEq] at this
            subst this
            refine Or.inr ⟨c, L', by rw [hqp]; exact hid2, ⟨by rw [hqp, ← h2]; exact h5.content.1, by omega, h5.content.2.2⟩, k3.buf⟩
          · exact Or.inl h0
        · exact Or.inr ⟨c, M, by rw [hid _ hqp]; exact k2, ⟨by rw [hfi _ hqp]; exact k3.content.1, k3.content.2⟩, k3.buf⟩

end Cres

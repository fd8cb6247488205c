import Verif.Proofs.Disk

/-!
Executions of operations on files in the order in which the program performs them.
-/

set_option linter.unusedSectionVars false

namespace Cres

variable {P : Type*} [DecidableEq P]

/-- The files if everything is written at once, the file that is open with the number of pieces written to it, and all files
written so far. The number is 0 if the file was opened while it was already open. -/
structure Sketch (P : Type*) where
  fs : FS P
  cur : Option (P × Nat)
  touched : List P

/-- Whether the output file `p` with header `h` can be opened: if it was written before then it contains only its header. -/
structure Sketch.MayOpen (outs : List P) (st : Sketch P) (p : P) (h : Bytes) : Prop where
  out : p ∈ outs
  same : p ∈ st.touched → st.fs p = some h
  current : ∀ k, st.cur = some (p, k) → k ≤ 1

/-- The number of pieces written after opening `p`; nothing more is written if it was already open. -/
def Sketch.count (st : Sketch P) (p : P) : Nat := if st.cur.map Prod.fst = some p then 0 else 1

/-- The state after opening `p`. -/
def Sketch.opened (st : Sketch P) (p : P) (h : Bytes) : Sketch P := ⟨st.fs.create p h, some (p, st.count p), p :: st.touched⟩

theorem Sketch.count_le (st : Sketch P) (p : P) : st.count p ≤ 1 := by
  unfold Sketch.count
  split <;> omega

/-- Sequences of operations. -/
inductive Trace (outs : List P) : Sketch P → List (FileOp P) → Sketch P → Prop
  | nil {st : Sketch P} : Trace outs st [] st
  | opened {st st' : Sketch P} {p : P} {h : Bytes} {ops : List (FileOp P)} : st.MayOpen outs p h →
      Trace outs (st.opened p h) ops st' → Trace outs st (.create p :: .write h :: .dropOld :: ops) st'
  | write {st st' : Sketch P} {p : P} {k : Nat} {data : Bytes} {ops : List (FileOp P)} : st.cur = some (p, k + 1) →
      Trace outs ⟨st.fs.append p data, some (p, k + 2), st.touched⟩ ops st' → Trace outs st (.write data :: ops) st'
  | drop {st st' : Sketch P} {ops : List (FileOp P)} : Trace outs ⟨st.fs, none, st.touched⟩ ops st' →
      Trace outs st (.dropNew :: ops) st'

/-- Complete sequences of operations. -/
inductive Ends (outs : List P) : Sketch P → List (FileOp P) → FS P → Prop
  | done {st : Sketch P} : Ends outs st [] st.fs
  | refused {st : Sketch P} {p : P} {h : Bytes} : st.MayOpen outs p h →
      Ends outs st [.create p, .write h, .dropNew] (st.fs.create p h)
  | opened {st : Sketch P} {p : P} {h : Bytes} {ops : List (FileOp P)} {fs : FS P} : st.MayOpen outs p h →
      Ends outs (st.opened p h) ops fs → Ends outs st (.create p :: .write h :: .dropOld :: ops) fs
  | write {st : Sketch P} {p : P} {k : Nat} {data : Bytes} {ops : List (FileOp P)} {fs : FS P} : st.cur = some (p, k + 1) →
      Ends outs ⟨st.fs.append p data, some (p, k + 2), st.touched⟩ ops fs → Ends outs st (.write data :: ops) fs
  | drop {st : Sketch P} {ops : List (FileOp P)} {fs : FS P} : Ends outs ⟨st.fs, none, st.touched⟩ ops fs →
      Ends outs st (.dropNew :: ops) fs

theorem Trace.ends {outs : List P} {st st' : Sketch P} {ops ops' : List (FileOp P)} {fs : FS P} (h : Trace outs st ops st')
    (h' : Ends outs st' ops' fs) : Ends outs st (ops ++ ops') fs := by
  induction h with
  | nil => exact h'
  | opened hm _ ih => exact .opened hm (ih h')
  | write hc _ ih => exact .write hc (ih h')
  | drop _ ih => exact .drop (ih h')

theorem Trace.trans {outs : List P} {st st' st'' : Sketch P} {ops ops' : List (FileOp P)} (h : Trace outs st ops st')
    (h' : Trace outs st' ops' st'') : Trace outs st (ops ++ ops') st'' := by
  induction h with
  | nil => exact h'
  | opened hm _ ih => exact .opened hm (ih h')
  | write hc _ ih => exact .write hc (ih h')
  | drop _ ih => exact .drop (ih h')

/-- What was written to a file stays there. -/
theorem Ends.grows {outs : List P} {st : Sketch P} {ops : List (FileOp P)} {fs : FS P} (h : Ends outs st ops fs) :
    ∀ p ∈ st.touched, ∀ c, st.fs p = some c → ∃ c', fs p = some c' ∧ c <+: c' := by
  have hcr : ∀ {st : Sketch P} {q : P} {hd : Bytes}, st.MayOpen outs q hd → ∀ p ∈ st.touched, ∀ c, st.fs p = some c →
      st.fs.create q hd p = some c := by
    intro st q hd hm p hp c hc
    by_cases hpq : p = q
    · subst hpq
      rw [hm.same hp, Option.some.injEq] at hc
      subst hc
      exact Function.update_self _ _ _
    · exact (Function.update_of_ne hpq _ _).trans hc
  induction h with
  | done => exact fun p _ c hc => ⟨c, hc, List.prefix_rfl⟩
  | refused hm => exact fun p hp c hc => ⟨c, hcr hm p hp c hc, List.prefix_rfl⟩
  | opened hm _ ih => exact fun p hp c hc => ih p (List.mem_cons_of_mem _ hp) c (hcr hm p hp c hc)
  | @write st q k data ops fs hc _ ih =>
    intro p hp c hc'
    by_cases hpq : p = q
    · subst hpq
      obtain ⟨c', h1, h2⟩ := ih p hp (c ++ data) (by show FS.append _ _ _ _ = _; unfold FS.append; rw [Function.update_self, hc']; rfl)
      exact ⟨c', h1, (List.prefix_append _ _).trans h2⟩
    · exact ih p hp c ((Function.update_of_ne hpq _ _).trans hc')
  | drop _ ih => exact ih

/-- Relation between the state if everything is written at once and the actual files. -/
structure Follows (cap : Nat) (faults : Bool) (fs0 : FS P) (outs : List P) (st : Sketch P) (d : Disk P) : Prop where
  agree : Agree cap faults fs0 outs st.touched st.fs d.files d.writers
  closed : st.cur = none → d.writers = []
  live : ∀ p k, st.cur = some (p, k) → ∃ w c, d.writers = [w] ∧ w.path = p ∧ st.fs p = some c ∧ Live cap d.files w c k

theorem Follows.old {cap : Nat} {faults : Bool} {fs0 : FS P} {outs : List P} {st : Sketch P} {d : Disk P}
    (h : Follows cap faults fs0 outs st d) {p : P} {hd : Bytes} (hm : st.MayOpen outs p hd) :
    ∀ w ∈ d.writers, w.path = p → w.pos = 0 ∨ w.buf = [] := by
  intro w hw hp
  rcases hc : st.cur with _ | ⟨q, k⟩
  · rw [h.closed hc] at hw
    exact absurd hw (by simp)
  · obtain ⟨w', c, h1, h2, -, h4⟩ := h.live q k hc
    rw [h1, List.mem_singleton] at hw
    subst hw
    have hq : p = q := hp.symm.trans h2
    subst hq
    exact h4.header (hm.current k hc)

/-- After a file was created. -/
theorem weak_create {cap : Nat} {faults : Bool} {fs0 : FS P} {outs : List P} {st : Sketch P} {d : Disk P}
    (h : Follows cap faults fs0 outs st d) {p : P} {hd : Bytes} (hm : st.MayOpen outs p hd) {C : P → Bytes}
    (hC : ∀ q ∈ st.touched, ∀ c, st.fs q = some c → c <+: C q) :
    Weak C fs0 outs (Function.update d.files p (some [])) (⟨p, 0, []⟩ :: d.writers) := by
  have hw := h.agree.weak hC
  constructor
  · intro q
    by_cases hq : q = p
    · subst hq
      exact Or.inr ⟨hm.out, 0, Nat.zero_le _, by rw [Function.update_self, List.take_zero]⟩
    · rw [Function.update_of_ne hq]
      exact hw.content q
  · intro w hw'
    rcases List.mem_cons.1 hw' with rfl | hw'
    · exact ⟨hm.out, Or.inl rfl⟩
    · obtain ⟨h1, h2⟩ := hw.writers w hw'
      refine ⟨h1, ?_⟩
      rcases h2 with h2 | ⟨L, h2, h3⟩
      · exact Or.inl h2
      · by_cases hq : w.path = p
        · rcases h.old hm w hw' hq with h0 | h0
          · refine Or.inr ⟨0, ⟨?_, h0.le, Nat.zero_le _⟩, h3⟩
            rw [hq, Function.update_self, List.take_zero]
          · exact Or.inl h0
        · exact Or.inr ⟨L, ⟨by rw [Function.update_of_ne hq]; exact h2.1, h2.2⟩, h3⟩

/-- After a file was created and its header was written. -/
theorem weak_header {cap : Nat} {faults faults' b : Bool} {fs0 : FS P} {outs : List P} {st : Sketch P} {d d' : Disk P}
    (h : Follows cap faults fs0 outs st d) {p : P} {hd : Bytes} (hm : st.MayOpen outs p hd) {C : P → Bytes}
    (hC : ∀ q ∈ st.touched, ∀ c, st.fs q = some c → c <+: C q) (hp : hd <+: C p)
    (hs : Disk.Step cap faults' ⟨Function.update d.files p (some []), ⟨p, 0, []⟩ :: d.writers⟩ (.write hd) b d') :
    Weak C fs0 outs d'.files d'.writers :=
  weak_write (weak_create h hm hC) hs (c := []) (L := 0) ⟨⟨by simp, le_rfl, le_rfl⟩, List.nil_prefix⟩ rfl hp

theorem opened_follows {cap : Nat} {faults : Bool} {fs0 : FS P} {outs : List P} {st : Sketch P} {d d2 d3 : Disk P}
    (h : Follows cap faults fs0 outs st d) {p : P} {hd : Bytes} (hm : st.MayOpen outs p hd)
    (hs : Disk.Step cap faults ⟨Function.update d.files p (some []), ⟨p, 0, []⟩ :: d.writers⟩ (.write hd) true d2)
    (hd' : Disk.Step cap faults d2 .dropOld true d3) : Follows cap faults fs0 outs (st.opened p hd) d3 := by
  obtain ⟨w, h1, h2, h3, h4⟩ := h.agree.create hm.out hm.same (h.old hm) hs
  obtain ⟨files2, ws2⟩ := d2
  simp only at h1 h2 h3 h4
  cases hd' with
  | dropOld hdr hws =>
    subst h1
    simp only [List.drop_succ_cons, List.drop_zero, List.take_succ_cons, List.take_zero] at hdr hws
    subst hws
    have h5 := Agree.dropped (ws1 := [w]) hdr h4
    refine ⟨h5, fun hn => (by simp [Sketch.opened] at hn), ?_⟩
    intro q k hq
    simp only [Sketch.opened, Option.some.injEq, Prod.mk.injEq] at hq
    obtain ⟨rfl, rfl⟩ := hq
    have hid : (st.opened p hd).fs p = some hd := Function.update_self _ _ _
    obtain ⟨L, hf⟩ := h3.fits
    exact ⟨w, hd, rfl, h2, hid, Agree.fits_dropped (ws1 := [w]) hdr h4 (by rw [h2]; exact hid) hf, h3.length, h3.buf, fun _ => h3.header le_rfl⟩

/-- Writing succeeds without failures. -/
theorem write_ok {cap : Nat} {files : FS P} {w : Writer P} {ws : List (Writer P)} {data : Bytes} {b : Bool} {d' : Disk P}
    (h : Disk.Step cap false ⟨files, w :: ws⟩ (.write data) b d') : b = true := by
  cases h with
  | buffered => rfl
  | flushFails _ hf => cases hf
  | flushed => rfl
  | direct _ _ _ hn => simpa using hn rfl

/-- The beginning of an execution that opens a file. -/
theorem exec_header {cap : Nat} {faults : Bool} {fs0 : FS P} {outs : List P} {st : Sketch P} {d : Disk P} {files : FS P}
    {e : Ending} (h : Follows cap faults fs0 outs st d) {p : P} {hd : Bytes} (hm : st.MayOpen outs p hd) {C : P → Bytes}
    (hC : ∀ q ∈ st.touched, ∀ c, st.fs q = some c → c <+: C q) (hp : hd <+: C p) {ops : List (FileOp P)}
    (he : Disk.Exec cap faults d (.create p :: .write hd :: ops) files e) :
    Weak C fs0 outs files [] ∧ e ≠ .finished ∧ (faults = false → e ≠ .failed) ∨
      ∃ d', Disk.Step cap faults ⟨Function.update d.files p (some []), ⟨p, 0, []⟩ :: d.writers⟩ (.write hd) true d' ∧
        Weak C fs0 outs d'.files d'.writers ∧ Disk.Exec cap faults d' ops files e := by
  have hw := h.agree.weak hC
  have hw1 := weak_create h hm hC
  cases he with
  | failed hs hd =>
    cases hs with
    | createFails hf => exact Or.inl ⟨weak_dropped hd hw, by simp, fun h => by rw [h] at hf; cases hf⟩
  | interrupted => exact Or.inl ⟨⟨hw.content, by simp⟩, by simp, by simp⟩
  | interruptedIn hs =>
    cases hs
    · exact Or.inl ⟨⟨hw1.content, by simp⟩, by simp, by simp⟩
    · exact Or.inl ⟨⟨hw.content, by simp⟩, by simp, by simp⟩
  | step hs he =>
    cases hs
    cases he with
    | failed hs hd =>
      refine Or.inl ⟨weak_dropped hd (weak_header h hm hC hp hs), by simp, fun hf => ?_⟩
      subst hf
      cases write_ok hs
    | interrupted => exact Or.inl ⟨⟨hw1.content, by simp⟩, by simp, by simp⟩
    | interruptedIn hs => exact Or.inl ⟨⟨(weak_header h hm hC hp hs).content, by simp⟩, by simp, by simp⟩
    | step hs he => exact Or.inr ⟨_, hs, weak_header h hm hC hp hs, he⟩

/-- The effects of complete sequences of operations: with any interruption or failure, files contain the first part of what is
written in total. If there are no errors then at most the content of a buffer is missing, and nothing if there were no
failures. -/
theorem ends_exec {cap : Nat} {faults : Bool} {fs0 : FS P} {outs : List P} {st : Sketch P} {ops : List (FileOp P)} {F : FS P}
    (h : Ends outs st ops F) : ∀ {d : Disk P} {files : FS P} {e : Ending}, Follows cap faults fs0 outs st d →
    Disk.Exec cap faults d ops files e →
    Weak (fun p => (F p).getD []) fs0 outs files [] ∧
      (e = .finished → ∃ touched, Agree cap faults fs0 outs touched F files []) ∧ (faults = false → e ≠ .failed) := by
  have hC : ∀ {st : Sketch P} {ops : List (FileOp P)} {F : FS P}, Ends outs st ops F →
      ∀ q ∈ st.touched, ∀ c, st.fs q = some c → c <+: (F q).getD [] := by
    intro st ops F hE q hq c hc
    obtain ⟨c', h1, h2⟩ := hE.grows q hq c hc
    rw [h1]
    exact h2
  induction h with
  | @done st =>
    intro d files e hf he
    have hw := hf.agree.weak (hC .done)
    cases he with
    | finished hd => exact ⟨weak_dropped hd hw, fun _ => ⟨_, Agree.dropped (ws1 := []) hd hf.agree⟩, by simp⟩
    | interrupted => exact ⟨⟨hw.content, by simp⟩, (by intro hn; cases hn), by simp⟩
    | interruptedDropping hd => exact ⟨weak_dropped hd hw, (by intro hn; cases hn), by simp⟩
  | @refused st p hd hm =>
    intro d files e hf he
    have hp : hd <+: (st.fs.create p hd p).getD [] := by
      unfold FS.create
      rw [Function.update_self]
      exact List.prefix_rfl
    rcases exec_header hf hm (hC (.refused hm)) hp he with ⟨h1, h2, h2'⟩ | ⟨d2, h1, h2, h3⟩
    · exact ⟨h1, fun hn => absurd hn h2, h2'⟩
    · obtain ⟨w, g1, g2, g3, g4⟩ := hf.agree.create hm.out hm.same (hf.old hm) h1
      obtain ⟨files2, ws2⟩ := d2
      simp only at g1 g2 g3 g4 h2
      subst g1
      have hdn : ∀ {b : Bool} {d3 : Disk P} {fl : Bool}, Disk.Step cap fl ⟨files2, w :: d.writers⟩ .dropNew b d3 →
          Weak (fun q => (st.fs.create p hd q).getD []) fs0 outs d3.files d3.writers := by
        intro b d3 fl hs
        cases hs with
        | dropNew hdr hws =>
          subst hws
          exact weak_dropped_rest (rest := d.writers) hdr h2
      cases h3 with
      | failed hs => cases hs
      | interrupted => exact ⟨⟨h2.content, by simp⟩, (by intro hn; cases hn), by simp⟩
      | interruptedIn hs => exact ⟨⟨(hdn hs).content, by simp⟩, (by intro hn; cases hn), by simp⟩
      | step hs he =>
        have h4 := hdn hs
        cases hs with
        | dropNew hdr hws =>
          subst hws
          simp only [List.take_succ_cons, List.take_zero, List.drop_succ_cons, List.drop_zero] at hdr he h4
          cases hdr with
          | cons n hn hdr =>
            cases hdr
            have h5 := Agree.drop (ws1 := []) g4 hn
            cases he with
            | finished hd => exact ⟨weak_dropped hd h4, fun _ => ⟨_, Agree.dropped (ws1 := []) hd h5⟩, by simp⟩
            | interrupted => exact ⟨⟨h4.content, by simp⟩, (by intro hn; cases hn), by simp⟩
            | interruptedDropping hd => exact ⟨weak_dropped hd h4, (by intro hn; cases hn), by simp⟩
  | @opened st p hd ops F hm hE ih =>
    intro d files e hf he
    have hp : hd <+: (F p).getD [] := hC hE p List.mem_cons_self hd (Function.update_self _ _ _)
    rcases exec_header hf hm (hC (.opened hm hE)) hp he with ⟨h1, h2, h2'⟩ | ⟨d2, h1, h2, h3⟩
    · exact ⟨h1, fun hn => absurd hn h2, h2'⟩
    · obtain ⟨w, g1, g2, g3, g4⟩ := hf.agree.create hm.out hm.same (hf.old hm) h1
      cases h3 with
      | failed hs => cases hs
      | interrupted => exact ⟨⟨h2.content, by simp⟩, (by intro hn; cases hn), by simp⟩
      | interruptedIn hs =>
        refine ⟨?_, (by intro hn; cases hn), by simp⟩
        obtain ⟨files2, ws2⟩ := d2
        simp only at g1 g2 g3 g4 h2
        subst g1
        cases hs with
        | dropOld hdr hws =>
          have h5 := weak_dropped (ws := d.writers) hdr ⟨h2.content, fun w' hw' => h2.writers w' (List.mem_cons_of_mem _ hw')⟩
          exact h5
      | step hs he => exact ih (opened_follows hf hm h1 hs) he
  | @write st p k data ops F hc hE ih =>
    intro d files e hf he
    obtain ⟨w, c, h1, h2, h3, h4⟩ := hf.live p (k + 1) hc
    subst h2
    obtain ⟨files0, ws0⟩ := d
    simp only at h1 h4
    subst h1
    have hE' : Ends outs st (.write data :: ops) F := .write hc hE
    have hw := hf.agree.weak (hC hE')
    obtain ⟨L, hfit⟩ := h4.fits
    have hw0 : w.path ∈ st.touched := (hf.agree.writers w List.mem_cons_self).1
    have hws : ∀ {b : Bool} {d' : Disk P} {fl : Bool}, Disk.Step cap fl ⟨files0, [w]⟩ (.write data) b d' →
        Weak (fun p => (F p).getD []) fs0 outs d'.files d'.writers := by
      intro b d' fl hs
      refine weak_write hw hs hfit h4.length (hC hE w.path hw0 _ ?_)
      show FS.append _ _ _ _ = _
      unfold FS.append
      rw [Function.update_self, h3]
      rfl
    cases he with
    | failed hs hd =>
      refine ⟨weak_dropped hd (hws hs), (by intro hn; cases hn), fun hfa => ?_⟩
      subst hfa
      cases write_ok hs
    | interrupted => exact ⟨⟨hw.content, by simp⟩, (by intro hn; cases hn), by simp⟩
    | interruptedIn hs => exact ⟨⟨(hws hs).content, by simp⟩, (by intro hn; cases hn), by simp⟩
    | step hs he =>
      obtain ⟨w', g1, g2, g3, g4⟩ := hf.agree.write h3 h4 hs
      refine ih ⟨by rw [g1]; exact g4, fun hn => (by simp at hn), ?_⟩ he
      intro q k' hq
      simp only [Option.some.injEq, Prod.mk.injEq] at hq
      obtain ⟨rfl, rfl⟩ := hq
      refine ⟨w', c ++ data, g1, g2, ?_, g3⟩
      show FS.append _ _ _ _ = _
      unfold FS.append
      rw [Function.update_self, h3]
      rfl
  | @drop st ops F hE ih =>
    intro d files e hf he
    have hw := hf.agree.weak (hC (.drop hE))
    obtain ⟨files0, ws0⟩ := d
    have hdn : ∀ {b : Bool} {d3 : Disk P} {fl : Bool}, Disk.Step cap fl ⟨files0, ws0⟩ .dropNew b d3 →
        Weak (fun q => (F q).getD []) fs0 outs d3.files d3.writers := by
      intro b d3 fl hs
      cases hs with
      | dropNew hdr hws =>
        subst hws
        exact weak_dropped_rest hdr (by rw [List.take_append_drop]; exact hw)
    cases he with
    | failed hs => cases hs
    | interrupted => exact ⟨⟨hw.content, by simp⟩, (by intro hn; cases hn), by simp⟩
    | interruptedIn hs => exact ⟨⟨(hdn hs).content, by simp⟩, (by intro hn; cases hn), by simp⟩
    | step hs he =>
      cases hs with
      | dropNew hdr hws =>
        subst hws
        have hlen : ws0.drop 1 = [] ∧ ws0.take 1 = ws0 := by
          rcases hcur : st.cur with _ | ⟨q, k⟩
          · have := hf.closed hcur
            simp only at this
            subst this
            exact ⟨rfl, rfl⟩
          · obtain ⟨w, c, h1, -⟩ := hf.live q k hcur
            simp only at h1
            subst h1
            exact ⟨rfl, rfl⟩
        rw [hlen.2] at hdr
        refine ih ⟨?_, fun _ => hlen.1, by intro q k hq; cases hq⟩ he
        rw [hlen.1]
        exact Agree.dropped (ws1 := []) hdr hf.agree

/-- The output files that are opened exist in the end. -/
theorem Ends.exist {outs : List P} {st : Sketch P} {ops : List (FileOp P)} {F : FS P} (h : Ends outs st ops F) :
    Ends (outs.filter fun p => (F p).isSome) st ops F := by
  have key : ∀ {st : Sketch P} {p : P} {hd : Bytes} {F : FS P}, st.MayOpen outs p hd → (F p).isSome = true →
      st.MayOpen (outs.filter fun p => (F p).isSome) p hd :=
    fun hm hs => ⟨List.mem_filter.2 ⟨hm.out, hs⟩, hm.same, hm.current⟩
  induction h with
  | done => exact .done
  | @refused st p hd hm => exact .refused (key hm (by unfold FS.create; rw [Function.update_self]; rfl))
  | @opened st p hd ops F hm hE ih =>
    obtain ⟨c, h1, -⟩ := hE.grows p List.mem_cons_self hd (Function.update_self _ _ _)
    exact .opened (key hm (by rw [h1]; rfl)) ih
  | write hc _ ih => exact .write hc ih
  | drop _ ih => exact .drop ih

theorem dropped_exists : ∀ (ws : List (Writer P)) (files : FS P), ∃ files', Dropped false files ws files'
  | [], files => ⟨files, .nil⟩
  | w :: ws, files => by
    obtain ⟨files', h⟩ := dropped_exists ws (w.flush files w.buf.length).1
    exact ⟨files', .cons w.buf.length (fun _ => le_rfl) h⟩

theorem write_exists (cap : Nat) (files : FS P) (w : Writer P) (ws : List (Writer P)) (data : Bytes) :
    ∃ files' w', Disk.Step cap false ⟨files, w :: ws⟩ (.write data) true ⟨files', w' :: ws⟩ := by
  cases hf : w.fits cap data with
  | true => exact ⟨_, _, .buffered hf⟩
  | false =>
    by_cases hc : data.length < cap
    · exact ⟨_, _, .flushed hf hc⟩
    · have := Disk.Step.direct (faults := false) (files := files) (ws := ws) (n := data.length) hf (by omega) le_rfl fun _ => rfl
      simp only [decide_true] at this
      exact ⟨_, _, this⟩

/-- Without failures there is an execution. -/
theorem ends_exists {cap : Nat} {outs : List P} {st : Sketch P} {ops : List (FileOp P)} {F : FS P} (h : Ends outs st ops F) :
    ∀ d : Disk P, (st.cur ≠ none → d.writers ≠ []) → ∃ files, Disk.Exec cap false d ops files .finished := by
  have hdn : ∀ d : Disk P, ∃ d', Disk.Step cap false d .dropNew true d' := by
    rintro ⟨files, ws⟩
    obtain ⟨files', h⟩ := dropped_exists (ws.take 1) files
    exact ⟨_, .dropNew h rfl⟩
  have hend : ∀ d : Disk P, ∃ files, Disk.Exec cap false d [] files .finished := by
    intro d
    obtain ⟨files', h⟩ := dropped_exists d.writers d.files
    exact ⟨files', .finished h⟩
  induction h with
  | done => exact fun d _ => hend d
  | @refused st p hd hm =>
    intro d _
    obtain ⟨f1, w1, h1⟩ := write_exists cap (Function.update d.files p (some [])) ⟨p, 0, []⟩ d.writers hd
    obtain ⟨d2, h2⟩ := hdn ⟨f1, w1 :: d.writers⟩
    obtain ⟨files, h3⟩ := hend d2
    exact ⟨files, .step .create (.step h1 (.step h2 h3))⟩
  | @opened st p hd ops F hm hE ih =>
    intro d _
    obtain ⟨f1, w1, h1⟩ := write_exists cap (Function.update d.files p (some [])) ⟨p, 0, []⟩ d.writers hd
    obtain ⟨f2, h2⟩ := dropped_exists d.writers f1
    obtain ⟨files, h3⟩ := ih ⟨f2, [w1]⟩ fun _ => by simp
    exact ⟨files, .step .create (.step h1 (.step (.dropOld h2 rfl) h3))⟩
  | @write st p k data ops F hc hE ih =>
    intro d hd
    obtain ⟨files0, ws0⟩ := d
    obtain ⟨w, ws, rfl⟩ := List.exists_cons_of_ne_nil (hd (by rw [hc]; simp))
    obtain ⟨f1, w1, h1⟩ := write_exists cap files0 w ws data
    obtain ⟨files, h3⟩ := ih ⟨f1, w1 :: ws⟩ fun _ => by simp
    exact ⟨files, .step h1 h3⟩
  | @drop st ops F hE ih =>
    intro d _
    obtain ⟨d', h1⟩ := hdn d
    obtain ⟨files, h3⟩ := ih d' fun h => absurd rfl h
    exact ⟨files, .step h1 h3⟩

/-- Nothing has been written yet: everything is in the buffer. -/
structure InBuffer (fs0 : FS P) (st : Sketch P) (d : Disk P) : Prop where
  untouched : ∀ p, p ∉ st.touched → d.files p = fs0 p ∧ st.fs p = fs0 p
  touched : ∀ p ∈ st.touched, d.files p = some [] ∧ (st.fs p).isSome = true
  closed : st.cur = none → d.writers = []
  live : ∀ p k, st.cur = some (p, k) → p ∈ st.touched ∧ ∃ w, d.writers = [w] ∧ w.path = p ∧ st.fs p = some w.buf

theorem flush_zero (files : FS P) (w : Writer P) : (w.flush files 0).1 = files := by
  unfold Writer.flush Writer.put
  rw [List.take_zero, if_pos rfl]

theorem dropped_zero : ∀ (ws : List (Writer P)) (files : FS P), Dropped true files ws files
  | [], _ => .nil
  | w :: ws, files => .cons 0 (fun h => by cases h) (by rw [flush_zero]; exact dropped_zero ws files)

theorem InBuffer.write {cap : Nat} {fs0 : FS P} {st : Sketch P} {d : Disk P} (h : InBuffer fs0 st d) {p : P} {hd : Bytes}
    (hc : hd.length < cap) :
    ∃ d1, Disk.Step cap true ⟨Function.update d.files p (some []), ⟨p, 0, []⟩ :: d.writers⟩ (.write hd) true d1 ∧
      d1.writers = ⟨p, 0, hd⟩ :: d.writers ∧ d1.files = Function.update d.files p (some []) :=
  ⟨_, .buffered (by simp only [Writer.fits, List.length_nil, Nat.zero_add, Bool.and_eq_true, decide_eq_true_eq]; omega), rfl, rfl⟩

theorem InBuffer.files {fs0 : FS P} {st : Sketch P} {d : Disk P} (h : InBuffer fs0 st d) (p : P) (hd : Bytes) :
    (∀ q, q ∉ (st.opened p hd).touched → Function.update d.files p (some []) q = fs0 q ∧ (st.opened p hd).fs q = fs0 q) ∧
    (∀ q ∈ (st.opened p hd).touched, Function.update d.files p (some []) q = some [] ∧ ((st.opened p hd).fs q).isSome = true) := by
  constructor
  · intro q hq
    have hne : q ≠ p := by rintro rfl; exact hq List.mem_cons_self
    rw [Function.update_of_ne hne, show (st.opened p hd).fs q = st.fs q from Function.update_of_ne hne _ _]
    exact h.untouched q fun hm => hq (List.mem_cons_of_mem _ hm)
  · intro q hq
    by_cases hne : q = p
    · subst hne
      exact ⟨Function.update_self _ _ _, by rw [show (st.opened q hd).fs q = some hd from Function.update_self _ _ _]; rfl⟩
    · rw [Function.update_of_ne hne, show (st.opened p hd).fs q = st.fs q from Function.update_of_ne hne _ _]
      exact h.touched q (List.mem_of_ne_of_mem hne hq)

/-- If all files are smaller than the buffer then an execution can lose all of their contents. -/
theorem ends_lost {cap : Nat} {fs0 : FS P} {outs : List P} {st : Sketch P} {ops : List (FileOp P)} {F : FS P}
    (h : Ends outs st ops F) (hcap : ∀ p c, F p = some c → (p ∈ outs ∨ p ∈ st.touched) → c.length < cap) :
    ∀ d : Disk P, InBuffer fs0 st d → ∃ files, Disk.Exec cap true d ops files .finished ∧
      ∀ p, ((F p).isSome = true ∧ files p = some []) ∨ (files p = fs0 p ∧ F p = fs0 p) := by
  induction h with
  | @done st =>
    intro d hb
    refine ⟨d.files, .finished (dropped_zero _ _), fun p => ?_⟩
    by_cases hp : p ∈ st.touched
    · exact Or.inl ⟨(hb.touched p hp).2, (hb.touched p hp).1⟩
    · exact Or.inr (hb.untouched p hp)
  | @refused st p hd hm =>
    intro d hb
    obtain ⟨⟨f1, ws1⟩, h1, h2, h3⟩ := hb.write (p := p) (hcap p hd (Function.update_self _ _ _) (Or.inl hm.out))
    simp only at h2 h3
    subst h2 h3
    refine ⟨Function.update d.files p (some []), .step .create (.step h1 (.step (.dropNew (dropped_zero _ _) rfl)
      (.finished (dropped_zero _ _)))), fun q => ?_⟩
    obtain ⟨g1, g2⟩ := hb.files p hd
    by_cases hq : q ∈ (st.opened p hd).touched
    · exact Or.inl ⟨(g2 q hq).2, (g2 q hq).1⟩
    · exact Or.inr (g1 q hq)
  | @opened st p hd ops F hm hE ih =>
    intro d hb
    obtain ⟨c, h1, h2⟩ := hE.grows p List.mem_cons_self hd (Function.update_self _ _ _)
    have hlen := hcap p c h1 (Or.inl hm.out)
    obtain ⟨⟨f1, ws1⟩, k1, k2, k3⟩ := hb.write (cap := cap) (p := p) (hd := hd) (by have := h2.length_le; omega)
    simp only at k2 k3
    subst k2 k3
    obtain ⟨g1, g2⟩ := hb.files p hd
    obtain ⟨files, h3, h4⟩ := ih (fun q c' hq ho => hcap q c' hq (by
        rcases ho with ho | ho
        · exact Or.inl ho
        · rcases List.mem_cons.1 ho with rfl | ho
          · exact Or.inl hm.out
          · exact Or.inr ho)) ⟨Function.update d.files p (some []), [⟨p, 0, hd⟩]⟩
      ⟨g1, g2, fun hn => (by simp [Sketch.opened] at hn), fun q k hq => by
        simp only [Sketch.opened, Option.some.injEq, Prod.mk.injEq] at hq
        obtain ⟨rfl, rfl⟩ := hq
        exact ⟨List.mem_cons_self, _, rfl, rfl, Function.update_self _ _ _⟩⟩
    exact ⟨files, .step .create (.step k1 (.step (.dropOld (dropped_zero _ _) rfl) h3)), h4⟩
  | @write st p k data ops F hc hE ih =>
    intro d hb
    obtain ⟨h1, w, h2, h3, h4⟩ := hb.live p _ hc
    obtain ⟨files0, ws0⟩ := d
    simp only at h2
    subst h2 h3
    have hnew : st.fs.append w.path data w.path = some (w.buf ++ data) := by
      unfold FS.append
      rw [Function.update_self, h4]
      rfl
    obtain ⟨c, g1, g2⟩ := hE.grows w.path h1 (w.buf ++ data) hnew
    have hlen := hcap _ c g1 (Or.inr h1)
    have hle := g2.length_le
    rw [List.length_append] at hle
    have hs : Disk.Step cap true ⟨files0, [w]⟩ (.write data) true ⟨files0, [{ w with buf := w.buf ++ data }]⟩ :=
      .buffered (by simp only [Writer.fits, Bool.and_eq_true, decide_eq_true_eq]; omega)
    obtain ⟨files, g3, g4⟩ := ih hcap ⟨files0, [{ w with buf := w.buf ++ data }]⟩ ⟨fun q hq => by
        have hne : q ≠ w.path := by rintro rfl; exact hq h1
        have he : st.fs.append w.path data q = st.fs q := Function.update_of_ne hne _ _
        exact ⟨(hb.untouched q hq).1, he.trans (hb.untouched q hq).2⟩, fun q hq => by
        refine ⟨(hb.touched q hq).1, ?_⟩
        by_cases hne : q = w.path
        · rw [hne]
          show (st.fs.append w.path data w.path).isSome = true
          rw [hnew]
          rfl
        · have he : st.fs.append w.path data q = st.fs q := Function.update_of_ne hne _ _
          show (st.fs.append w.path data q).isSome = true
          rw [he]
          exact (hb.touched q hq).2, fun hn => (by simp at hn), fun q k' hq => by
        simp only [Option.some.injEq, Prod.mk.injEq] at hq
        obtain ⟨rfl, rfl⟩ := hq
        exact ⟨h1, _, rfl, rfl, hnew⟩⟩
    exact ⟨files, .step hs g3, g4⟩
  | @drop st ops F hE ih =>
    intro d hb
    obtain ⟨files0, ws0⟩ := d
    have hlen : ws0.drop 1 = [] := by
      rcases hcur : st.cur with _ | ⟨q, k⟩
      · have := hb.closed hcur
        simp only at this
        subst this
        rfl
      · obtain ⟨-, w, h1, -⟩ := hb.live q k hcur
        simp only at h1
        subst h1
        rfl
    obtain ⟨files, h1, h2⟩ := ih hcap ⟨files0, []⟩ ⟨hb.untouched, hb.touched, fun _ => rfl, fun _ _ h => by cases h⟩
    exact ⟨files, .step (.dropNew (dropped_zero _ _) hlen.symm) h1, h2⟩

end Cres

import Verif.Proofs.DiskTrace
import Verif.Proofs.Main
import Verif.Props.Run

/-!
The operations of a run on files.
-/

set_option linter.unusedSectionVars false

namespace Cres

open Spec CombinedIO Program

variable {K V D P : Type*}

/-- The header of an input file, if the output file is created. -/
def fileHeader (cfg : IOConfig K V) : Option Bytes → Option Bytes
  | none => none
  | some content =>
    match detectFormat cfg.feat (some (cfg.firstBuffer content)) with
    | .ok format =>
      match Reader.new cfg content format with
      | .ok reader => some reader.header
      | _ => none
    | _ => none

/-- What opening a file does. -/
theorem open_cases [DecidableEq P] (cfg : IOConfig K V) (i : Nat) (s : CombinedIO K P) (fs : FS P) :
    (∃ inn out io h, s.files[i]? = some (inn, out) ∧ fileHeader cfg (fs inn) = some h ∧ io.outfile = out ∧
      s.openFile cfg i fs = (.ok (), { s with current := some io, idx := i }, fs.create out h) ∧
      s.openOps cfg i fs = [.create out, .write h, .dropOld]) ∨
    (∃ inn out h r, s.files[i]? = some (inn, out) ∧ fileHeader cfg (fs inn) = some h ∧ r ≠ .ok () ∧
      s.openFile cfg i fs = (r, s, fs.create out h) ∧ s.openOps cfg i fs = [.create out, .write h, .dropNew]) ∨
    (∃ r, r ≠ .ok () ∧ s.openFile cfg i fs = (r, s, fs) ∧ s.openOps cfg i fs = []) := by
  cases hf : s.files[i]? with
  | none => exact .inr (.inr ⟨.panic, by simp, by simp only [openFile, hf], by simp only [openOps, hf]⟩)
  | some x =>
    obtain ⟨inn, out⟩ := x
    cases hc : fs inn with
    | none =>
      exact .inr (.inr ⟨.err (.create .openInput), by simp, by simp only [openFile, hf, FileIO.new, hc],
        by simp only [openOps, hf, hc]⟩)
    | some content =>
      cases hd : detectFormat cfg.feat (some (cfg.firstBuffer content)) with
      | err e =>
        exact .inr (.inr ⟨.err (.create e), by simp, by simp only [openFile, hf, FileIO.new, hc, hd],
          by simp only [openOps, hf, hc, hd]⟩)
      | panic =>
        exact .inr (.inr ⟨.panic, by simp, by simp only [openFile, hf, FileIO.new, hc, hd], by simp only [openOps, hf, hc, hd]⟩)
      | ok format =>
        cases hr : Reader.new cfg content format with
        | err e =>
          exact .inr (.inr ⟨.err (.create e), by simp, by simp only [openFile, hf, FileIO.new, hc, hd, hr],
            by simp only [openOps, hf, hc, hd, hr]⟩)
        | panic =>
          exact .inr (.inr ⟨.panic, by simp, by simp only [openFile, hf, FileIO.new, hc, hd, hr],
            by simp only [openOps, hf, hc, hd, hr]⟩)
        | ok reader =>
          have hh : fileHeader cfg (fs inn) = some reader.header := by simp only [fileHeader, hc, hd, hr]
          rw [hc] at hh
          cases hk : Kind.find cfg reader.header format with
          | ok kind =>
            exact .inl ⟨inn, out, ⟨kind, inn, out, reader⟩, reader.header, rfl, by rw [hc]; exact hh, rfl,
              by simp only [openFile, hf, FileIO.new, hc, hd, hr, hk, Outcome.bind_ok], by simp only [openOps, hf, hc, hd, hr, hk]⟩
          | err e =>
            exact .inr (.inl ⟨inn, out, reader.header, .err (.create e), rfl, by rw [hc]; exact hh, by simp,
              by simp only [openFile, hf, FileIO.new, hc, hd, hr, hk, Outcome.bind_err], by simp only [openOps, hf, hc, hd, hr, hk]⟩)
          | panic =>
            exact .inr (.inl ⟨inn, out, reader.header, .panic, rfl, by rw [hc]; exact hh, by simp,
              by simp only [openFile, hf, FileIO.new, hc, hd, hr, hk, Outcome.bind_panic], by simp only [openOps, hf, hc, hd, hr, hk]⟩)

/-- The files are as they should be when file `i` and later files may be opened: these contain only the header if they were
opened before. -/
structure Ready (cfg : IOConfig K V) (files : List (P × P)) (fs0 : FS P) (i : Nat) (st : Sketch P) (s : CombinedIO K P) (fs : FS P) :
    Prop where
  same : st.fs = fs
  files_eq : s.files = files
  other : ∀ p, p ∉ files.map Prod.snd → fs p = fs0 p
  header : ∀ j inn out h, i ≤ j → files[j]? = some (inn, out) → out ∈ st.touched → fileHeader cfg (fs0 inn) = some h →
    fs out = some h
  current : ∀ p k, st.cur = some (p, k) → k ≤ 1 ∨ ∃ j inn, j < i ∧ files[j]? = some (inn, p)

section

variable [DecidableEq P] {cfg : IOConfig K V} {files : List (P × P)} {fs0 : FS P}

theorem unique_out (hn : (files.map Prod.snd).Nodup) {j j' : Nat} {inn inn' out : P} (h : files[j]? = some (inn, out))
    (h' : files[j']? = some (inn', out)) : j = j' ∧ inn = inn' := by
  have h1 : (files.map Prod.snd)[j]? = some out := by rw [List.getElem?_map, h]; rfl
  have h2 : (files.map Prod.snd)[j']? = some out := by rw [List.getElem?_map, h']; rfl
  have h3 := (List.getElem?_eq_some_iff.1 h1).1
  have h4 := (List.getElem?_inj h3 hn).1 (h1.trans h2.symm)
  subst h4
  rw [h] at h'
  simp only [Option.some.injEq, Prod.mk.injEq] at h'
  exact ⟨rfl, h'.1⟩

theorem Ready.mayOpen {i : Nat} {st : Sketch P} {s : CombinedIO K P} {fs : FS P} (h : Ready cfg files fs0 i st s fs)
    (hn : (files.map Prod.snd).Nodup) (hdis : ∀ p ∈ files.map Prod.fst, p ∉ files.map Prod.snd) {j : Nat} (hij : i ≤ j)
    {inn out : P} {hd : Bytes} (hj : s.files[j]? = some (inn, out)) (hh : fileHeader cfg (fs inn) = some hd) :
    st.MayOpen (files.map Prod.snd) out hd ∧ fileHeader cfg (fs0 inn) = some hd := by
  rw [h.files_eq] at hj
  have hm := List.mem_of_getElem? hj
  have hin : fs inn = fs0 inn := h.other inn (hdis inn (List.mem_map_of_mem (f := Prod.fst) hm))
  rw [hin] at hh
  refine ⟨⟨List.mem_map_of_mem (f := Prod.snd) hm, fun ht => ?_, fun k hk => ?_⟩, hh⟩
  · rw [h.same]
    exact h.header j inn out hd hij hj ht hh
  · rcases h.current out k hk with hk | ⟨j', inn', hlt, hj'⟩
    · exact hk
    · have := (unique_out hn hj hj').1
      omega

theorem Ready.opened {i : Nat} {st : Sketch P} {s : CombinedIO K P} {fs : FS P} (h : Ready cfg files fs0 i st s fs)
    (hn : (files.map Prod.snd).Nodup) {j : Nat} {inn out : P} {hd : Bytes} (hj : s.files[j]? = some (inn, out))
    (hh : fileHeader cfg (fs0 inn) = some hd) (io : FileIO K P) :
    Ready cfg files fs0 i (st.opened out hd) { s with current := some io, idx := j } (fs.create out hd) := by
  have hj' := hj
  rw [h.files_eq] at hj'
  refine ⟨by rw [Sketch.opened, h.same], h.files_eq, ?_, ?_, ?_⟩
  · intro p hp
    rw [FS.create_other, h.other p hp]
    rintro rfl
    exact hp (List.mem_map_of_mem (f := Prod.snd) (List.mem_of_getElem? hj'))
  · intro j2 inn2 out2 h2 hle hj2 ht hh2
    by_cases ho : out2 = out
    · subst ho
      have := (unique_out hn hj' hj2).2
      subst this
      rw [hh, Option.some.injEq] at hh2
      subst hh2
      exact FS.create_self _ _ _
    · rw [FS.create_other _ _ ho]
      exact h.header j2 inn2 out2 h2 hle hj2 (List.mem_of_ne_of_mem ho ht) hh2
  · intro p k hk
    simp only [Sketch.opened, Option.some.injEq, Prod.mk.injEq] at hk
    exact .inl (hk.2.symm.le.trans (Sketch.count_le _ _))

/-- Opening a file. -/
theorem open_trace {i : Nat} {st : Sketch P} {s : CombinedIO K P} {fs : FS P} (h : Ready cfg files fs0 i st s fs)
    (hn : (files.map Prod.snd).Nodup) (hdis : ∀ p ∈ files.map Prod.fst, p ∉ files.map Prod.snd) {j : Nat} (hij : i ≤ j) :
    (∃ st' s' fs' io inn out, s.openFile cfg j fs = (.ok (), s', fs') ∧ Trace (files.map Prod.snd) st (s.openOps cfg j fs) st' ∧
      Ready cfg files fs0 i st' s' fs' ∧ s'.current = some io ∧ io.outfile = out ∧ files[j]? = some (inn, out) ∧
      st'.cur = some (out, st.count out)) ∨
    ((s.openFile cfg j fs).1 ≠ .ok () ∧ Ends (files.map Prod.snd) st (s.openOps cfg j fs) (s.openFile cfg j fs).2.2) := by
  rcases open_cases cfg j s fs with ⟨inn, out, io, hd, h1, h2, h3, h4, h5⟩ | ⟨inn, out, hd, r, h1, h2, h3, h4, h5⟩ | ⟨r, h1, h2, h3⟩
  · obtain ⟨hm, hh⟩ := h.mayOpen hn hdis hij h1 h2
    refine .inl ⟨st.opened out hd, _, _, io, inn, out, h4, ?_, h.opened hn h1 hh io, rfl, h3, by rw [← h.files_eq]; exact h1, rfl⟩
    rw [h5]
    exact .opened hm .nil
  · obtain ⟨hm, hh⟩ := h.mayOpen hn hdis hij h1 h2
    refine .inr ⟨by rw [h4]; exact h3, ?_⟩
    rw [h4, h5, ← h.same]
    exact .refused hm
  · refine .inr ⟨by rw [h2]; exact h1, ?_⟩
    rw [h2, h3, ← h.same]
    exact .done

theorem Ready.hint {i : Nat} {st : Sketch P} {s s' : CombinedIO K P} {fs : FS P} (h : Ready cfg files fs0 i st s fs)
    (hs : s'.files = s.files) : Ready cfg files fs0 i st s' fs :=
  ⟨h.same, hs.trans h.files_eq, h.other, h.header, h.current⟩

theorem initLoop_trace (hn : (files.map Prod.snd).Nodup) (hdis : ∀ p ∈ files.map Prod.fst, p ∉ files.map Prod.snd) :
    ∀ (n i : Nat) (st : Sketch P) (s : CombinedIO K P) (fs : FS P), Ready cfg files fs0 0 st s fs →
    (∃ st' s' fs', initLoop cfg n i s fs = (.ok (), s', fs') ∧ Trace (files.map Prod.snd) st (initOps cfg n i s fs) st' ∧
      Ready cfg files fs0 0 st' s' fs') ∨
    ((initLoop cfg n i s fs).1 ≠ .ok () ∧ Ends (files.map Prod.snd) st (initOps cfg n i s fs) (initLoop cfg n i s fs).2.2) := by
  intro n
  induction n with
  | zero => exact fun i st s fs h => .inl ⟨st, s, fs, rfl, .nil, h⟩
  | succ n ih =>
    intro i st s fs h
    rw [initLoop, initOps]
    rcases open_trace h hn hdis (Nat.zero_le i) with ⟨st1, s1, fs1, io, inn, out, h1, h2, h3, h4, -⟩ | ⟨h1, h2⟩
    · rw [h1]
      simp only [h4]
      have h5 : Ready cfg files fs0 0 st1 { s1 with hint := combineHints s1.hint io.reader.sizeHint } fs1 := h3.hint rfl
      rw [h4] at h5
      rcases ih (i + 1) st1 _ fs1 h5 with ⟨st', s', fs', g1, g2, g3⟩ | ⟨g1, g2⟩
      · exact .inl ⟨st', s', fs', g1, h2.trans g2, g3⟩
      · exact .inr ⟨g1, h2.ends g2⟩
    · generalize s.openFile cfg i fs = x at h1 h2
      obtain ⟨x, s1, fs1⟩ := x
      cases x with
      | ok u => exact absurd rfl h1
      | err e => exact .inr ⟨by simp, by rw [List.append_nil]; exact h2⟩
      | panic => exact .inr ⟨by simp, by rw [List.append_nil]; exact h2⟩

theorem new_trace (hn : (files.map Prod.snd).Nodup) (hdis : ∀ p ∈ files.map Prod.fst, p ∉ files.map Prod.snd) (fs : FS P) :
    (∃ st' s' fs', CombinedIO.new cfg files fs = (.ok (), s', fs') ∧
      Trace (files.map Prod.snd) ⟨fs, none, []⟩ (newOps cfg files fs) st' ∧ Ready cfg files fs 0 st' s' fs') ∨
    ((CombinedIO.new cfg files fs).1 ≠ .ok () ∧
      Ends (files.map Prod.snd) ⟨fs, none, []⟩ (newOps cfg files fs) (CombinedIO.new cfg files fs).2.2) := by
  have h0 : Ready cfg files fs 0 ⟨fs, none, []⟩ (⟨files, none, 0, 0, (0, some 0)⟩ : CombinedIO K P) fs :=
    ⟨rfl, rfl, fun _ _ => rfl, fun _ _ _ _ _ _ h => absurd h (by simp), fun _ _ h => by cases h⟩
  unfold CombinedIO.new newOps
  simp only
  split_ifs with hf
  · exact .inl ⟨_, _, _, rfl, .nil, h0⟩
  · rcases initLoop_trace hn hdis files.length 0 _ _ _ h0 with ⟨st1, s1, fs1, h1, h2, h3⟩ | ⟨h1, h2⟩
    · rw [h1]
      simp only
      rcases open_trace h3 hn hdis (Nat.zero_le 0) with ⟨st2, s2, fs2, io, inn, out, g1, g2, g3, -⟩ | ⟨g1, g2⟩
      · exact .inl ⟨st2, s2, fs2, g1, h2.trans g2, g3⟩
      · exact .inr ⟨g1, h2.ends g2⟩
    · right
      generalize initLoop cfg files.length 0 (⟨files, none, 0, 0, (0, some 0)⟩ : CombinedIO K P) fs = x at h1 h2
      obtain ⟨x, s1, fs1⟩ := x
      cases x with
      | ok u => exact absurd rfl h1
      | err e => exact ⟨by simp, by rw [List.append_nil]; exact h2⟩
      | panic => exact ⟨by simp, by rw [List.append_nil]; exact h2⟩

/-- Errors and panics. -/
def Failed {E A : Type*} : Option (Outcome E A) → Prop
  | some (.err _) => True
  | some .panic => True
  | _ => False

theorem nextLoop_trace [Mul K] (hn : (files.map Prod.snd).Nodup) (hdis : ∀ p ∈ files.map Prod.fst, p ∉ files.map Prod.snd) :
    ∀ (n : Nat) (st : Sketch P) (s : CombinedIO K P) (fs : FS P), Ready cfg files fs0 0 st s fs →
    (∃ st', Trace (files.map Prod.snd) st (nextOps cfg n s fs) st' ∧
      Ready cfg files fs0 0 st' (nextLoop cfg n s fs).2.1 (nextLoop cfg n s fs).2.2) ∨
    (Failed (nextLoop cfg n s fs).1 ∧ Ends (files.map Prod.snd) st (nextOps cfg n s fs) (nextLoop cfg n s fs).2.2) := by
  intro n
  induction n with
  | zero => exact fun st s fs h => .inl ⟨st, .nil, h⟩
  | succ n ih =>
    intro st s fs h
    have key : ∀ (s : CombinedIO K P) (j : Nat), Ready cfg files fs0 0 st s fs →
        (∃ st', Trace (files.map Prod.snd) st (s.openOps cfg j fs ++ match s.openFile cfg j fs with
            | (.ok (), s, fs) => nextOps cfg n s fs
            | _ => []) st' ∧
          Ready cfg files fs0 0 st' (match s.openFile cfg j fs with
            | (.ok (), s, fs) => nextLoop cfg n s fs
            | (.err e, s, fs) => (some (.err e), s, fs)
            | (.panic, s, fs) => (some .panic, s, fs)).2.1 (match s.openFile cfg j fs with
            | (.ok (), s, fs) => nextLoop cfg n s fs
            | (.err e, s, fs) => (some (.err e), s, fs)
            | (.panic, s, fs) => (some .panic, s, fs)).2.2) ∨
        (Failed (match s.openFile cfg j fs with
            | (.ok (), s, fs) => nextLoop cfg n s fs
            | (.err e, s, fs) => (some (.err e), s, fs)
            | (.panic, s, fs) => (some .panic, s, fs)).1 ∧
          Ends (files.map Prod.snd) st (s.openOps cfg j fs ++ match s.openFile cfg j fs with
            | (.ok (), s, fs) => nextOps cfg n s fs
            | _ => []) (match s.openFile cfg j fs with
            | (.ok (), s, fs) => nextLoop cfg n s fs
            | (.err e, s, fs) => (some (.err e), s, fs)
            | (.panic, s, fs) => (some .panic, s, fs)).2.2) := by
      intro s j h
      rcases open_trace h hn hdis (Nat.zero_le j) with ⟨st1, s1, fs1, io, inn, out, h1, h2, h3, -⟩ | ⟨h1, h2⟩
      · rw [h1]
        simp only
        rcases ih st1 s1 fs1 h3 with ⟨st', g1, g2⟩ | ⟨g1, g2⟩
        · exact .inl ⟨st', h2.trans g1, g2⟩
        · exact .inr ⟨g1, h2.ends g2⟩
      · right
        generalize s.openFile cfg j fs = x at h1 h2
        obtain ⟨x, s1, fs1⟩ := x
        cases x with
        | ok u => exact absurd rfl h1
        | err e => exact ⟨trivial, by rw [List.append_nil]; exact h2⟩
        | panic => exact ⟨trivial, by rw [List.append_nil]; exact h2⟩
    rw [nextLoop, nextOps]
    cases hc : s.current with
    | none =>
      simp only
      split_ifs
      · exact .inl ⟨st, .nil, h⟩
      · exact key s 0 h
    | some io =>
      simp only
      generalize io.next cfg = x
      obtain ⟨x, io1⟩ := x
      cases x with
      | some x => exact .inl ⟨st, .nil, h.hint rfl⟩
      | none =>
        simp only
        split_ifs
        · exact .inl ⟨st, .nil, h.hint rfl⟩
        · exact key _ _ (h.hint rfl)

theorem recordItems_trace [Mul K] (hn : (files.map Prod.snd).Nodup) (hdis : ∀ p ∈ files.map Prod.fst, p ∉ files.map Prod.snd) :
    ∀ (n : Nat) (st : Sketch P) (s : CombinedIO K P) (fs : FS P), Ready cfg files fs0 0 st s fs →
    (∃ st', Trace (files.map Prod.snd) st (s.recordOps cfg n fs) st' ∧
      Ready cfg files fs0 0 st' (s.recordItems cfg n fs).2.1 (s.recordItems cfg n fs).2.2) ∨
    ((∀ items, (s.recordItems cfg n fs).1 = some (.ok items) → ∃ e, .error e ∈ items) ∧
      Ends (files.map Prod.snd) st (s.recordOps cfg n fs) (s.recordItems cfg n fs).2.2) := by
  intro n
  induction n with
  | zero => exact fun st s fs h => .inl ⟨st, .nil, h⟩
  | succ n ih =>
    intro st s fs h
    have h1 := nextLoop_trace hn hdis (s.files.length + 2) st s fs h
    rw [recordOps, recordItems]
    unfold nextRecord CombinedIO.next
    generalize nextLoop cfg (s.files.length + 2) s fs = x at h1
    obtain ⟨x, s1, fs1⟩ := x
    simp only at h1
    rcases x with _ | (r | e | _)
    · rcases h1 with ⟨st', g1, g2⟩ | ⟨g1, -⟩
      · exact .inl ⟨st', by simp only [List.append_nil]; exact g1, g2⟩
      · exact absurd g1 (by simp [Failed])
    · rcases h1 with ⟨st', g1, g2⟩ | ⟨g1, -⟩
      · simp only
        cases hc : s1.current with
        | none => exact .inl ⟨st', by simp only [List.append_nil]; exact g1, g2⟩
        | some io =>
          simp only
          rcases ih st' s1 fs1 g2 with ⟨st'', k1, k2⟩ | ⟨k1, k2⟩
          · exact .inl ⟨st'', g1.trans k1, k2⟩
          · refine .inr ⟨?_, g1.ends k2⟩
            intro items hi
            rcases hx : (s1.recordItems cfg n fs1).1 with _ | (l | e | _)
            · rw [hx] at hi; simp at hi
            · rw [hx] at hi
              simp only [Option.map_some, Outcome.map_ok, Option.some.injEq, Outcome.ok.injEq] at hi
              obtain ⟨e, he⟩ := k1 l hx
              exact ⟨e, by rw [← hi]; exact List.mem_cons_of_mem _ he⟩
            · exact e.elim
            · rw [hx] at hi; simp at hi
      · exact absurd g1 (by simp [Failed])
    · rcases h1 with ⟨st', g1, g2⟩ | ⟨-, g1⟩
      · exact .inl ⟨st', by simp only [List.append_nil]; exact g1, g2⟩
      · refine .inr ⟨?_, by simp only [List.append_nil]; exact g1⟩
        intro items hi
        simp only [Option.some.injEq, Outcome.ok.injEq] at hi
        exact ⟨e, by rw [← hi]; exact List.mem_cons_self⟩
    · rcases h1 with ⟨st', g1, g2⟩ | ⟨-, g1⟩
      · exact .inl ⟨st', by simp only [List.append_nil]; exact g1, g2⟩
      · exact .inr ⟨fun items hi => by simp at hi, by simp only [List.append_nil]; exact g1⟩

theorem updateWhile_trace [Div K] {outs : List P} : ∀ (ws : List (List K)) (st : Sketch P) (io : FileIO K P) (fs : FS P) (k : Nat),
    st.fs = fs → st.cur = some (io.outfile, k + 1) →
    ∃ st' k', Trace outs st (whileOps cfg ws io fs) st' ∧ st'.fs = (updateWhile cfg ws io fs).2.2 ∧
      st'.cur = some (io.outfile, k' + 1) ∧ st'.touched = st.touched := by
  intro ws
  induction ws with
  | nil => exact fun st io fs k h1 h2 => ⟨st, k, .nil, h1, h2, rfl⟩
  | cons w ws ih =>
    intro st io fs k h1 h2
    rw [whileOps, updateWhile]
    unfold FileIO.updateNext
    rcases hr : (io.reader.readRaw cfg.ctx.debug io.kind.format).1 with _ | x
    · exact ⟨st, k, .nil, h1, h2, rfl⟩
    · simp only
      cases hx : x.bind (io.kind.update cfg w) with
      | err e => exact ⟨st, k, .nil, h1, h2, rfl⟩
      | panic => exact ⟨st, k, .nil, h1, h2, rfl⟩
      | ok record =>
        simp only
        obtain ⟨st', k', g1, g2, g3, g4⟩ := ih ⟨st.fs.append io.outfile record, some (io.outfile, k + 2), st.touched⟩
          { io with reader := (io.reader.readRaw cfg.ctx.debug io.kind.format).2 } (fs.append io.outfile record) (k + 1)
          (by rw [h1]) rfl
        exact ⟨st', k', .write h2 g1, g2, g3, g4⟩

theorem finish_trace {outs : List P} (st : Sketch P) (io : FileIO K P) (fs : FS P) (k : Nat) (h1 : st.fs = fs)
    (h2 : st.cur = some (io.outfile, k + 1)) :
    ∃ st' k', Trace outs st io.finishOps st' ∧ st'.fs = io.finish fs ∧ st'.cur = some (io.outfile, k' + 1) ∧
      st'.touched = st.touched := by
  unfold FileIO.finishOps FileIO.finish
  cases io.kind with
  | hepmc2 => exact ⟨st, k, .nil, h1, h2, rfl⟩
  | stripperXml sc => exact ⟨st, k, .nil, h1, h2, rfl⟩
  | lhef => exact ⟨_, k + 1, .write h2 .nil, by simp only [h1], rfl, rfl⟩

theorem updateFiles_trace [Div K] (hn : (files.map Prod.snd).Nodup)
    (hdis : ∀ p ∈ files.map Prod.fst, p ∉ files.map Prod.snd) : ∀ (n i : Nat) (ws : List (List K)) (st : Sketch P)
    (s : CombinedIO K P) (fs : FS P), Ready cfg files fs0 i st s fs →
    (∀ p k, st.cur = some (p, k) → ∃ j inn, j < i ∧ files[j]? = some (inn, p)) →
    Ends (files.map Prod.snd) st (filesOps cfg n i ws s fs) (updateFiles cfg n i ws s fs).2.2 := by
  intro n
  induction n with
  | zero =>
    intro i ws st s fs h _
    rw [filesOps, updateFiles, ← h.same]
    exact .done
  | succ n ih =>
    intro i ws st s fs h hcur
    rw [filesOps, updateFiles]
    rcases open_trace h hn hdis (Nat.le_refl i) with ⟨st1, s1, fs1, io, inn, out, h1, h2, h3, h4, h5, h6, h7⟩ | ⟨h1, h2⟩
    · rw [h1]
      simp only
      generalize hcc : s1.current = cc at *
      subst h4
      simp only
      have hcount : st.count out = 1 := by
        unfold Sketch.count
        rw [if_neg]
        intro ho
        obtain ⟨⟨q, k⟩, hq, rfl⟩ := Option.map_eq_some_iff.1 ho
        obtain ⟨j, inn', hlt, hj⟩ := hcur q k hq
        have := (unique_out hn h6 hj).1
        omega
      rw [hcount] at h7
      obtain ⟨st2, k2, g1, g2, g3, g4⟩ := updateWhile_trace (cfg := cfg) (outs := files.map Prod.snd) ws st1 io fs1 0 h3.same
        (by rw [h7, h5])
      have hiv := updateWhile_inv cfg ws io fs1
      generalize updateWhile cfg ws io fs1 = y at g2 hiv
      obtain ⟨y, io2, fs2⟩ := y
      simp only at g2 hiv
      cases y with
      | err e =>
        simp only [List.append_nil]
        have := g1.ends (.done (st := st2))
        rw [g2, List.append_nil] at this
        exact h2.ends this
      | panic =>
        simp only [List.append_nil]
        have := g1.ends (.done (st := st2))
        rw [g2, List.append_nil] at this
        exact h2.ends this
      | ok ws' =>
        simp only
        obtain ⟨st3, k3, f1, f2, f3, f4⟩ := finish_trace (outs := files.map Prod.snd) st2 io2 fs2 k2 g2 (by rw [g3, hiv.1])
        have hoth : ∀ p, p ≠ out → io2.finish fs2 p = fs1 p := by
          intro p hp
          rw [FileIO.finish_fs io2 fs2 p (by rw [hiv.1, h5]; exact hp), hiv.2 p (by rw [h5]; exact hp)]
        have hlast : ∀ p k, st3.cur = some (p, k) → ∃ j inn, j < i + 1 ∧ files[j]? = some (inn, p) := by
          intro p k hk
          rw [f3, Option.some.injEq, Prod.mk.injEq, hiv.1, h5] at hk
          obtain ⟨rfl, -⟩ := hk
          exact ⟨i, inn, by omega, h6⟩
        refine h2.ends (g1.ends (f1.ends (ih (i + 1) ws' st3 _ _ ⟨f2, h3.files_eq, ?_, ?_, fun p k hk => .inr (hlast p k hk)⟩ hlast)))
        · intro p hp
          rw [hoth p, h3.other p hp]
          rintro rfl
          exact hp (List.mem_map_of_mem (f := Prod.snd) (List.mem_of_getElem? h6))
        · intro j inn2 out2 hd hle hj ht hh
          rw [hoth]
          · refine h3.header j inn2 out2 hd (by omega) hj ?_ hh
            rw [← g4, ← f4]
            exact ht
          · rintro rfl
            have := (unique_out hn h6 hj).1
            omega
    · generalize s.openFile cfg i fs = x at h1 h2
      obtain ⟨x, s1, fs1⟩ := x
      cases x with
      | ok u => exact absurd rfl h1
      | err e => simp only [List.append_nil]; exact h2
      | panic => simp only [List.append_nil]; exact h2

theorem updateAll_trace [Div K] (hn : (files.map Prod.snd).Nodup)
    (hdis : ∀ p ∈ files.map Prod.fst, p ∉ files.map Prod.snd) (ws : List (List K)) {st : Sketch P} {s : CombinedIO K P} {fs : FS P}
    (h : Ready cfg files fs0 0 st s fs) : Ends (files.map Prod.snd) st (s.updateOps cfg ws fs) (s.updateAll cfg ws fs).2.2 := by
  have h1 := updateFiles_trace hn hdis s.files.length 0 ws ⟨st.fs, none, st.touched⟩ s.rewind fs
    ⟨h.same, h.files_eq, h.other, h.header, fun _ _ hk => by cases hk⟩ (fun _ _ hk => by cases hk)
  rw [updateOps, updateAll]
  generalize updateFiles cfg s.files.length 0 ws s.rewind fs = x at h1
  obtain ⟨x, s1, fs1⟩ := x
  cases x <;> exact .drop h1

theorem recordItems_mono [Mul K] : ∀ (n : Nat) (s : CombinedIO K P) (fs : FS P) (k : Nat), (s.recordItems cfg n fs).1 ≠ none →
    s.recordItems cfg (n + k) fs = s.recordItems cfg n fs := by
  intro n
  induction n with
  | zero => exact fun s fs k h => absurd rfl h
  | succ n ih =>
    intro s fs k h
    rw [show n + 1 + k = (n + k) + 1 by omega, recordItems, recordItems]
    rw [recordItems] at h
    generalize s.nextRecord cfg fs = x at h
    obtain ⟨x, s1, fs1⟩ := x
    rcases x with _ | (r | e | _)
    · rfl
    · simp only at h ⊢
      rw [ih s1 fs1 k]
      intro hn
      rw [hn] at h
      exact h rfl
    · rfl
    · rfl

theorem recordItems_unique [Mul K] {n m : Nat} {s : CombinedIO K P} {fs : FS P} (h : (s.recordItems cfg n fs).1 ≠ none)
    (h' : (s.recordItems cfg m fs).1 ≠ none) : s.recordItems cfg n fs = s.recordItems cfg m fs := by
  rw [← recordItems_mono n s fs m h, ← recordItems_mono m s fs n h', Nat.add_comm]

end

/-- The operations of a run. -/
theorem run_trace [Zero D] [Zero K] [One K] [Add K] [Mul K] [Div K] [NatCast K] [LinearOrder K] [LinearOrder V] [DecidableEq P]
    {p : Program K V D} {files : List (P × P)} {fs fs' : FS P} {events : Option (List (Event K V))} {ws : Option (List (Weights K))}
    {res : Outcome (CresError IOError) Unit} (h : p.Run files fs events ws res fs') (hn : (files.map Prod.snd).Nodup)
    (hdis : ∀ q ∈ files.map Prod.fst, q ∉ files.map Prod.snd) {n : Nat} (hr : p.ReadsAll files fs n) :
    Ends (files.map Prod.snd) ⟨fs, none, []⟩ (p.runOps files fs n ws) fs' := by
  have hnew := new_trace (cfg := p.io) hn hdis fs
  have hread : ∀ {s fs1 r x}, CombinedIO.new p.io files fs = (.ok (), s, fs1) → p.ReadsEvents s fs1 r x →
      (∃ st', Trace (files.map Prod.snd) ⟨fs, none, []⟩ (newOps p.io files fs ++ s.recordOps p.io n fs1) st' ∧
        Ready p.io files fs 0 st' x.1 x.2 ∧ (s.recordItems p.io n fs1).2 = x) ∨
      ((∀ events, r ≠ .ok events) ∧ Ends (files.map Prod.snd) ⟨fs, none, []⟩ (newOps p.io files fs ++ s.recordOps p.io n fs1) x.2) := by
    intro s fs1 r x h1 h2
    rw [h1] at hnew
    rcases hnew with ⟨st1, s', fs1', g1, g2, g3⟩ | ⟨g1, -⟩
    · simp only [Prod.mk.injEq, true_and] at g1
      obtain ⟨rfl, rfl⟩ := g1
      have hall := hr s fs1 h1
      have h3 := recordItems_trace hn hdis n st1 s fs1 g3
      cases h2 with
      | @panic m x hm =>
        have h4 := recordItems_unique hall (by rw [hm]; simp)
        rw [h4, hm] at h3
        rcases h3 with ⟨st', k1, k2⟩ | ⟨-, k2⟩
        · exact .inl ⟨st', g2.trans k1, k2, by rw [h4, hm]⟩
        · exact .inr ⟨by simp, g2.ends k2⟩
      | @done m items x r hm hreach hfin =>
        have h4 := recordItems_unique hall (by rw [hm]; simp)
        rw [h4, hm] at h3
        rcases h3 with ⟨st', k1, k2⟩ | ⟨k1, k2⟩
        · exact .inl ⟨st', g2.trans k1, k2, by rw [h4, hm]⟩
        · refine .inr ⟨?_, g2.ends k2⟩
          intro events hev
          obtain ⟨e, he⟩ := k1 items rfl
          obtain ⟨i, hi⟩ := List.getElem?_of_mem he
          obtain ⟨ev, hev⟩ := (C29_succeeds_iff hreach hfin).1 ⟨events, hev⟩ i _ hi
          obtain ⟨_, _, _, hev, -⟩ := hev
          cases hev
    · exact absurd rfl g1
  have hreadNone : ∀ {s fs1 r x}, CombinedIO.new p.io files fs = (.ok (), s, fs1) → p.ReadsEvents s fs1 r x →
      Ends (files.map Prod.snd) ⟨fs, none, []⟩ (p.runOps files fs n none) x.2 := by
    intro s fs1 r x h1 h2
    unfold Program.runOps
    rw [h1]
    simp only [List.append_nil]
    rcases hread h1 h2 with ⟨st', g1, g2, -⟩ | ⟨-, g2⟩
    · have := g1.ends (.done (st := st'))
      rw [g2.same, List.append_nil] at this
      exact this
    · exact g2
  cases h with
  | createErr h1 | createPanic h1 =>
    unfold Program.runOps
    rw [h1] at hnew ⊢
    rcases hnew with ⟨st1, s', fs1', g1, g2, g3⟩ | ⟨-, g2⟩
    · simp at g1
    · simp only [List.append_nil]
      exact g2
  | readErr h1 h2 | readPanic h1 h2 => exact hreadNone h1 h2
  | weightsErr h1 h2 _ | weightsPanic h1 h2 _ => exact hreadNone h1 h2
  | update h1 h2 _ =>
    rename_i s fs1 evs ws x _
    unfold Program.runOps
    rw [h1]
    simp only
    rw [← List.append_assoc]
    rcases hread h1 h2 with ⟨st', g1, g2, g3⟩ | ⟨g1, -⟩
    · rw [g3]
      exact g1.ends (updateAll_trace hn hdis ws g2)
    · exact absurd rfl (g1 _)

end Cres

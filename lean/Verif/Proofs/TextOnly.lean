import Verif.Spec.TextOnly
import Verif.Proofs.Main

/-!
Lemmas for C113: with support for ROOT ntuples, reading and writing text files is the same as without.
-/

set_option linter.unusedSectionVars false

namespace Cres

open Spec CombinedIO

section Read

variable {E R R' K V : Type*}

/-- The same state of reading for records with another representation. -/
def ReadState.mapRecords (f : R → R') (s : ReadState E R K V) : ReadState E R' K V :=
  ⟨s.next, s.pending.map fun x => (x.1, f x.2), s.pushed, s.stopped, s.panicked⟩

variable {convert : R → Outcome E (Event K V)} {convert' : R' → Outcome E (Event K V)} {cluster : Event K V → Outcome E (Event K V)}
  {sequential : R → Bool} {sequential' : R' → Bool} {f : R → R'} {items : List (Except E R)}

theorem convertRecord_map (hc : ∀ r, convert' (f r) = convert r) (i : Nat) (r : R) :
    convertRecord convert' cluster i (f r) = convertRecord convert cluster i r := by
  unfold convertRecord
  rw [hc]

theorem readStep_map (hc : ∀ r, convert' (f r) = convert r) (hs : ∀ r, .ok r ∈ items → sequential' (f r) = sequential r)
    (s : ReadState E R K V) (a : ReadAction) :
    readStep convert' cluster sequential' (items.map (Except.map f)) (s.mapRecords f) a =
      (readStep convert cluster sequential items s a).map (ReadState.mapRecords f) := by
  cases a with
  | main =>
    unfold readStep
    simp only [ReadState.mapRecords]
    cases s.stopped with
    | some _ => rfl
    | none =>
      simp only [List.getElem?_map]
      cases hi : items[s.next]? with
      | none => rfl
      | some x =>
        cases x with
        | error e => rfl
        | ok r =>
          simp only [Option.map_some, Except.map, hs r (List.mem_of_getElem? hi), convertRecord_map hc]
          cases sequential r with
          | true =>
            simp only [if_true]
            cases convertRecord convert cluster s.next r <;> rfl
          | false => simp [ReadState.mapRecords]
  | task k =>
    unfold readStep
    simp only [ReadState.mapRecords, List.getElem?_map]
    cases hi : s.pending[k]? with
    | none => rfl
    | some x =>
      obtain ⟨i, r⟩ := x
      simp only [Option.map_some, convertRecord_map hc]
      cases convertRecord convert cluster i r <;> simp [ReadState.mapRecords, List.eraseIdx_map]

theorem readReachable_map (hc : ∀ r, convert' (f r) = convert r) (hs : ∀ r, .ok r ∈ items → sequential' (f r) = sequential r)
    {s' : ReadState E R' K V} : ReadReachable convert' cluster sequential' (items.map (Except.map f)) s' ↔
      ∃ s, ReadReachable convert cluster sequential items s ∧ s' = s.mapRecords f := by
  constructor
  · intro h
    induction h with
    | init => exact ⟨_, .init, rfl⟩
    | @step s1 s2 a _ h ih =>
      obtain ⟨s, h1, rfl⟩ := ih
      rw [readStep_map hc hs] at h
      obtain ⟨s3, h2, rfl⟩ := Option.map_eq_some_iff.1 h
      exact ⟨s3, .step h1 h2, rfl⟩
  · rintro ⟨s, h, rfl⟩
    induction h with
    | init => exact .init
    | @step s1 s2 a _ h ih =>
      refine .step (a := a) ih ?_
      rw [readStep_map hc hs, h]
      rfl

theorem mapRecords_finished {s : ReadState E R K V} : (s.mapRecords f).Finished ↔ s.Finished := by
  simp [ReadState.Finished, ReadState.mapRecords]

end Read

section IO

variable {K V D P : Type*} {b : Bool}

theorem detect_noNTuple {cfg : IOConfig K V} {content : Bytes} (h : NotRoot cfg content) :
    detectFormat cfg.feat (some (cfg.firstBuffer content)) = detectFormat (setNTuple b cfg).feat (some (cfg.firstBuffer content)) ∧
    detectFormat cfg.feat (some (cfg.firstBuffer content)) ≠ .ok .ntuple := by
  unfold NotRoot at h
  simp only [detectFormat, h, if_false, setNTuple]
  refine ⟨rfl, ?_⟩
  split_ifs <;> simp

variable [DecidableEq P]

theorem fileIO_noNTuple {cfg : IOConfig K V} {fs : FS P} {infile outfile : P} (h : ∀ c, fs infile = some c → NotRoot cfg c) :
    FileIO.new cfg infile outfile fs = FileIO.new (setNTuple b cfg) infile outfile fs := by
  unfold FileIO.new
  cases hc : fs infile with
  | none => rfl
  | some content =>
    have hd := (detect_noNTuple (b := b) (h content hc)).1
    simp only [hd]
    have hr : ∀ fmt, Reader.new cfg content fmt = Reader.new (setNTuple b cfg) content fmt := by intro fmt; cases fmt <;> rfl
    have hk : ∀ c fmt, Kind.find cfg c fmt = Kind.find (setNTuple b cfg) c fmt := by intro c fmt; cases fmt <;> rfl
    simp only [hr, hk]
    rfl

theorem anyIO_text {cfg : IOConfig K V} (lib : Mixed.RootLib K) {fs : FS P} {infile : P} (outfile : P) (h : ∀ c, fs infile = some c → NotRoot cfg c) :
    Mixed.AnyIO.new cfg lib infile outfile fs =
      ((FileIO.new (setNTuple b cfg) infile outfile fs).1.map .text, (FileIO.new (setNTuple b cfg) infile outfile fs).2) := by
  rw [← fileIO_noNTuple (b := b) h]
  unfold Mixed.AnyIO.new
  cases hc : fs infile with
  | none => simp [FileIO.new, hc]
  | some content =>
    have hd := (detect_noNTuple (b := b) (h content hc)).2
    simp only

/-- The state of reading with support for ntuples. -/
def toMixed (t : CombinedIO K P) : Mixed.Combined K P := ⟨t.files, t.current.map .text, t.idx⟩

/-- A result and a state with support for ntuples. -/
def mixed {α : Type*} (x : α × CombinedIO K P × FS P) : α × Mixed.Combined K P × FS P := (x.1, toMixed x.2.1, x.2.2)

variable {cfg : IOConfig K V} {lib : Mixed.RootLib K} {files : List (P × P)} {fs0 fs : FS P} {t : CombinedIO K P}

/-- Opening a file is the same with and without support for ntuples, as long as only output files have changed. -/
def Lockstep (cfg : IOConfig K V) (lib : Mixed.RootLib K) (b : Bool) (files : List (P × P)) (fs0 : FS P) : Prop :=
  ∀ (t : CombinedIO K P) (fs : FS P) (i : Nat), CombinedIO.Inv files fs0 t fs →
    (toMixed t).openFile cfg lib i fs = mixed (t.openFile (setNTuple b cfg) i fs)

theorem lockstep_of (h : ∀ infile outfile (fs : FS P), (infile, outfile) ∈ files → (∀ q ∉ files.map Prod.snd, fs q = fs0 q) →
    Mixed.AnyIO.new cfg lib infile outfile fs =
      ((FileIO.new (setNTuple b cfg) infile outfile fs).1.map .text, (FileIO.new (setNTuple b cfg) infile outfile fs).2)) :
    Lockstep cfg lib b files fs0 := by
  intro t fs i hi
  unfold Mixed.Combined.openFile CombinedIO.openFile
  simp only [toMixed]
  cases hf : t.files[i]? with
  | none => rfl
  | some x =>
    obtain ⟨infile, outfile⟩ := x
    have hx : (infile, outfile) ∈ files := by rw [← hi.files_eq]; exact List.mem_of_getElem? hf
    simp only
    rw [h _ _ _ hx hi.other]
    cases hn : FileIO.new (setNTuple b cfg) infile outfile fs with
    | mk a b => cases a <;> rfl

theorem lockstep_text (ht : TextInputs cfg files fs0) : Lockstep cfg lib b files fs0 :=
  lockstep_of fun _ outfile _ hx hq => anyIO_text lib outfile fun c hc => ht.text _ hx c (by rw [← hq _ (ht.apart _ hx)]; exact hc)

/-- Without the feature no file is read as an ntuple. -/
theorem lockstep_without (hf : cfg.feat.ntuple = false) : Lockstep cfg lib false files fs0 :=
  lockstep_of fun infile outfile fs _ _ => by
    have hcfg : setNTuple false cfg = cfg := by
      unfold setNTuple
      rw [← hf]
    rw [hcfg]
    unfold Mixed.AnyIO.new
    cases hc : fs infile with
    | none => simp [FileIO.new, hc]
    | some content =>
      have hd : detectFormat cfg.feat (some (cfg.firstBuffer content)) ≠ .ok .ntuple := by
        simp only [detectFormat, hf]
        split_ifs <;> simp_all
      simp only

theorem initLoop_mixed (ht : Lockstep cfg lib b files fs0) : ∀ (n i : Nat) (t : CombinedIO K P) (fs : FS P), CombinedIO.Inv files fs0 t fs →
    (toMixed t).initLoop cfg lib n i fs = mixed (t.initLoop (setNTuple b cfg) n i fs)
  | 0, _, _, _, _ => rfl
  | n + 1, i, t, fs, h => by
    have h1 := openFile_inv (setNTuple b cfg) i h
    simp only [Mixed.Combined.initLoop, CombinedIO.initLoop]
    rw [ht _ _ _ h]
    cases ho : t.openFile (setNTuple b cfg) i fs with
    | mk a b =>
      obtain ⟨t1, fs1⟩ := b
      rw [ho] at h1
      cases a with
      | err e => rfl
      | panic => rfl
      | ok u =>
        simp only [mixed]
        have hcur : ∃ io, t1.current = some io := by
          unfold CombinedIO.openFile at ho
          split at ho
          · simp at ho
          · split at ho
            · simp only [Prod.mk.injEq] at ho
              obtain ⟨-, rfl, -⟩ := ho
              exact ⟨_, rfl⟩
            · simp at ho
            · simp at ho
        obtain ⟨io, hio⟩ := hcur
        simp only [hio]
        have h2 : CombinedIO.Inv files fs0 { t1 with hint := combineHints t1.hint io.reader.sizeHint } fs1 :=
          ⟨h1.files_eq, h1.current, h1.other⟩
        have h3 := initLoop_mixed ht n (i + 1) _ fs1 h2
        simp only [hio] at h3
        rw [show toMixed t1 = toMixed { t1 with current := some io, hint := combineHints t1.hint io.reader.sizeHint } by simp [toMixed, hio]]
        exact h3

theorem new_mixed (ht : Lockstep cfg lib b files fs0) : Mixed.Combined.new cfg lib files fs0 = mixed (CombinedIO.new (setNTuple b cfg) files fs0) := by
  unfold Mixed.Combined.new CombinedIO.new
  simp only
  split
  · rfl
  · have h0 : CombinedIO.Inv files fs0 (⟨files, none, 0, 0, (0, some 0)⟩ : CombinedIO K P) fs0 := ⟨rfl, by simp, fun _ _ => rfl⟩
    have h1 := initLoop_mixed (lib := lib) (b := b) ht files.length 0 _ _ h0
    have h2 := initLoop_inv (setNTuple b cfg) files.length 0 _ _ h0
    change Mixed.Combined.initLoop cfg lib files.length 0 ⟨files, none, 0⟩ fs0 = _ at h1
    rw [h1]
    cases hi : CombinedIO.initLoop (setNTuple b cfg) files.length 0 (⟨files, none, 0, 0, (0, some 0)⟩ : CombinedIO K P) fs0 with
    | mk a b =>
      obtain ⟨t1, fs1⟩ := b
      rw [hi] at h2
      cases a with
      | ok u => exact ht _ _ 0 h2
      | err e => rfl
      | panic => rfl

/-- A record with the format of the current file. -/
def tagged (x : Option (Outcome IOError Bytes) × CombinedIO K P × FS P) : Option (Outcome IOError EventRecord) :=
  match x.1 with
  | some (.ok r) =>
    match x.2.1.current with
    | some io => some (.ok (io.kind.format, r))
    | none => some .panic
  | some (.err e) => some (.err e)
  | some .panic => some .panic
  | none => none

theorem nextRecord_tagged [Mul K] (cfg : IOConfig K V) (t : CombinedIO K P) (fs : FS P) :
    t.nextRecord cfg fs = (tagged (t.next cfg fs), (t.next cfg fs).2) := by
  unfold CombinedIO.nextRecord tagged
  cases h : t.next cfg fs with
  | mk a b =>
    obtain ⟨t1, fs1⟩ := b
    cases a with
    | none => rfl
    | some x =>
      cases x with
      | ok r =>
        simp only
        cases t1.current <;> rfl
      | err e => rfl
      | panic => rfl

/-- A record with support for ntuples. -/
def anyRecord : Option (Outcome IOError EventRecord) → Option (Outcome IOError (Mixed.AnyRecord K)) := Option.map (Outcome.map .inl)

theorem nextLoop_mixed [Mul K] (ht : Lockstep cfg lib b files fs0) : ∀ (n : Nat) (t : CombinedIO K P) (fs : FS P), CombinedIO.Inv files fs0 t fs →
    (toMixed t).nextLoop cfg lib n fs =
      (anyRecord (tagged (t.nextLoop (setNTuple b cfg) n fs)), toMixed (t.nextLoop (setNTuple b cfg) n fs).2.1, (t.nextLoop (setNTuple b cfg) n fs).2.2)
  | 0, _, _, _ => rfl
  | n + 1, t, fs, h => by
    have hopen : ∀ (i : Nat) (t : CombinedIO K P), CombinedIO.Inv files fs0 t fs →
        (match (toMixed t).openFile cfg lib i fs with
          | (.ok (), s, fs) => Mixed.Combined.nextLoop cfg lib n s fs
          | (.err e, s, fs) => (some (.err e), s, fs)
          | (.panic, s, fs) => (some .panic, s, fs)) =
        (let y := match t.openFile (setNTuple b cfg) i fs with
          | (.ok (), s, fs) => CombinedIO.nextLoop (setNTuple b cfg) n s fs
          | (.err e, s, fs) => (some (.err e), s, fs)
          | (.panic, s, fs) => (some .panic, s, fs)
        (anyRecord (tagged y), toMixed y.2.1, y.2.2)) := by
      intro i t h
      have h1 := openFile_inv (setNTuple b cfg) i h
      rw [ht _ _ _ h]
      cases ho : t.openFile (setNTuple b cfg) i fs with
      | mk a b =>
        obtain ⟨t1, fs1⟩ := b
        rw [ho] at h1
        cases a with
        | ok u => exact nextLoop_mixed ht n t1 fs1 h1
        | err e => rfl
        | panic => rfl
    simp only [Mixed.Combined.nextLoop, CombinedIO.nextLoop]
    cases hc : t.current with
    | none =>
      simp only [toMixed, hc, Option.map_none]
      split
      · simp [tagged, anyRecord, hc]
      · have := hopen 0 t h
        simp only [toMixed, hc, Option.map_none] at this
        exact this
    | some io =>
      simp only [toMixed, hc, Option.map_some, Mixed.AnyIO.next]
      have hnext : io.next cfg = io.next (setNTuple b cfg) := by
        unfold FileIO.next
        have hp : ∀ k, Kind.present cfg k = Kind.present (setNTuple b cfg) k := by intro k; cases k <;> rfl
        rw [hp]
        rfl
      rw [hnext]
      have hkind : (io.next (setNTuple b cfg)).2.kind = io.kind := rfl
      have hout : (io.next (setNTuple b cfg)).2.outfile = io.outfile := rfl
      cases hn : io.next (setNTuple b cfg) with
      | mk a io' =>
        rw [hn] at hkind hout
        simp only at hkind hout
        cases a with
        | some x =>
          cases x <;> simp [tagged, anyRecord, hkind]
        | none =>
          simp only [Option.map_none]
          have h1 : CombinedIO.Inv files fs0 { t with current := some io' } fs := by
            refine ⟨h.files_eq, ?_, h.other⟩
            intro io2 h2
            simp only [Option.some.injEq] at h2
            rw [← h2, hout]
            exact h.current io hc
          split
          · simp [tagged, anyRecord]
          · exact hopen (t.idx + 1) { t with current := some io' } h1

theorem items_mixed [Mul K] (ht : Lockstep cfg lib b files fs0) : ∀ (n : Nat) (t : CombinedIO K P) (fs : FS P), CombinedIO.Inv files fs0 t fs →
    (toMixed t).items cfg lib n fs =
      ((t.recordItems (setNTuple b cfg) n fs).1.map (Outcome.map (List.map (Except.map Sum.inl))), toMixed (t.recordItems (setNTuple b cfg) n fs).2.1,
        (t.recordItems (setNTuple b cfg) n fs).2.2)
  | 0, _, _, _ => rfl
  | n + 1, t, fs, h => by
    have h1 : CombinedIO.Inv files fs0 (t.next (setNTuple b cfg) fs).2.1 (t.next (setNTuple b cfg) fs).2.2 := nextLoop_inv (setNTuple b cfg) _ _ _ h
    have h2 := nextLoop_mixed (lib := lib) (b := b) ht (t.files.length + 2) t fs h
    have h3 : (toMixed t).next cfg lib fs = (anyRecord (t.nextRecord (setNTuple b cfg) fs).1, toMixed (t.nextRecord (setNTuple b cfg) fs).2.1,
        (t.nextRecord (setNTuple b cfg) fs).2.2) := by
      rw [nextRecord_tagged]
      exact h2
    have h4 : CombinedIO.Inv files fs0 (t.nextRecord (setNTuple b cfg) fs).2.1 (t.nextRecord (setNTuple b cfg) fs).2.2 := by
      rw [nextRecord_tagged]
      exact h1
    simp only [Mixed.Combined.items, CombinedIO.recordItems, h3]
    cases hr : t.nextRecord (setNTuple b cfg) fs with
    | mk a b =>
      obtain ⟨t1, fs1⟩ := b
      rw [hr] at h4
      cases a with
      | none => rfl
      | some x =>
        cases x with
        | panic => rfl
        | err e => rfl
        | ok r =>
          simp only [anyRecord, Option.map_some, Outcome.map_ok]
          rw [items_mixed ht n t1 fs1 h4]
          cases hx : (CombinedIO.recordItems (setNTuple b cfg) n t1 fs1).1 with
          | none => simp
          | some y => cases y <;> simp [Except.map]

theorem recordItems_inv [Mul K] [Div K] (cfg : IOConfig K V) (n : Nat) (h : CombinedIO.Inv files fs0 t fs) :
    CombinedIO.Inv files fs0 (t.recordItems cfg n fs).2.1 (t.recordItems cfg n fs).2.2 := by
  obtain ⟨k, hk⟩ := Program.recordItems_state cfg n t fs
  rw [hk]
  exact history_inv cfg _ (x := (t, fs)) h

/-- A step of reading keeps the variant of the record. -/
theorem nextRecord_format [Mul K] {x : CombinedIO K P × FS P} {r : EventRecord} (h : t.nextRecord cfg fs = (some (.ok r), x)) :
    r.1 ≠ .ntuple := by
  unfold CombinedIO.nextRecord at h
  split at h
  · split at h
    · rename_i io _
      simp only [Prod.mk.injEq, Option.some.injEq, Outcome.ok.injEq] at h
      rw [← h.1]
      cases io.kind <;> simp [Kind.format]
    · simp at h
  · simp at h
  · simp at h
  · simp at h

theorem recordItems_format [Mul K] : ∀ (n : Nat) (t : CombinedIO K P) (fs : FS P) (items : List (Except IOError EventRecord))
    (x : CombinedIO K P × FS P), t.recordItems cfg n fs = (some (.ok items), x) → ∀ r, .ok r ∈ items → r.1 ≠ .ntuple
  | 0, _, _, _, _, h => by simp [CombinedIO.recordItems] at h
  | n + 1, t, fs, items, x, h => by
    intro r hr
    rw [CombinedIO.recordItems] at h
    cases hn : t.nextRecord cfg fs with
    | mk a b =>
      obtain ⟨t1, fs1⟩ := b
      rw [hn] at h
      cases a with
      | none =>
        simp only [Prod.mk.injEq, Option.some.injEq, Outcome.ok.injEq] at h
        rw [← h.1] at hr
        simp at hr
      | some y =>
        cases y with
        | panic => simp at h
        | err e =>
          simp only [Prod.mk.injEq, Option.some.injEq, Outcome.ok.injEq] at h
          rw [← h.1] at hr
          simp at hr
        | ok r1 =>
          simp only [Prod.mk.injEq] at h
          obtain ⟨h1, h2⟩ := h
          cases hx : (CombinedIO.recordItems cfg n t1 fs1).1 with
          | none => simp [hx] at h1
          | some z =>
            cases z with
            | err e => exact e.elim
            | panic => simp [hx] at h1
            | ok rest =>
              simp only [hx, Option.map_some, Outcome.map_ok, Option.some.injEq, Outcome.ok.injEq] at h1
              rw [← h1] at hr
              rcases List.mem_cons.1 hr with h3 | h3
              · simp only [Except.ok.injEq] at h3
                rw [h3]
                exact nextRecord_format hn
              · exact recordItems_format n t1 fs1 rest _ (Prod.ext hx rfl) r h3

theorem updateNext_noNTuple [Div K] (w : List K) (io : FileIO K P) (fs : FS P) :
    io.updateNext cfg w fs = io.updateNext (setNTuple b cfg) w fs := by
  unfold FileIO.updateNext
  have hp : ∀ a, Kind.update cfg a w = Kind.update (setNTuple b cfg) a w := by intro a; cases a <;> rfl
  simp only [hp]
  rfl

theorem updateWhile_mixed [Div K] : ∀ (ws : List (List K)) (io : FileIO K P) (fs : FS P),
    Mixed.Combined.updateWhile cfg lib ws (.text io) fs = ((CombinedIO.updateWhile (setNTuple b cfg) ws io fs).1,
      .text (CombinedIO.updateWhile (setNTuple b cfg) ws io fs).2.1, (CombinedIO.updateWhile (setNTuple b cfg) ws io fs).2.2)
  | [], _, _ => rfl
  | w :: ws, io, fs => by
    simp only [Mixed.Combined.updateWhile, CombinedIO.updateWhile, Mixed.AnyIO.updateNext]
    rw [updateNext_noNTuple (b := b)]
    cases hn : io.updateNext (setNTuple b cfg) w fs with
    | mk a b =>
      obtain ⟨io1, fs1⟩ := b
      cases a with
      | ok b =>
        cases b with
        | true => exact updateWhile_mixed ws io1 fs1
        | false => rfl
      | err e => rfl
      | panic => rfl

theorem updateFiles_mixed [Div K] (ht : Lockstep cfg lib b files fs0) : ∀ (n i : Nat) (ws : List (List K)) (t : CombinedIO K P) (fs : FS P),
    CombinedIO.Inv files fs0 t fs →
    (toMixed t).updateFiles cfg lib n i ws fs = mixed (t.updateFiles (setNTuple b cfg) n i ws fs)
  | 0, _, _, _, _, _ => rfl
  | n + 1, i, ws, t, fs, h => by
    have h1 := openFile_inv (setNTuple b cfg) i h
    simp only [Mixed.Combined.updateFiles, CombinedIO.updateFiles]
    rw [ht _ _ _ h]
    cases ho : t.openFile (setNTuple b cfg) i fs with
    | mk a b =>
      obtain ⟨t1, fs1⟩ := b
      rw [ho] at h1
      simp only at h1
      cases a with
      | err e => rfl
      | panic => rfl
      | ok u =>
        simp only [mixed, toMixed]
        cases hc : t1.current with
        | none => simp [hc]
        | some io =>
          simp only [Option.map_some, updateWhile_mixed (b := b)]
          have h2 := updateWhile_inv (setNTuple b cfg) ws io fs1
          cases hw : CombinedIO.updateWhile (setNTuple b cfg) ws io fs1 with
          | mk y z =>
            obtain ⟨io2, fs2⟩ := z
            rw [hw] at h2
            simp only at h2
            cases y with
            | err e => rfl
            | panic => rfl
            | ok ws' =>
              refine updateFiles_mixed ht n (i + 1) ws' { t1 with current := some io2 } (io2.finish fs2) ?_
              refine h1.set hc h2.1 (fun p hp => ?_)
              rw [FileIO.finish_fs io2 fs2 p (by rw [h2.1]; exact hp), h2.2 p hp]

theorem updateAll_mixed [Div K] (ht : Lockstep cfg lib b files fs0) (h : CombinedIO.Inv files fs0 t fs) (ws : List (List K)) :
    (toMixed t).updateAll cfg lib ws fs = mixed (t.updateAll (setNTuple b cfg) ws fs) := by
  unfold Mixed.Combined.updateAll CombinedIO.updateAll
  have h1 := updateFiles_mixed (lib := lib) (b := b) ht t.files.length 0 ws t.rewind fs (rewind_inv h)
  have h2 : Mixed.Combined.updateFiles cfg lib (toMixed t).files.length 0 ws { toMixed t with current := none } fs =
      mixed (t.rewind.updateFiles (setNTuple b cfg) t.files.length 0 ws fs) := h1
  rw [h2]
  cases hu : CombinedIO.updateFiles (setNTuple b cfg) t.files.length 0 ws t.rewind fs with
  | mk a b => cases a <;> rfl

end IO

end Cres

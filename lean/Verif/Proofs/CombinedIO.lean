import Mathlib.Data.List.Nodup
import Verif.Spec.FileIO

/-!
Lemmas about `FileIO` and `CombinedFileIO`.
-/

namespace Cres

open Spec

variable {K V P : Type*}

/-! ### File system -/

theorem FS.create_self [DecidableEq P] (fs : FS P) (p : P) (s : Bytes) : fs.create p s p = some s := by
  simp [FS.create]

theorem FS.create_other [DecidableEq P] (fs : FS P) {p q : P} (s : Bytes) (h : q ≠ p) : fs.create p s q = fs q := by
  simp [FS.create, h]

theorem FS.append_other [DecidableEq P] (fs : FS P) {p q : P} (s : Bytes) (h : q ≠ p) : fs.append p s q = fs q := by
  simp [FS.append, h]

theorem FS.append_create [DecidableEq P] (fs : FS P) (p : P) (s t : Bytes) :
    (fs.create p s).append p t = fs.create p (s ++ t) := by
  simp [FS.append, FS.create]

/-! ### Creating an object -/

theorem FileIO.new_ok [DecidableEq P] {cfg : IOConfig K V} {fs : FS P} {infile : P} {d : FileData K}
    (h : Input cfg fs infile d) (outfile : P) :
    ∃ r, FileIO.new cfg infile outfile fs = (.ok ⟨d.kind, infile, outfile, r⟩, fs.create outfile d.header) ∧
      Reads cfg.ctx.debug d.kind.format r d.records ∧ r.rem = declared cfg d := by
  obtain ⟨content, h1, h2, r, h3, h4, h5, h6⟩ := h
  refine ⟨r, ?_, h6, ?_⟩
  · simp only [FileIO.new, h1, h2, h3, h4, h5, Outcome.bind_ok]
  · unfold declared
    cases hk : d.kind with
    | hepmc2 =>
      simp only [hk, Kind.format, Reader.new, Outcome.ok.injEq] at h3
      rw [← h3]
    | lhef =>
      simp only [hk, Kind.format, Reader.new, Outcome.ok.injEq] at h3
      rw [← h3]
    | stripperXml sc =>
      simp only [hk, Kind.format, Reader.new, Outcome.bind_eq_ok] at h3
      obtain ⟨⟨header, src⟩, -, tag, h7, h8⟩ := h3
      cases tag with
      | eventrecord a b n =>
        simp only [Outcome.ok.injEq] at h8
        subst h8
        simp only at h4
        subst h4
        simp only [h7]
      | normalization a b => simp at h8

/-- What creating an object changes. -/
theorem FileIO.new_fs [DecidableEq P] (cfg : IOConfig K V) (fs : FS P) (infile outfile : P) :
    (∀ io, (FileIO.new cfg infile outfile fs).1 = .ok io → io.outfile = outfile ∧ io.infile = infile) ∧
    ∀ p, p ≠ outfile → (FileIO.new cfg infile outfile fs).2 p = fs p := by
  unfold FileIO.new
  split
  · simp
  · split
    · simp
    · simp
    · split
      · simp
      · simp
      · refine ⟨?_, fun p hp => FS.create_other _ _ hp⟩
        intro io h
        simp only [Outcome.bind_eq_ok, Outcome.ok.injEq] at h
        obtain ⟨k, -, rfl⟩ := h
        exact ⟨rfl, rfl⟩

/-! ### Updating one file -/

theorem FileIO.updateNext_done [Div K] [DecidableEq P] (cfg : IOConfig K V) (w : List K) {io : FileIO K P} (fs : FS P)
    (h : (io.reader.readRaw cfg.ctx.debug io.kind.format).1 = none) :
    io.updateNext cfg w fs = (.ok false, { io with reader := (io.reader.readRaw cfg.ctx.debug io.kind.format).2 }, fs) := by
  simp only [FileIO.updateNext, h]

theorem FileIO.updateNext_more [Div K] [DecidableEq P] (cfg : IOConfig K V) {w : List K} {io : FileIO K P} (fs : FS P)
    {record record' : Bytes} {r' : Reader}
    (h : io.reader.readRaw cfg.ctx.debug io.kind.format = (some (.ok record), r'))
    (hu : io.kind.update cfg w record = .ok record') :
    io.updateNext cfg w fs = (.ok true, { io with reader := r' }, fs.append io.outfile record') := by
  simp only [FileIO.updateNext, h, Outcome.bind_ok, hu]

theorem updated_eq [Div K] {cfg : IOConfig K V} {kind : Kind K} {w : List K} {record record' : Bytes}
    (hu : kind.update cfg w record = .ok record') : updated cfg kind w record = record' := by
  simp only [updated, hu]

namespace CombinedIO

/-- All updates of the records with the weights succeed. -/
def Updatable [Div K] (cfg : IOConfig K V) (d : FileData K) (ws : List (List K)) : Prop :=
  ∀ x ∈ ws.zip d.records, ∃ record', d.kind.update cfg x.1 x.2 = .ok record'

theorem updateWhile_ok [Div K] [DecidableEq P] (cfg : IOConfig K V) (kind : Kind K) (infile outfile : P) (fs : FS P)
    (records : List Bytes) (r : Reader) (hr : Reads cfg.ctx.debug kind.format r records) :
    ∀ (ws : List (List K)) (s : Bytes), (∀ x ∈ ws.zip records, ∃ record', kind.update cfg x.1 x.2 = .ok record') →
    ∃ r', updateWhile cfg ws ⟨kind, infile, outfile, r⟩ (fs.create outfile s) =
      (.ok (ws.drop records.length), ⟨kind, infile, outfile, r'⟩,
       fs.create outfile (s ++ (List.zipWith (updated cfg kind) ws records).flatten)) := by
  induction hr with
  | @done r h =>
    intro ws s _
    cases ws with
    | nil => exact ⟨r, by simp [updateWhile]⟩
    | cons w ws =>
      refine ⟨(Reader.readRaw cfg.ctx.debug kind.format r).2, ?_⟩
      simp only [updateWhile, FileIO.updateNext_done cfg w (io := ⟨kind, infile, outfile, r⟩) _ h]
      simp
  | @more r r' record records h _ ih =>
    intro ws s hu
    cases ws with
    | nil => exact ⟨r, by simp [updateWhile]⟩
    | cons w ws =>
      obtain ⟨record', hrec⟩ := hu (w, record) (by simp)
      obtain ⟨r'', hih⟩ := ih ws (s ++ record') (fun x hx => hu x (by simp [hx]))
      refine ⟨r'', ?_⟩
      simp only [updateWhile, FileIO.updateNext_more cfg (io := ⟨kind, infile, outfile, r⟩) _ h hrec, FS.append_create]
      rw [hih]
      simp [updated_eq hrec]

theorem finish_create [DecidableEq P] (kind : Kind K) (infile outfile : P) (r : Reader) (fs : FS P) (s : Bytes) :
    FileIO.finish ⟨kind, infile, outfile, r⟩ (fs.create outfile s) = fs.create outfile (s ++ kind.footer) := by
  cases kind <;> simp [FileIO.finish, Kind.footer, FS.append_create]

theorem openFile_ok [DecidableEq P] {cfg : IOConfig K V} {s : CombinedIO K P} {fs : FS P} {i : Nat} {infile outfile : P}
    {d : FileData K} (hi : s.files[i]? = some (infile, outfile)) (h : Input cfg fs infile d) :
    ∃ r, s.openFile cfg i fs =
      (.ok (), { s with current := some ⟨d.kind, infile, outfile, r⟩, idx := i }, fs.create outfile d.header) ∧
      Reads cfg.ctx.debug d.kind.format r d.records ∧ r.rem = declared cfg d := by
  obtain ⟨r, h1, h2⟩ := FileIO.new_ok h outfile
  exact ⟨r, by simp only [openFile, hi, h1], h2⟩

/-- The file system after writing the given files. -/
def outFS [Div K] [DecidableEq P] (cfg : IOConfig K V) : List (P × FileData K) → List (List K) → FS P → FS P
  | [], _, fs => fs
  | (out, d) :: l, ws, fs => outFS cfg l (ws.drop d.records.length) (fs.create out (output cfg d ws))

theorem outFS_other [Div K] [DecidableEq P] (cfg : IOConfig K V) (l : List (P × FileData K)) :
    ∀ (ws : List (List K)) (fs : FS P) (p : P), p ∉ l.map Prod.fst → outFS cfg l ws fs p = fs p := by
  induction l with
  | nil => intro ws fs p _; rfl
  | cons x l ih =>
    intro ws fs p hp
    obtain ⟨out, d⟩ := x
    simp only [List.map_cons, List.mem_cons, not_or] at hp
    rw [outFS, ih _ _ _ hp.2, FS.create_other _ _ hp.1]

/-- Updates succeed in all files. -/
def AllUpdatable [Div K] (cfg : IOConfig K V) : List (FileData K) → List (List K) → Prop
  | [], _ => True
  | d :: ds, ws => Updatable cfg d ws ∧ AllUpdatable cfg ds (ws.drop d.records.length)

theorem updateFiles_ok [Div K] [DecidableEq P] (cfg : IOConfig K V) : ∀ (n i : Nat) (ws : List (List K)) (s : CombinedIO K P)
    (fs : FS P) (ds : List (FileData K)), s.files.length = i + n → ds.length = n →
    (∀ p ∈ s.files.map Prod.fst, p ∉ s.files.map Prod.snd) →
    (∀ j (f : P × P) d, s.files[i + j]? = some f → ds[j]? = some d → Input cfg fs f.1 d) →
    AllUpdatable cfg ds ws →
    ∃ s', updateFiles cfg n i ws s fs = (.ok (ws.drop (total ds)), s',
      outFS cfg (((s.files.drop i).map Prod.snd).zip ds) ws fs) ∧ s'.files = s.files := by
  intro n
  induction n with
  | zero =>
    intro i ws s fs ds hl hd _ _ _
    have : ds = [] := List.length_eq_zero_iff.1 hd
    subst this
    exact ⟨s, by simp [updateFiles, total, outFS], rfl⟩
  | succ n ih =>
    intro i ws s fs ds hl hd hdis hin hup
    obtain ⟨d, ds, rfl⟩ : ∃ d ds', ds = d :: ds' := by
      cases ds with
      | nil => simp at hd
      | cons d ds => exact ⟨d, ds, rfl⟩
    simp only [List.length_cons, Nat.add_right_cancel_iff] at hd
    have hi : i < s.files.length := by omega
    obtain ⟨⟨infile, outfile⟩, hf⟩ : ∃ f, s.files[i]? = some f := ⟨_, List.getElem?_eq_getElem hi⟩
    obtain ⟨r, h1, h2, h3⟩ := openFile_ok hf (hin 0 _ d (by simpa using hf) rfl)
    obtain ⟨r', h3⟩ := updateWhile_ok cfg d.kind infile outfile fs d.records r h2 ws d.header hup.1
    simp only [updateFiles, h1, h3, finish_create]
    set s1 : CombinedIO K P := { s with current := some ⟨d.kind, infile, outfile, r'⟩, idx := i } with hs1
    obtain ⟨s', h4, h5⟩ := ih (i + 1) (ws.drop d.records.length) s1 (fs.create outfile (output cfg d ws)) ds
      (by simp [hs1]; omega) hd hdis (by
        intro j f d' hf' hd'
        have hf2 : s.files[i + (j + 1)]? = some f := by
          rw [← hf']
          congr 1
          omega
        obtain ⟨content, hc, hr⟩ := hin (j + 1) f d' hf2 (by simpa using hd')
        refine ⟨content, ?_, hr⟩
        rw [FS.create_other, hc]
        intro he
        have m1 : f.1 ∈ s.files.map Prod.fst := List.mem_map_of_mem (List.mem_of_getElem? hf2)
        have m2 : outfile ∈ s.files.map Prod.snd :=
          List.mem_map_of_mem (f := Prod.snd) (a := (infile, outfile)) (List.mem_of_getElem? hf)
        exact hdis _ m1 (he ▸ m2)) hup.2
    refine ⟨s', ?_, by rw [h5]⟩
    have hdrop : s.files.drop i = (infile, outfile) :: s.files.drop (i + 1) := by
      rw [List.drop_eq_getElem_cons hi]
      congr 1
      rw [List.getElem?_eq_getElem hi, Option.some.injEq] at hf
      exact hf
    have hout : d.header ++ (List.zipWith (updated cfg d.kind) ws d.records).flatten ++ d.kind.footer = output cfg d ws := rfl
    rw [hout, h4]
    rw [hdrop]
    simp only [List.map_cons, List.zip_cons_cons, outFS, List.drop_drop, total, List.sum_cons, hs1]

/-- The content of the output files. -/
theorem outFS_get [Div K] [DecidableEq P] (cfg : IOConfig K V) : ∀ (outs : List P) (ds : List (FileData K)) (ws : List (List K))
    (fs : FS P) (j : Nat) (out : P) (d : FileData K), outs.Nodup → outs[j]? = some out → ds[j]? = some d →
    outFS cfg (outs.zip ds) ws fs out = some (output cfg d (ws.drop (total (ds.take j)))) := by
  intro outs
  induction outs with
  | nil => intro ds ws fs j out d _ h; simp at h
  | cons o outs ih =>
    intro ds ws fs j out d hn ho hd
    cases ds with
    | nil => simp at hd
    | cons d0 ds =>
      rw [List.nodup_cons] at hn
      cases j with
      | zero =>
        simp only [List.getElem?_cons_zero, Option.some.injEq] at ho hd
        subst ho hd
        simp only [List.zip_cons_cons, outFS, List.take_zero, total, List.map_nil, List.sum_nil, List.drop_zero]
        rw [outFS_other, FS.create_self]
        intro h
        obtain ⟨x, hx, hx'⟩ := List.mem_map.1 h
        exact hn.1 (hx' ▸ (List.of_mem_zip (show (x.1, x.2) ∈ _ from hx)).1)
      | succ j =>
        simp only [List.getElem?_cons_succ] at ho hd
        simp only [List.zip_cons_cons, outFS]
        rw [ih ds _ _ j out d hn.2 ho hd, List.drop_drop]
        simp [total]

/-! ### What any sequence of calls leaves unchanged -/

/-- The list of files is as given, the current output file is one of the output files, and only output files differ from the
original ones. -/
structure Inv (files : List (P × P)) (fs0 : FS P) (s : CombinedIO K P) (fs : FS P) : Prop where
  files_eq : s.files = files
  current : ∀ io, s.current = some io → io.outfile ∈ files.map Prod.snd
  other : ∀ p, p ∉ files.map Prod.snd → fs p = fs0 p

theorem openFile_inv [DecidableEq P] (cfg : IOConfig K V) (i : Nat) {files : List (P × P)} {fs0 fs : FS P} {s : CombinedIO K P}
    (h : Inv files fs0 s fs) : Inv files fs0 (s.openFile cfg i fs).2.1 (s.openFile cfg i fs).2.2 := by
  unfold openFile
  split
  · exact h
  · rename_i infile outfile hf
    have hmem : outfile ∈ files.map Prod.snd := by
      rw [h.files_eq] at hf
      exact List.mem_map_of_mem (f := Prod.snd) (a := (infile, outfile)) (List.mem_of_getElem? hf)
    have hn := FileIO.new_fs cfg fs infile outfile
    have ho : ∀ p, p ∉ files.map Prod.snd → (FileIO.new cfg infile outfile fs).2 p = fs0 p := by
      intro p hp
      rw [hn.2 p (by rintro rfl; exact hp hmem), h.other p hp]
    generalize FileIO.new cfg infile outfile fs = x at *
    obtain ⟨x, fs1⟩ := x
    cases x with
    | ok io =>
      refine ⟨h.files_eq, ?_, ho⟩
      intro io' hio
      simp only [Option.some.injEq] at hio
      rw [← hio, (hn.1 io rfl).1]
      exact hmem
    | err e => exact ⟨h.files_eq, h.current, ho⟩
    | panic => exact ⟨h.files_eq, h.current, ho⟩

theorem _root_.Cres.FileIO.updateNext_fs [Div K] [DecidableEq P] (cfg : IOConfig K V) (w : List K) (io : FileIO K P) (fs : FS P) :
    (io.updateNext cfg w fs).2.1.outfile = io.outfile ∧
    ∀ p, p ≠ io.outfile → (io.updateNext cfg w fs).2.2 p = fs p := by
  unfold FileIO.updateNext
  split
  · simp
  · split
    · exact ⟨rfl, fun p hp => FS.append_other _ _ hp⟩
    · simp
    · simp

theorem _root_.Cres.FileIO.finish_fs [DecidableEq P] (io : FileIO K P) (fs : FS P) :
    ∀ p, p ≠ io.outfile → io.finish fs p = fs p := by
  intro p hp
  unfold FileIO.finish
  cases io.kind with
  | lhef => exact FS.append_other _ _ hp
  | hepmc2 => rfl
  | stripperXml s => rfl

theorem Inv.set [DecidableEq P] {files : List (P × P)} {fs0 fs fs' : FS P} {s : CombinedIO K P} {io io' : FileIO K P}
    (h : Inv files fs0 s fs) (hc : s.current = some io) (ho : io'.outfile = io.outfile)
    (hfs : ∀ p, p ≠ io.outfile → fs' p = fs p) : Inv files fs0 { s with current := some io' } fs' := by
  refine ⟨h.files_eq, ?_, ?_⟩
  · intro io2 h2
    simp only [Option.some.injEq] at h2
    rw [← h2, ho]
    exact h.current io hc
  · intro p hp
    rw [hfs p (by rintro rfl; exact hp (h.current io hc)), h.other p hp]

theorem updateWhile_inv [Div K] [DecidableEq P] (cfg : IOConfig K V) : ∀ (ws : List (List K)) (io : FileIO K P) (fs : FS P),
    (updateWhile cfg ws io fs).2.1.outfile = io.outfile ∧
    ∀ p, p ≠ io.outfile → (updateWhile cfg ws io fs).2.2 p = fs p := by
  intro ws
  induction ws with
  | nil => intro io fs; exact ⟨rfl, fun _ _ => rfl⟩
  | cons w ws ih =>
    intro io fs
    have h := FileIO.updateNext_fs cfg w io fs
    rw [updateWhile]
    generalize io.updateNext cfg w fs = x at h
    obtain ⟨x, io1, fs1⟩ := x
    simp only at h
    cases x with
    | ok b =>
      cases b with
      | true =>
        refine ⟨by simp only [(ih io1 fs1).1, h.1], fun p hp => ?_⟩
        simp only [(ih io1 fs1).2 p (by rw [h.1]; exact hp), h.2 p hp]
      | false => exact h
    | err e => exact h
    | panic => exact h

theorem updateFiles_inv [Div K] [DecidableEq P] (cfg : IOConfig K V) {files : List (P × P)} {fs0 : FS P} :
    ∀ (n i : Nat) (ws : List (List K)) (s : CombinedIO K P) (fs : FS P), Inv files fs0 s fs →
    Inv files fs0 (updateFiles cfg n i ws s fs).2.1 (updateFiles cfg n i ws s fs).2.2 := by
  intro n
  induction n with
  | zero => intro i ws s fs h; exact h
  | succ n ih =>
    intro i ws s fs h
    have h1 := openFile_inv cfg i h
    rw [updateFiles]
    generalize s.openFile cfg i fs = x at h1
    obtain ⟨x, s1, fs1⟩ := x
    simp only at h1
    cases x with
    | err e => exact h1
    | panic => exact h1
    | ok u =>
      simp only
      cases hc : s1.current with
      | none => exact h1
      | some io =>
        simp only
        have h2 := updateWhile_inv cfg ws io fs1
        generalize updateWhile cfg ws io fs1 = y at h2
        obtain ⟨y, io2, fs2⟩ := y
        simp only at h2
        cases y with
        | err e => exact h1.set hc h2.1 h2.2
        | panic => exact h1.set hc h2.1 h2.2
        | ok ws' =>
          apply ih
          refine h1.set hc h2.1 (fun p hp => ?_)
          rw [FileIO.finish_fs io2 fs2 p (by rw [h2.1]; exact hp), h2.2 p hp]

theorem rewind_inv {files : List (P × P)} {fs0 fs : FS P} {s : CombinedIO K P} (h : Inv files fs0 s fs) :
    Inv files fs0 s.rewind fs := ⟨h.files_eq, by simp [rewind], h.other⟩

theorem updateAll_inv [Div K] [DecidableEq P] (cfg : IOConfig K V) {files : List (P × P)} {fs0 fs : FS P} (ws : List (List K))
    {s : CombinedIO K P} (h : Inv files fs0 s fs) : Inv files fs0 (s.updateAll cfg ws fs).2.1 (s.updateAll cfg ws fs).2.2 := by
  have h1 := updateFiles_inv cfg s.files.length 0 ws s.rewind fs (rewind_inv h)
  rw [updateAll]
  generalize updateFiles cfg s.files.length 0 ws s.rewind fs = x at h1
  obtain ⟨x, s1, fs1⟩ := x
  cases x <;> exact h1

theorem nextLoop_inv [Mul K] [DecidableEq P] (cfg : IOConfig K V) {files : List (P × P)} {fs0 : FS P} :
    ∀ (fuel : Nat) (s : CombinedIO K P) (fs : FS P), Inv files fs0 s fs →
    Inv files fs0 (nextLoop cfg fuel s fs).2.1 (nextLoop cfg fuel s fs).2.2 := by
  intro fuel
  induction fuel with
  | zero => intro s fs h; exact h
  | succ fuel ih =>
    intro s fs h
    rw [nextLoop]
    have key : ∀ (s : CombinedIO K P) (i : Nat), Inv files fs0 s fs →
        Inv files fs0 (match s.openFile cfg i fs with
          | (.ok (), s, fs) => nextLoop cfg fuel s fs
          | (.err e, s, fs) => (some (.err e), s, fs)
          | (.panic, s, fs) => (some .panic, s, fs)).2.1
        (match s.openFile cfg i fs with
          | (.ok (), s, fs) => nextLoop cfg fuel s fs
          | (.err e, s, fs) => (some (.err e), s, fs)
          | (.panic, s, fs) => (some .panic, s, fs)).2.2 := by
      intro s i h
      have h1 := openFile_inv cfg i h
      generalize s.openFile cfg i fs = x at h1
      obtain ⟨x, s1, fs1⟩ := x
      cases x with
      | ok u => exact ih _ _ h1
      | err e => exact h1
      | panic => exact h1
    cases hc : s.current with
    | none =>
      simp only
      split
      · exact h
      · exact key s 0 h
    | some io =>
      simp only
      have h2 : (io.next cfg).2.outfile = io.outfile := rfl
      generalize io.next cfg = x at h2
      obtain ⟨x, io1⟩ := x
      simp only at h2
      have h3 := h.set (io' := io1) hc h2 (fs' := fs) (fun p _ => rfl)
      cases x with
      | some x => exact ⟨h3.files_eq, h3.current, h3.other⟩
      | none =>
        simp only
        split
        · exact h3
        · exact key _ _ h3

theorem updateNextLoop_inv [Div K] [DecidableEq P] (cfg : IOConfig K V) {files : List (P × P)} {fs0 : FS P} (ws : List K) :
    ∀ (fuel : Nat) (s : CombinedIO K P) (fs : FS P), Inv files fs0 s fs →
    Inv files fs0 (updateNextLoop cfg ws fuel s fs).2.1 (updateNextLoop cfg ws fuel s fs).2.2 := by
  intro fuel
  induction fuel with
  | zero => intro s fs h; exact h
  | succ fuel ih =>
    intro s fs h
    rw [updateNextLoop]
    split
    · cases hc : s.current with
      | none => exact h
      | some io =>
        simp only
        have h2 := FileIO.updateNext_fs cfg ws io fs
        generalize io.updateNext cfg ws fs = x at h2
        obtain ⟨x, io1, fs1⟩ := x
        simp only at h2
        have h3 := h.set hc h2.1 h2.2
        cases x with
        | err e => exact h3
        | panic => exact h3
        | ok b =>
          cases b with
          | true => exact h3
          | false =>
            simp only
            have h4 : Inv files fs0 { s with current := some io1 } (io1.finish fs1) := by
              refine h.set hc h2.1 (fun p hp => ?_)
              rw [FileIO.finish_fs io1 fs1 p (by rw [h2.1]; exact hp), h2.2 p hp]
            have h5 := openFile_inv cfg (s.idx + 1) h4
            generalize openFile cfg (s.idx + 1) { s with current := some io1 } (io1.finish fs1) = y at h5
            obtain ⟨y, s2, fs2⟩ := y
            cases y with
            | ok u => exact ih _ _ h5
            | err e => exact h5
            | panic => exact h5
    · exact h

theorem initLoop_inv [DecidableEq P] (cfg : IOConfig K V) {files : List (P × P)} {fs0 : FS P} :
    ∀ (n i : Nat) (s : CombinedIO K P) (fs : FS P), Inv files fs0 s fs →
    Inv files fs0 (initLoop cfg n i s fs).2.1 (initLoop cfg n i s fs).2.2 := by
  intro n
  induction n with
  | zero => intro i s fs h; exact h
  | succ n ih =>
    intro i s fs h
    have h1 := openFile_inv cfg i h
    rw [initLoop]
    generalize s.openFile cfg i fs = x at h1
    obtain ⟨x, s1, fs1⟩ := x
    simp only at h1
    cases x with
    | err e => exact h1
    | panic => exact h1
    | ok u =>
      simp only
      cases hc : s1.current with
      | none => exact h1
      | some io => exact ih _ _ _ ⟨h1.files_eq, fun io' h' => h1.current io' (hc.trans h'), h1.other⟩

theorem new_inv [DecidableEq P] (cfg : IOConfig K V) (files : List (P × P)) (fs : FS P) :
    Inv files fs (CombinedIO.new cfg files fs).2.1 (CombinedIO.new cfg files fs).2.2 := by
  have h0 : Inv files fs (⟨files, none, 0, 0, (0, some 0)⟩ : CombinedIO K P) fs := ⟨rfl, by simp, fun _ _ => rfl⟩
  unfold CombinedIO.new
  simp only
  split
  · exact h0
  · have h1 := initLoop_inv cfg files.length 0 _ _ h0
    generalize initLoop cfg files.length 0 (⟨files, none, 0, 0, (0, some 0)⟩ : CombinedIO K P) fs = x at h1
    obtain ⟨x, s1, fs1⟩ := x
    cases x with
    | ok u => exact openFile_inv cfg 0 h1
    | err e => exact h1
    | panic => exact h1

theorem step_inv [Mul K] [Div K] [DecidableEq P] (cfg : IOConfig K V) {files : List (P × P)} {fs0 : FS P}
    {x : CombinedIO K P × FS P} (op : Op K) (h : Inv files fs0 x.1 x.2) :
    Inv files fs0 (step cfg x op).1 (step cfg x op).2 := by
  cases op with
  | next => exact nextLoop_inv cfg _ _ _ h
  | rewind => exact rewind_inv h
  | updateNext ws => exact updateNextLoop_inv cfg ws _ _ _ h
  | updateAll ws => exact updateAll_inv cfg ws h

theorem history_inv [Mul K] [Div K] [DecidableEq P] (cfg : IOConfig K V) {files : List (P × P)} {fs0 : FS P}
    (ops : List (Op K)) : ∀ {x : CombinedIO K P × FS P}, Inv files fs0 x.1 x.2 →
    Inv files fs0 (ops.foldl (step cfg) x).1 (ops.foldl (step cfg) x).2 := by
  induction ops with
  | nil => intro x h; exact h
  | cons op ops ih => intro x h; exact ih (step_inv cfg op h)

/-! ### The total size hint -/

theorem openFile_hint [DecidableEq P] (cfg : IOConfig K V) (i : Nat) (s : CombinedIO K P) (fs : FS P) :
    (s.openFile cfg i fs).2.1.hint = s.hint := by
  unfold openFile
  split
  · rfl
  · split <;> rfl

theorem nextLoop_hint [Mul K] [DecidableEq P] (cfg : IOConfig K V) : ∀ (fuel : Nat) (s : CombinedIO K P) (fs : FS P),
    (nextLoop cfg fuel s fs).2.1.hint = s.hint := by
  intro fuel
  induction fuel with
  | zero => intro s fs; rfl
  | succ fuel ih =>
    intro s fs
    have key : ∀ (s : CombinedIO K P) (i : Nat), (match s.openFile cfg i fs with
          | (.ok (), s, fs) => nextLoop cfg fuel s fs
          | (.err e, s, fs) => (some (.err e), s, fs)
          | (.panic, s, fs) => (some .panic, s, fs)).2.1.hint = s.hint := by
      intro s i
      have h1 := openFile_hint cfg i s fs
      generalize s.openFile cfg i fs = x at h1
      obtain ⟨x, s1, fs1⟩ := x
      cases x with
      | ok u => exact (ih _ _).trans h1
      | err e => exact h1
      | panic => exact h1
    rw [nextLoop]
    cases hc : s.current with
    | none =>
      simp only
      split
      · rfl
      · exact key s 0
    | some io =>
      simp only
      generalize io.next cfg = x
      obtain ⟨x, io1⟩ := x
      cases x with
      | some x => rfl
      | none =>
        simp only
        split
        · rfl
        · exact key _ _

theorem updateNextLoop_hint [Div K] [DecidableEq P] (cfg : IOConfig K V) (ws : List K) : ∀ (fuel : Nat) (s : CombinedIO K P)
    (fs : FS P), (updateNextLoop cfg ws fuel s fs).2.1.hint = s.hint := by
  intro fuel
  induction fuel with
  | zero => intro s fs; rfl
  | succ fuel ih =>
    intro s fs
    rw [updateNextLoop]
    split
    · cases hc : s.current with
      | none => rfl
      | some io =>
        simp only
        generalize io.updateNext cfg ws fs = x
        obtain ⟨x, io1, fs1⟩ := x
        cases x with
        | err e => rfl
        | panic => rfl
        | ok b =>
          cases b with
          | true => rfl
          | false =>
            simp only
            have h5 := openFile_hint cfg (s.idx + 1) { s with current := some io1 } (io1.finish fs1)
            generalize openFile cfg (s.idx + 1) { s with current := some io1 } (io1.finish fs1) = y at h5
            obtain ⟨y, s2, fs2⟩ := y
            cases y with
            | ok u => exact (ih _ _).trans h5
            | err e => exact h5
            | panic => exact h5
    · rfl

theorem updateFiles_hint [Div K] [DecidableEq P] (cfg : IOConfig K V) : ∀ (n i : Nat) (ws : List (List K)) (s : CombinedIO K P)
    (fs : FS P), (updateFiles cfg n i ws s fs).2.1.hint = s.hint := by
  intro n
  induction n with
  | zero => intro i ws s fs; rfl
  | succ n ih =>
    intro i ws s fs
    have h1 := openFile_hint cfg i s fs
    rw [updateFiles]
    generalize s.openFile cfg i fs = x at h1
    obtain ⟨x, s1, fs1⟩ := x
    simp only at h1
    cases x with
    | err e => exact h1
    | panic => exact h1
    | ok u =>
      simp only
      cases hc : s1.current with
      | none => exact h1
      | some io =>
        simp only
        generalize updateWhile cfg ws io fs1 = y
        obtain ⟨y, io2, fs2⟩ := y
        cases y with
        | err e => exact h1
        | panic => exact h1
        | ok ws' => exact (ih _ _ _ _).trans h1

theorem step_hint [Mul K] [Div K] [DecidableEq P] (cfg : IOConfig K V) (x : CombinedIO K P × FS P) (op : Op K) :
    (step cfg x op).1.hint = x.1.hint := by
  cases op with
  | next => exact nextLoop_hint cfg _ _ _
  | rewind => rfl
  | updateNext ws => exact updateNextLoop_hint cfg ws _ _ _
  | updateAll ws =>
    have h := updateFiles_hint cfg x.1.files.length 0 ws x.1.rewind x.2
    simp only [step, updateAll]
    generalize updateFiles cfg x.1.files.length 0 ws x.1.rewind x.2 = y at h
    obtain ⟨y, s1, fs1⟩ := y
    cases y <;> exact h

theorem history_hint [Mul K] [Div K] [DecidableEq P] (cfg : IOConfig K V) (ops : List (Op K)) :
    ∀ (x : CombinedIO K P × FS P), (ops.foldl (step cfg) x).1.hint = x.1.hint := by
  induction ops with
  | nil => intro x; rfl
  | cons op ops ih => intro x; exact (ih _).trans (step_hint cfg x op)

/-! ### Reading -/

/-- The object is about to return `records` from the current file, and then everything in the files `ds`. -/
structure At (cfg : IOConfig K V) (s : CombinedIO K P) (fs : FS P) (kind : Kind K) (records : List Bytes)
    (ds : List (FileData K)) : Prop where
  current : ∃ r infile outfile, s.current = some ⟨kind, infile, outfile, r⟩ ∧
    Reads cfg.ctx.debug kind.format r records ∧ outfile ∈ s.files.map Prod.snd
  length : s.files.length = s.idx + 1 + ds.length
  inputs : ∀ j f d, s.files[s.idx + 1 + j]? = some f → ds[j]? = some d → Input cfg fs f.1 d
  disjoint : ∀ p ∈ s.files.map Prod.fst, p ∉ s.files.map Prod.snd

theorem input_create [DecidableEq P] {cfg : IOConfig K V} {fs : FS P} {p out : P} {d : FileData K} (c : Bytes)
    (h : Input cfg fs p d) (hne : p ≠ out) : Input cfg (fs.create out c) p d := by
  obtain ⟨content, h1, h2⟩ := h
  exact ⟨content, by rw [FS.create_other fs c hne, h1], h2⟩

theorem input_other {cfg : IOConfig K V} {fs fs' : FS P} {p : P} {d : FileData K}
    (h : Input cfg fs p d) (he : fs' p = fs p) : Input cfg fs' p d := by
  obtain ⟨content, h1, h2⟩ := h
  exact ⟨content, by rw [he, h1], h2⟩

/-- Opening the next file. -/
theorem openFile_at [DecidableEq P] {cfg : IOConfig K V} {s : CombinedIO K P} {fs : FS P} {i : Nat} {d : FileData K}
    {ds : List (FileData K)} (hlen : s.files.length = i + 1 + ds.length)
    (hin : ∀ j f d', s.files[i + j]? = some f → (d :: ds)[j]? = some d' → Input cfg fs f.1 d')
    (hdis : ∀ p ∈ s.files.map Prod.fst, p ∉ s.files.map Prod.snd) :
    ∃ s' fs', s.openFile cfg i fs = (.ok (), s', fs') ∧ At cfg s' fs' d.kind d.records ds ∧
      s'.files = s.files ∧ s'.nread = s.nread ∧ s'.hint = s.hint ∧
      ∃ io, s'.current = some io ∧ io.reader.rem = declared cfg d := by
  have hi : i < s.files.length := by omega
  obtain ⟨⟨infile, outfile⟩, hf⟩ : ∃ f, s.files[i]? = some f := ⟨_, List.getElem?_eq_getElem hi⟩
  obtain ⟨r, h1, h2, h3⟩ := openFile_ok hf (hin 0 _ d (by simpa using hf) rfl)
  have m2 : outfile ∈ s.files.map Prod.snd :=
    List.mem_map_of_mem (f := Prod.snd) (a := (infile, outfile)) (List.mem_of_getElem? hf)
  refine ⟨_, _, h1, ⟨⟨r, infile, outfile, rfl, h2, m2⟩, hlen, ?_, hdis⟩, rfl, rfl, rfl, _, rfl, h3⟩
  intro j f d' hf' hd'
  simp only at hf'
  refine input_create _ (hin (j + 1) f d' (by rw [← hf']; congr 1; omega) (by simpa using hd')) ?_
  rintro rfl
  exact hdis _ (List.mem_map_of_mem (List.mem_of_getElem? hf')) m2

theorem _root_.Cres.FileIO.next_done [Mul K] (cfg : IOConfig K V) {io : FileIO K P}
    (h : (io.reader.readRaw cfg.ctx.debug io.kind.format).1 = none) :
    io.next cfg = (none, { io with reader := (io.reader.readRaw cfg.ctx.debug io.kind.format).2 }) := by
  simp [FileIO.next, h]

theorem _root_.Cres.FileIO.next_more [Mul K] (cfg : IOConfig K V) {io : FileIO K P} {record record' : Bytes} {r : Reader}
    (h : io.reader.readRaw cfg.ctx.debug io.kind.format = (some (.ok record), r))
    (hp : io.kind.present cfg record = .ok record') :
    io.next cfg = (some (.ok record'), { io with reader := r }) := by
  simp [FileIO.next, h, hp, Outcome.bind, Outcome.mapErr]

/-- All records can be handed to the user. -/
def Presentable [Mul K] (cfg : IOConfig K V) (kind : Kind K) (records : List Bytes) : Prop :=
  ∀ r ∈ records, ∃ r', kind.present cfg r = .ok r'

theorem presented_eq [Mul K] {cfg : IOConfig K V} {kind : Kind K} {r r' : Bytes} (h : kind.present cfg r = .ok r') :
    presented cfg kind r = r' := by
  simp [presented, h]

/-- What is still to be read. -/
def rest [Mul K] (cfg : IOConfig K V) (kind : Kind K) (records : List Bytes) (ds : List (FileData K)) : List Bytes :=
  records.map (presented cfg kind) ++ allRecords cfg ds

theorem nextLoop_at [Mul K] [DecidableEq P] (cfg : IOConfig K V) : ∀ (ds : List (FileData K)) (fuel : Nat)
    (s : CombinedIO K P) (fs : FS P) (kind : Kind K) (records : List Bytes), At cfg s fs kind records ds →
    Presentable cfg kind records → (∀ d ∈ ds, Presentable cfg d.kind d.records) → ds.length < fuel →
    (rest cfg kind records ds = [] → (nextLoop cfg fuel s fs).1 = none ∧ (nextLoop cfg fuel s fs).2.1.files = s.files ∧
      (nextLoop cfg fuel s fs).2.1.nread = s.nread ∧ (nextLoop cfg fuel s fs).2.1.hint = s.hint) ∧
    (∀ x l, rest cfg kind records ds = x :: l → ∃ s' fs' kind' records' ds', nextLoop cfg fuel s fs = (some (.ok x), s', fs') ∧
      At cfg s' fs' kind' records' ds' ∧ Presentable cfg kind' records' ∧ (∀ d ∈ ds', Presentable cfg d.kind d.records) ∧
      rest cfg kind' records' ds' = l ∧ s'.files = s.files ∧ s'.nread = s.nread + 1 ∧ s'.hint = s.hint) := by
  intro ds
  induction ds with
  | nil =>
    intro fuel s fs kind records hat hp hps hfuel
    obtain ⟨fuel, rfl⟩ : ∃ n, fuel = n + 1 := ⟨fuel - 1, by omega⟩
    obtain ⟨r, infile, outfile, hc, hr, ho⟩ := hat.current
    cases hr with
    | done h =>
      refine ⟨fun _ => ?_, fun x l hx => by simp [rest, allRecords] at hx⟩
      have hl := hat.length
      simp only [List.length_nil, Nat.add_zero] at hl
      simp only [nextLoop, hc, FileIO.next_done cfg (io := ⟨kind, infile, outfile, r⟩) h, hl, if_true, and_self]
    | @more r r' record records h hr' =>
      refine ⟨fun hx => by simp [rest] at hx, fun x l hx => ?_⟩
      obtain ⟨record', hrec⟩ := hp record (by simp)
      simp only [rest, List.map_cons, List.cons_append, List.cons.injEq, presented_eq hrec] at hx
      obtain ⟨rfl, rfl⟩ := hx
      exact ⟨{ s with current := some ⟨kind, infile, outfile, r'⟩, nread := s.nread + 1 }, fs, kind, records, [],
        by simp only [nextLoop, hc, FileIO.next_more cfg (io := ⟨kind, infile, outfile, r⟩) h hrec],
        ⟨⟨r', infile, outfile, rfl, hr', ho⟩, hat.length, hat.inputs, hat.disjoint⟩,
        fun r hr => hp r (by simp [hr]), hps, rfl, rfl, rfl, rfl⟩
  | cons d ds ih =>
    intro fuel s fs kind records hat hp hps hfuel
    obtain ⟨fuel, rfl⟩ : ∃ n, fuel = n + 1 := ⟨fuel - 1, by omega⟩
    obtain ⟨r, infile, outfile, hc, hr, ho⟩ := hat.current
    cases hr with
    | done h =>
      have hl := hat.length
      simp only [List.length_cons] at hl hfuel
      have hne : ¬ (s.idx + 1 = s.files.length) := by omega
      set s1 : CombinedIO K P :=
        { s with current := some ⟨kind, infile, outfile, (Reader.readRaw cfg.ctx.debug kind.format r).2⟩ } with hs1
      obtain ⟨s2, fs2, h1, h2, h3, h4, h5, -⟩ := openFile_at (cfg := cfg) (s := s1) (fs := fs) (i := s.idx + 1) (d := d) (ds := ds)
        (by simp [hs1]; omega) (fun j f d' hf hd => hat.inputs j f d' hf hd) hat.disjoint
      have hstep : nextLoop cfg (fuel + 1) s fs = nextLoop cfg fuel s2 fs2 := by
        simp only [nextLoop, hc, FileIO.next_done cfg (io := ⟨kind, infile, outfile, r⟩) h, if_neg hne]
        rw [← hs1, h1]
      have hrest : rest cfg kind [] (d :: ds) = rest cfg d.kind d.records ds := by simp [rest, allRecords]
      rw [hstep, hrest, show s.files = s2.files from h3.symm, show s.nread = s2.nread from h4.symm,
        show s.hint = s2.hint from h5.symm]
      exact ih fuel s2 fs2 d.kind d.records h2 (hps d (by simp)) (fun d' hd' => hps d' (by simp [hd'])) (by omega)
    | @more r r' record records h hr' =>
      refine ⟨fun hx => by simp [rest] at hx, fun x l hx => ?_⟩
      obtain ⟨record', hrec⟩ := hp record (by simp)
      simp only [rest, List.map_cons, List.cons_append, List.cons.injEq, presented_eq hrec] at hx
      obtain ⟨rfl, rfl⟩ := hx
      exact ⟨{ s with current := some ⟨kind, infile, outfile, r'⟩, nread := s.nread + 1 }, fs, kind, records, d :: ds,
        by simp only [nextLoop, hc, FileIO.next_more cfg (io := ⟨kind, infile, outfile, r⟩) h hrec],
        ⟨⟨r', infile, outfile, rfl, hr', ho⟩, hat.length, hat.inputs, hat.disjoint⟩,
        fun r hr => hp r (by simp [hr]), hps, rfl, rfl, rfl, rfl⟩

theorem inputs_get {cfg : IOConfig K V} {fs : FS P} {files : List (P × P)} {ds : List (FileData K)}
    (h : Inputs cfg fs files ds) : ∀ (j : Nat) (f : P × P) (d : FileData K), files[j]? = some f → ds[j]? = some d →
    Input cfg fs f.1 d := by
  induction h with
  | nil => simp
  | cons h _ ih =>
    intro j f d hf hd
    cases j with
    | zero =>
      simp only [List.getElem?_cons_zero, Option.some.injEq] at hf hd
      subst hf hd
      exact h
    | succ j => exact ih j f d (by simpa using hf) (by simpa using hd)

theorem inputs_other {cfg : IOConfig K V} {fs fs' : FS P} {files : List (P × P)} {ds : List (FileData K)}
    (h : Inputs cfg fs files ds) (he : ∀ f ∈ files, fs' f.1 = fs f.1) : Inputs cfg fs' files ds := by
  induction h with
  | nil => exact .nil
  | cons h _ ih => exact .cons (input_other h (he _ (by simp))) (ih fun f hf => he f (by simp [hf]))

/-- The object is about to return the records `l`. -/
def Ready [Mul K] (cfg : IOConfig K V) (s : CombinedIO K P) (fs : FS P) (l : List Bytes) : Prop :=
  (∃ kind records ds, At cfg s fs kind records ds ∧ Presentable cfg kind records ∧
    (∀ d ∈ ds, Presentable cfg d.kind d.records) ∧ rest cfg kind records ds = l) ∨
  (s.current = none ∧ ∃ ds, Inputs cfg fs s.files ds ∧ (∀ p ∈ s.files.map Prod.fst, p ∉ s.files.map Prod.snd) ∧
    (∀ d ∈ ds, Presentable cfg d.kind d.records) ∧ allRecords cfg ds = l)

theorem next_ready [Mul K] [DecidableEq P] {cfg : IOConfig K V} {s : CombinedIO K P} {fs : FS P} {l : List Bytes}
    (h : Ready cfg s fs l) :
    (l = [] → (s.next cfg fs).1 = none ∧ (s.next cfg fs).2.1.files = s.files ∧
      (s.next cfg fs).2.1.nread = s.nread ∧ (s.next cfg fs).2.1.hint = s.hint) ∧
    (∀ x l', l = x :: l' → ∃ s' fs', s.next cfg fs = (some (.ok x), s', fs') ∧ Ready cfg s' fs' l' ∧
      s'.files = s.files ∧ s'.nread = s.nread + 1 ∧ s'.hint = s.hint) := by
  rcases h with ⟨kind, records, ds, hat, hp, hps, rfl⟩ | ⟨hc, ds, hin, hdis, hps, rfl⟩
  · have hfu := nextLoop_at cfg ds (s.files.length + 2) s fs kind records hat hp hps (by have := hat.length; omega)
    refine ⟨hfu.1, fun x l' hx => ?_⟩
    obtain ⟨s', fs', kind', records', ds', h1, h2, h3, h4, h5, h6, h7, h8⟩ := hfu.2 x l' hx
    exact ⟨s', fs', h1, .inl ⟨kind', records', ds', h2, h3, h4, h5⟩, h6, h7, h8⟩
  · cases ds with
    | nil =>
      have hf : s.files = [] := by simpa [Inputs] using hin
      simp [next, nextLoop, hc, hf, allRecords]
    | cons d ds =>
      have hlen := hin.length_eq
      obtain ⟨s', fs', h1, h2, h3, h4, h5, -⟩ := openFile_at (cfg := cfg) (s := s) (fs := fs) (i := 0) (d := d) (ds := ds)
        (by simp at hlen; omega) (by simpa only [Nat.zero_add] using inputs_get hin) hdis
      have hne : s.files ≠ [] := by rintro h; simp [h] at hlen
      have hnext : s.next cfg fs = nextLoop cfg (s.files.length + 1) s' fs' := by
        simp only [next, nextLoop, hc, if_neg hne, h1]
      have hfu := nextLoop_at cfg ds (s'.files.length + 1) s' fs' d.kind d.records h2 (hps d (by simp))
        (fun d' hd' => hps d' (by simp [hd'])) (by rw [h3]; simp at hlen; omega)
      have hrest : allRecords cfg (d :: ds) = rest cfg d.kind d.records ds := by simp [rest, allRecords]
      rw [hnext, hrest, ← h3, ← h4, ← h5]
      refine ⟨hfu.1, fun x l' hx => ?_⟩
      obtain ⟨s2, fs2, kind', records', ds', g1, g2, g3, g4, g5, g6, g7, g8⟩ := hfu.2 x l' hx
      exact ⟨s2, fs2, g1, .inl ⟨kind', records', ds', g2, g3, g4, g5⟩, g6, g7, g8⟩

theorem collect_ready [Mul K] [DecidableEq P] {cfg : IOConfig K V} : ∀ (l : List Bytes) (n : Nat) (s : CombinedIO K P) (fs : FS P),
    Ready cfg s fs l → l.length < n → (collect cfg n s fs).1 = some (.ok l) := by
  intro l
  induction l with
  | nil =>
    intro n s fs h hn
    obtain ⟨n, rfl⟩ : ∃ m, n = m + 1 := ⟨n - 1, by simp at hn; omega⟩
    have h := (next_ready h).1 rfl
    rw [collect]
    generalize s.next cfg fs = x at h
    obtain ⟨x, s1, fs1⟩ := x
    simp only at h
    obtain ⟨rfl, -⟩ := h
    rfl
  | cons a l ih =>
    intro n s fs h hn
    obtain ⟨n, rfl⟩ : ∃ m, n = m + 1 := ⟨n - 1, by simp at hn; omega⟩
    obtain ⟨s', fs', h1, h2, -⟩ := (next_ready h).2 a l rfl
    rw [collect, h1]
    simp only [ih n s' fs' h2 (by simp at hn; omega), Option.map_some, Outcome.map_ok]

theorem nexts_ready [Mul K] [Div K] [DecidableEq P] {cfg : IOConfig K V} : ∀ (k : Nat) (l : List Bytes) (s : CombinedIO K P) (fs : FS P),
    Ready cfg s fs l → k ≤ l.length →
    ((List.replicate k Op.next).foldl (step cfg) (s, fs)).1.nread = s.nread + k ∧
    ((List.replicate k Op.next).foldl (step cfg) (s, fs)).1.hint = s.hint := by
  intro k
  induction k with
  | zero => intro l s fs _ _; exact ⟨rfl, rfl⟩
  | succ k ih =>
    intro l s fs h hk
    cases l with
    | nil => simp at hk
    | cons a l =>
      obtain ⟨s', fs', h1, h2, h3, h4, h5⟩ := (next_ready h).2 a l rfl
      have := ih l s' fs' h2 (by simpa using hk)
      rw [List.replicate_succ, List.foldl_cons]
      have hst : step cfg (s, fs) Op.next = (s', fs') := by simp only [step, h1]
      rw [hst, this.1, this.2, h4, h5]
      exact ⟨by omega, rfl⟩

/-- The size hint of a reader. -/
def hintOf : Option Nat → Nat × Option Nat
  | none => (0, none)
  | some n => (n, some n)

theorem initLoop_ok [DecidableEq P] (cfg : IOConfig K V) : ∀ (n i : Nat) (s : CombinedIO K P) (fs : FS P)
    (ds : List (FileData K)), s.files.length = i + n → ds.length = n →
    (∀ j f d, s.files[i + j]? = some f → ds[j]? = some d → Input cfg fs f.1 d) →
    (∀ p ∈ s.files.map Prod.fst, p ∉ s.files.map Prod.snd) →
    ∃ s' fs', initLoop cfg n i s fs = (.ok (), s', fs') ∧ s'.files = s.files ∧ s'.nread = s.nread ∧
      s'.hint = (ds.map fun d => hintOf (declared cfg d)).foldl combineHints s.hint := by
  intro n
  induction n with
  | zero =>
    intro i s fs ds _ hd _ _
    rw [List.length_eq_zero_iff] at hd
    subst hd
    exact ⟨s, fs, rfl, rfl, rfl, rfl⟩
  | succ n ih =>
    intro i s fs ds hlen hd hin hdis
    cases ds with
    | nil => simp at hd
    | cons d ds =>
      simp only [List.length_cons, Nat.add_right_cancel_iff] at hd
      obtain ⟨s1, fs1, h1, h2, h3, h4, h5, io, h6, h7⟩ := openFile_at (cfg := cfg) (s := s) (fs := fs) (i := i) (d := d) (ds := ds)
        (by omega) hin hdis
      have hidx : s1.idx = i := by have := h2.length; rw [h3] at this; omega
      obtain ⟨s', fs', g1, g2, g3, g4⟩ := ih (i + 1) { s1 with hint := combineHints s1.hint io.reader.sizeHint } fs1 ds
        (by simp only [h3]; omega) hd (by
          intro j f d' hf hd'
          refine h2.inputs j f d' ?_ hd'
          rw [hidx]
          exact hf) (by simpa only [h3] using hdis)
      refine ⟨s', fs', ?_, by rw [g2]; exact h3, by rw [g3]; exact h4, ?_⟩
      · rw [initLoop, h1]
        rw [h6] at g1
        simp only [h6]
        exact g1
      · rw [g4]
        simp only [List.map_cons, List.foldl_cons, h5, Reader.sizeHint, h7]
        rfl

/-- Creating the object. -/
theorem new_at [DecidableEq P] {cfg : IOConfig K V} {files : List (P × P)} {fs : FS P} {d : FileData K}
    {ds : List (FileData K)} (hin : Inputs cfg fs files (d :: ds)) (hdis : ∀ p ∈ files.map Prod.fst, p ∉ files.map Prod.snd) :
    ∃ s' fs', CombinedIO.new cfg files fs = (.ok (), s', fs') ∧ At cfg s' fs' d.kind d.records ds ∧ s'.files = files ∧
      s'.nread = 0 ∧ s'.hint = ((d :: ds).map fun d => hintOf (declared cfg d)).foldl combineHints (0, some 0) := by
  have hlen := hin.length_eq
  have hne : files ≠ [] := by rintro rfl; simp at hlen
  set s0 : CombinedIO K P := ⟨files, none, 0, 0, (0, some 0)⟩ with hs0
  obtain ⟨s1, fs1, h1, h2, h3, h4⟩ := initLoop_ok cfg files.length 0 s0 fs (d :: ds) (by simp [hs0]) hlen.symm
    (by simpa only [Nat.zero_add] using inputs_get hin) hdis
  have hinv := initLoop_inv cfg files.length 0 s0 fs (files := files) (fs0 := fs) ⟨rfl, by simp [hs0], fun _ _ => rfl⟩
  rw [h1] at hinv
  have hin1 : Inputs cfg fs1 files (d :: ds) :=
    inputs_other hin fun f hf => hinv.other f.1 (hdis _ (List.mem_map_of_mem hf))
  have h2' : s1.files = files := h2
  obtain ⟨s2, fs2, g1, g2, g3, g4, g5, -⟩ := openFile_at (cfg := cfg) (s := s1) (fs := fs1) (i := 0) (d := d) (ds := ds)
    (by rw [h2']; simp at hlen; omega) (by rw [h2']; simpa only [Nat.zero_add] using inputs_get hin1) (by rw [h2']; exact hdis)
  refine ⟨s2, fs2, ?_, g2, by rw [g3, h2'], by rw [g4, h3], by rw [g5, h4]⟩
  rw [CombinedIO.new]
  simp only [if_neg hne]
  rw [← hs0, h1]
  exact g1

/-! ### Updating one record after the other -/

theorem updateNextLoop_at [Div K] [DecidableEq P] (cfg : IOConfig K V) (w : List K) : ∀ (ds : List (FileData K)) (fuel : Nat)
    (s : CombinedIO K P) (fs : FS P) (kind : Kind K) (records : List Bytes), At cfg s fs kind records ds → ds.length < fuel →
    (records.map (kind, ·) ++ items ds = [] → (updateNextLoop cfg w fuel s fs).1 = .panic) ∧
    (∀ k r l r', records.map (kind, ·) ++ items ds = (k, r) :: l → k.update cfg w r = .ok r' →
      ∃ s' fs' kind' records' ds', updateNextLoop cfg w fuel s fs = (.ok true, s', fs') ∧
        At cfg s' fs' kind' records' ds' ∧ records'.map (kind', ·) ++ items ds' = l ∧ s'.files = s.files) := by
  intro ds
  induction ds with
  | nil =>
    intro fuel s fs kind records hat hfuel
    obtain ⟨fuel, rfl⟩ : ∃ n, fuel = n + 1 := ⟨fuel - 1, by omega⟩
    obtain ⟨r, infile, outfile, hc, hr, ho⟩ := hat.current
    have hl := hat.length
    have hlt : s.idx < s.files.length := by omega
    cases hr with
    | done h =>
      refine ⟨fun _ => ?_, fun k r l r' hx => by simp [items] at hx⟩
      have hnone : s.files[s.idx + 1]? = none := by simp at hl; simp; omega
      simp only [updateNextLoop, if_pos hlt, hc, FileIO.updateNext_done cfg w (io := ⟨kind, infile, outfile, r⟩) _ h, openFile, hnone]
    | @more r r' record records h hr' =>
      refine ⟨fun hx => by simp at hx, fun k rec l rec' hx hu => ?_⟩
      simp only [List.map_cons, List.cons_append, List.cons.injEq, Prod.mk.injEq] at hx
      obtain ⟨⟨rfl, rfl⟩, rfl⟩ := hx
      refine ⟨{ s with current := some ⟨kind, infile, outfile, r'⟩ }, fs.append outfile rec', kind, records, [], ?_,
        ⟨⟨r', infile, outfile, rfl, hr', ho⟩, hat.length, by simp, hat.disjoint⟩, rfl, rfl⟩
      simp only [updateNextLoop, if_pos hlt, hc, FileIO.updateNext_more cfg (io := ⟨kind, infile, outfile, r⟩) _ h hu]
  | cons d ds ih =>
    intro fuel s fs kind records hat hfuel
    obtain ⟨fuel, rfl⟩ : ∃ n, fuel = n + 1 := ⟨fuel - 1, by omega⟩
    obtain ⟨r, infile, outfile, hc, hr, ho⟩ := hat.current
    have hl := hat.length
    have hlt : s.idx < s.files.length := by omega
    simp only [List.length_cons] at hl hfuel
    have hinput : ∀ (fs' : FS P), (∀ p, p ≠ outfile → fs' p = fs p) →
        ∀ j f d', s.files[s.idx + 1 + j]? = some f → (d :: ds)[j]? = some d' → Input cfg fs' f.1 d' := by
      intro fs' hfs j f d' hf hd
      refine input_other (hat.inputs j f d' hf hd) (hfs _ ?_)
      rintro rfl
      exact hat.disjoint _ (List.mem_map_of_mem (List.mem_of_getElem? hf)) ho
    cases hr with
    | done h =>
      set io1 : FileIO K P := ⟨kind, infile, outfile, (Reader.readRaw cfg.ctx.debug kind.format r).2⟩ with hio1
      obtain ⟨s2, fs2, h1, h2, h3, -, -, -⟩ := openFile_at (cfg := cfg) (s := { s with current := some io1 }) (fs := io1.finish fs)
        (i := s.idx + 1) (d := d) (ds := ds) (by simp only; omega) (hinput _ (FileIO.finish_fs io1 fs)) hat.disjoint
      have hstep : updateNextLoop cfg w (fuel + 1) s fs = updateNextLoop cfg w fuel s2 fs2 := by
        simp only [updateNextLoop, if_pos hlt, hc, FileIO.updateNext_done cfg w (io := ⟨kind, infile, outfile, r⟩) _ h]
        rw [← hio1, h1]
      have hrest : ([] : List Bytes).map (kind, ·) ++ items (d :: ds) = d.records.map (d.kind, ·) ++ items ds := by simp [items]
      rw [hstep, hrest, show s.files = s2.files from h3.symm]
      exact ih fuel s2 fs2 d.kind d.records h2 (by omega)
    | @more r r' record records h hr' =>
      refine ⟨fun hx => by simp at hx, fun k rec l rec' hx hu => ?_⟩
      simp only [List.map_cons, List.cons_append, List.cons.injEq, Prod.mk.injEq] at hx
      obtain ⟨⟨rfl, rfl⟩, rfl⟩ := hx
      refine ⟨{ s with current := some ⟨kind, infile, outfile, r'⟩ }, fs.append outfile rec', kind, records, d :: ds, ?_,
        ⟨⟨r', infile, outfile, rfl, hr', ho⟩, hat.length, hinput _ (fun p hp => FS.append_other _ _ hp), hat.disjoint⟩, rfl, rfl⟩
      simp only [updateNextLoop, if_pos hlt, hc, FileIO.updateNext_more cfg (io := ⟨kind, infile, outfile, r⟩) _ h hu]

theorem zip_append_of_le {α β : Type*} {l : List α} {a : List β} (b : List β) (h : l.length ≤ a.length) :
    l.zip (a ++ b) = l.zip a := by
  induction l generalizing a with
  | nil => simp
  | cons x l ih =>
    cases a with
    | nil => simp at h
    | cons y a => simp [ih (by simpa using h)]

theorem allUpdatable_of_items [Div K] {cfg : IOConfig K V} : ∀ {ds : List (FileData K)} {ws : List (List K)},
    (∀ x ∈ ws.zip (items ds), ∃ r', x.2.1.update cfg x.1 x.2.2 = .ok r') → AllUpdatable cfg ds ws := by
  intro ds
  induction ds with
  | nil => intro ws _; trivial
  | cons d ds ih =>
    intro ws h
    have hz : ws.zip (items (d :: ds)) =
        (ws.take d.records.length).zip (d.records.map (d.kind, ·)) ++ (ws.drop d.records.length).zip (items ds) := by
      have hi : items (d :: ds) = d.records.map (d.kind, ·) ++ items ds := by simp [items]
      rw [hi]
      conv_lhs => rw [← List.take_append_drop d.records.length ws]
      by_cases hl : d.records.length ≤ ws.length
      · rw [List.zip_append (by simp; omega)]
      · rw [List.drop_eq_nil_of_le (by omega), List.take_of_length_le (by omega)]
        simp only [List.append_nil, List.zip_nil_left]
        exact zip_append_of_le _ (by simp; omega)
    rw [hz] at h
    refine ⟨?_, ih fun x hx => h x (List.mem_append_right _ hx)⟩
    intro x hx
    have hx2 : (x.1, (d.kind, x.2)) ∈ (ws.take d.records.length).zip (d.records.map (d.kind, ·)) := by
      obtain ⟨i, hi, rfl⟩ := List.mem_iff_getElem.1 hx
      rw [List.mem_iff_getElem]
      simp only [List.length_zip] at hi
      refine ⟨i, by simp; omega, by simp⟩
    obtain ⟨r', hr'⟩ := h _ (List.mem_append_left _ hx2)
    exact ⟨r', hr'⟩

theorem calls_at [Div K] [DecidableEq P] (cfg : IOConfig K V) : ∀ (ws : List (List K)) (s : CombinedIO K P) (fs : FS P)
    (kind : Kind K) (records : List Bytes) (ds : List (FileData K)), At cfg s fs kind records ds →
    ws.length ≤ (records.map (kind, ·) ++ items ds).length →
    (∀ x ∈ ws.zip (records.map (kind, ·) ++ items ds), ∃ r', x.2.1.update cfg x.1 x.2.2 = .ok r') →
    (calls cfg ws s fs).1 = List.replicate ws.length (.ok true) ∧
    ∃ kind' records' ds', At cfg (calls cfg ws s fs).2.1 (calls cfg ws s fs).2.2 kind' records' ds' ∧
      records'.map (kind', ·) ++ items ds' = (records.map (kind, ·) ++ items ds).drop ws.length := by
  intro ws
  induction ws with
  | nil => intro s fs kind records ds hat _ _; exact ⟨rfl, kind, records, ds, hat, rfl⟩
  | cons w ws ih =>
    intro s fs kind records ds hat hlen hu
    cases hl : records.map (kind, ·) ++ items ds with
    | nil => rw [hl] at hlen; simp at hlen
    | cons x l =>
      obtain ⟨k, r⟩ := x
      rw [hl] at hlen hu
      obtain ⟨r', hr'⟩ := hu (w, (k, r)) (by simp)
      obtain ⟨s', fs', kind', records', ds', h1, h2, h3, h4⟩ :=
        (updateNextLoop_at cfg w ds (s.files.length + 1) s fs kind records hat (by have := hat.length; omega)).2 k r l r' hl hr'
      obtain ⟨g1, g2⟩ := ih s' fs' kind' records' ds' h2 (by rw [h3]; simpa using hlen)
        (by rw [h3]; exact fun x hx => hu x (by simp [hx]))
      simp only [calls, updateNext, h1]
      refine ⟨by rw [g1]; rfl, ?_⟩
      rw [h3] at g2
      simpa using g2

end CombinedIO

end Cres

import Verif.Proofs.RunTrace
import Verif.Model.VPTree

/-!
Reading ends.
-/

namespace Cres

open Spec CombinedIO

variable {K V D P : Type*}

/-! ### loops do not need more steps -/

/-- More steps than bytes are never needed. -/
theorem readLoop_fuel {d : UInt8} {marker : Bytes} : ∀ (f f' : Nat) {buf src : Bytes}, src.length < f → src.length < f' →
    readLoop d marker f buf src = readLoop d marker f' buf src := by
  intro f
  induction f with
  | zero => intro f' buf src h; omega
  | succ f ih =>
    intro f' buf src h h'
    obtain ⟨f', rfl⟩ : ∃ g, f' = g + 1 := ⟨f' - 1, by omega⟩
    simp only [readLoop]
    split_ifs with h1 h2
    · rfl
    · rfl
    · have := readUntil_length_lt (d := d) h2
      exact ih f' (by omega) (by omega)

theorem Stripper.readRawLoop_fuel : ∀ (f f' : Nat) {buf src : Bytes}, src.length < f → src.length < f' →
    Stripper.readRawLoop f buf src = Stripper.readRawLoop f' buf src := by
  intro f
  induction f with
  | zero => intro f' buf src h; omega
  | succ f ih =>
    intro f' buf src h h'
    obtain ⟨f', rfl⟩ : ∃ g, f' = g + 1 := ⟨f' - 1, by omega⟩
    simp only [Stripper.readRawLoop]
    split_ifs with h1 h2
    · rfl
    · rfl
    · have := readUntil_length_lt (d := 101) h1
      exact ih f' (by omega) (by omega)

/-! ### one file -/

/-- Each record takes something from the source. -/
theorem Reader.readRaw_lt {debug : Bool} {format : FileFormat} {r r' : Reader} {x : Outcome ReadError Bytes}
    (h : r.readRaw debug format = (some x, r')) : r'.src.length < r.src.length := by
  cases format with
  | hepmc2 =>
    simp only [Reader.readRaw, Prod.mk.injEq] at h
    rw [← h.2]
    exact HepMC.readRaw_lt (Prod.ext h.1 rfl)
  | lhef =>
    simp only [Reader.readRaw, Prod.mk.injEq] at h
    rw [← h.2]
    exact Lhef.readRaw_lt (Prod.ext h.1 rfl)
  | ntuple => simp [Reader.readRaw] at h
  | stripperXml =>
    have key : ∀ y, (Stripper.readRaw r.src).1 = some y → (Stripper.readRaw r.src).2.length < r.src.length :=
      fun y hy => Stripper.readRaw_lt (Prod.ext hy rfl)
    simp only [Reader.readRaw] at h
    cases hy : (Stripper.readRaw r.src).1 with
    | none => rw [hy] at h; simp at h
    | some y =>
      have := key y hy
      rw [hy] at h
      cases y with
      | ok record =>
        simp only at h
        cases hr : r.rem with
        | none => rw [hr] at h; simp only [Prod.mk.injEq] at h; rw [← h.2]; exact this
        | some n =>
          rw [hr] at h
          simp only at h
          cases hd : Stripper.decRemaining debug n with
          | none => rw [hd] at h; simp only [Prod.mk.injEq] at h; rw [← h.2]; exact this
          | some m => rw [hd] at h; simp only [Prod.mk.injEq] at h; rw [← h.2]; exact this
      | err e => simp only [Prod.mk.injEq] at h; rw [← h.2]; exact this
      | panic => simp only [Prod.mk.injEq] at h; rw [← h.2]; exact this

theorem readTo_rest_le {d : UInt8} {marker : Bytes} (hm : marker.getLast? = some d) (src : Bytes) :
    (readTo d marker [] src).rest.length ≤ src.length := by
  have := congrArg List.length (readTo_spec hm [] src).append
  simp only [List.length_append, List.length_nil] at this
  omega

/-- What is left after the header is not longer than the file. -/
theorem Reader.new_src {cfg : IOConfig K V} {content : Bytes} {format : FileFormat} {r : Reader}
    (h : Reader.new cfg content format = .ok r) : r.src.length ≤ content.length := by
  cases format with
  | hepmc2 =>
    simp only [Reader.new, Outcome.ok.injEq] at h
    rw [← h]
    exact readTo_rest_le markE_last content
  | lhef =>
    simp only [Reader.new, Outcome.ok.injEq] at h
    rw [← h]
    exact readTo_rest_le markInit_last content
  | ntuple => simp [Reader.new] at h
  | stripperXml =>
    simp only [Reader.new] at h
    cases hi : Stripper.initSource cfg.ctx.debug content with
    | none => rw [hi] at h; simp [Outcome.ofOption, Outcome.bind] at h
    | some x =>
      obtain ⟨header, src⟩ := x
      rw [hi] at h
      simp only [Outcome.ofOption, Outcome.bind_ok] at h
      have hsrc : src.length ≤ content.length := by
        have := readTo_rest_le markSe_last content
        simp only [Stripper.initSource] at hi
        split_ifs at hi <;>
        · simp only [Option.some.injEq, Prod.mk.injEq] at hi
          rw [← hi.2]
          exact this
      cases hx : cfg.xmlInfo header with
      | err e => rw [hx] at h; simp at h
      | panic => rw [hx] at h; simp at h
      | ok tag =>
        rw [hx] at h
        simp only [Outcome.bind_ok] at h
        cases tag with
        | eventrecord a b c => simp only [Outcome.ok.injEq] at h; rw [← h]; exact hsrc
        | normalization a b => simp at h

/-- The size of a file. -/
def fileSize (fs : FS P) (p : P) : Nat := ((fs p).getD []).length

theorem FileIO.new_src [DecidableEq P] {cfg : IOConfig K V} {infile outfile : P} {fs fs' : FS P} {io : FileIO K P}
    (h : FileIO.new cfg infile outfile fs = (.ok io, fs')) : io.reader.src.length ≤ fileSize fs infile := by
  unfold FileIO.new at h
  cases hf : fs infile with
  | none => rw [hf] at h; simp at h
  | some content =>
    rw [hf] at h
    simp only at h
    cases hd : detectFormat cfg.feat (some (cfg.firstBuffer content)) with
    | err e => rw [hd] at h; simp at h
    | panic => rw [hd] at h; simp at h
    | ok format =>
      rw [hd] at h
      simp only at h
      cases hr : Reader.new cfg content format with
      | err e => rw [hr] at h; simp at h
      | panic => rw [hr] at h; simp at h
      | ok reader =>
        rw [hr] at h
        simp only [Prod.mk.injEq] at h
        cases hk : Kind.find cfg reader.header format with
        | err e => rw [hk] at h; simp at h
        | panic => rw [hk] at h; simp at h
        | ok kind =>
          rw [hk] at h
          simp only [Outcome.bind_ok, Outcome.ok.injEq] at h
          rw [← h.1]
          simp only [fileSize, hf, Option.getD_some]
          exact Reader.new_src hr

/-! ### all files -/

theorem openFile_progress [DecidableEq P] {cfg : IOConfig K V} {i : Nat} {s s' : CombinedIO K P} {fs fs' : FS P}
    (h : s.openFile cfg i fs = (.ok (), s', fs')) :
    s'.files = s.files ∧ s'.idx = i ∧ ∃ f io, s.files[i]? = some f ∧ s'.current = some io ∧
      io.reader.src.length ≤ fileSize fs f.1 := by
  unfold openFile at h
  cases hf : s.files[i]? with
  | none => rw [hf] at h; simp at h
  | some f =>
    obtain ⟨infile, outfile⟩ := f
    rw [hf] at h
    simp only at h
    cases hn : FileIO.new cfg infile outfile fs with
    | mk x fs1 =>
      rw [hn] at h
      cases x with
      | err e => simp at h
      | panic => simp at h
      | ok io =>
        simp only [Prod.mk.injEq, true_and] at h
        obtain ⟨rfl, rfl⟩ := h
        exact ⟨rfl, rfl, _, io, rfl, rfl, FileIO.new_src hn⟩

theorem FileIO.next_lt [Mul K] {cfg : IOConfig K V} {io io' : FileIO K P} {x : Outcome IOError Bytes}
    (h : io.next cfg = (some x, io')) : io'.reader.src.length < io.reader.src.length := by
  simp only [FileIO.next, Prod.mk.injEq] at h
  obtain ⟨h1, rfl⟩ := h
  obtain ⟨y, hy, -⟩ := Option.map_eq_some_iff.1 h1
  exact Reader.readRaw_lt (Prod.ext hy rfl)

/-- The next record is further in the same file or in a later one. -/
theorem nextLoop_progress [Mul K] [DecidableEq P] {cfg : IOConfig K V} : ∀ (fuel : Nat) {s s' : CombinedIO K P} {fs fs' : FS P}
    {io : FileIO K P} {x : Outcome IOError Bytes}, s.current = some io → nextLoop cfg fuel s fs = (some x, s', fs') →
    (∃ r, x = .ok r) →
    s'.files = s.files ∧ ∃ io', s'.current = some io' ∧
      ((s'.idx = s.idx ∧ io'.reader.src.length < io.reader.src.length) ∨ (s.idx < s'.idx ∧ s'.idx < s.files.length)) := by
  intro fuel
  induction fuel with
  | zero => intro s s' fs fs' io x _ h; simp [nextLoop] at h
  | succ fuel ih =>
    intro s s' fs fs' io x hc h hx
    simp only [nextLoop, hc] at h
    cases hn : io.next cfg with
    | mk y io1 =>
      rw [hn] at h
      cases y with
      | some y =>
        simp only [Prod.mk.injEq] at h
        obtain ⟨-, rfl, rfl⟩ := h
        exact ⟨rfl, io1, rfl, Or.inl ⟨rfl, FileIO.next_lt hn⟩⟩
      | none =>
        simp only at h
        split_ifs at h
        · simp at h
        · cases ho : ({ s with current := some io1 } : CombinedIO K P).openFile cfg (s.idx + 1) fs with
          | mk y z =>
            obtain ⟨s1, fs1⟩ := z
            rw [ho] at h
            cases y with
            | err e =>
              simp only [Prod.mk.injEq, Option.some.injEq] at h
              obtain ⟨r, rfl⟩ := hx
              simp at h
            | panic =>
              simp only [Prod.mk.injEq, Option.some.injEq] at h
              obtain ⟨r, rfl⟩ := hx
              simp at h
            | ok u =>
              simp only at h
              obtain ⟨g1, g2, f, io2, g3, g4, -⟩ := openFile_progress ho
              obtain ⟨k1, io', k2, k3⟩ := ih g4 h hx
              simp only at g1 g3
              have hlt := (List.getElem?_eq_some_iff.1 g3).1
              refine ⟨k1.trans g1, io', k2, Or.inr ?_⟩
              rw [g1] at k3
              omega

/-- The bytes that have not been read. -/
def unread (fs : FS P) (s : CombinedIO K P) : Nat :=
  (s.current.map fun io => io.reader.src.length).getD 0 + ((s.files.drop (s.idx + 1)).map fun f => fileSize fs f.1).sum

/-- Each record takes something from the input files. -/
theorem nextLoop_unread [Mul K] [DecidableEq P] {cfg : IOConfig K V} {files : List (P × P)} {fs0 : FS P}
    (hdis : ∀ p ∈ files.map Prod.fst, p ∉ files.map Prod.snd) : ∀ (fuel : Nat) {s s' : CombinedIO K P} {fs fs' : FS P}
    {io : FileIO K P} {x : Outcome IOError Bytes}, CombinedIO.Inv files fs0 s fs → s.current = some io →
    nextLoop cfg fuel s fs = (some x, s', fs') → (∃ r, x = .ok r) →
    (∃ io', s'.current = some io') ∧ unread fs0 s' < unread fs0 s := by
  intro fuel
  induction fuel with
  | zero => intro s s' fs fs' io x _ _ h; simp [nextLoop] at h
  | succ fuel ih =>
    intro s s' fs fs' io x hinv hc h hx
    simp only [nextLoop, hc] at h
    cases hn : io.next cfg with
    | mk y io1 =>
      rw [hn] at h
      cases y with
      | some y =>
        simp only [Prod.mk.injEq] at h
        obtain ⟨-, rfl, rfl⟩ := h
        have := FileIO.next_lt hn
        refine ⟨⟨io1, rfl⟩, ?_⟩
        simp only [unread, hc, Option.map_some, Option.getD_some]
        omega
      | none =>
        simp only at h
        split_ifs at h
        · simp at h
        · have hinv1 : CombinedIO.Inv files fs0 ({ s with current := some io1 } : CombinedIO K P) fs := by
            have h2 : (io.next cfg).2.outfile = io.outfile := rfl
            rw [hn] at h2
            exact hinv.set hc h2 (fun p _ => rfl)
          have hinv2 := openFile_inv cfg (s.idx + 1) hinv1
          cases ho : ({ s with current := some io1 } : CombinedIO K P).openFile cfg (s.idx + 1) fs with
          | mk y z =>
            obtain ⟨s1, fs1⟩ := z
            rw [ho] at h hinv2
            cases y with
            | err e =>
              simp only [Prod.mk.injEq, Option.some.injEq] at h
              obtain ⟨r, rfl⟩ := hx
              simp at h
            | panic =>
              simp only [Prod.mk.injEq, Option.some.injEq] at h
              obtain ⟨r, rfl⟩ := hx
              simp at h
            | ok u =>
              simp only at h
              obtain ⟨g1, g2, f, io2, g3, g4, g5⟩ := openFile_progress ho
              obtain ⟨k1, k2⟩ := ih hinv2 g4 h hx
              refine ⟨k1, lt_of_lt_of_le k2 ?_⟩
              simp only at g1 g3
              obtain ⟨hlt, hget⟩ := List.getElem?_eq_some_iff.1 g3
              have hin : f.1 ∈ files.map Prod.fst := by
                rw [← hinv.files_eq]
                exact List.mem_map_of_mem (List.mem_of_getElem? g3)
              have hsame : fileSize fs f.1 = fileSize fs0 f.1 := by
                unfold fileSize
                rw [hinv.other _ (hdis _ hin)]
              simp only [unread, g4, g2, g1, hc, Option.map_some, Option.getD_some]
              rw [List.drop_eq_getElem_cons hlt, List.map_cons, List.sum_cons, hget]
              omega

/-- Reading ends if something is taken from the files for each record. -/
theorem recordItems_ends [Mul K] [DecidableEq P] {cfg : IOConfig K V} {files : List (P × P)} {fs0 : FS P}
    (hdis : ∀ p ∈ files.map Prod.fst, p ∉ files.map Prod.snd) : ∀ (n : Nat) {s : CombinedIO K P} {fs : FS P} {io : FileIO K P},
    CombinedIO.Inv files fs0 s fs → s.current = some io → unread fs0 s < n → (s.recordItems cfg n fs).1 ≠ none := by
  intro n
  induction n with
  | zero => intro s fs io _ _ h; omega
  | succ n ih =>
    intro s fs io hinv hc hlt
    rw [recordItems]
    have hinv' := nextLoop_inv cfg (s.files.length + 2) s fs hinv
    cases hn : nextLoop cfg (s.files.length + 2) s fs with
    | mk x z =>
      obtain ⟨s1, fs1⟩ := z
      have hn' : s.next cfg fs = (x, s1, fs1) := hn
      simp only [nextRecord, hn']
      cases x with
      | none => simp
      | some x =>
        cases x with
        | err e => simp
        | panic => simp
        | ok r =>
          obtain ⟨⟨io', k1⟩, k2⟩ := nextLoop_unread hdis _ hinv hc hn ⟨r, rfl⟩
          rw [hn] at hinv'
          simp only [k1]
          have := ih (s := s1) (fs := fs1) (io := io') hinv' k1 (by omega)
          simpa using this

theorem recordItems_ends_any [Mul K] [DecidableEq P] {cfg : IOConfig K V} : ∀ (a b : Nat) {s : CombinedIO K P} {fs : FS P} {io : FileIO K P},
    s.current = some io → s.files.length - s.idx ≤ a → io.reader.src.length ≤ b → ∃ n, (s.recordItems cfg n fs).1 ≠ none := by
  intro a
  induction a with
  | zero =>
    intro b
    induction b using Nat.strong_induction_on with
    | _ b ihb =>
      intro s fs io hc ha hb
      cases hn : nextLoop cfg (s.files.length + 2) s fs with
      | mk x z =>
        obtain ⟨s1, fs1⟩ := z
        have hn' : s.next cfg fs = (x, s1, fs1) := hn
        cases x with
        | none => exact ⟨1, by simp [recordItems, nextRecord, hn']⟩
        | some x =>
          cases x with
          | err e => exact ⟨1, by simp [recordItems, nextRecord, hn']⟩
          | panic => exact ⟨1, by simp [recordItems, nextRecord, hn']⟩
          | ok r =>
            obtain ⟨k1, io', k2, k3⟩ := nextLoop_progress _ hc hn ⟨r, rfl⟩
            obtain ⟨n, hn2⟩ := ihb io'.reader.src.length (by omega) (s := s1) (fs := fs1) k2 (by rw [k1]; omega) (le_refl _)
            exact ⟨n + 1, by simpa [recordItems, nextRecord, hn', k2] using hn2⟩
  | succ a iha =>
    intro b
    induction b using Nat.strong_induction_on with
    | _ b ihb =>
      intro s fs io hc ha hb
      cases hn : nextLoop cfg (s.files.length + 2) s fs with
      | mk x z =>
        obtain ⟨s1, fs1⟩ := z
        have hn' : s.next cfg fs = (x, s1, fs1) := hn
        cases x with
        | none => exact ⟨1, by simp [recordItems, nextRecord, hn']⟩
        | some x =>
          cases x with
          | err e => exact ⟨1, by simp [recordItems, nextRecord, hn']⟩
          | panic => exact ⟨1, by simp [recordItems, nextRecord, hn']⟩
          | ok r =>
            obtain ⟨k1, io', k2, k3⟩ := nextLoop_progress _ hc hn ⟨r, rfl⟩
            obtain ⟨n, hn2⟩ : ∃ n, (s1.recordItems cfg n fs1).1 ≠ none := by
              rcases k3 with k3 | k3
              · exact ihb io'.reader.src.length (by omega) k2 (by rw [k1]; omega) (le_refl _)
              · exact iha _ k2 (by rw [k1]; omega) (le_refl _)
            exact ⟨n + 1, by simpa [recordItems, nextRecord, hn', k2] using hn2⟩

/-- A new I/O object is at the beginning of the first file. -/
theorem new_first [DecidableEq P] {cfg : IOConfig K V} {files : List (P × P)} {fs fs1 : FS P} {s : CombinedIO K P}
    (h : CombinedIO.new cfg files fs = (.ok (), s, fs1)) :
    (files = [] ∧ s.current = none ∧ s.files = []) ∨
    ∃ f io fs2, files[0]? = some f ∧ s.current = some io ∧ s.idx = 0 ∧ s.files = files ∧
      (∀ p, p ∉ files.map Prod.snd → fs2 p = fs p) ∧ io.reader.src.length ≤ fileSize fs2 f.1 := by
  unfold CombinedIO.new at h
  simp only at h
  split_ifs at h with h0
  · simp only [Prod.mk.injEq, true_and] at h
    exact Or.inl ⟨h0, by rw [← h.1], by rw [← h.1]; exact h0⟩
  · right
    have hi : CombinedIO.Inv files fs (⟨files, none, 0, 0, (0, some 0)⟩ : CombinedIO K P) fs := ⟨rfl, by simp, fun _ _ => rfl⟩
    have hl := initLoop_inv cfg files.length 0 _ _ hi
    cases hx : initLoop cfg files.length 0 (⟨files, none, 0, 0, (0, some 0)⟩ : CombinedIO K P) fs with
    | mk x z =>
      obtain ⟨s2, fs2⟩ := z
      rw [hx] at h hl
      cases x with
      | err e => simp at h
      | panic => simp at h
      | ok u =>
        simp only at h
        obtain ⟨g1, g2, f, io, g3, g4, g5⟩ := openFile_progress h
        have hf : s2.files = files := hl.files_eq
        rw [hf] at g3 g1
        exact ⟨f, io, fs2, g3, g4, g2, g1, hl.other, g5⟩

theorem recordItems_none [Mul K] [DecidableEq P] {cfg : IOConfig K V} {s : CombinedIO K P} {fs : FS P} (hc : s.current = none)
    (hf : s.files = []) (n : Nat) : (s.recordItems cfg (n + 1) fs).1 ≠ none := by
  have : s.next cfg fs = (none, s, fs) := by
    unfold CombinedIO.next
    simp [nextLoop, hc, hf]
  simp [recordItems, nextRecord, this]

/-! ### recursion over files -/

/-- More steps than files are never needed. -/
theorem nextLoop_fuel_some [Mul K] [DecidableEq P] {cfg : IOConfig K V} : ∀ (f f' : Nat) {s : CombinedIO K P} {fs : FS P}
    {io : FileIO K P}, s.current = some io → s.files.length - s.idx < f → s.files.length - s.idx < f' →
    nextLoop cfg f s fs = nextLoop cfg f' s fs := by
  intro f
  induction f with
  | zero => intro f' s fs io hc h; omega
  | succ f ih =>
    intro f' s fs io hc h h'
    obtain ⟨f', rfl⟩ : ∃ g, f' = g + 1 := ⟨f' - 1, by omega⟩
    simp only [nextLoop, hc]
    cases hn : io.next cfg with
    | mk y io1 =>
      cases y with
      | some y => rfl
      | none =>
        simp only
        split_ifs
        · rfl
        · cases ho : ({ s with current := some io1 } : CombinedIO K P).openFile cfg (s.idx + 1) fs with
          | mk y z =>
            obtain ⟨s1, fs1⟩ := z
            cases y with
            | err e => rfl
            | panic => rfl
            | ok u =>
              simp only
              obtain ⟨g1, g2, f0, io2, g3, g4, -⟩ := openFile_progress ho
              simp only at g1 g3
              have hlt := (List.getElem?_eq_some_iff.1 g3).1
              exact ih f' g4 (by rw [g1, g2]; omega) (by rw [g1, g2]; omega)

theorem nextLoop_fuel [Mul K] [DecidableEq P] {cfg : IOConfig K V} {f : Nat} {s : CombinedIO K P} {fs : FS P}
    (h : s.files.length + 2 ≤ f) : nextLoop cfg f s fs = s.next cfg fs := by
  unfold CombinedIO.next
  cases hc : s.current with
  | some io => exact nextLoop_fuel_some _ _ hc (by omega) (by omega)
  | none =>
    obtain ⟨f, rfl⟩ : ∃ g, f = g + 1 := ⟨f - 1, by omega⟩
    simp only [nextLoop, hc]
    split_ifs
    · rfl
    · cases ho : s.openFile cfg 0 fs with
      | mk y z =>
        obtain ⟨s1, fs1⟩ := z
        cases y with
        | err e => rfl
        | panic => rfl
        | ok u =>
          simp only
          obtain ⟨g1, g2, f0, io2, g3, g4, -⟩ := openFile_progress ho
          exact nextLoop_fuel_some f (s.files.length + 1) g4 (by rw [g1, g2]; omega) (by rw [g1, g2]; omega)

/-- More steps than files are never needed. -/
theorem updateNextLoop_fuel [Div K] [DecidableEq P] {cfg : IOConfig K V} {ws : List K} : ∀ (f f' : Nat) {s : CombinedIO K P} {fs : FS P},
    s.files.length - s.idx < f → s.files.length - s.idx < f' → updateNextLoop cfg ws f s fs = updateNextLoop cfg ws f' s fs := by
  intro f
  induction f with
  | zero => intro f' s fs h; omega
  | succ f ih =>
    intro f' s fs h h'
    obtain ⟨f', rfl⟩ : ∃ g, f' = g + 1 := ⟨f' - 1, by omega⟩
    simp only [updateNextLoop]
    split_ifs with hi
    · cases hc : s.current with
      | none => rfl
      | some io =>
        simp only
        cases hn : io.updateNext cfg ws fs with
        | mk y z =>
          obtain ⟨io1, fs1⟩ := z
          cases y with
          | err e => rfl
          | panic => rfl
          | ok b =>
            cases b with
            | true => rfl
            | false =>
              simp only
              cases ho : ({ s with current := some io1 } : CombinedIO K P).openFile cfg (s.idx + 1) (io1.finish fs1) with
              | mk y z =>
                obtain ⟨s2, fs2⟩ := z
                cases y with
                | err e => rfl
                | panic => rfl
                | ok u =>
                  simp only
                  obtain ⟨g1, g2, f0, io2, g3, g4, -⟩ := openFile_progress ho
                  simp only at g1 g3
                  have hlt := (List.getElem?_eq_some_iff.1 g3).1
                  exact ih f' (by rw [g1, g2]; omega) (by rw [g1, g2]; omega)
    · rfl

/-! ### search -/

/-- More steps than nodes are never needed. -/
theorem nearestInSubtree_fuel {Q R : Type*} [DecidableEq Q] [DistNum R] {dist : Q → Q → R} {maxDist : R} {pt : Q} {exclude : List Q} :
    ∀ (f f' : Nat) {tree : List (Node Q R)} {idx : Nat} {cache : List (Q × R)}, tree.length ≤ f → tree.length ≤ f' →
    nearestInSubtree dist maxDist pt exclude f tree idx cache = nearestInSubtree dist maxDist pt exclude f' tree idx cache := by
  intro f
  induction f with
  | zero =>
    intro f' tree idx cache h h'
    have h0 : tree = [] := List.eq_nil_of_length_eq_zero (by omega)
    subst h0
    cases f' <;> simp [nearestInSubtree]
  | succ f ih =>
    intro f' tree idx cache h h'
    cases tree with
    | nil => cases f' <;> simp [nearestInSubtree]
    | cons node tree =>
      obtain ⟨f', rfl⟩ : ∃ g, f' = g + 1 := ⟨f' - 1, by simp at h'; omega⟩
      simp only [List.length_cons] at h h'
      rw [nearestInSubtree, nearestInSubtree]
      cases node.children with
      | none => rfl
      | some ch =>
        have key : ∀ (b : Bool) (i : Nat) (c : List (Q × R)),
            nearestInSubtree dist maxDist pt exclude f (if b = true then tree.drop ch.outsideOffset else tree.take ch.outsideOffset) i c =
            nearestInSubtree dist maxDist pt exclude f' (if b = true then tree.drop ch.outsideOffset else tree.take ch.outsideOffset) i c := by
          intro b i c
          refine ih f' ?_ ?_ <;> cases b <;> simp <;> omega
        have key' : ∀ (b : Bool) (i : Nat) (c : List (Q × R)),
            nearestInSubtree dist maxDist pt exclude f (if b = true then tree.take ch.outsideOffset else tree.drop ch.outsideOffset) i c =
            nearestInSubtree dist maxDist pt exclude f' (if b = true then tree.take ch.outsideOffset else tree.drop ch.outsideOffset) i c := by
          intro b i c
          refine ih f' ?_ ?_ <;> cases b <;> simp <;> omega
        simp only [key, key']

end Cres

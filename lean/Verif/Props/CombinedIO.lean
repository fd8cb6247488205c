import Verif.Proofs.FileIO
import Verif.Model.ExampleFormat

/-!
# C42–C45, C49: reading from and writing to several files
-/

namespace Cres

open Spec CombinedIO

variable {K V P : Type*}

/-! ## Example files -/

/-- For examples: all formats, rational numbers, all XML files have two records and a channel `a` with scale 2. -/
def exIO (debug : Bool) : IOConfig ℚ ℚ where
  ctx := ratCtx false debug []
  feat := ⟨true, false, true⟩
  firstBuffer := id
  xmlInfo _ := .ok (.eventrecord (ascii "a") 2 2)
  scaling _ := some 2

/-- A HepMC2 file with two records. -/
def exHepmc : FileData ℚ where
  kind := .hepmc2
  header := ascii "H\n"
  records := [ascii "E 1 2 3 4 5 6 7 8 9 0 0 1 5\n", ascii "E 1 2 3 4 5 6 7 8 9 0 0 1 6\n"]

/-- A Les Houches Event File with one record. -/
def exLhef : FileData ℚ where
  kind := .lhef
  header := ascii "<LesHouchesEvents>\n</init>"
  records := [ascii "\n<event>\n2 0 5\n</event>"]

/-- A STRIPPER XML file with two records. -/
def exXml : FileData ℚ where
  kind := .stripperXml 2
  header := ascii "<?xml?><r>"
  records := [ascii "<se w=\"3\"></se>", ascii "<se w=\"4\"></se></r>"]

/-- The files 0, 1, 2. -/
def exFS : FS ℕ
  | 0 => some (exHepmc.header ++ exHepmc.records.flatten)
  | 1 => some (exLhef.header ++ exLhef.records.flatten ++ ascii "\n</LesHouchesEvents>\n")
  | 2 => some (exXml.header ++ exXml.records.flatten)
  | _ => none

theorem exHepmc_readable (debug : Bool) : Readable (exIO debug) (exHepmc.header ++ exHepmc.records.flatten) exHepmc := by
  apply readable_hepmc
  · cases debug <;> decide +kernel
  · decide +kernel

theorem exLhef_readable (debug : Bool) :
    Readable (exIO debug) (exLhef.header ++ exLhef.records.flatten ++ ascii "\n</LesHouchesEvents>\n") exLhef := by
  apply readable_lhef
  · cases debug <;> decide +kernel
  · decide +kernel

theorem exXml_readable (debug : Bool) : Readable (exIO debug) (exXml.header ++ exXml.records.flatten) exXml := by
  refine readable_stripper (name := ascii "a") (n := 2) (m := 2) ?_ ?_ rfl rfl (fun _ => le_rfl)
  · cases debug <;> decide +kernel
  · cases debug <;> decide +kernel

theorem exInputs (debug : Bool) : Inputs (exIO debug) exFS [(0, 10), (1, 11), (2, 12)] [exHepmc, exLhef, exXml] :=
  .cons ⟨_, rfl, exHepmc_readable debug⟩ (.cons ⟨_, rfl, exLhef_readable debug⟩ (.cons ⟨_, rfl, exXml_readable debug⟩ .nil))

/-! ## C42 -/

/-- **C42**, first part: an object for several files can be created and returns the records of all files in order. -/
theorem C42_reads_all [Mul K] [DecidableEq P] (cfg : IOConfig K V) {fs : FS P} {files : List (P × P)} {ds : List (FileData K)}
    (hin : Inputs cfg fs files ds) (hdis : ∀ p ∈ files.map Prod.fst, p ∉ files.map Prod.snd)
    (hpres : ∀ x ∈ items ds, ∃ r, x.1.present cfg x.2 = .ok r) :
    ∃ s fs', CombinedIO.new cfg files fs = (.ok (), s, fs') ∧
      ∀ n, (allRecords cfg ds).length < n → (collect cfg n s fs').1 = some (.ok (allRecords cfg ds)) := by
  have hps : ∀ d ∈ ds, Presentable cfg d.kind d.records := by
    intro d hd r hr
    exact hpres (d.kind, r) (List.mem_flatMap.2 ⟨d, hd, List.mem_map.2 ⟨r, hr, rfl⟩⟩)
  cases ds with
  | nil =>
    have hf : files = [] := by simpa [Inputs] using hin
    subst hf
    refine ⟨_, _, rfl, fun n hn => ?_⟩
    exact collect_ready _ _ _ _ (.inr ⟨rfl, [], .nil, by simp, by simp, rfl⟩) hn
  | cons d ds =>
    obtain ⟨s, fs', h1, h2, h3, -⟩ := new_at hin hdis
    refine ⟨s, fs', h1, fun n hn => collect_ready _ n s fs' ?_ hn⟩
    exact .inl ⟨_, _, _, h2, hps d (by simp), fun d' hd' => hps d' (by simp [hd']), by simp [rest, allRecords]⟩

/-- **C42**, second part: after any calls, `update_all_weights` writes the header and the records of each input file to the
corresponding output file, the records with the weights at their position in the list. It returns the number of records
written. No other file changes. If there are more weights than records they are ignored, if there are fewer the remaining
records are not written. -/
theorem C42_update_all [Mul K] [Div K] [DecidableEq P] (cfg : IOConfig K V) {fs : FS P} {files : List (P × P)}
    {ds : List (FileData K)} (hin : Inputs cfg fs files ds) (hdis : ∀ p ∈ files.map Prod.fst, p ∉ files.map Prod.snd)
    (hnodup : (files.map Prod.snd).Nodup) (ops : List (Op K)) (ws : List (List K))
    (hup : ∀ x ∈ ws.zip (items ds), ∃ r, x.2.1.update cfg x.1 x.2.2 = .ok r) {x : CombinedIO K P × FS P}
    (hx : x = ops.foldl (step cfg) (CombinedIO.new cfg files fs).2) :
    (x.1.updateAll cfg ws x.2).1 = .ok (min ws.length (total ds)) ∧
    (∀ j f d, files[j]? = some f → ds[j]? = some d →
      (x.1.updateAll cfg ws x.2).2.2 f.2 = some (output cfg d (ws.drop (total (ds.take j))))) ∧
    (∀ p, p ∉ files.map Prod.snd → (x.1.updateAll cfg ws x.2).2.2 p = fs p) := by
  have hinv := history_inv cfg ops (new_inv cfg files fs)
  have hinv2 := updateAll_inv cfg ws hinv
  have hlen := hin.length_eq
  have hin' : Inputs cfg (ops.foldl (step cfg) (CombinedIO.new cfg files fs).2).2 files ds :=
    inputs_other hin fun f hf => hinv.other f.1 (hdis _ (List.mem_map_of_mem hf))
  rw [← hx] at hinv hinv2 hin'
  have hfiles : x.1.rewind.files = files := hinv.files_eq
  obtain ⟨s', h1, h2⟩ := updateFiles_ok cfg x.1.rewind.files.length 0 ws x.1.rewind x.2 ds (by omega)
    (by rw [hfiles]; omega) (by rw [hfiles]; exact hdis)
    (by rw [hfiles]; simpa only [Nat.zero_add] using inputs_get hin') (allUpdatable_of_items hup)
  have hu : x.1.updateAll cfg ws x.2 = (.ok (ws.length - (ws.drop (total ds)).length), s',
      outFS cfg (((x.1.rewind.files.drop 0).map Prod.snd).zip ds) ws x.2) := by
    rw [updateAll, show x.1.files.length = x.1.rewind.files.length from rfl, h1]
  rw [hfiles, List.drop_zero] at hu
  refine ⟨?_, ?_, hinv2.other⟩
  · rw [hu]
    simp only [List.length_drop, Outcome.ok.injEq]
    omega
  · intro j f d hf hd
    rw [hu]
    exact outFS_get cfg (files.map Prod.snd) ds ws x.2 j f.2 d hnodup (by simp [hf]) hd

/-- **C42**: without new weights each output file consists of the header, the records as they are in the input file and, for
LHEF, the end tag. -/
theorem C42_unchanged [Mul K] [Div K] [DecidableEq P] (cfg : IOConfig K V) {fs : FS P} {files : List (P × P)}
    {ds : List (FileData K)} (hin : Inputs cfg fs files ds) (hdis : ∀ p ∈ files.map Prod.fst, p ∉ files.map Prod.snd)
    (hnodup : (files.map Prod.snd).Nodup) (ops : List (Op K)) {x : CombinedIO K P × FS P}
    (hx : x = ops.foldl (step cfg) (CombinedIO.new cfg files fs).2) :
    (x.1.updateAll cfg (List.replicate (total ds) []) x.2).1 = .ok (total ds) ∧
    ∀ (j : Nat) (f : P × P) (d : FileData K), files[j]? = some f → ds[j]? = some d →
      (x.1.updateAll cfg (List.replicate (total ds) []) x.2).2.2 f.2 = some (d.header ++ d.records.flatten ++ d.kind.footer) := by
  have hnil : ∀ (kind : Kind K) r, kind.update cfg [] r = .ok r := by
    intro kind r
    cases kind <;> rfl
  obtain ⟨h1, h2, -⟩ := C42_update_all cfg hin hdis hnodup ops (List.replicate (total ds) []) (by
    rintro ⟨w, k, r⟩ hm
    have hw : w = [] := List.eq_of_mem_replicate (List.of_mem_zip hm).1
    subst hw
    exact ⟨r, hnil k r⟩) hx
  refine ⟨by simpa using h1, fun j f d hf hd => ?_⟩
  rw [h2 j f d hf hd, output]
  congr 3
  have hj : total (ds.take j) + d.records.length ≤ total ds := by
    have hjl := (List.getElem?_eq_some_iff.1 hd).1
    have hsplit : ds = ds.take j ++ d :: ds.drop (j + 1) := by
      rw [← (List.getElem?_eq_some_iff.1 hd).2]
      simp
    conv_rhs => rw [hsplit]
    simp [total]
  have : ∀ (n : Nat) (l : List Bytes), l.length ≤ n → List.zipWith (updated cfg d.kind) (List.replicate n []) l = l := by
    intro n l hl
    induction l generalizing n with
    | nil => simp
    | cons a l ih =>
      cases n with
      | zero => simp at hl
      | succ n =>
        rw [List.replicate_succ, List.zipWith_cons_cons, ih n (by simpa using hl), updated_eq (hnil d.kind a)]
  rw [List.drop_replicate, this _ _ (by omega)]

/-- The hypotheses are met by three files of different formats with five records together. -/
example (debug : Bool) : Inputs (exIO debug) exFS [(0, 10), (1, 11), (2, 12)] [exHepmc, exLhef, exXml] ∧
    total [exHepmc, exLhef, exXml] = 5 := ⟨exInputs debug, rfl⟩

example : (∀ x ∈ items [exHepmc, exLhef, exXml], ∃ r, x.1.present (exIO true) x.2 = .ok r) ∧
    ∀ x ∈ [[1], [2], [3], [4], [6]].zip (items [exHepmc, exLhef, exXml]), ∃ r, x.2.1.update (exIO true) x.1 x.2.2 = .ok r := by
  have h1 : (items [exHepmc, exLhef, exXml]).all (fun x => (x.1.present (exIO true) x.2).isOk) = true := by decide +kernel
  have h2 : ([[1], [2], [3], [4], [6]].zip (items [exHepmc, exLhef, exXml])).all
      (fun x => (x.2.1.update (exIO true) x.1 x.2.2).isOk) = true := by decide +kernel
  rw [List.all_eq_true] at h1 h2
  exact ⟨fun x hx => Outcome.isOk_iff.1 (h1 x hx), fun x hx => Outcome.isOk_iff.1 (h2 x hx)⟩

/-- What is read and written in this case. -/
example : allRecords (exIO true) [exHepmc, exLhef, exXml] = [ascii "E 1 2 3 4 5 6 7 8 9 0 0 1 5\n",
      ascii "E 1 2 3 4 5 6 7 8 9 0 0 1 6\n", ascii "\n<event>\n2 0 5\n</event>", ascii "<se w=\"6\"></se>",
      ascii "<se w=\"8\"></se></r>"] ∧
    output (exIO true) exLhef [[3], [4], [6]] =
      ascii "<LesHouchesEvents>\n</init>\n<event>\n2 0 3\n</event>\n</LesHouchesEvents>\n" ∧
    output (exIO true) exXml [[4], [6]] = ascii "<?xml?><r><se w=\"2\"></se><se w=\"3\"></se></r>" := by
  decide +kernel

/-! ## C43 -/

/-- **C43** as stated: after all records were updated one after the other, the next call returns `Ok(false)`. -/
def C43_claim : Prop :=
  ∀ (cfg : IOConfig ℚ ℚ) (fs : FS ℕ) (files : List (ℕ × ℕ)) (ds : List (FileData ℚ)), Inputs cfg fs files ds →
    (∀ p ∈ files.map Prod.fst, p ∉ files.map Prod.snd) → (files.map Prod.snd).Nodup →
    ∀ (ws : List (List ℚ)) (w : List ℚ), ws.length = total ds →
    (∀ x ∈ ws.zip (items ds), ∃ r, x.2.1.update cfg x.1 x.2.2 = .ok r) →
    ∀ x, x = (calls cfg ws (CombinedIO.new cfg files fs).2.1 (CombinedIO.new cfg files fs).2.2).2 →
    (x.1.updateNext cfg w x.2).1 = .ok false

theorem total_eq_items (ds : List (FileData K)) : (items ds).length = total ds := by
  simp [items, total, List.length_flatMap]

/-- **C43**, the part that holds: as long as there are records, `update_next_weights` returns `Ok(true)`, whatever the
distribution of the records over files. What does not hold: after the last record it panics instead of returning
`Ok(false)`. -/
theorem C43_update_next_partial [Mul K] [Div K] [DecidableEq P] (cfg : IOConfig K V) {fs : FS P} {files : List (P × P)}
    {ds : List (FileData K)} (hin : Inputs cfg fs files ds) (hdis : ∀ p ∈ files.map Prod.fst, p ∉ files.map Prod.snd)
    (ws : List (List K)) (hlen : ws.length ≤ total ds)
    (hup : ∀ x ∈ ws.zip (items ds), ∃ r, x.2.1.update cfg x.1 x.2.2 = .ok r) :
    (calls cfg ws (CombinedIO.new cfg files fs).2.1 (CombinedIO.new cfg files fs).2.2).1 = List.replicate ws.length (.ok true) ∧
    ∀ w, ws.length = total ds → ∀ x, x = (calls cfg ws (CombinedIO.new cfg files fs).2.1 (CombinedIO.new cfg files fs).2.2).2 →
      (x.1.updateNext cfg w x.2).1 = if files = [] then .ok false else .panic := by
  cases ds with
  | nil =>
    have hf : files = [] := by simpa [Inputs] using hin
    have hws : ws = [] := by simpa [total] using hlen
    subst hf hws
    refine ⟨rfl, ?_⟩
    rintro w - x rfl
    rfl
  | cons d ds =>
    obtain ⟨s, fs', h1, h2, h3, -⟩ := new_at hin hdis
    have hit : items (d :: ds) = d.records.map (d.kind, ·) ++ items ds := by simp [items]
    rw [h1]
    simp only
    obtain ⟨g1, kind', records', ds', g2, g3⟩ := calls_at cfg ws s fs' d.kind d.records ds h2
      (by rw [← hit, total_eq_items]; exact hlen) (by rw [← hit]; exact hup)
    refine ⟨g1, ?_⟩
    rintro w hw x rfl
    have hne : files ≠ [] := by
      rintro rfl
      have := hin.length_eq
      simp at this
    rw [if_neg hne]
    rw [← hit, List.drop_eq_nil_of_le (by rw [total_eq_items]; omega)] at g3
    exact (updateNextLoop_at cfg w ds' _ _ _ kind' records' g2 (by have := g2.length; omega)).1 g3

/-- **C43** fails: with one file with two records the third call panics. -/
theorem C43_violated : ¬ C43_claim := by
  intro h
  have hin : Inputs (exIO false) exFS [(0, 10)] [exHepmc] := .cons ⟨_, rfl, exHepmc_readable false⟩ .nil
  have hup : ∀ x ∈ [[1], [2]].zip (items [exHepmc]), ∃ r, x.2.1.update (exIO false) x.1 x.2.2 = .ok r := by
    have h2 : ([[1], [2]].zip (items [exHepmc])).all (fun x => (x.2.1.update (exIO false) x.1 x.2.2).isOk) = true := by
      decide +kernel
    rw [List.all_eq_true] at h2
    exact fun x hx => Outcome.isOk_iff.1 (h2 x hx)
  have h1 := h (exIO false) exFS [(0, 10)] [exHepmc] hin (by simp) (by simp) [[1], [2]] [3] rfl hup _ rfl
  rw [(C43_update_next_partial (exIO false) hin (by simp) [[1], [2]] (by decide) hup).2 [3] rfl _ rfl] at h1
  simp at h1

/-- **C43**: after `rewind`, `update_next_weights` panics, unless there are no files. -/
theorem C43_rewind_panics [Div K] [DecidableEq P] (cfg : IOConfig K V) (s : CombinedIO K P) (fs : FS P) (w : List K)
    (h : s.idx < s.files.length) : (s.rewind.updateNext cfg w fs).1 = .panic := by
  have h' : s.rewind.idx < s.rewind.files.length := h
  rw [updateNext, updateNextLoop, if_pos h']
  rfl

/-! ## C44 -/

/-- **C44** as stated, for the reader of a single file: after reading some records, rewinding gives a reader that reads
all of them again. -/
def C44_claim : Prop :=
  ∀ (cfg : IOConfig ℚ ℚ) (format : FileFormat) (content : Bytes) (r : Reader) (records : List Bytes),
    Reader.new cfg content format = .ok r → Reads cfg.ctx.debug format r records →
    ∀ k ≤ records.length, ∃ r', ((fun r => (r.readRaw cfg.ctx.debug format).2)^[k] r).rewind cfg.ctx.debug format (some content) = .ok r' ∧
      Reads cfg.ctx.debug format r' records

/-- **C44** fails for STRIPPER XML: the number of remaining records is not reset by `rewind`, so with overflow checks
reading again panics. -/
theorem C44_violated : ¬ C44_claim := by
  intro h
  obtain ⟨h1, r, h2, -, -, h4⟩ := exXml_readable true
  obtain ⟨r', h5, h6⟩ := h (exIO true) .stripperXml _ r _ h2 h4 2 (by decide)
  have hr : Reader.new (exIO true) (exXml.header ++ exXml.records.flatten) .stripperXml =
      .ok ⟨ascii " w=\"3\"></se><se w=\"4\"></se></r>", ascii "<?xml?><r>", some 2⟩ := by decide +kernel
  have h2' : Reader.new (exIO true) (exXml.header ++ exXml.records.flatten) .stripperXml = .ok r := h2
  rw [hr, Outcome.ok.injEq] at h2'
  subst h2'
  have h7 : Reader.rewind true .stripperXml (some (exXml.header ++ exXml.records.flatten))
      ((fun r => (Reader.readRaw true .stripperXml r).2)^[2]
        ⟨ascii " w=\"3\"></se><se w=\"4\"></se></r>", ascii "<?xml?><r>", some 2⟩) =
      .ok ⟨ascii " w=\"3\"></se><se w=\"4\"></se></r>", ascii "<?xml?><r>", some 0⟩ := by decide +kernel
  change Reader.rewind true .stripperXml _ ((fun r => (Reader.readRaw true .stripperXml r).2)^[2] _) = _ at h5
  rw [h7, Outcome.ok.injEq] at h5
  subst h5
  have h8 : (Reader.readRaw true .stripperXml ⟨ascii " w=\"3\"></se><se w=\"4\"></se></r>", ascii "<?xml?><r>", some 0⟩).1 =
      some .panic := by decide +kernel
  change Reads true .stripperXml _ _ at h6
  cases h6 with
  | more h9 _ =>
    rw [h9] at h8
    simp at h8

theorem iterate_readRaw (debug : Bool) (format : FileFormat) (k : Nat) (r : Reader) :
    ((fun r => (Reader.readRaw debug format r).2)^[k] r).header = r.header ∧
    (format ≠ .stripperXml → ((fun r => (Reader.readRaw debug format r).2)^[k] r).rem = r.rem) ∧
    (r.rem.isSome = true → ((fun r => (Reader.readRaw debug format r).2)^[k] r).rem.isSome = true) := by
  induction k generalizing r with
  | zero => simp
  | succ k ih =>
    rw [Function.iterate_succ, Function.comp_apply]
    obtain ⟨h1, h2, h3⟩ := ih (Reader.readRaw debug format r).2
    rw [h1]
    cases format with
    | hepmc2 => exact ⟨rfl, fun _ => h2 (by simp), h3⟩
    | lhef => exact ⟨rfl, fun _ => h2 (by simp), h3⟩
    | ntuple => exact ⟨rfl, fun _ => h2 (by simp), h3⟩
    | stripperXml =>
      have hr : (Reader.readRaw debug .stripperXml r).2.header = r.header ∧
          (r.rem.isSome = true → (Reader.readRaw debug .stripperXml r).2.rem.isSome = true) := by
        simp only [Reader.readRaw]
        split
        · split
          · exact ⟨rfl, id⟩
          · split
            · exact ⟨rfl, fun _ => rfl⟩
            · exact ⟨rfl, id⟩
        · exact ⟨rfl, id⟩
      exact ⟨hr.1, fun h => absurd rfl h, fun h => h3 (hr.2 h)⟩

/-- Without overflow checks the count has no influence on what is read. -/
theorem reads_rem {r : Reader} {records : List Bytes} (h : Reads false .stripperXml r records) (hr : r.rem.isSome = true) :
    ∀ r' : Reader, r'.src = r.src → r'.rem.isSome = true → Reads false .stripperXml r' records := by
  induction h with
  | @done r h =>
    intro r' hs hr'
    refine .done ?_
    rw [Option.isSome_iff_exists] at hr hr'
    obtain ⟨m, hm⟩ := hr
    obtain ⟨m', hm'⟩ := hr'
    simp only [Reader.readRaw, hm, hm', hs] at h ⊢
    revert h
    cases (Stripper.readRaw r.src).1 with
    | none => simp
    | some x =>
      cases x with
      | ok a => by_cases h0 : m = 0 <;> simp [Stripper.decRemaining, h0]
      | err e => simp
      | panic => simp
  | @more r r1 record records h _ ih =>
    intro r' hs hr'
    rw [Option.isSome_iff_exists] at hr hr'
    obtain ⟨m, hm⟩ := hr
    obtain ⟨m', hm'⟩ := hr'
    cases hx : Stripper.readRaw r.src with
    | mk a b =>
      simp only [Reader.readRaw, hm, hx] at h
      cases a with
      | none => simp at h
      | some x =>
        cases x with
        | err e => simp at h
        | panic => simp at h
        | ok a =>
          simp only at h
          split at h
          · next m1 hm1 =>
            simp only [Prod.mk.injEq, Option.some.injEq, Outcome.ok.injEq] at h
            obtain ⟨rfl, rfl⟩ := h
            obtain ⟨m2, hm2⟩ : ∃ m2, Stripper.decRemaining false m' = some m2 := by
              by_cases h0 : m' = 0 <;> simp [Stripper.decRemaining, h0]
            refine .more (r' := { r' with src := b, rem := some m2 }) ?_ (ih rfl _ rfl rfl)
            simp only [Reader.readRaw, hm', hs, hx, hm2]
          · simp at h

/-- **C44** for single files, except STRIPPER XML with overflow checks: after any number of reads, `rewind` gives a reader
that reads all records again. For HepMC2 and LHEF it is in the same state as a new reader. -/
theorem C44_reader_partial (cfg : IOConfig K V) {format : FileFormat} {content : Bytes} {r : Reader} {records : List Bytes}
    (h : Reader.new cfg content format = .ok r) (hr : Reads cfg.ctx.debug format r records)
    (hf : format = .stripperXml → cfg.ctx.debug = false) (k : Nat) :
    ∃ r', ((fun r => (r.readRaw cfg.ctx.debug format).2)^[k] r).rewind cfg.ctx.debug format (some content) = .ok r' ∧
      Reads cfg.ctx.debug format r' records ∧ (format ≠ .stripperXml → r' = r) := by
  obtain ⟨h1, h2, h3⟩ := iterate_readRaw cfg.ctx.debug format k r
  generalize (fun r => (Reader.readRaw cfg.ctx.debug format r).2)^[k] r = rk at h1 h2 h3
  cases format with
  | hepmc2 =>
    simp only [Reader.new, Outcome.ok.injEq] at h
    have : ({ rk with src := (HepMC.initSource content).2 } : Reader) = r := by
      rw [← h] at h1 h2 ⊢
      obtain ⟨s, hd, rm⟩ := rk
      simp only at h1 h2
      simp [h1, h2]
    exact ⟨_, rfl, by rw [this]; exact hr, fun _ => this⟩
  | lhef =>
    simp only [Reader.new, Outcome.ok.injEq] at h
    have : ({ rk with src := (Lhef.initSource content).2 } : Reader) = r := by
      rw [← h] at h1 h2 ⊢
      obtain ⟨s, hd, rm⟩ := rk
      simp only at h1 h2
      simp [h1, h2]
    exact ⟨_, rfl, by rw [this]; exact hr, fun _ => this⟩
  | ntuple => simp [Reader.new] at h
  | stripperXml =>
    simp only [Reader.new, Outcome.bind_eq_ok] at h
    obtain ⟨⟨header, src⟩, h4, tag, -, h6⟩ := h
    cases tag with
    | normalization a b => simp at h6
    | eventrecord a b n =>
      simp only [Outcome.ok.injEq] at h6
      subst h6
      refine ⟨{ rk with src := src }, ?_, ?_, fun h => absurd rfl h⟩
      · simp only [Reader.rewind, h4, Outcome.bind_ok]
      · rw [hf rfl] at hr ⊢
        exact reads_rem hr rfl _ rfl (h3 rfl)

/-- **C44** for several files: after any sequence of calls, including updates, reading after `rewind` gives all records of
all files. This holds for all formats and with or without overflow checks. -/
theorem C44_combined [Mul K] [Div K] [DecidableEq P] (cfg : IOConfig K V) {fs : FS P} {files : List (P × P)}
    {ds : List (FileData K)} (hin : Inputs cfg fs files ds) (hdis : ∀ p ∈ files.map Prod.fst, p ∉ files.map Prod.snd)
    (hpres : ∀ x ∈ items ds, ∃ r, x.1.present cfg x.2 = .ok r) (ops : List (Op K)) {x : CombinedIO K P × FS P}
    (hx : x = ops.foldl (step cfg) (CombinedIO.new cfg files fs).2) {n : Nat} (hn : (allRecords cfg ds).length < n) :
    (collect cfg n x.1.rewind x.2).1 = some (.ok (allRecords cfg ds)) := by
  have hinv := history_inv cfg ops (new_inv cfg files fs)
  have hin' : Inputs cfg (ops.foldl (step cfg) (CombinedIO.new cfg files fs).2).2 files ds :=
    inputs_other hin fun f hf => hinv.other f.1 (hdis _ (List.mem_map_of_mem hf))
  rw [← hx] at hinv hin'
  have hfiles : x.1.rewind.files = files := hinv.files_eq
  refine collect_ready _ _ _ _ (.inr ⟨rfl, ds, by rw [hfiles]; exact hin', by rw [hfiles]; exact hdis, ?_, rfl⟩) hn
  intro d hd r hr
  exact hpres (d.kind, r) (List.mem_flatMap.2 ⟨d, hd, List.mem_map.2 ⟨r, hr, rfl⟩⟩)

/-! ## C45 -/

/-- The pairs of input and output file (`src/bin/main.rs:74-82`): a path consists of a directory and a name, output files
have the name of the input file and are in the output directory. -/
def outputPaths {D N : Type*} (outdir : D) (infiles : List (D × N)) : List ((D × N) × (D × N)) :=
  infiles.map fun f => (f, (outdir, f.2))

/-- **C45** as stated: the input files do not change, and for each one there is an output file with its records. -/
def C45_claim : Prop :=
  ∀ (cfg : IOConfig ℚ ℚ) (fs : FS (ℕ × ℕ)) (infiles : List (ℕ × ℕ)) (outdir : ℕ) (ds : List (FileData ℚ)),
    infiles.Nodup → Inputs cfg fs (outputPaths outdir infiles) ds → ∀ ws : List (List ℚ), ws.length = total ds →
    (∀ x ∈ ws.zip (items ds), ∃ r, x.2.1.update cfg x.1 x.2.2 = .ok r) →
    ∀ x, x = (CombinedIO.new cfg (outputPaths outdir infiles) fs).2 →
      (∀ f ∈ infiles, (x.1.updateAll cfg ws x.2).2.2 f = fs f) ∧
      ∀ j f d, infiles[j]? = some f → ds[j]? = some d →
        (x.1.updateAll cfg ws x.2).2.2 (outdir, f.2) = some (output cfg d (ws.drop (total (ds.take j))))

/-- **C45** fails if the output directory is the directory of an input file: this file is overwritten. -/
theorem C45_violated : ¬ C45_claim := by
  intro h
  let fs : FS (ℕ × ℕ) := fun p => if p = (0, 0) then some (exHepmc.header ++ exHepmc.records.flatten) else none
  have hin : Inputs (exIO false) fs (outputPaths 0 [(0, 0)]) [exHepmc] := .cons ⟨_, rfl, exHepmc_readable false⟩ .nil
  have hup : ∀ x ∈ [[1], [2]].zip (items [exHepmc]), ∃ r, x.2.1.update (exIO false) x.1 x.2.2 = .ok r := by
    have h2 : ([[1], [2]].zip (items [exHepmc])).all (fun x => (x.2.1.update (exIO false) x.1 x.2.2).isOk) = true := by
      decide +kernel
    rw [List.all_eq_true] at h2
    exact fun x hx => Outcome.isOk_iff.1 (h2 x hx)
  have h1 := (h (exIO false) fs [(0, 0)] 0 [exHepmc] (by simp) hin [[1], [2]] rfl hup _ rfl).1 (0, 0) (by simp)
  revert h1
  decide +kernel

/-- **C45** fails as well if two input files in different directories have the same name: there is only one output file. -/
theorem C45_same_name_violated : ¬ C45_claim := by
  intro h
  let fs : FS (ℕ × ℕ) := fun p =>
    if p = (1, 0) then some (exHepmc.header ++ exHepmc.records.flatten)
    else if p = (2, 0) then some (exLhef.header ++ exLhef.records.flatten ++ ascii "\n</LesHouchesEvents>\n") else none
  have hin : Inputs (exIO false) fs (outputPaths 0 [(1, 0), (2, 0)]) [exHepmc, exLhef] :=
    .cons ⟨_, rfl, exHepmc_readable false⟩ (.cons ⟨_, rfl, exLhef_readable false⟩ .nil)
  have hup : ∀ x ∈ [[1], [2], [3]].zip (items [exHepmc, exLhef]), ∃ r, x.2.1.update (exIO false) x.1 x.2.2 = .ok r := by
    have h2 : ([[1], [2], [3]].zip (items [exHepmc, exLhef])).all (fun x => (x.2.1.update (exIO false) x.1 x.2.2).isOk) = true := by
      decide +kernel
    rw [List.all_eq_true] at h2
    exact fun x hx => Outcome.isOk_iff.1 (h2 x hx)
  have h1 := (h (exIO false) fs [(1, 0), (2, 0)] 0 [exHepmc, exLhef] (by simp) hin [[1], [2], [3]] rfl hup _ rfl).2
  have h2 := h1 0 (1, 0) exHepmc rfl rfl
  have h3 := h1 1 (2, 0) exLhef rfl rfl
  rw [h2] at h3
  revert h3
  decide +kernel

/-- **C45**, first part, if no input file is in the output directory: whatever calls are made and whatever errors occur,
the input files and all other files outside the output directory do not change. -/
theorem C45_inputs_partial {D N : Type*} [Mul K] [Div K] [DecidableEq D] [DecidableEq N] (cfg : IOConfig K V) {fs : FS (D × N)}
    {infiles : List (D × N)} {outdir : D} (hdir : ∀ f ∈ infiles, f.1 ≠ outdir) (ops : List (Op K)) :
    (∀ f ∈ infiles, (ops.foldl (step cfg) (CombinedIO.new cfg (outputPaths outdir infiles) fs).2).2 f = fs f) ∧
    ∀ p : D × N, p.1 ≠ outdir → (ops.foldl (step cfg) (CombinedIO.new cfg (outputPaths outdir infiles) fs).2).2 p = fs p := by
  have hinv := history_inv cfg ops (new_inv cfg (outputPaths outdir infiles) fs)
  have : ∀ p : D × N, p.1 ≠ outdir →
      (ops.foldl (step cfg) (CombinedIO.new cfg (outputPaths outdir infiles) fs).2).2 p = fs p := by
    intro p hp
    apply hinv.other
    simp only [outputPaths, List.map_map, List.mem_map, Function.comp_apply, not_exists, not_and]
    rintro f - rfl
    exact hp rfl
  exact ⟨fun f hf => this f (hdir f hf), this⟩

/-- **C45**, second part, if no input file is in the output directory and no two input files have the same name: for each
input file there is an output file with its records. -/
theorem C45_outputs_partial {D N : Type*} [Mul K] [Div K] [DecidableEq D] [DecidableEq N] (cfg : IOConfig K V) {fs : FS (D × N)}
    {infiles : List (D × N)} {outdir : D} {ds : List (FileData K)} (hin : Inputs cfg fs (outputPaths outdir infiles) ds)
    (hdir : ∀ f ∈ infiles, f.1 ≠ outdir) (hname : (infiles.map Prod.snd).Nodup) (ops : List (Op K)) (ws : List (List K))
    (hup : ∀ x ∈ ws.zip (items ds), ∃ r, x.2.1.update cfg x.1 x.2.2 = .ok r) {x : CombinedIO K (D × N) × FS (D × N)}
    (hx : x = ops.foldl (step cfg) (CombinedIO.new cfg (outputPaths outdir infiles) fs).2) :
    ∀ j f d, infiles[j]? = some f → ds[j]? = some d →
      (x.1.updateAll cfg ws x.2).2.2 (outdir, f.2) = some (output cfg d (ws.drop (total (ds.take j)))) := by
  intro j f d hf hd
  refine (C42_update_all cfg hin ?_ ?_ ops ws hup hx).2.1 j (f, (outdir, f.2)) d (by simp [outputPaths, hf]) hd
  · intro p hp hp2
    simp only [outputPaths, List.map_map, List.mem_map, Function.comp_apply] at hp hp2
    obtain ⟨f, hf, rfl⟩ := hp
    obtain ⟨g, -, hg⟩ := hp2
    exact hdir f hf (by rw [← hg])
  · have : (outputPaths outdir infiles).map Prod.snd = (infiles.map Prod.snd).map (fun n => (outdir, n)) := by
      simp [outputPaths]
    rw [this]
    exact hname.map (fun a b h => by simpa using h)

/-- Three files in the directories 1 and 2, the output directory is 0. -/
example : ∃ fs : FS (ℕ × ℕ), Inputs (exIO true) fs (outputPaths 0 [(1, 0), (1, 1), (2, 2)]) [exHepmc, exLhef, exXml] ∧
    (∀ f ∈ [(1, 0), (1, 1), (2, 2)], f.1 ≠ 0) ∧ ([(1, 0), (1, 1), (2, 2)].map Prod.snd).Nodup :=
  ⟨fun p => exFS p.2, .cons ⟨_, rfl, exHepmc_readable true⟩ (.cons ⟨_, rfl, exLhef_readable true⟩
    (.cons ⟨_, rfl, exXml_readable true⟩ .nil)), by decide, by decide⟩

/-! ## C49 -/

/-- **C49** as stated: in a file that declares the number of records, the size hint is this number minus the number of
records read, also after rewinding. -/
def C49_claim : Prop :=
  ∀ (cfg : IOConfig ℚ ℚ) (content : Bytes) (r : Reader) (records : List Bytes) (m : Nat),
    Reader.new cfg content .stripperXml = .ok r → Reads cfg.ctx.debug .stripperXml r records → r.sizeHint = (m, some m) →
    ∀ k ≤ records.length,
      ((fun r => (Reader.readRaw cfg.ctx.debug .stripperXml r).2)^[k] r).sizeHint = (m - k, some (m - k)) ∧
      ∀ r', ((fun r => (Reader.readRaw cfg.ctx.debug .stripperXml r).2)^[k] r).rewind cfg.ctx.debug .stripperXml (some content) = .ok r' →
        r'.sizeHint = (m, some m)

/-- **C49** fails: after rewinding the size hint is still the number of records that remained before. -/
theorem C49_violated : ¬ C49_claim := by
  intro h
  obtain ⟨h1, r, h2, -, -, h4⟩ := exXml_readable false
  have hr : Reader.new (exIO false) (exXml.header ++ exXml.records.flatten) .stripperXml =
      .ok ⟨ascii " w=\"3\"></se><se w=\"4\"></se></r>", ascii "<?xml?><r>", some 2⟩ := by decide +kernel
  have h2' : Reader.new (exIO false) (exXml.header ++ exXml.records.flatten) .stripperXml = .ok r := h2
  rw [hr, Outcome.ok.injEq] at h2'
  subst h2'
  have h7 : Reader.rewind false .stripperXml (some (exXml.header ++ exXml.records.flatten))
      ((fun r => (Reader.readRaw false .stripperXml r).2)^[2]
        ⟨ascii " w=\"3\"></se><se w=\"4\"></se></r>", ascii "<?xml?><r>", some 2⟩) =
      .ok ⟨ascii " w=\"3\"></se><se w=\"4\"></se></r>", ascii "<?xml?><r>", some 0⟩ := by decide +kernel
  have h8 := (h (exIO false) _ _ _ 2 hr h4 rfl 2 (by decide)).2 _ h7
  simp [Reader.sizeHint] at h8

/-- **C49** for a reader that was not rewound: as long as no more records are read than declared, the size hint is the
declared number minus the number of records read. -/
theorem C49_reader_partial {debug : Bool} {r : Reader} {records : List Bytes} (h : Reads debug .stripperXml r records) :
    ∀ {m : Nat}, r.sizeHint = (m, some m) → ∀ k ≤ records.length, k ≤ m →
    ((fun r => (Reader.readRaw debug .stripperXml r).2)^[k] r).sizeHint = (m - k, some (m - k)) := by
  induction h with
  | done h =>
    intro m hm k hk _
    have : k = 0 := by simpa using hk
    subst this
    simpa using hm
  | @more r r1 record records h _ ih =>
    intro m hm k hk hkm
    cases k with
    | zero => simpa using hm
    | succ k =>
      rw [Function.iterate_succ, Function.comp_apply, h]
      have hrem : r.rem = some m := by
        unfold Reader.sizeHint at hm
        cases hr : r.rem with
        | none => simp [hr] at hm
        | some n => simpa [hr] using hm
      have h1 : r1.sizeHint = (m - 1, some (m - 1)) := by
        cases hx : Stripper.readRaw r.src with
        | mk a b =>
          simp only [Reader.readRaw, hrem, hx] at h
          cases a with
          | none => simp at h
          | some x =>
            cases x with
            | err e => simp at h
            | panic => simp at h
            | ok a =>
              have hd : Stripper.decRemaining debug m = some (m - 1) := by
                rw [Stripper.decRemaining, if_neg (by omega)]
              simp only [hd, Prod.mk.injEq] at h
              rw [← h.2]
              rfl
      rw [ih h1 k (by simpa using hk) (by omega)]
      rw [show m - 1 - k = m - (k + 1) by omega]

/-- The sum of the declared numbers, if all files declare one. -/
theorem foldl_hints (cfg : IOConfig K V) : ∀ (ds : List (FileData K)) (ns : List Nat) (n : Nat),
    ds.map (declared cfg) = ns.map some →
    (ds.map fun d => hintOf (declared cfg d)).foldl combineHints (n, some n) = (n + ns.sum, some (n + ns.sum)) := by
  intro ds
  induction ds with
  | nil =>
    intro ns n h
    have : ns = [] := by simpa using h.symm
    subst this
    simp
  | cons d ds ih =>
    intro ns n h
    cases ns with
    | nil => simp at h
    | cons a ns =>
      simp only [List.map_cons, List.cons.injEq] at h
      rw [List.map_cons, List.foldl_cons, h.1,
        show combineHints (n, some n) (hintOf (some a)) = (n + a, some (n + a)) from rfl, ih ns (n + a) h.2]
      simp [Nat.add_assoc]

/-- **C49** for several files that all declare the number of their records: after creating the object, and after any calls
followed by `rewind`, reading `k` records leaves a size hint of the sum of the declared numbers minus `k`. Subtraction
does not go below zero. -/
theorem C49_combined_partial [Mul K] [Div K] [DecidableEq P] (cfg : IOConfig K V) {fs : FS P} {files : List (P × P)}
    {ds : List (FileData K)} (hin : Inputs cfg fs files ds) (hdis : ∀ p ∈ files.map Prod.fst, p ∉ files.map Prod.snd)
    (hpres : ∀ x ∈ items ds, ∃ r, x.1.present cfg x.2 = .ok r) {ns : List Nat} (hns : ds.map (declared cfg) = ns.map some)
    (ops : List (Op K)) {x : CombinedIO K P × FS P}
    (hx : x = (CombinedIO.new cfg files fs).2 ∨
      x = ((ops.foldl (step cfg) (CombinedIO.new cfg files fs).2).1.rewind, (ops.foldl (step cfg) (CombinedIO.new cfg files fs).2).2))
    {k : Nat} (hk : k ≤ (allRecords cfg ds).length) :
    ((List.replicate k Op.next).foldl (step cfg) x).1.sizeHint = (ns.sum - k, some (ns.sum - k)) := by
  have hps : ∀ d ∈ ds, Presentable cfg d.kind d.records := by
    intro d hd r hr
    exact hpres (d.kind, r) (List.mem_flatMap.2 ⟨d, hd, List.mem_map.2 ⟨r, hr, rfl⟩⟩)
  have hnew : Ready cfg (CombinedIO.new cfg files fs).2.1 (CombinedIO.new cfg files fs).2.2 (allRecords cfg ds) ∧
      (CombinedIO.new cfg files fs).2.1.nread = 0 ∧ (CombinedIO.new cfg files fs).2.1.hint = (ns.sum, some ns.sum) := by
    cases ds with
    | nil =>
      have hf : files = [] := by simpa [Inputs] using hin
      have hn : ns = [] := by simpa using hns.symm
      subst hf hn
      exact ⟨.inr ⟨rfl, [], .nil, by simp [CombinedIO.new], by simp, rfl⟩, rfl, rfl⟩
    | cons d ds =>
      obtain ⟨s, fs', h1, h2, h3, h4, h5⟩ := new_at hin hdis
      rw [h1]
      refine ⟨.inl ⟨_, _, _, h2, hps d (by simp), fun d' hd' => hps d' (by simp [hd']), by simp [rest, allRecords]⟩, h4, ?_⟩
      rw [h5, foldl_hints cfg _ ns 0 hns]
      simp
  have key : Ready cfg x.1 x.2 (allRecords cfg ds) ∧ x.1.nread = 0 ∧ x.1.hint = (ns.sum, some ns.sum) := by
    rcases hx with rfl | rfl
    · exact hnew
    · have hinv := history_inv cfg ops (new_inv cfg files fs)
      have hin' : Inputs cfg (ops.foldl (step cfg) (CombinedIO.new cfg files fs).2).2 files ds :=
        inputs_other hin fun f hf => hinv.other f.1 (hdis _ (List.mem_map_of_mem hf))
      have hh := history_hint cfg ops (CombinedIO.new cfg files fs).2
      generalize ops.foldl (step cfg) (CombinedIO.new cfg files fs).2 = y at *
      have hfiles : y.1.rewind.files = files := hinv.files_eq
      refine ⟨.inr ⟨rfl, ds, by rw [hfiles]; exact hin', by rw [hfiles]; exact hdis, hps, rfl⟩, rfl, ?_⟩
      exact hh.trans hnew.2.2
  have := nexts_ready k (allRecords cfg ds) x.1 x.2 key.1 hk
  simp only [Prod.mk.eta] at this
  simp only [sizeHint, this.1, this.2, key.2.1, key.2.2, Nat.zero_add, Option.map_some]

/-- Two files which declare two records each. -/
example : Inputs (exIO true) exFS [(2, 10), (2, 11)] [exXml, exXml] ∧
    [exXml, exXml].map (declared (exIO true)) = [2, 2].map some :=
  ⟨.cons ⟨_, rfl, exXml_readable true⟩ (.cons ⟨_, rfl, exXml_readable true⟩ .nil), rfl⟩

end Cres

import Verif.Props.CombinedIO

/-!
Property C137: updating the weights in a single file.
-/

namespace Cres

open Spec CombinedIO

variable {K V P : Type*}

theorem rewind_new {cfg : IOConfig K V} {content : Bytes} {f : FileFormat} {r : Reader} (h : Reader.new cfg content f = .ok r) :
    r.rewind cfg.ctx.debug f (some content) = .ok r := by
  cases f with
  | hepmc2 =>
    simp only [Reader.new, Outcome.ok.injEq] at h
    subst h; rfl
  | lhef =>
    simp only [Reader.new, Outcome.ok.injEq] at h
    subst h; rfl
  | stripperXml =>
    simp only [Reader.new, Outcome.bind_eq_ok] at h
    obtain ⟨⟨header, src⟩, h1, tag, h2, h3⟩ := h
    cases tag with
    | eventrecord a b n =>
      simp only [Outcome.ok.injEq] at h3
      subst h3
      simp only [Reader.rewind, h1, Outcome.bind_ok]
    | normalization a b => simp at h3
  | ntuple => simp [Reader.new] at h

theorem updateList_ok [Div K] [DecidableEq P] (cfg : IOConfig K V) (kind : Kind K) (infile outfile : P) (fs : FS P)
    (records : List Bytes) (r : Reader) (hr : Reads cfg.ctx.debug kind.format r records) :
    ∀ (n : Nat) (ws : List (List K)) (s : Bytes), (∀ x ∈ ws.zip records, ∃ record', kind.update cfg x.1 x.2 = .ok record') →
    ∃ r', FileIO.updateList cfg n ws ⟨kind, infile, outfile, r⟩ (fs.create outfile s) =
      (.ok (n + min ws.length records.length, decide (ws.length ≤ records.length)), ⟨kind, infile, outfile, r'⟩,
       fs.create outfile (s ++ (List.zipWith (updated cfg kind) ws records).flatten)) := by
  induction hr with
  | @done r h =>
    intro n ws s _
    cases ws with
    | nil => exact ⟨r, by simp [FileIO.updateList]⟩
    | cons w ws =>
      refine ⟨(Reader.readRaw cfg.ctx.debug kind.format r).2, ?_⟩
      simp only [FileIO.updateList, FileIO.updateNext_done cfg w (io := ⟨kind, infile, outfile, r⟩) _ h]
      simp
  | @more r r' record records h _ ih =>
    intro n ws s hu
    cases ws with
    | nil => exact ⟨r, by simp [FileIO.updateList]⟩
    | cons w ws =>
      obtain ⟨record', hrec⟩ := hu (w, record) (by simp)
      obtain ⟨r'', hih⟩ := ih (n + 1) ws (s ++ record') (fun x hx => hu x (by simp [hx]))
      refine ⟨r'', ?_⟩
      simp only [FileIO.updateList, FileIO.updateNext_more cfg (io := ⟨kind, infile, outfile, r⟩) _ h hrec, FS.append_create]
      rw [hih]
      have : n + 1 + min ws.length records.length = n + min (ws.length + 1) (records.length + 1) := by omega
      simp [updated_eq hrec, this]

/-- Updating all weights in a new object for one file. -/
theorem updateAll_one [Div K] [DecidableEq P] {cfg : IOConfig K V} {fs : FS P} {infile outfile : P} (hne : infile ≠ outfile) {d : FileData K}
    (hin : Input cfg fs infile d) (ws : List (List K)) (hup : ∀ x ∈ ws.zip d.records, ∃ r, d.kind.update cfg x.1 x.2 = .ok r) :
    ∃ io io', FileIO.new cfg infile outfile fs = (.ok io, fs.create outfile d.header) ∧
      io.updateAll cfg ws (fs.create outfile d.header) = (.ok (min ws.length d.records.length), io',
        fs.create outfile (d.header ++ (List.zipWith (updated cfg d.kind) ws d.records).flatten ++
          if ws.length ≤ d.records.length then d.kind.footer else [])) := by
  obtain ⟨content, h1, h2, r, h3, h4, h5, h6⟩ := hin
  have hnew : FileIO.new cfg infile outfile fs = (.ok ⟨d.kind, infile, outfile, r⟩, fs.create outfile d.header) := by
    simp only [FileIO.new, h1, h2, h3, h4, h5, Outcome.bind_ok]
  obtain ⟨r', h7⟩ := updateList_ok cfg d.kind infile outfile fs d.records r h6 0 ws d.header hup
  have hrew : FileIO.rewind cfg ⟨d.kind, infile, outfile, r⟩ (fs.create outfile d.header) = .ok ⟨d.kind, infile, outfile, r⟩ := by
    unfold FileIO.rewind
    rw [show (fs.create outfile d.header) infile = some content by rw [FS.create_other _ _ hne, h1]]
    simp only [rewind_new h3]
    rfl
  refine ⟨_, ⟨d.kind, infile, outfile, r'⟩, hnew, ?_⟩
  unfold FileIO.updateAll
  rw [hrew]
  simp only [h7, Nat.zero_add]
  by_cases hl : ws.length ≤ d.records.length
  · simp only [hl, decide_true, if_true, finish_create]
  · simp [hl]

/-- **C137**, in full: `update_all_weights` of a new object for one file writes the whole file, as for several files (C42). -/
def C137_claim : Prop :=
  ∀ (cfg : IOConfig ℚ ℚ) (fs : FS Nat) (infile outfile : Nat), infile ≠ outfile → ∀ d : FileData ℚ, Input cfg fs infile d →
  ∀ ws : List (List ℚ), (∀ x ∈ ws.zip d.records, ∃ r, d.kind.update cfg x.1 x.2 = .ok r) →
    ∃ io io' fs', FileIO.new cfg infile outfile fs = (.ok io, fs.create outfile d.header) ∧
      io.updateAll cfg ws (fs.create outfile d.header) = (.ok (min ws.length d.records.length), io', fs') ∧
      fs' outfile = some (output cfg d ws)

/-- **C137** is violated: if there are more weights than records, the end tag is missing in LHEF files. -/
theorem C137_violated : ¬ C137_claim := by
  intro hcl
  have hin : Input (exIO false) exFS 1 exLhef := ⟨_, rfl, exLhef_readable false⟩
  have hup : ∀ x ∈ (List.replicate 5 ([] : List ℚ)).zip exLhef.records, ∃ r, exLhef.kind.update (exIO false) x.1 x.2 = .ok r := by
    rintro ⟨w, r⟩ hm
    have hw : w = [] := List.eq_of_mem_replicate (List.of_mem_zip hm).1
    subst hw
    exact ⟨r, rfl⟩
  obtain ⟨io, io', fs', h1, h2, h3⟩ := hcl (exIO false) exFS 1 11 (by decide) exLhef hin (List.replicate 5 []) hup
  obtain ⟨io2, io2', g1, g2⟩ := updateAll_one (outfile := 11) (by decide) hin (List.replicate 5 []) hup
  have : io = io2 := by
    have := h1.symm.trans g1
    simpa using this
  subst this
  rw [g2] at h2
  simp only [Prod.mk.injEq] at h2
  rw [← h2.2.2] at h3
  revert h3
  decide +kernel

/-- **C137**, for as many weights as records or fewer: the file is complete. Otherwise only the end tag of LHEF files is missing. The number of records that were
written is returned, and other files do not change. -/
theorem C137_one_file_partial [Div K] [DecidableEq P] {cfg : IOConfig K V} {fs : FS P} {infile outfile : P} (hne : infile ≠ outfile) {d : FileData K}
    (hin : Input cfg fs infile d) (ws : List (List K)) (hup : ∀ x ∈ ws.zip d.records, ∃ r, d.kind.update cfg x.1 x.2 = .ok r) :
    ∃ io io' fs', FileIO.new cfg infile outfile fs = (.ok io, fs.create outfile d.header) ∧
      io.updateAll cfg ws (fs.create outfile d.header) = (.ok (min ws.length d.records.length), io', fs') ∧
      (ws.length ≤ d.records.length → fs' outfile = some (output cfg d ws)) ∧
      (d.records.length < ws.length → fs' outfile = some (d.header ++ (List.zipWith (updated cfg d.kind) ws d.records).flatten)) ∧
      ∀ p, p ≠ outfile → fs' p = fs p := by
  obtain ⟨io, io', h1, h2⟩ := updateAll_one hne hin ws hup
  refine ⟨io, io', _, h1, h2, fun hl => ?_, fun hl => ?_, fun p hp => FS.create_other _ _ hp⟩
  · simp [FS.create, hl, output]
  · simp [FS.create, Nat.not_le.2 hl]

/-- The hypotheses are met: a Les Houches Event File is copied. -/
example (debug : Bool) : ∃ io io' fs', FileIO.new (exIO debug) 1 11 exFS = (.ok io, exFS.create 11 exLhef.header) ∧
    io.updateAll (exIO debug) (List.replicate exLhef.records.length []) (exFS.create 11 exLhef.header) = (.ok exLhef.records.length, io', fs') ∧
    fs' 11 = some (output (exIO debug) exLhef (List.replicate exLhef.records.length [])) ∧ exLhef.records ≠ [] := by
  obtain ⟨io, io', fs', h1, h2, h3, -⟩ := C137_one_file_partial (cfg := exIO debug) (fs := exFS) (infile := 1) (outfile := 11) (by decide)
    (d := exLhef) ⟨_, rfl, exLhef_readable debug⟩ (List.replicate exLhef.records.length []) (by
      rintro ⟨w, r⟩ hm
      have hw : w = [] := List.eq_of_mem_replicate (List.of_mem_zip hm).1
      subst hw
      exact ⟨r, rfl⟩)
  refine ⟨io, io', fs', h1, ?_, h3 (by simp), by decide +kernel⟩
  simpa using h2

end Cres

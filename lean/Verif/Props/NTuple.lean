import Verif.Spec.NTuple
import Verif.Proofs.HepMC
import Verif.Model.ExampleFormat

/-!
ROOT ntuples: C47.
-/

namespace Cres.NTuple

open Cres.Spec

variable {K V E : Type*}

/-- Updating a record with the right number of weights. -/
theorem update_ok (multi : Bool) (names : List Bytes) {ws : List K} (h : GoodWeights multi names ws) (r : Record K) :
    ∃ r', update (E := E) multi names ws r = .ok r' ∧ NTupleUpdate multi names ws r r' := by
  cases ws with
  | nil => exact ⟨r, rfl, by simp, by simp, by simp, by simp, by simp, rfl⟩
  | cons w ws =>
    have hl := (h.resolve_left (by simp)) r
    cases multi with
    | false =>
      simp only [ntupleWeights, Bool.false_eq_true, if_false, List.length_cons, List.length_nil] at hl
      have : ws = [] := List.length_eq_zero_iff.1 (by omega)
      subst this
      exact ⟨_, rfl, by simp [ntupleWeights], by simp, by simp, by simp, by simp, rfl⟩
    | true =>
      by_cases h2 : ascii "2" ∈ names <;> by_cases hme : ascii "ME" ∈ names <;> by_cases hme2 : ascii "ME2" ∈ names <;>
        simp only [ntupleWeights, h2, hme, hme2, if_true, if_false, List.length_cons, List.length_append, List.length_nil] at hl
      · obtain ⟨a, b, d, rfl⟩ := List.length_eq_three.1 (show ws.length = 3 by omega)
        exact ⟨{ r with weight := w, weight2 := a, meWeight := b, meWeight2 := d }, by simp [update, nextIf, h2, hme, hme2], by simp [ntupleWeights, h2, hme, hme2], by simp, by simp [h2], by simp [hme], by simp [hme2], rfl⟩
      · obtain ⟨a, b, rfl⟩ := List.length_eq_two.1 (show ws.length = 2 by omega)
        exact ⟨{ r with weight := w, weight2 := a, meWeight := b }, by simp [update, nextIf, h2, hme, hme2], by simp [ntupleWeights, h2, hme, hme2], by simp, by simp [h2], by simp [hme], by simp [hme2], rfl⟩
      · obtain ⟨a, b, rfl⟩ := List.length_eq_two.1 (show ws.length = 2 by omega)
        exact ⟨{ r with weight := w, weight2 := a, meWeight2 := b }, by simp [update, nextIf, h2, hme, hme2], by simp [ntupleWeights, h2, hme, hme2], by simp, by simp [h2], by simp [hme], by simp [hme2], rfl⟩
      · obtain ⟨a, rfl⟩ := List.length_eq_one_iff.1 (show ws.length = 1 by omega)
        exact ⟨{ r with weight := w, weight2 := a }, by simp [update, nextIf, h2, hme, hme2], by simp [ntupleWeights, h2, hme, hme2], by simp, by simp [h2], by simp [hme], by simp [hme2], rfl⟩
      · obtain ⟨a, b, rfl⟩ := List.length_eq_two.1 (show ws.length = 2 by omega)
        exact ⟨{ r with weight := w, meWeight := a, meWeight2 := b }, by simp [update, nextIf, h2, hme, hme2], by simp [ntupleWeights, h2, hme, hme2], by simp, by simp [h2], by simp [hme], by simp [hme2], rfl⟩
      · obtain ⟨a, rfl⟩ := List.length_eq_one_iff.1 (show ws.length = 1 by omega)
        exact ⟨{ r with weight := w, meWeight := a }, by simp [update, nextIf, h2, hme, hme2], by simp [ntupleWeights, h2, hme, hme2], by simp, by simp [h2], by simp [hme], by simp [hme2], rfl⟩
      · obtain ⟨a, rfl⟩ := List.length_eq_one_iff.1 (show ws.length = 1 by omega)
        exact ⟨{ r with weight := w, meWeight2 := a }, by simp [update, nextIf, h2, hme, hme2], by simp [ntupleWeights, h2, hme, hme2], by simp, by simp [h2], by simp [hme], by simp [hme2], rfl⟩
      · have : ws = [] := List.length_eq_zero_iff.1 (by omega)
        subst this
        exact ⟨{ r with weight := w }, by simp [update, nextIf, h2, hme, hme2], by simp [ntupleWeights, h2, hme, hme2], by simp, by simp [h2], by simp [hme], by simp [hme2], rfl⟩

/-- One step. -/
theorem updateNext_ok (multi : Bool) {w : List K} {io : FileIO K} (hw : GoodWeights multi io.names w) {r : Record K}
    (hr : io.records[io.nevent]? = some r) :
    ∃ r', NTupleUpdate multi io.names w r r' ∧
      io.updateNext (E := E) multi w = (.ok true, { io with nevent := io.nevent + 1, written := io.written ++ [r'] }) := by
  obtain ⟨r', h1, h2⟩ := update_ok (E := E) multi io.names hw r
  exact ⟨r', h2, by simp [FileIO.updateNext, FileIO.next, hr, h1]⟩

theorem updateNext_end (multi : Bool) (w : List K) {io : FileIO K} (h : io.records.length ≤ io.nevent) :
    io.updateNext (E := E) multi w = (.ok false, io) := by
  simp [FileIO.updateNext, FileIO.next, List.getElem?_eq_none h]

/-- The remaining records are updated with the first weights, in order. -/
theorem updateWhile_ok (multi : Bool) : ∀ (ws : List (List K)) (io : FileIO K), (∀ w ∈ ws, GoodWeights multi io.names w) →
    ∃ new io', List.Forall₂ (fun (x : List K × Record K) r' => NTupleUpdate multi io.names x.1 x.2 r')
        (ws.zip (io.records.drop io.nevent)) new ∧
      updateWhile (E := E) multi ws io = (.ok (ws.drop (io.records.length - io.nevent)), io') ∧
      io'.written = io.written ++ new := by
  intro ws
  induction ws with
  | nil => exact fun io _ => ⟨[], io, by simp, by simp [updateWhile], by simp⟩
  | cons w ws ih =>
    intro io hw
    by_cases hlt : io.nevent < io.records.length
    · obtain ⟨r', h1, h2⟩ := updateNext_ok (E := E) multi (hw w (by simp)) (List.getElem?_eq_getElem hlt)
      obtain ⟨new, io', h3, h4, h5⟩ := ih { io with nevent := io.nevent + 1, written := io.written ++ [r'] }
        (fun w h => hw w (by simp [h]))
      refine ⟨r' :: new, io', ?_, ?_, by simp [h5]⟩
      · rw [List.drop_eq_getElem_cons hlt, List.zip_cons_cons]
        exact .cons h1 h3
      · rw [updateWhile, h2]
        simp only
        rw [h4]
        have : io.records.length - io.nevent = (io.records.length - (io.nevent + 1)) + 1 := by omega
        simp [this]
    · have hle : io.records.length ≤ io.nevent := by omega
      refine ⟨[], io, ?_, ?_, by simp⟩
      · simp [List.drop_eq_nil_of_le hle]
      · rw [updateWhile, updateNext_end multi w hle]
        simp [Nat.sub_eq_zero_of_le hle]

theorem updateLoop_ok (multi : Bool) : ∀ (ws : List (List K)) (n : Nat) (io : FileIO K),
    (∀ w ∈ ws, GoodWeights multi io.names w) → io.records.length - io.nevent < ws.length →
    ∃ new io', List.Forall₂ (fun (x : List K × Record K) r' => NTupleUpdate multi io.names x.1 x.2 r')
        (ws.zip (io.records.drop io.nevent)) new ∧
      FileIO.updateLoop (E := E) multi ws n io = (.ok (n + (io.records.length - io.nevent)), io') ∧
      io'.written = io.written ++ new := by
  intro ws
  induction ws with
  | nil => simp
  | cons w ws ih =>
    intro n io hw hlen
    by_cases hlt : io.nevent < io.records.length
    · obtain ⟨r', h1, h2⟩ := updateNext_ok (E := E) multi (hw w (by simp)) (List.getElem?_eq_getElem hlt)
      obtain ⟨new, io', h3, h4, h5⟩ := ih (n + 1) { io with nevent := io.nevent + 1, written := io.written ++ [r'] }
        (fun w h => hw w (by simp [h])) (by simp at hlen ⊢; omega)
      refine ⟨r' :: new, io', ?_, ?_, by simp [h5]⟩
      · rw [List.drop_eq_getElem_cons hlt, List.zip_cons_cons]
        exact .cons h1 h3
      · rw [FileIO.updateLoop, h2]
        simp only
        rw [h4]
        simp only [Prod.mk.injEq, Outcome.ok.injEq, and_true]
        omega
    · have hle : io.records.length ≤ io.nevent := by omega
      refine ⟨[], io, ?_, ?_, by simp⟩
      · simp [List.drop_eq_nil_of_le hle]
      · rw [FileIO.updateLoop, updateNext_end multi w hle]
        simp [Nat.sub_eq_zero_of_le hle]

theorem updateLoop_panic (multi : Bool) : ∀ (ws : List (List K)) (n : Nat) (io : FileIO K),
    (∀ w ∈ ws, GoodWeights multi io.names w) → ws.length ≤ io.records.length - io.nevent →
    (FileIO.updateLoop (E := E) multi ws n io).1 = .panic := by
  intro ws
  induction ws with
  | nil => exact fun _ _ _ _ => rfl
  | cons w ws ih =>
    intro n io hw hlen
    have hlt : io.nevent < io.records.length := by simp at hlen; omega
    obtain ⟨r', h1, h2⟩ := updateNext_ok (E := E) multi (hw w (by simp)) (List.getElem?_eq_getElem hlt)
    rw [FileIO.updateLoop, h2]
    exact ih (n + 1) { io with nevent := io.nevent + 1, written := io.written ++ [r'] } (fun w h => hw w (by simp [h]))
      (by simp at hlen ⊢; omega)

end NTuple

open Cres.Spec Cres.NTuple

variable {K V E : Type*}

/-- **C47** as stated. -/
def C47_claim : Prop :=
  ∀ (multi : Bool) (names : List Bytes) (records : List (NTuple.Record ℚ)) (ws : List (List ℚ)), ws.length = records.length →
    (∀ w ∈ ws, GoodWeights multi names w) →
    ∃ new io', List.Forall₂ (fun (x : List ℚ × NTuple.Record ℚ) r' => NTupleUpdate multi names x.1 x.2 r') (ws.zip records) new ∧
      (NTuple.FileIO.new names records).updateAll (E := Unit) multi ws = (.ok records.length, io') ∧ io'.written = new

/-- Reading records does not change anything but the position. -/
theorem reads_eq (names : List Bytes) (records : List (NTuple.Record K)) (k : Nat) :
    ∃ n, reads k (NTuple.FileIO.new names records) = { NTuple.FileIO.new names records with nevent := n } := by
  induction k with
  | zero => exact ⟨0, rfl⟩
  | succ k ih =>
    obtain ⟨n, h⟩ := ih
    simp only [reads, h, FileIO.next]
    cases h : (NTuple.FileIO.new names records).records[n]? with
    | none => exact ⟨n, rfl⟩
    | some r => exact ⟨n + 1, rfl⟩

/-- **C47** fails for all numbers of records: with as many entries as records there is a panic, also with fewer, and however
many records have been read before. -/
theorem C47_panics (multi : Bool) (names : List Bytes) (records : List (NTuple.Record K)) (k : Nat) {ws : List (List K)}
    (hlen : ws.length ≤ records.length) (hw : ∀ w ∈ ws, GoodWeights multi names w) :
    ((reads k (NTuple.FileIO.new names records)).updateAll (E := E) multi ws).1 = .panic := by
  obtain ⟨n, h⟩ := reads_eq names records k
  rw [h]
  exact updateLoop_panic multi ws 0 (NTuple.FileIO.new names records).rewind hw hlen

/-- A record with two particles. -/
def exRecord : NTuple.Record ℚ := ⟨1, 2, 3, 4, 2, [11, -11], [5, 5], [0, 0], [3, -3], [4, -4], ascii "x"⟩

/-- **C47** fails: witness with one record. -/
theorem C47_violated : ¬ C47_claim := by
  intro h
  have hw : ∀ w ∈ [[(5 : ℚ)]], GoodWeights false [] w := by simp [GoodWeights, ntupleWeights]
  obtain ⟨new, io', -, h2, -⟩ := h false [] [exRecord] [[5]] rfl hw
  have := C47_panics (E := Unit) false [] [exRecord] 0 (ws := [[5]]) (by simp) hw
  rw [reads, h2] at this
  cases this

/-- **C47**, the part that holds: with more entries than records all records are written, in order, and their number is
returned, however many records have been read before. The number of entries must be larger than the number of records, not
equal to it as claimed. -/
theorem C47_update_all_partial (multi : Bool) (names : List Bytes) (records : List (NTuple.Record K)) (k : Nat) {ws : List (List K)}
    (hlen : records.length < ws.length) (hw : ∀ w ∈ ws, GoodWeights multi names w) :
    ∃ new io', List.Forall₂ (fun (x : List K × NTuple.Record K) r' => NTupleUpdate multi names x.1 x.2 r') (ws.zip records) new ∧
      (reads k (NTuple.FileIO.new names records)).updateAll (E := E) multi ws = (.ok records.length, io') ∧ io'.written = new := by
  obtain ⟨n, hn⟩ := reads_eq names records k
  rw [hn]
  obtain ⟨new, io', h1, h2, h3⟩ := updateLoop_ok (E := E) multi ws 0 (NTuple.FileIO.new names records).rewind hw hlen
  refine ⟨new, io', h1, ?_, by simpa [FileIO.new, FileIO.rewind] using h3⟩
  simpa [FileIO.updateAll, FileIO.new, FileIO.rewind] using h2

/-- **C47** for several files through `CombinedFileIO`: with one entry per record everything is written, the k-th record
overall with the k-th entry. -/
theorem C47_combined (multi : Bool) (names : List Bytes) : ∀ (files : List (List (NTuple.Record K))) (ws : List (List K)),
    ws.length = files.flatten.length → (∀ w ∈ ws, GoodWeights multi names w) →
    ∃ out, updateFiles (E := E) multi names files ws = .ok ([], out) ∧
      out.map List.length = files.map List.length ∧
      List.Forall₂ (fun (x : List K × NTuple.Record K) r' => NTupleUpdate multi names x.1 x.2 r') (ws.zip files.flatten)
        out.flatten := by
  intro files
  induction files with
  | nil =>
    intro ws hlen _
    have : ws = [] := List.length_eq_zero_iff.1 hlen
    subst this
    exact ⟨[], rfl, rfl, .nil⟩
  | cons records files ih =>
    intro ws hlen hw
    obtain ⟨new, io', h1, h2, h3⟩ := updateWhile_ok (E := E) multi ws (FileIO.new names records) hw
    simp only [FileIO.new, List.drop_zero, Nat.sub_zero, List.nil_append] at h1 h2 h3
    rw [List.flatten_cons, List.length_append] at hlen
    obtain ⟨out, h4, h5, h6⟩ := ih (ws.drop records.length) (by rw [List.length_drop]; omega)
      (fun w h => hw w (List.mem_of_mem_drop h))
    have hnew : new.length = records.length := by
      rw [← h1.length_eq, List.length_zip]; omega
    refine ⟨new :: out, ?_, ?_, ?_⟩
    · rw [updateFiles, FileIO.new, h2]
      simp only
      rw [h4, h3]
      rfl
    · simp [hnew, h5]
    · have hzip : ∀ a b : List (List K), a.length = records.length → (a ++ b).zip records = a.zip records := by
        intro a b hab
        rw [← List.append_nil records, List.zip_append (by simpa using hab)]
        simp
      have hz : ws.zip records = (ws.take records.length).zip records := by
        rw [← hzip (ws.take records.length) (ws.drop records.length) (by rw [List.length_take]; omega), List.take_append_drop]
      rw [List.flatten_cons, List.flatten_cons, ← List.take_append_drop records.length ws,
        List.zip_append (by rw [List.length_take]; omega)]
      refine List.rel_append ?_ h6
      rw [← hz]
      exact h1

theorem addParticles_congr (c : ParseCtx K V) {r r' : NTuple.Record K}
    (h : (r'.pdgCode, r'.energy, r'.px, r'.py, r'.pz) = (r.pdgCode, r.energy, r.px, r.py, r.pz)) (n : Nat) :
    ∀ (i : Nat) (b : EventBuilder K V) (x : List K),
      addParticles c r' n i { b with weights := x } =
        (addParticles c r n i b).map fun b => { b with weights := x } := by
  simp only [Prod.mk.injEq] at h
  obtain ⟨h1, h2, h3, h4, h5⟩ := h
  induction n with
  | zero => exact fun _ _ _ => rfl
  | succ n ih =>
    intro i b x
    rw [addParticles, addParticles]
    have : addParticle c r' i { b with weights := x } = (addParticle c r i b).map fun b => { b with weights := x } := by
      simp only [addParticle, h1, h2, h3, h4, h5]
      cases r.pdgCode[i]? <;> [rfl; skip]
      cases r.energy[i]? <;> [rfl; skip]
      simp only [Outcome.ofOption_some, Outcome.bind_ok]
      cases (c.float.n64 c.debug _ : Outcome ReadError K) <;> [skip; rfl; rfl]
      cases r.px[i]? <;> [rfl; skip]
      simp only [Outcome.ofOption_some, Outcome.bind_ok]
      cases (c.float.n64 c.debug _ : Outcome ReadError K) <;> [skip; rfl; rfl]
      cases r.py[i]? <;> [rfl; skip]
      simp only [Outcome.ofOption_some, Outcome.bind_ok]
      cases (c.float.n64 c.debug _ : Outcome ReadError K) <;> [skip; rfl; rfl]
      cases r.pz[i]? <;> [rfl; skip]
      simp only [Outcome.ofOption_some, Outcome.bind_ok]
      cases (c.float.n64 c.debug _ : Outcome ReadError K) <;> [skip; rfl; rfl]
      rfl
    rw [this]
    cases addParticle c r i b with
    | ok b' => simpa using ih (i + 1) b' x
    | err e => rfl
    | panic => rfl

theorem addIf_eq_ok (c : ParseCtx K V) (name : Bytes) (w : K) (b b' : EventBuilder K V) :
    addIf c name w b = .ok b' ↔ (name ∈ c.names → HepMC.Accepts c w) ∧
      b' = if name ∈ c.names then b.addWeight c.multi w else b := by
  by_cases h : name ∈ c.names
  · simp only [addIf, h, if_true, Outcome.bind_eq_ok, HepMC.n64_eq_ok, forall_const]
    constructor
    · rintro ⟨a, ⟨h1, rfl⟩, h2⟩
      exact ⟨h1, (Outcome.ok.injEq _ _ ▸ h2).symm⟩
    · rintro ⟨h1, rfl⟩
      exact ⟨w, ⟨h1, rfl⟩, rfl⟩
  · simp [addIf, h, eq_comm]

/-- Converting a record whose weights are accepted. -/
theorem convert_eq [Zero K] [LinearOrder V] (c : ParseCtx K V) (r : NTuple.Record K) {ev : Event K V} :
    convert c r = .ok ev ↔ (∀ w ∈ ntupleWeights c.multi c.names r, HepMC.Accepts c w) ∧
      (addParticles c r r.nparticle 0 ⟨ntupleWeights c.multi c.names r, []⟩).map EventBuilder.build = .ok ev := by
  have hmap : ∀ x : Outcome ReadError (EventBuilder K V), (x.bind fun b => .ok b.build) = x.map EventBuilder.build := by
    intro x
    cases x <;> rfl
  simp only [convert, Outcome.bind_eq_ok, HepMC.n64_eq_ok]
  by_cases hm : c.multi = true
  · simp only [hm, if_true, Outcome.bind_eq_ok, addIf_eq_ok]
    constructor
    · rintro ⟨w, ⟨h1, rfl⟩, b, ⟨b1, ⟨h2, rfl⟩, b2, ⟨h3, rfl⟩, h4, rfl⟩, h⟩
      obtain ⟨b3, h5, h6⟩ := h
      refine ⟨?_, ?_⟩
      · intro w hw
        simp only [ntupleWeights, if_true, List.mem_cons, List.mem_append] at hw
        rcases hw with rfl | (hw | hw) | hw
        · exact h1
        · split at hw
          · rename_i h; simp only [List.mem_singleton] at hw; subst hw; exact h2 h
          · simp at hw
        · split at hw
          · rename_i h; simp only [List.mem_singleton] at hw; subst hw; exact h3 h
          · simp at hw
        · split at hw
          · rename_i h; simp only [List.mem_singleton] at hw; subst hw; exact h4 h
          · simp at hw
      · rw [Outcome.map_eq_ok]
        refine ⟨b3, ?_, Outcome.ok.inj h6⟩
        rw [← h5]
        congr 1
        by_cases g1 : ascii "2" ∈ c.names <;> by_cases g2 : ascii "ME" ∈ c.names <;> by_cases g3 : ascii "ME2" ∈ c.names <;>
          simp [ntupleWeights, EventBuilder.new, EventBuilder.addWeight, g1, g2, g3]
    · rintro ⟨h1, h2⟩
      have hw := h1
      simp only [ntupleWeights, if_true] at hw
      refine ⟨_, ⟨hw _ (by simp), rfl⟩, _, ⟨_, ⟨fun h => hw _ (by simp [h]), rfl⟩, _, ⟨fun h => hw _ (by simp [h]), rfl⟩,
        fun h => hw _ (by simp [h]), rfl⟩, ?_⟩
      rw [Outcome.map_eq_ok] at h2
      obtain ⟨b3, h5, h6⟩ := h2
      refine ⟨b3, ?_, by rw [h6]⟩
      rw [← h5]
      congr 1
      by_cases g1 : ascii "2" ∈ c.names <;> by_cases g2 : ascii "ME" ∈ c.names <;> by_cases g3 : ascii "ME2" ∈ c.names <;>
        simp [ntupleWeights, EventBuilder.new, EventBuilder.addWeight, g1, g2, g3]
  · simp only [hm, Bool.false_eq_true, if_false, Outcome.ok.injEq]
    constructor
    · rintro ⟨w, ⟨h1, rfl⟩, b, rfl, b3, h5, h6⟩
      refine ⟨by simpa [ntupleWeights, hm] using h1, ?_⟩
      rw [Outcome.map_eq_ok]
      refine ⟨b3, ?_, h6⟩
      rw [← h5]
      simp [ntupleWeights, EventBuilder.new, EventBuilder.addWeight]
    · rintro ⟨h1, h2⟩
      rw [Outcome.map_eq_ok] at h2
      obtain ⟨b3, h5, h6⟩ := h2
      refine ⟨_, ⟨h1 _ (by simp [ntupleWeights]), rfl⟩, _, rfl, b3, ?_, h6⟩
      rw [← h5]
      simp [ntupleWeights, EventBuilder.new, EventBuilder.addWeight]

/-- **C47**, weights come back: the order in which weights are written is the order in which they are read. A record that
was updated with the weights `ws` is read as the same event with the weights `ws`. -/
theorem C47_round_trip [Zero K] [LinearOrder V] (c : ParseCtx K V) {ws : List K} (hne : ws ≠ []) {r r' : NTuple.Record K}
    (h : NTupleUpdate c.multi c.names ws r r') (hacc : ∀ w ∈ ws, HepMC.Accepts c w) {ev : Event K V}
    (hev : convert c r = .ok ev) : convert c r' = .ok { ev with weights := ws } := by
  rw [convert_eq] at hev ⊢
  have hw := h.weights hne
  have hrest := h.rest
  simp only [Prod.mk.injEq] at hrest
  obtain ⟨g1, g2, g3, g4, g5, g6, -⟩ := hrest
  refine ⟨by rwa [hw], ?_⟩
  have := addParticles_congr c (r := r) (r' := r') (by simp [g2, g3, g4, g5, g6]) r.nparticle 0
    ⟨ntupleWeights c.multi c.names r, []⟩ ws
  rw [hw, g1]
  change addParticles c r' r.nparticle 0 ⟨ws, []⟩ = _ at this
  rw [this]
  obtain ⟨-, h2⟩ := hev
  rw [Outcome.map_eq_ok] at h2
  obtain ⟨b, h3, rfl⟩ := h2
  rw [h3]
  rfl

/-- The hypotheses are met: two selected weights. -/
example : GoodWeights true [ascii "ME", ascii "2"] [(7 : ℚ), 8, 9] ∧
    ((ratCtx true true [ascii "ME", ascii "2"]).names = [ascii "ME", ascii "2"]) ∧
    (convert (ratCtx true true [ascii "ME", ascii "2"]) exRecord).map Event.weights = .ok [1, 2, 3] ∧
    ((update (E := Unit) true [ascii "ME", ascii "2"] [7, 8, 9] exRecord).map fun r => (r.weight, r.weight2, r.meWeight, r.meWeight2)) =
      .ok (7, 8, 9, 4) := by
  refine ⟨Or.inr fun r => ?_, rfl, ?_, ?_⟩
  · have h1 : ascii "2" ∈ [ascii "ME", ascii "2"] := by decide
    have h2 : ascii "ME" ∈ [ascii "ME", ascii "2"] := by decide
    have h3 : ascii "ME2" ∉ [ascii "ME", ascii "2"] := by decide
    simp only [ntupleWeights, h1, h2, h3, if_true, if_false]
    rfl
  · decide +kernel
  · decide +kernel

/-- Three records in two files. -/
example : ∃ out, updateFiles (E := Unit) false [] [[exRecord, exRecord], [exRecord]] [[5], [6], [7]] = .ok ([], out) ∧
    out.map (List.map Record.weight) = [[5, 6], [7]] := by
  refine ⟨_, rfl, ?_⟩
  decide +kernel

end Cres

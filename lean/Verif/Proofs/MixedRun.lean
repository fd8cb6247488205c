import Verif.Spec.MixedRun
import Verif.Proofs.NTupleRun

/-!
Lemmas about complete runs on text files and ntuples together.
-/

namespace Cres.Mixed

open Spec

set_option linter.unusedSectionVars false

variable {K V D P : Type*} [DecidableEq P]

/-! ### one file -/

/-- The records that an object returns until the end of the file. -/
inductive Yields [Mul K] (cfg : IOConfig K V) : AnyIO K P → List (AnyRecord K) → Prop
  | done {io} : (io.next cfg).1 = none → Yields cfg io []
  | more {io io' x l} : io.next cfg = (some (.ok x), io') → Yields cfg io' l → Yields cfg io (x :: l)

/-- The records in a file. -/
def fileRecords [Mul K] (cfg : IOConfig K V) : AnyFile K V → List (AnyRecord K)
  | .text d => d.records.map fun r => .inl (d.kind.format, presented cfg d.kind r)
  | .ntuple records _ => records.map .inr

theorem yields_text [Mul K] {cfg : IOConfig K V} {kind : Kind K} {infile outfile : P} {r : Reader} {records : List Bytes}
    (hr : Reads cfg.ctx.debug kind.format r records) : CombinedIO.Presentable cfg kind records →
    Yields cfg (.text ⟨kind, infile, outfile, r⟩ : AnyIO K P)
      (records.map fun r => .inl (kind.format, presented cfg kind r)) := by
  induction hr with
  | done h =>
    intro _
    exact .done (by simp [AnyIO.next, FileIO.next, h])
  | @more r r' record records h _ ih =>
    intro hp
    obtain ⟨rec', hrec⟩ := hp record (by simp)
    refine .more (io' := .text ⟨kind, infile, outfile, r'⟩) ?_ (ih fun r hr => hp r (by simp [hr]))
    simp [AnyIO.next, FileIO.next, h, hrec, CombinedIO.presented_eq hrec, Outcome.mapErr, Outcome.map]

theorem yields_ntuple [Mul K] {cfg : IOConfig K V} {outfile : P} {records : List (NTuple.Record K)} :
    ∀ (n : Nat) (io : NTuple.FileIO K), io.records = records → records.length - io.nevent = n →
      Yields cfg (.ntuple io outfile : AnyIO K P) ((records.drop io.nevent).map .inr) := by
  intro n
  induction n with
  | zero =>
    intro io h1 h2
    rw [List.drop_eq_nil_of_le (by omega)]
    refine .done ?_
    simp [AnyIO.next, NTuple.FileIO.next, h1, List.getElem?_eq_none (show records.length ≤ io.nevent by omega)]
  | succ n ih =>
    intro io h1 h2
    have hlt : io.nevent < records.length := by omega
    rw [List.drop_eq_getElem_cons hlt, List.map_cons]
    refine .more (io' := .ntuple { io with nevent := io.nevent + 1 } outfile) ?_ (ih _ h1 (by simp only; omega))
    simp [AnyIO.next, NTuple.FileIO.next, h1, List.getElem?_eq_getElem hlt]

theorem updateWhile_text [Div K] (cfg : IOConfig K V) (lib : RootLib K) : ∀ (ws : List (List K)) (io : FileIO K P) (fs : FS P),
    Combined.updateWhile cfg lib ws (.text io) fs = ((CombinedIO.updateWhile cfg ws io fs).1,
      .text (CombinedIO.updateWhile cfg ws io fs).2.1, (CombinedIO.updateWhile cfg ws io fs).2.2) := by
  intro ws
  induction ws with
  | nil => exact fun io fs => rfl
  | cons w ws ih =>
    intro io fs
    rw [Combined.updateWhile, CombinedIO.updateWhile, AnyIO.updateNext]
    generalize io.updateNext cfg w fs = x
    obtain ⟨o, io', fs'⟩ := x
    cases o with
    | ok b => cases b <;> simp [ih]
    | err e => rfl
    | panic => rfl

theorem updateWhile_ntuple [Div K] (cfg : IOConfig K V) (lib : RootLib K) (outfile : P) (fs : FS P) :
    ∀ (ws : List (List K)) (io : NTuple.FileIO K),
    Combined.updateWhile cfg lib ws (.ntuple io outfile) (fs.create outfile (lib.write io.written)) =
      ((NTuple.updateWhile cfg.ctx.multi ws io).1, .ntuple (NTuple.updateWhile (E := IOError) cfg.ctx.multi ws io).2 outfile,
        fs.create outfile (lib.write (NTuple.updateWhile (E := IOError) cfg.ctx.multi ws io).2.written)) := by
  intro ws
  induction ws with
  | nil => exact fun io => rfl
  | cons w ws ih =>
    intro io
    have hw : ∀ o io', io.updateNext (E := IOError) cfg.ctx.multi w = (o, io') → o ≠ .ok true → io'.written = io.written := by
      intro o io' ho hne
      unfold NTuple.FileIO.updateNext NTuple.FileIO.next at ho
      cases hr : io.records[io.nevent]? with
      | none =>
        simp only [hr, Prod.mk.injEq] at ho
        rw [← ho.2]
      | some r =>
        simp only [hr] at ho
        cases hu : NTuple.update (E := IOError) cfg.ctx.multi io.names w r with
        | ok r' =>
          simp only [hu, Prod.mk.injEq] at ho
          exact absurd ho.1.symm hne
        | err e =>
          simp only [hu, Prod.mk.injEq] at ho
          rw [← ho.2]
        | panic =>
          simp only [hu, Prod.mk.injEq] at ho
          rw [← ho.2]
    rw [Combined.updateWhile, NTuple.updateWhile, AnyIO.updateNext]
    cases ho : io.updateNext (E := IOError) cfg.ctx.multi w with
    | mk o io' =>
      cases o with
      | ok b =>
        cases b with
        | true =>
          simp only
          rw [← ih io']
          congr 1
          simp [FS.create]
        | false => simp [hw _ _ ho (by simp)]
      | err e => simp [hw _ _ ho (by simp)]
      | panic => simp [hw _ _ ho (by simp)]

theorem zipWith_reweighted_length {ws : List (List K)} {evs : List (Event K V)} (h : ws.length = evs.length) :
    (List.zipWith reweighted ws evs).length = evs.length := by
  simp [h]

theorem reweighted_particles : ∀ (ws : List (List K)) (evs : List (Event K V)), ws.length = evs.length →
    List.Forall₂ (fun e e' => e'.outgoingByPid = e.outgoingByPid) evs (List.zipWith reweighted ws evs)
  | [], [], _ => .nil
  | w :: ws, e :: evs, h => by
    refine .cons ?_ (reweighted_particles ws evs (by simpa using h))
    unfold reweighted
    split_ifs <;> rfl

/-- Converting updated records. -/
theorem convert_updated [Zero K] [LinearOrder V] {c : ParseCtx K V} {rs : List (NTuple.Record K)} {evs : List (Event K V)}
    (h : List.Forall₂ (fun r ev => NTuple.convert c r = .ok ev) rs evs) :
    ∀ {ws : List (List K)} {new : List (NTuple.Record K)}, ws.length = rs.length →
      (∀ w ∈ ws, ∀ x ∈ w, c.float.finite x = true) →
      List.Forall₂ (fun (x : List K × NTuple.Record K) r' => NTupleUpdate c.multi c.names x.1 x.2 r') (ws.zip rs) new →
      List.Forall₂ (fun r ev => NTuple.convert c r = .ok ev) new (List.zipWith reweighted ws evs) ∧
        List.Forall₂ (NTupleSame c.multi c.names) rs new := by
  induction h with
  | nil =>
    intro ws new hl _ h
    have : ws = [] := List.length_eq_zero_iff.1 hl
    subst this
    simp only [List.zip_nil_left, List.forall₂_nil_left_iff] at h
    subst h
    exact ⟨.nil, .nil⟩
  | @cons r ev rs evs h1 _ ih =>
    intro ws new hl hfin h
    cases ws with
    | nil => simp at hl
    | cons w ws =>
      simp only [List.zip_cons_cons, List.forall₂_cons_left_iff] at h
      obtain ⟨r', new, h3, h4, rfl⟩ := h
      obtain ⟨i1, i2⟩ := ih (by simpa using hl) (fun w hw => hfin w (by simp [hw])) h4
      refine ⟨.cons ?_ i1, .cons ⟨h3.weight2, h3.meWeight, h3.meWeight2, h3.rest⟩ i2⟩
      unfold reweighted
      split_ifs with hw
      · rw [h3.unchanged hw, h1]
      · refine C47_round_trip c hw h3 (fun x hx => ?_) h1
        have := c.float.finite_not_nan x (hfin w (by simp) x hx)
        simp [HepMC.Accepts, this]

/-- All that is needed about a file: it can be opened, the records are read in order, and with suitable weights it is
rewritten. -/
theorem file_handled [Zero K] [Mul K] [Div K] [LinearOrder V] {cfg : IOConfig K V} {lib : RootLib K}
    (hlib : GoodRootLib cfg lib) (hn : cfg.ctx.multi = true → cfg.ctx.names = []) {content : Bytes} {d : AnyFile K V}
    (h : IsAnyFile cfg lib content d) {infile outfile : P} {fs : FS P} (hfs : fs infile = some content) :
    ∃ io start, AnyIO.new cfg lib infile outfile fs = (.ok io, fs.create outfile start) ∧
      Yields cfg io (fileRecords cfg d) ∧
      ∀ ws : List (List K), d.events.length ≤ ws.length → (∀ w ∈ ws, w.length ≤ 1 ∧ ∀ x ∈ w, AnyWritable cfg d x) →
        ∃ io' fs' content' d', Combined.updateWhile cfg lib ws io (fs.create outfile start) =
            (.ok (ws.drop d.events.length), io', fs') ∧
          io'.finish fs' = fs.create outfile content' ∧ IsAnyFile cfg lib content' d' ∧
          AnySame cfg.ctx.multi cfg.ctx.names d d' ∧
          d'.events = List.zipWith reweighted (ws.take d.events.length) d.events := by
  cases d with
  | text d =>
    change IsEventFile cfg content d at h
    have hread := readable_of_textFile h.1
    obtain ⟨r, h1, h2, -⟩ := FileIO.new_ok ⟨content, hfs, hread⟩ outfile
    have hne : d.kind.format ≠ .ntuple := by cases d.kind <;> simp [Kind.format]
    have hdet := hread.1
    refine ⟨.text ⟨d.kind, infile, outfile, r⟩, d.header, ?_, yields_text h2 (Program.file_items h).1, ?_⟩
    · unfold AnyIO.new
      simp only [hfs, hdet]
      split
      · rename_i heq
        simp only [Outcome.ok.injEq] at heq
        exact absurd heq hne
      · rw [h1]
        rfl
    · intro ws hlen hw
      have hel : d.records.length = d.events.length := h.2.length_eq
      change d.events.length ≤ ws.length at hlen
      obtain ⟨g1, g2⟩ := C68_event_file_partial hn h (ws := ws.take d.events.length) (by
        rw [List.length_take]; omega) (fun w hwm => hw w (List.mem_of_mem_take hwm))
      have hzip : ws.zip d.records = (ws.take d.events.length).zip d.records := by
        rw [← hel]
        exact (zipWith_take_right _ _ _).symm
      obtain ⟨r', k1⟩ := CombinedIO.updateWhile_ok cfg d.kind infile outfile fs d.records r h2 ws d.header (by
        rw [hzip]; exact g1)
      refine ⟨.text ⟨d.kind, infile, outfile, r'⟩, fs.create outfile
        (d.header ++ (List.zipWith (updated cfg d.kind) ws d.records).flatten), _, .text ⟨⟨d.kind, d.header, List.zipWith (updated cfg d.kind) (ws.take d.events.length) d.records⟩,
        List.zipWith reweighted (ws.take d.events.length) d.events⟩, ?_, ?_, g2, ?_, rfl⟩
      · rw [updateWhile_text, k1, hel]
        rfl
      · simp only [AnyIO.finish, CombinedIO.finish_create]
        congr 1
        simp only [Spec.output, ← hel, zipWith_take_right]
      · refine ⟨rfl, rfl, ?_, reweighted_particles _ _ (by rw [List.length_take]; omega)⟩
        simp only [List.length_zipWith, List.length_take]
        omega
  | ntuple records events =>
    obtain ⟨h1, h2, h3⟩ := h
    have hel := h3.length_eq
    refine ⟨.ntuple (NTuple.FileIO.new cfg.ctx.names records) outfile, lib.write [], ?_, ?_, ?_⟩
    · simp only [AnyIO.new, hfs, h1, h2]
    · exact yields_ntuple _ (NTuple.FileIO.new cfg.ctx.names records) rfl rfl
    · intro ws hlen hw
      change events.length ≤ ws.length at hlen
      have hgood : ∀ w ∈ ws, GoodWeights cfg.ctx.multi cfg.ctx.names w := by
        intro w hwm
        rcases Nat.lt_or_ge 0 w.length with h0 | h0
        · refine Or.inr fun r => ?_
          have : w.length = 1 := by have := (hw w hwm).1; omega
          rw [this]
          unfold ntupleWeights
          cases hm : cfg.ctx.multi with
          | false => simp
          | true => simp [hn hm]
        · exact Or.inl (List.length_eq_zero_iff.1 (by omega))
      obtain ⟨new, io', k1, k2, k3⟩ := NTuple.updateWhile_ok (E := IOError) cfg.ctx.multi ws (NTuple.FileIO.new cfg.ctx.names records) hgood
      simp only [NTuple.FileIO.new, List.drop_zero, Nat.sub_zero, List.nil_append] at k1 k2 k3
      have hzip : ws.zip records = (ws.take records.length).zip records := (zipWith_take_right _ _ _).symm
      rw [hzip] at k1
      obtain ⟨m1, m2⟩ := convert_updated h3 (by rw [List.length_take]; omega)
        (fun w hwm => (hw w (List.mem_of_mem_take hwm)).2) k1
      have hu := updateWhile_ntuple cfg lib outfile fs ws (NTuple.FileIO.new cfg.ctx.names records)
      simp only [NTuple.FileIO.new] at hu
      rw [k2] at hu
      refine ⟨.ntuple io' outfile, fs.create outfile (lib.write io'.written), lib.write new, .ntuple new (List.zipWith reweighted (ws.take events.length) events), ?_, ?_,
        ⟨hlib.detect new, hlib.read_write new, ?_⟩, ⟨m2, ?_⟩, rfl⟩
      · change Combined.updateWhile cfg lib ws (.ntuple (NTuple.FileIO.new cfg.ctx.names records) outfile) _ = _
        simp only [NTuple.FileIO.new]
        rw [hu, hel]
        rfl
      · simp only [AnyIO.finish]
        rw [k3]
      · rw [hel] at m1
        exact m1
      · exact reweighted_particles _ _ (by rw [List.length_take]; omega)

/-! ### several files -/

/-- Only output files differ. -/
def OnlyOut (files : List (P × P)) (fs fs' : FS P) : Prop := ∀ p ∉ files.map Prod.snd, fs' p = fs p

theorem OnlyOut.create {files : List (P × P)} {fs fs' : FS P} (h : OnlyOut files fs fs') {q : P} (hq : q ∈ files.map Prod.snd)
    (x : Bytes) : OnlyOut files fs (fs'.create q x) := by
  intro p hp
  rw [FS.create_other _ _ (fun e => hp (by rw [e]; exact hq)), h p hp]

section

variable [Zero K] [Mul K] [Div K] [LinearOrder V]

/-- The input file at position `i` is still there. -/
theorem input_get {cfg : IOConfig K V} {lib : RootLib K} {files : List (P × P)} {fs fs1 : FS P} {ins : List (AnyFile K V)}
    (hin : AnyFiles cfg lib fs (files.map Prod.fst) ins) (hd : ∀ p ∈ files.map Prod.fst, p ∉ files.map Prod.snd)
    (hfs : OnlyOut files fs fs1) {i : Nat} (hi : i < files.length) :
    ∃ d content, ins[i]? = some d ∧ fs1 files[i].1 = some content ∧ IsAnyFile cfg lib content d := by
  have hl := hin.length_eq
  rw [List.length_map] at hl
  obtain ⟨content, h1, h2⟩ := forall₂_get hin (i := i) (a := files[i].1) (by simp [hi]) (List.getElem?_eq_getElem (hl ▸ hi))
  exact ⟨_, content, List.getElem?_eq_getElem (hl ▸ hi),
    by rw [hfs _ (hd _ (List.mem_map_of_mem (List.getElem_mem hi))), h1], h2⟩

namespace Combined

variable {cfg : IOConfig K V} {lib : RootLib K} {files : List (P × P)} {fs : FS P} {ins : List (AnyFile K V)}

/-- Opening an input file. -/
theorem openFile_ok (hlib : GoodRootLib cfg lib) (hn : cfg.ctx.multi = true → cfg.ctx.names = [])
    (hin : AnyFiles cfg lib fs (files.map Prod.fst) ins) (hd : ∀ p ∈ files.map Prod.fst, p ∉ files.map Prod.snd)
    {fs1 : FS P} (hfs : OnlyOut files fs fs1) {s : Combined K P} (hs : s.files = files) {i : Nat} (hi : i < files.length) :
    ∃ d io start, ins[i]? = some d ∧ s.openFile cfg lib i fs1 =
        (.ok (), { s with current := some io, idx := i }, fs1.create files[i].2 start) ∧
      OnlyOut files fs (fs1.create files[i].2 start) ∧ Yields cfg io (fileRecords cfg d) ∧
      ∀ ws : List (List K), d.events.length ≤ ws.length → (∀ w ∈ ws, w.length ≤ 1 ∧ ∀ x ∈ w, AnyWritable cfg d x) →
        ∃ io' fs' content' d', updateWhile cfg lib ws io (fs1.create files[i].2 start) =
            (.ok (ws.drop d.events.length), io', fs') ∧
          io'.finish fs' = fs1.create files[i].2 content' ∧ IsAnyFile cfg lib content' d' ∧
          AnySame cfg.ctx.multi cfg.ctx.names d d' ∧
          d'.events = List.zipWith reweighted (ws.take d.events.length) d.events := by
  obtain ⟨d, content, h1, h2, h3⟩ := input_get hin hd hfs hi
  obtain ⟨io, start, h4, h5, h6⟩ := file_handled hlib hn h3 (outfile := files[i].2) h2
  refine ⟨d, io, start, h1, ?_, hfs.create (List.mem_map_of_mem (List.getElem_mem hi)) _, h5, h6⟩
  have : s.files[i]? = some (files[i].1, files[i].2) := by rw [hs, List.getElem?_eq_getElem hi]
  simp only [openFile, this, h4]

theorem initLoop_ok (hlib : GoodRootLib cfg lib) (hn : cfg.ctx.multi = true → cfg.ctx.names = [])
    (hin : AnyFiles cfg lib fs (files.map Prod.fst) ins) (hd : ∀ p ∈ files.map Prod.fst, p ∉ files.map Prod.snd) :
    ∀ (n i : Nat) (s : Combined K P) (fs1 : FS P), OnlyOut files fs fs1 → s.files = files → i + n ≤ files.length →
      ∃ s' fs', initLoop cfg lib n i s fs1 = (.ok (), s', fs') ∧ OnlyOut files fs fs' ∧ s'.files = files := by
  intro n
  induction n with
  | zero => exact fun i s fs1 h hs _ => ⟨s, fs1, rfl, h, hs⟩
  | succ n ih =>
    intro i s fs1 h hs hle
    obtain ⟨d, io, start, -, h2, h3, -⟩ := openFile_ok hlib hn hin hd h hs (i := i) (by omega)
    obtain ⟨s', fs', h4, h5, h6⟩ := ih (i + 1) { s with current := some io, idx := i } _ h3 hs (by omega)
    exact ⟨s', fs', by rw [initLoop, h2]; exact h4, h5, h6⟩

/-- The state of the reader: the records in `rest` are still to be read. -/
def Ready (cfg : IOConfig K V) (files : List (P × P)) (ins : List (AnyFile K V)) (fs : FS P) (s : Combined K P)
    (fs1 : FS P) (rest : List (AnyRecord K)) : Prop :=
  s.files = files ∧ OnlyOut files fs fs1 ∧
    ((files = [] ∧ s.current = none ∧ rest = []) ∨
      ∃ io l, s.current = some io ∧ s.idx < files.length ∧ Yields cfg io l ∧
        rest = l ++ (ins.drop (s.idx + 1)).flatMap (fileRecords cfg))

theorem new_ready (hlib : GoodRootLib cfg lib) (hn : cfg.ctx.multi = true → cfg.ctx.names = [])
    (hin : AnyFiles cfg lib fs (files.map Prod.fst) ins) (hd : ∀ p ∈ files.map Prod.fst, p ∉ files.map Prod.snd) :
    ∃ s fs1, new cfg lib files fs = (.ok (), s, fs1) ∧ Ready cfg files ins fs s fs1 (ins.flatMap (fileRecords cfg)) := by
  unfold new
  split_ifs with he
  · subst he
    cases hin
    exact ⟨_, _, rfl, rfl, fun _ _ => rfl, Or.inl ⟨rfl, rfl, rfl⟩⟩
  · obtain ⟨s', fs', h1, h2, h3⟩ := initLoop_ok hlib hn hin hd files.length 0 ⟨files, none, 0⟩ fs (fun _ _ => rfl) rfl (by omega)
    have hpos : 0 < files.length := List.length_pos_iff.2 he
    obtain ⟨d, io, start, h4, h5, h6, h7, -⟩ := openFile_ok hlib hn hin hd h2 h3 hpos
    rw [h1]
    refine ⟨_, _, h5, h3, h6, Or.inr ⟨io, _, rfl, hpos, h7, ?_⟩⟩
    cases ins with
    | nil => simp at h4
    | cons r ins =>
      simp only [List.getElem?_cons_zero, Option.some.injEq] at h4
      subst h4
      simp

theorem nextLoop_ready (hlib : GoodRootLib cfg lib) (hn : cfg.ctx.multi = true → cfg.ctx.names = [])
    (hin : AnyFiles cfg lib fs (files.map Prod.fst) ins) (hd : ∀ p ∈ files.map Prod.fst, p ∉ files.map Prod.snd) :
    ∀ (fuel : Nat) (s : Combined K P) (fs1 : FS P) (rest : List (AnyRecord K)), Ready cfg files ins fs s fs1 rest →
      files.length - s.idx < fuel →
      ∃ s' fs', nextLoop cfg lib fuel s fs1 = (rest.head?.map .ok, s', fs') ∧ s'.files = files ∧ OnlyOut files fs fs' ∧
        (rest ≠ [] → Ready cfg files ins fs s' fs' rest.tail) := by
  intro fuel
  induction fuel with
  | zero => intro s fs1 rest _ h; omega
  | succ fuel ih =>
    intro s fs1 rest h hlt
    obtain ⟨h1, h2, h3⟩ := h
    have hlen := hin.length_eq
    rw [List.length_map] at hlen
    rcases h3 with ⟨rfl, h4, rfl⟩ | ⟨io, l, h4, h5, h6, h7⟩
    · refine ⟨s, fs1, ?_, h1, h2, by simp⟩
      simp [nextLoop, h4, h1]
    · cases h6 with
      | @more _ io' x l hx hy =>
        refine ⟨{ s with current := some io' }, fs1, ?_, h1, h2, fun _ => ⟨h1, h2, Or.inr ⟨io', l, rfl, h5, hy, ?_⟩⟩⟩
        · rw [h7]
          simp [nextLoop, h4, hx]
        · rw [h7]
          rfl
      | done hx =>
        rw [List.nil_append] at h7
        obtain ⟨o, io', hio⟩ : ∃ o io', io.next cfg = (o, io') := ⟨_, _, rfl⟩
        rw [hio] at hx
        simp only at hx
        subst hx
        by_cases hend : s.idx + 1 = files.length
        · have h8 : rest = [] := by
            rw [h7, List.drop_eq_nil_of_le (by omega)]
            rfl
          subst h8
          refine ⟨{ s with current := some io' }, fs1, ?_, h1, h2, by simp⟩
          simp [nextLoop, h4, hio, h1, hend]
        · have hi : s.idx + 1 < files.length := by omega
          obtain ⟨d, io2, start, g1, g2, g3, g4, -⟩ := openFile_ok hlib hn hin hd h2 (s := { s with current := some io' }) h1 hi
          obtain ⟨s', fs', k1, k2, k3, k4⟩ := ih { s with current := some io2, idx := s.idx + 1 } _ rest
            ⟨h1, g3, Or.inr ⟨io2, _, rfl, hi, g4, by
              rw [h7, List.drop_eq_getElem_cons (by omega)]
              have := (List.getElem?_eq_some_iff.1 g1).2
              rw [this]
              simp⟩⟩ (by simp only; omega)
          refine ⟨s', fs', ?_, k2, k3, k4⟩
          rw [← k1, nextLoop]
          simp only [h4, hio]
          rw [if_neg (by rw [h1]; exact hend), g2]

/-- All remaining records are read. -/
theorem items_ready (hlib : GoodRootLib cfg lib) (hn : cfg.ctx.multi = true → cfg.ctx.names = [])
    (hin : AnyFiles cfg lib fs (files.map Prod.fst) ins) (hd : ∀ p ∈ files.map Prod.fst, p ∉ files.map Prod.snd) :
    ∀ (n : Nat) (s : Combined K P) (fs1 : FS P) (rest : List (AnyRecord K)), Ready cfg files ins fs s fs1 rest →
      ∃ s' fs', s'.files = files ∧ OnlyOut files fs fs' ∧
        s.items cfg lib n fs1 = (if rest.length < n then some (.ok (rest.map .ok)) else none, s', fs') := by
  intro n
  induction n with
  | zero => exact fun s fs1 rest h => ⟨s, fs1, h.1, h.2.1, by simp [items]⟩
  | succ n ih =>
    intro s fs1 rest h
    obtain ⟨s1, fs2, h2, h3, h4, h5⟩ := nextLoop_ready hlib hn hin hd (s.files.length + 2) s fs1 rest h (by rw [h.1]; omega)
    change s.next cfg lib fs1 = _ at h2
    cases rest with
    | nil => exact ⟨s1, fs2, h3, h4, by simp [items, h2]⟩
    | cons r rest =>
      obtain ⟨s', fs', h6, h7, h8⟩ := ih s1 fs2 rest (h5 (by simp))
      refine ⟨s', fs', h6, h7, ?_⟩
      simp only [items, h2, List.head?_cons, Option.map_some, h8, List.length_cons, Nat.add_lt_add_iff_right]
      split_ifs <;> simp [Outcome.map]

/-- Updating the files from position `i` on. -/
theorem updateFiles_ok (hlib : GoodRootLib cfg lib) (hn : cfg.ctx.multi = true → cfg.ctx.names = [])
    (hin : AnyFiles cfg lib fs (files.map Prod.fst) ins) (hf : GoodFiles files) :
    ∀ (fl : List (P × P)) (dl : List (AnyFile K V)) (i : Nat) (ws : List (List K)) (s : Combined K P) (fs1 : FS P),
      files.drop i = fl → ins.drop i = dl → OnlyOut files fs fs1 → s.files = files →
      ws.length = (anyEvents dl).length → (∀ w ∈ ws, w.length ≤ 1 ∧ ∀ x ∈ w, ∀ d ∈ ins, AnyWritable cfg d x) →
      ∃ out s' fs', updateFiles cfg lib fl.length i ws s fs1 = (.ok [], s', fs') ∧
        OnlyOut files fs fs' ∧ (∀ p ∉ fl.map Prod.snd, fs' p = fs1 p) ∧
        AnyFiles cfg lib fs' (fl.map Prod.snd) out ∧
        List.Forall₂ (AnySame cfg.ctx.multi cfg.ctx.names) dl out ∧
        anyEvents out = List.zipWith reweighted ws (anyEvents dl) := by
  intro fl
  induction fl with
  | nil =>
    intro dl i ws s fs1 h1 h2 h3 h4 h5 h6
    have hlen := hin.length_eq
    rw [List.length_map] at hlen
    have hi : files.length ≤ i := List.drop_eq_nil_iff.1 h1
    have : dl = [] := by rw [← h2]; exact List.drop_eq_nil_of_le (by omega)
    subst this
    have : ws = [] := List.length_eq_zero_iff.1 h5
    subst this
    exact ⟨[], s, fs1, rfl, h3, fun _ _ => rfl, .nil, .nil, rfl⟩
  | cons f fl ih =>
    intro dl i ws s fs1 h1 h2 h3 h4 h5 h6
    have hlen := hin.length_eq
    rw [List.length_map] at hlen
    have hi : i < files.length := by
      by_contra hc
      rw [List.drop_eq_nil_of_le (by omega)] at h1
      cases h1
    rw [List.drop_eq_getElem_cons hi] at h1
    have hi' : i < ins.length := hlen ▸ hi
    rw [List.drop_eq_getElem_cons hi'] at h2
    obtain ⟨hf1, hf2⟩ := List.cons.inj h1
    subst h2
    obtain ⟨d, io, start, g1, g2, g3, -, g5⟩ := openFile_ok hlib hn hin hf.disjoint h3 h4 hi
    have hd := (List.getElem?_eq_some_iff.1 g1).2
    rw [hd] at h5 ⊢
    simp only [anyEvents, List.flatMap_cons, List.length_append] at h5
    obtain ⟨io', fs2, content', d', k1, k2, k3, k4, k5⟩ := g5 ws (by omega)
      (fun w hw => ⟨(h6 w hw).1, fun x hx => (h6 w hw).2 x hx d (List.mem_of_getElem? g1)⟩)
    have hmem : files[i].2 ∈ files.map Prod.snd := List.mem_map_of_mem (List.getElem_mem hi)
    obtain ⟨out, s', fs', m1, m2, m3, m4, m5, m6⟩ := ih _ (i + 1) (ws.drop d.events.length)
      { s with current := some io', idx := i } (fs1.create files[i].2 content')
      hf2 rfl (h3.create hmem _) h4 (by rw [List.length_drop]; simp only [anyEvents]; omega)
      (fun w h => h6 w (List.mem_of_mem_drop h))
    have hnot : f.2 ∉ fl.map Prod.snd := by
      have := hf.nodup.sublist ((List.drop_sublist i files).map Prod.snd)
      rw [List.drop_eq_getElem_cons hi, hf1, hf2, List.map_cons, List.nodup_cons] at this
      exact this.1
    refine ⟨d' :: out, s', fs', ?_, m2, ?_, ?_, .cons k4 m5, ?_⟩
    · rw [List.length_cons, updateFiles, g2]
      simp only [k1, k2]
      exact m1
    · intro p hp
      rw [List.map_cons, List.mem_cons, not_or] at hp
      rw [m3 p hp.2, FS.create_other _ _ (by rw [hf1]; exact hp.1)]
    · refine .cons ⟨content', ?_, k3⟩ m4
      rw [m3 _ hnot, ← hf1, FS.create_self]
    · simp only [anyEvents, List.flatMap_cons] at m6 ⊢
      rw [m6, k5]
      conv_rhs => rw [← List.take_append_drop d.events.length ws]
      rw [List.zipWith_append (by rw [List.length_take]; omega)]

/-- Updating all files. -/
theorem updateAll_ok (hlib : GoodRootLib cfg lib) (hn : cfg.ctx.multi = true → cfg.ctx.names = [])
    (hin : AnyFiles cfg lib fs (files.map Prod.fst) ins) (hf : GoodFiles files) {s : Combined K P} {fs1 : FS P}
    (hs : s.files = files) (hfs : OnlyOut files fs fs1) {ws : List (List K)} (hlen : ws.length = (anyEvents ins).length)
    (hw : ∀ w ∈ ws, w.length ≤ 1 ∧ ∀ x ∈ w, ∀ d ∈ ins, AnyWritable cfg d x) :
    ∃ out s' fs', s.updateAll cfg lib ws fs1 = (.ok (anyEvents ins).length, s', fs') ∧ OnlyOut files fs fs' ∧
      AnyFiles cfg lib fs' (files.map Prod.snd) out ∧ List.Forall₂ (AnySame cfg.ctx.multi cfg.ctx.names) ins out ∧
      anyEvents out = List.zipWith reweighted ws (anyEvents ins) := by
  obtain ⟨out, s', fs', h1, h2, -, h3, h4, h5⟩ := updateFiles_ok hlib hn hin hf files ins 0 ws
    { s with current := none } fs1 rfl rfl hfs hs hlen hw
  refine ⟨out, s', fs', ?_, h2, h3, h4, h5⟩
  unfold updateAll
  rw [show s.files.length = files.length by rw [hs], h1]
  simp [hlen]

end Combined

/-- The records of files are converted to the events in them. -/
theorem records_converted {cfg : IOConfig K V} {lib : RootLib K} {fs : FS P} {paths : List P} {ins : List (AnyFile K V)}
    (hn : cfg.ctx.multi = true → cfg.ctx.names = []) (hin : AnyFiles cfg lib fs paths ins) :
    List.Forall₂ (fun x ev => anyConvert cfg.ctx x = .ok ev) (ins.flatMap (fileRecords cfg)) (anyEvents ins) ∧
      ∀ ev ∈ anyEvents ins, ev.weights.length = 1 ∧ ev.id = 0 := by
  induction hin with
  | nil => exact ⟨.nil, by simp [anyEvents]⟩
  | @cons p d paths ins h1 _ ih =>
    obtain ⟨content, -, h2⟩ := h1
    have hone : List.Forall₂ (fun x ev => anyConvert cfg.ctx x = .ok ev) (fileRecords cfg d) d.events ∧
        ∀ ev ∈ d.events, ev.weights.length = 1 ∧ ev.id = 0 := by
      cases d with
      | text d =>
        have h3 := (Program.file_items h2).2
        refine ⟨?_, fun ev hev => ?_⟩
        · rw [List.forall₂_map_left_iff] at h3
          simp only [fileRecords]
          rw [List.forall₂_map_left_iff]
          exact h3
        · obtain ⟨x, -, hx⟩ := forall₂_mem h3 hev
          obtain ⟨k1, w, k2⟩ := tryConvert_single cfg.ctx hn hx
          exact ⟨by rw [k2]; rfl, k1⟩
      | ntuple records events =>
        obtain ⟨-, -, h3⟩ := h2
        refine ⟨?_, fun ev hev => ?_⟩
        · simp only [fileRecords]
          rw [List.forall₂_map_left_iff]
          exact h3.imp fun r ev h => Outcome.mapErr_eq_ok.2 h
        · obtain ⟨r, -, hr⟩ := forall₂_mem h3 hev
          obtain ⟨k1, k2⟩ := NTuple.convert_weights hr
          refine ⟨?_, k2⟩
          rw [k1]
          unfold ntupleWeights
          cases hm : cfg.ctx.multi with
          | false => simp
          | true => simp [hn hm]
    refine ⟨?_, ?_⟩
    · simp only [anyEvents, List.flatMap_cons]
      exact List.rel_append hone.1 ih.1
    · intro ev hev
      simp only [anyEvents, List.flatMap_cons, List.mem_append] at hev
      exact hev.elim (hone.2 ev) (ih.2 ev)

end

section

open Program NTuple

variable [Zero D] [LinearOrder D] [Zero K] [One K] [Add K] [Mul K] [Div K] [NatCast K] [LinearOrder K] [LinearOrder V]

/-- Reading from any files. -/
theorem reads_mixed {p : Program K V D} {lib : RootLib K} (hlib : GoodRootLib p.io lib)
    (hn : p.io.ctx.multi = true → p.io.ctx.names = []) {fs : FS P} {files : List (P × P)} {ins : List (AnyFile K V)}
    (hin : AnyFiles p.io lib fs (files.map Prod.fst) ins) (hf : GoodFiles files) :
    ∃ s fs1, Combined.new p.io lib files fs = (.ok (), s, fs1) ∧
      (∀ res x, ReadsEvents p lib s fs1 res x → x.1.files = files ∧ OnlyOut files fs x.2 ∧
        (∀ events, res = .ok events → EventsRead p 1 (asFile (anyEvents ins)) events) ∧
        ((∀ ev ∈ anyEvents ins, ∃ ev', p.cluster ev = .ok ev' ∧ ev'.id = 0) → ∃ events, res = .ok events)) ∧
      ∃ res x, ReadsEvents p lib s fs1 res x := by
  obtain ⟨s, fs1, h1, h2⟩ := Combined.new_ready hlib hn hin hf.disjoint
  have hitems := fun n => Combined.items_ready hlib hn hin hf.disjoint n s fs1 _ h2
  obtain ⟨hconv, hone⟩ := records_converted hn hin
  refine ⟨s, fs1, h1, ?_, ?_⟩
  · intro res x hr
    cases hr with
    | @panic n x hx =>
      obtain ⟨s', fs', h3, h4, h5⟩ := hitems n
      rw [hx] at h5
      simp only [Prod.mk.injEq] at h5
      obtain ⟨h5, -⟩ := h5
      split_ifs at h5
      simp at h5
    | @done n items x r hx hreach hfin =>
      obtain ⟨s', fs', h3, h4, h5⟩ := hitems n
      rw [hx] at h5
      simp only [Prod.mk.injEq] at h5
      obtain ⟨h5, rfl⟩ := h5
      split_ifs at h5
      simp only [Option.some.injEq, Outcome.ok.injEq] at h5
      subst h5
      refine ⟨h3, h4, ?_, ?_⟩
      · intro events hev
        obtain ⟨h6, h7⟩ := C29_ids_by_position hreach hfin hev
        rw [List.length_map, hconv.length_eq] at h6
        refine ⟨by rw [allEvents_asFile]; exact h6, fun ev hev => ?_⟩
        rw [allEvents_asFile]
        obtain ⟨item, h8, r', ev0, ev1, rfl, h10, h11, -, h12⟩ := h7 ev hev
        rw [List.getElem?_map] at h8
        obtain ⟨r'', h13, h14⟩ := Option.map_eq_some_iff.1 h8
        cases h14
        have hlt : ev.id < (anyEvents ins).length := by
          rw [← hconv.length_eq]
          exact (List.getElem?_eq_some_iff.1 h13).1
        have h15 := forall₂_get hconv h13 (List.getElem?_eq_getElem hlt)
        rw [h10] at h15
        cases h15
        exact ⟨_, ev1, List.getElem?_eq_getElem hlt, h11, h12, (hone _ (List.getElem_mem hlt)).1⟩
      · intro hcl
        refine (C29_succeeds_iff hreach hfin).2 ?_
        intro i item hi
        rw [List.getElem?_map] at hi
        obtain ⟨r', h13, rfl⟩ := Option.map_eq_some_iff.1 hi
        have hlt : i < (anyEvents ins).length := by
          rw [← hconv.length_eq]
          exact (List.getElem?_eq_some_iff.1 h13).1
        have h15 := forall₂_get hconv h13 (List.getElem?_eq_getElem hlt)
        obtain ⟨ev', h16, h17⟩ := hcl _ (List.getElem_mem hlt)
        exact ⟨_, r', _, ev', rfl, h15, h16, h17, rfl⟩
  · obtain ⟨s', fs', -, -, h5⟩ := hitems ((ins.flatMap (fileRecords p.io)).length + 1)
    rw [if_pos (Nat.lt_succ_self _)] at h5
    have hend : ∀ (items : List (Except IOError (AnyRecord K))) (n : Nat) (r : ReadState IOError (AnyRecord K) K V),
        ReadReachable (anyConvert p.io.ctx) p.cluster Sum.isRight items r → readMeasure items r ≤ n →
        ∃ r', ReadReachable (anyConvert p.io.ctx) p.cluster Sum.isRight items r' ∧ r'.Finished := by
      intro items n
      induction n with
      | zero =>
        intro r hr hm
        by_cases hfin : r.Finished
        · exact ⟨r, hr, hfin⟩
        · obtain ⟨a, r', hs⟩ := (C29_terminates (convert := anyConvert p.io.ctx) (cluster := p.cluster)
            (sequential := Sum.isRight) (items := items) r).1 hfin
          have := (C29_terminates r).2 a r' hs
          omega
      | succ n ih =>
        intro r hr hm
        by_cases hfin : r.Finished
        · exact ⟨r, hr, hfin⟩
        · obtain ⟨a, r', hs⟩ := (C29_terminates (convert := anyConvert p.io.ctx) (cluster := p.cluster)
            (sequential := Sum.isRight) (items := items) r).1 hfin
          have := (C29_terminates r).2 a r' hs
          exact ih r' (.step hr hs) (by omega)
    obtain ⟨r, hr1, hr2⟩ := hend ((ins.flatMap (fileRecords p.io)).map .ok) _ .init .init (le_refl _)
    exact ⟨_, _, .done h5 hr1 hr2⟩

/-- What is written in a run on any files without unweighting. -/
theorem run_mixed {p : Program K V D} {lib : RootLib K} (hlib : GoodRootLib p.io lib)
    (hn : p.io.ctx.multi = true → p.io.ctx.names = []) (hg : GoodComponents p) (hun : p.unweight = .ok) {fs fs' : FS P}
    {files : List (P × P)} {ins : List (AnyFile K V)} (hin : AnyFiles p.io lib fs (files.map Prod.fst) ins) (hf : GoodFiles files)
    {oevents : Option (List (Event K V))} {ws : List (Weights K)} {res : Outcome (CresError IOError) Unit}
    (h : Run p lib files fs oevents (some ws) res fs') :
    ∃ events, oevents = some events ∧ EventsRead p 1 (asFile (anyEvents ins)) events ∧ p.ComputesWeights events (.ok ws) ∧
      ((∀ w ∈ ws, ∀ x ∈ w, ∀ d ∈ ins, AnyWritable p.io d x) →
        res = .ok () ∧ OnlyOut files fs fs' ∧
        ∃ outs, AnyFiles p.io lib fs' (files.map Prod.snd) outs ∧
          List.Forall₂ (AnySame p.io.ctx.multi p.io.ctx.names) ins outs ∧
          anyEvents outs = List.zipWith reweighted ws (anyEvents ins)) := by
  obtain ⟨s0, fs0, hnew, hread, -⟩ := reads_mixed hlib hn hin hf
  generalize hws : some ws = ows at h
  cases h with
  | createErr _ | createPanic _ | readErr _ _ | readPanic _ _ | weightsErr _ _ _ | weightsPanic _ _ _ => simp at hws
  | @update s fs1 events ws' x g1 g2 g3 =>
    simp only [Option.some.injEq] at hws
    subst hws
    rw [hnew] at g1
    simp only [Prod.mk.injEq, true_and] at g1
    obtain ⟨rfl, rfl⟩ := g1
    obtain ⟨k1, k2, k3, -⟩ := hread _ _ g2
    have k5 := k3 events rfl
    obtain ⟨k6, k7⟩ := weights_length hg hun Nat.one_pos (fun _ => rfl) k5 g3
    rw [allEvents_asFile] at k6
    refine ⟨events, rfl, k5, g3, fun hw => ?_⟩
    obtain ⟨outs, s', fs', l1, l2, l3, l4, l5⟩ := Combined.updateAll_ok hlib hn hin hf k1 k2 k6
      (fun w hwm => ⟨default_length (k7 w hwm), hw w hwm⟩)
    rw [l1]
    exact ⟨rfl, l2, outs, l3, l4, l5⟩

end

end Cres.Mixed

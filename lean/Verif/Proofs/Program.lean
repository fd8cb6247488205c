import Verif.Spec.Program
import Verif.Proofs.Reread
import Verif.Props.Run

/-!
Lemmas about the whole program.
-/

namespace Cres

open Spec CombinedIO

variable {K V D P : Type*}

/-! ### Reading from files -/

namespace Program

/-- All records in files, with the variant of `EventRecord`, as handed to the user. -/
def fileItems [Mul K] (cfg : IOConfig K V) (ds : List (FileData K)) : List EventRecord :=
  ds.flatMap fun d => d.records.map fun r => (d.kind.format, presented cfg d.kind r)

/-- What is still to be read. -/
def restItems [Mul K] (cfg : IOConfig K V) (kind : Kind K) (records : List Bytes) (ds : List (FileData K)) : List EventRecord :=
  records.map (fun r => (kind.format, presented cfg kind r)) ++ fileItems cfg ds

theorem nextLoop_items [Mul K] [DecidableEq P] (cfg : IOConfig K V) : ∀ (ds : List (FileData K)) (fuel : Nat)
    (s : CombinedIO K P) (fs : FS P) (kind : Kind K) (records : List Bytes), At cfg s fs kind records ds →
    Presentable cfg kind records → (∀ d ∈ ds, Presentable cfg d.kind d.records) → ds.length < fuel →
    (restItems cfg kind records ds = [] → (nextLoop cfg fuel s fs).1 = none) ∧
    (∀ x l, restItems cfg kind records ds = x :: l → ∃ s' fs' kind' records' ds', nextLoop cfg fuel s fs = (some (.ok x.2), s', fs') ∧
      At cfg s' fs' kind' records' ds' ∧ Presentable cfg kind' records' ∧ (∀ d ∈ ds', Presentable cfg d.kind d.records) ∧
      kind'.format = x.1 ∧ restItems cfg kind' records' ds' = l) := by
  intro ds
  induction ds with
  | nil =>
    intro fuel s fs kind records hat hp hps hfuel
    obtain ⟨fuel, rfl⟩ : ∃ n, fuel = n + 1 := ⟨fuel - 1, by omega⟩
    obtain ⟨r, infile, outfile, hc, hr, ho⟩ := hat.current
    cases hr with
    | done h =>
      refine ⟨fun _ => ?_, fun x l hx => by simp [restItems, fileItems] at hx⟩
      have hl := hat.length
      simp only [List.length_nil, Nat.add_zero] at hl
      simp only [nextLoop, hc, FileIO.next_done cfg (io := ⟨kind, infile, outfile, r⟩) h, hl, if_true]
    | @more r r' record records h hr' =>
      refine ⟨fun hx => by simp [restItems] at hx, fun x l hx => ?_⟩
      obtain ⟨record', hrec⟩ := hp record (by simp)
      simp only [restItems, List.map_cons, List.cons_append, List.cons.injEq, presented_eq hrec] at hx
      obtain ⟨rfl, rfl⟩ := hx
      exact ⟨{ s with current := some ⟨kind, infile, outfile, r'⟩, nread := s.nread + 1 }, fs, kind, records, [],
        by simp only [nextLoop, hc, FileIO.next_more cfg (io := ⟨kind, infile, outfile, r⟩) h hrec],
        ⟨⟨r', infile, outfile, rfl, hr', ho⟩, hat.length, hat.inputs, hat.disjoint⟩,
        fun r hr => hp r (by simp [hr]), hps, rfl, rfl⟩
  | cons d ds ih =>
    intro fuel s fs kind records hat hp hps hfuel
    obtain ⟨fuel, rfl⟩ : ∃ n, fuel = n + 1 := ⟨fuel - 1, by omega⟩
    obtain ⟨r, infile, outfile, hc, hr, ho⟩ := hat.current
    cases hr with
    | done h =>
      have hl := hat.length
      simp only [List.length_cons] at hl hfuel
      have hne : ¬ (s.idx + 1 = s.files.length) := by omega
      set s1 : CombinedIO K P :=
        { s with current := some ⟨kind, infile, outfile, (Reader.readRaw cfg.ctx.debug kind.format r).2⟩ } with hs1
      obtain ⟨s2, fs2, h1, h2, h3, h4, h5, -⟩ := openFile_at (cfg := cfg) (s := s1) (fs := fs) (i := s.idx + 1) (d := d) (ds := ds)
        (by simp [hs1]; omega) (fun j f d' hf hd => hat.inputs j f d' hf hd) hat.disjoint
      have hstep : nextLoop cfg (fuel + 1) s fs = nextLoop cfg fuel s2 fs2 := by
        simp only [nextLoop, hc, FileIO.next_done cfg (io := ⟨kind, infile, outfile, r⟩) h, if_neg hne]
        rw [← hs1, h1]
      have hrest : restItems cfg kind [] (d :: ds) = restItems cfg d.kind d.records ds := by simp [restItems, fileItems]
      rw [hstep, hrest]
      exact ih fuel s2 fs2 d.kind d.records h2 (hps d (by simp)) (fun d' hd' => hps d' (by simp [hd'])) (by omega)
    | @more r r' record records h hr' =>
      refine ⟨fun hx => by simp [restItems] at hx, fun x l hx => ?_⟩
      obtain ⟨record', hrec⟩ := hp record (by simp)
      simp only [restItems, List.map_cons, List.cons_append, List.cons.injEq, presented_eq hrec] at hx
      obtain ⟨rfl, rfl⟩ := hx
      exact ⟨{ s with current := some ⟨kind, infile, outfile, r'⟩, nread := s.nread + 1 }, fs, kind, records, d :: ds,
        by simp only [nextLoop, hc, FileIO.next_more cfg (io := ⟨kind, infile, outfile, r⟩) h hrec],
        ⟨⟨r', infile, outfile, rfl, hr', ho⟩, hat.length, hat.inputs, hat.disjoint⟩,
        fun r hr => hp r (by simp [hr]), hps, rfl, rfl⟩

/-- The object is about to return the records `l`. -/
def ReadyItems [Mul K] (cfg : IOConfig K V) (s : CombinedIO K P) (fs : FS P) (l : List EventRecord) : Prop :=
  (∃ kind records ds, At cfg s fs kind records ds ∧ Presentable cfg kind records ∧
    (∀ d ∈ ds, Presentable cfg d.kind d.records) ∧ restItems cfg kind records ds = l) ∨
  (s.current = none ∧ s.files = [] ∧ l = [])

theorem nextRecord_ready [Mul K] [DecidableEq P] {cfg : IOConfig K V} {s : CombinedIO K P} {fs : FS P} {l : List EventRecord}
    (h : ReadyItems cfg s fs l) :
    (l = [] → (s.nextRecord cfg fs).1 = none) ∧
    (∀ x l', l = x :: l' → ∃ s' fs', s.nextRecord cfg fs = (some (.ok x), s', fs') ∧ ReadyItems cfg s' fs' l') := by
  rcases h with ⟨kind, records, ds, hat, hp, hps, rfl⟩ | ⟨hc, hf, rfl⟩
  · have hfu := nextLoop_items cfg ds (s.files.length + 2) s fs kind records hat hp hps (by have := hat.length; omega)
    refine ⟨fun h0 => ?_, fun x l' hx => ?_⟩
    · have h1 : (s.next cfg fs).1 = none := hfu.1 h0
      unfold nextRecord
      generalize s.next cfg fs = y at h1
      obtain ⟨y, s1, fs1⟩ := y
      simp only at h1
      subst h1
      rfl
    · obtain ⟨s', fs', kind', records', ds', h1, h2, h3, h4, h5, h6⟩ := hfu.2 x l' hx
      obtain ⟨r, infile, outfile, hc, -⟩ := h2.current
      refine ⟨s', fs', ?_, .inl ⟨kind', records', ds', h2, h3, h4, h6⟩⟩
      have h1 : s.next cfg fs = (some (.ok x.2), s', fs') := h1
      simp only [nextRecord, h1, hc, h5]
  · simp [nextRecord, next, nextLoop, hc, hf]

/-- Reading all records. -/
theorem recordItems_ready [Mul K] [DecidableEq P] {cfg : IOConfig K V} : ∀ (l : List EventRecord) (n : Nat) (s : CombinedIO K P)
    (fs : FS P), ReadyItems cfg s fs l →
    (s.recordItems cfg n fs).1 = if l.length < n then some (.ok (l.map .ok)) else none := by
  intro l
  induction l with
  | nil =>
    intro n s fs h
    cases n with
    | zero => rfl
    | succ n =>
      have h := (nextRecord_ready h).1 rfl
      rw [recordItems]
      generalize s.nextRecord cfg fs = x at h
      obtain ⟨x, s1, fs1⟩ := x
      simp only at h
      subst h
      simp
  | cons a l ih =>
    intro n s fs h
    cases n with
    | zero => rfl
    | succ n =>
      obtain ⟨s', fs', h1, h2⟩ := (nextRecord_ready h).2 a l rfl
      rw [recordItems, h1]
      simp only [ih n s' fs' h2, List.length_cons, Nat.add_lt_add_iff_right]
      split_ifs <;> simp

theorem nextRecord_state [Mul K] [DecidableEq P] (cfg : IOConfig K V) (s : CombinedIO K P) (fs : FS P) :
    (s.nextRecord cfg fs).2 = (s.next cfg fs).2 := by
  unfold nextRecord
  generalize s.next cfg fs = x
  obtain ⟨x, s1, fs1⟩ := x
  rcases x with _ | (r | e | _)
  · rfl
  · simp only
    cases s1.current <;> rfl
  · rfl
  · rfl

/-- Reading consists of calls of `next`. -/
theorem recordItems_state [Mul K] [Div K] [DecidableEq P] (cfg : IOConfig K V) : ∀ (n : Nat) (s : CombinedIO K P) (fs : FS P),
    ∃ k, (s.recordItems cfg n fs).2 = (List.replicate k Op.next).foldl (CombinedIO.step cfg) (s, fs) := by
  intro n
  induction n with
  | zero => intro s fs; exact ⟨0, rfl⟩
  | succ n ih =>
    intro s fs
    have hs := nextRecord_state cfg s fs
    have h1 : CombinedIO.step cfg (s, fs) Op.next = (s.nextRecord cfg fs).2 := by rw [hs]; rfl
    rw [recordItems]
    generalize s.nextRecord cfg fs = x at h1
    obtain ⟨x, s1, fs1⟩ := x
    simp only at h1
    rcases x with _ | (r | e | _)
    · exact ⟨1, h1.symm⟩
    · obtain ⟨k, hk⟩ := ih s1 fs1
      exact ⟨k + 1, by rw [List.replicate_succ, List.foldl_cons, h1]; exact hk⟩
    · exact ⟨1, h1.symm⟩
    · exact ⟨1, h1.symm⟩

theorem new_ready [Mul K] [DecidableEq P] {cfg : IOConfig K V} {fs : FS P} {files : List (P × P)} {ds : List (FileData K)}
    (hin : Inputs cfg fs files ds) (hdis : ∀ p ∈ files.map Prod.fst, p ∉ files.map Prod.snd)
    (hps : ∀ d ∈ ds, Presentable cfg d.kind d.records) :
    ∃ s fs', CombinedIO.new cfg files fs = (.ok (), s, fs') ∧ ReadyItems cfg s fs' (fileItems cfg ds) := by
  cases ds with
  | nil =>
    have hf : files = [] := by simpa [Inputs] using hin
    subst hf
    exact ⟨_, _, rfl, .inr ⟨rfl, rfl, rfl⟩⟩
  | cons d ds =>
    obtain ⟨s, fs', h1, h2, h3, -⟩ := new_at hin hdis
    exact ⟨s, fs', h1, .inl ⟨_, _, _, h2, hps d (by simp), fun d' hd' => hps d' (by simp [hd']), by simp [restItems, fileItems]⟩⟩

/-! ### The events in the records -/

theorem recordEvent_converted [Zero K] [Mul K] [Div K] [LinearOrder V] {cfg : IOConfig K V} {kind : Kind K} {r : Bytes} {ev : Event K V}
    (h : RecordEvent cfg kind r ev) (hq : ∀ s, kind = .stripperXml s → Quoted cfg.ctx.float r) :
    ∃ r', kind.present cfg r = .ok r' ∧ tryConvert cfg.ctx (kind.format, r') = .ok ev := by
  cases kind with
  | hepmc2 =>
    obtain ⟨r', h1, h2⟩ := recordEvent_presented h hq
    exact ⟨r', h1, Outcome.mapErr_eq_ok.2 h2⟩
  | lhef =>
    obtain ⟨r', h1, h2⟩ := recordEvent_presented h hq
    exact ⟨r', h1, Outcome.mapErr_eq_ok.2 h2⟩
  | stripperXml s =>
    obtain ⟨r', h1, h2⟩ := recordEvent_presented h hq
    exact ⟨r', h1, Outcome.mapErr_eq_ok.2 h2⟩

/-- What is known about the records of a file. -/
theorem file_items [Zero K] [Mul K] [Div K] [LinearOrder V] {cfg : IOConfig K V} {content : Bytes} {d : EventFile K V} (h : IsEventFile cfg content d) :
    Presentable cfg d.kind d.records ∧
    List.Forall₂ (fun (x : EventRecord) ev => tryConvert cfg.ctx x = .ok ev)
      (d.records.map fun r => (d.kind.format, presented cfg d.kind r)) d.events := by
  have key : ∀ r ∈ d.records, ∀ ev, RecordEvent cfg d.kind r ev → ∃ r', d.kind.present cfg r = .ok r' ∧
      tryConvert cfg.ctx (d.kind.format, r') = .ok ev := by
    intro r hr ev hev
    have hq : ∀ s, d.kind = .stripperXml s → Quoted cfg.ctx.float r := by
      intro s hs
      have := h.1.2.2
      rw [hs] at this
      exact this.2.2.1 r hr
    exact recordEvent_converted hev hq
  have h2 := h.2
  clear h
  generalize d.records = records at key h2
  generalize d.events = events at h2
  induction h2 with
  | nil => exact ⟨by simp [Presentable], .nil⟩
  | @cons r ev records events h1 h2 ih =>
    obtain ⟨i1, i2⟩ := ih (fun r hr => key r (by simp [hr]))
    obtain ⟨r', g1, g2⟩ := key r (by simp) ev h1
    refine ⟨?_, .cons ?_ i2⟩
    · intro r0 hr0
      rcases List.mem_cons.1 hr0 with rfl | hr0
      · exact ⟨r', g1⟩
      · exact i1 r0 hr0
    · simp only [presented_eq g1]
      exact g2

theorem files_items [Zero K] [Mul K] [Div K] [LinearOrder V] {cfg : IOConfig K V} {fs : FS P} {paths : List P} {ds : List (EventFile K V)}
    (h : EventFiles cfg fs paths ds) :
    (∀ d ∈ ds, Presentable cfg d.kind d.records) ∧
    List.Forall₂ (fun (x : EventRecord) ev => tryConvert cfg.ctx x = .ok ev)
      (fileItems cfg (ds.map EventFile.toFileData)) (allEvents ds) := by
  induction h with
  | nil => exact ⟨by simp, .nil⟩
  | @cons p d paths ds h1 _ ih =>
    obtain ⟨content, -, h2⟩ := h1
    obtain ⟨h3, h4⟩ := file_items h2
    refine ⟨?_, ?_⟩
    · intro d' hd'
      rcases List.mem_cons.1 hd' with rfl | hd'
      · exact h3
      · exact ih.1 d' hd'
    · simp only [fileItems, allEvents, List.map_cons, List.flatMap_cons]
      exact List.rel_append h4 ih.2

end Program

/-- An event read from a record has one weight and no id. -/
theorem HepMC.parse_single [Zero K] [LinearOrder V] (c : ParseCtx K V) (hc : c.multi = true → c.names = []) {record : Bytes}
    {ev : Event K V} (h : HepMC.parse c record = .ok ev) : ev.id = 0 ∧ ∃ w, ev.weights = [w] := by
  obtain ⟨w, ws, rest, b, unit, h1, h2, h3, rfl⟩ := (HepMC.parse_ok c).1 h
  obtain ⟨nls, outs, le, h4⟩ := HepMC.parseLoop_ok c _ h3
  have hnil : nls = [] := by
    cases nls with
    | nil => rfl
    | cons x xs =>
      obtain ⟨g1, g2, -⟩ := le.names x (by simp)
      exact absurd (hc g1) g2
  subst hnil
  have h5 := le.other c.names ws ⟨[w], []⟩ Iff.rfl rfl (by simp) (by simp)
  rw [HepMC.withNames_self, h3] at h5
  simp only [List.map_nil, List.flatten_nil, List.append_nil, List.nil_append, Outcome.ok.injEq, Prod.mk.injEq] at h5
  rw [h5.1]
  split_ifs <;> exact ⟨rfl, w, rfl⟩

theorem Lhef.parse_single [Zero K] [LinearOrder V] (c : ParseCtx K V) {record : Bytes}
    {ev : Event K V} (h : Lhef.parse c record = .ok ev) : ev.id = 0 ∧ ∃ w, ev.weights = [w] := by
  unfold Lhef.parse at h
  cases h1 : afterByte 10 (trimStart record) with
  | none => rw [h1] at h; simp at h
  | some r =>
    rw [h1] at h
    simp only [Outcome.bind_eq_ok] at h
    obtain ⟨x1, -, h⟩ := h
    split_ifs at h
    simp only [Outcome.bind_eq_ok, Outcome.ok.injEq] at h
    obtain ⟨x2, -, x3, -, w, -, b, h2, rfl⟩ := h
    have hb : ((EventBuilder.new c.multi : EventBuilder K V).addWeight c.multi w) = ⟨[w], []⟩ := by
      cases h : c.multi <;> simp [EventBuilder.new, EventBuilder.addWeight]
    rw [hb] at h2
    obtain ⟨outs, ho⟩ := Lhef.parseParticles_ok c _ h2
    rw [ho] at h2
    simp only [Outcome.ok.injEq] at h2
    subst h2
    exact ⟨rfl, w, rfl⟩

theorem Stripper.parse_single [Zero K] [LinearOrder V] (c : ParseCtx K V) {record : Bytes}
    {ev : Event K V} (h : Stripper.parse c record = .ok ev) : ev.id = 0 ∧ ∃ w, ev.weights = [w] := by
  obtain ⟨r, w, rest, body, b, h1, h2, h3, h4, h5, rfl⟩ := (Stripper.parse_ok c).1 h
  obtain ⟨outs, ho⟩ := Stripper.parseLoop_ok c _ h5
  rw [ho] at h5
  simp only [Outcome.ok.injEq] at h5
  subst h5
  exact ⟨rfl, w, rfl⟩

theorem tryConvert_single [Zero K] [LinearOrder V] (c : ParseCtx K V) (hc : c.multi = true → c.names = []) {x : EventRecord}
    {ev : Event K V} (h : tryConvert c x = .ok ev) : ev.id = 0 ∧ ∃ w, ev.weights = [w] := by
  obtain ⟨f, r⟩ := x
  cases f with
  | hepmc2 => exact HepMC.parse_single c hc (Outcome.mapErr_eq_ok.1 h)
  | lhef => exact Lhef.parse_single c (Outcome.mapErr_eq_ok.1 h)
  | stripperXml => exact Stripper.parse_single c (Outcome.mapErr_eq_ok.1 h)
  | ntuple => simp [tryConvert] at h

/-! ### Sums of weights -/

section

variable {M : Type*} [AddCommMonoid M]

theorem sum_identified (events : List (Event K V)) (g : Event K V → M) : (events.map g).sum =
    ((identified events).map g).sum + ((events.filter (fun e => e.outgoingByPid.isEmpty)).map g).sum := by
  unfold identified
  induction events with
  | nil => simp
  | cons e es ih =>
    simp only [List.map_cons, List.sum_cons, List.filter_cons, ih]
    by_cases hp : e.outgoingByPid.isEmpty
    · simp [hp, add_left_comm]
    · simp [hp, add_assoc]

theorem sum_filter_ite {α : Type*} (l : List α) (q : α → Bool) (f : α → M) :
    ((l.filter q).map f).sum = (l.map fun x => if q x then f x else 0).sum := by
  induction l with
  | nil => rfl
  | cons a l ih =>
    rw [List.filter_cons]
    by_cases h : q a
    · simp [h, ih]
    · simp [h, ih]

theorem sum_positions {α : Type*} (l : List α) (f : α → M) (w : Nat → M)
    (h : ∀ (i : Nat) x, l[i]? = some x → f x = w i) : (l.map f).sum = ∑ i ∈ Finset.range l.length, w i := by
  rw [Finset.sum_range, ← List.sum_ofFn]
  congr 1
  apply List.ext_getElem?
  intro i
  rw [List.getElem?_map, List.getElem?_ofFn]
  by_cases hi : i < l.length
  · rw [List.getElem?_eq_getElem hi, dif_pos hi, Option.map_some, h i _ (List.getElem?_eq_getElem hi)]
  · rw [List.getElem?_eq_none (by omega), dif_neg hi]
    rfl

end

/-! ### files can be read in only one way -/

theorem reads_unique {debug : Bool} {format : FileFormat} {r : Reader} {l : List Bytes} (h : Reads debug format r l) :
    ∀ {l' : List Bytes}, Reads debug format r l' → l = l' := by
  induction h with
  | done h1 =>
    intro l' h'
    cases h' with
    | done _ => rfl
    | more h2 _ => rw [h2] at h1; simp at h1
  | more h1 _ ih =>
    intro l' h'
    cases h' with
    | done h2 => rw [h1] at h2; simp at h2
    | more h2 h3 =>
      rw [h1] at h2
      simp only [Prod.mk.injEq, Option.some.injEq, Outcome.ok.injEq] at h2
      obtain ⟨rfl, rfl⟩ := h2
      rw [ih h3]

theorem readable_unique {cfg : IOConfig K V} {content : Bytes} {d d' : FileData K} (h : Readable cfg content d)
    (h' : Readable cfg content d') : d = d' := by
  obtain ⟨g1, r, g2, g3, g4, g5⟩ := h
  obtain ⟨k1, r', k2, k3, k4, k5⟩ := h'
  have hf : d'.kind.format = d.kind.format := by
    rw [g1] at k1
    exact (Outcome.ok.inj k1).symm
  rw [hf] at k2 k4 k5
  rw [g2] at k2
  simp only [Outcome.ok.injEq] at k2
  subst k2
  rw [g3] at k3
  rw [← k3, g4] at k4
  have h1 := Outcome.ok.inj k4
  have h2 := reads_unique g5 k5
  obtain ⟨kind, header, records⟩ := d
  obtain ⟨kind', header', records'⟩ := d'
  simp only at h1 h2 k3
  rw [h1, h2, k3]

theorem recordEvent_unique [Zero K] [Mul K] [Div K] [LinearOrder V] {cfg : IOConfig K V} {kind : Kind K} {r : Bytes} {ev ev' : Event K V}
    (h : RecordEvent cfg kind r ev) (h' : RecordEvent cfg kind r ev') : ev = ev' := by
  cases kind with
  | hepmc2 =>
    simp only [RecordEvent] at h h'
    rw [h] at h'
    exact Outcome.ok.inj h'
  | lhef =>
    simp only [RecordEvent] at h h'
    rw [h] at h'
    exact Outcome.ok.inj h'
  | stripperXml s =>
    obtain ⟨e0, w, h1, h2, -, rfl⟩ := h
    obtain ⟨e0', w', h1', h2', -, rfl⟩ := h'
    rw [h1] at h1'
    cases h1'
    rw [h2] at h2'
    cases h2'
    rfl

theorem isEventFile_unique [Zero K] [Mul K] [Div K] [LinearOrder V] {cfg : IOConfig K V} {content : Bytes} {d d' : EventFile K V}
    (h : IsEventFile cfg content d) (h' : IsEventFile cfg content d') : d = d' := by
  have h1 := readable_unique (readable_of_textFile h.1) (readable_of_textFile h'.1)
  obtain ⟨f, events⟩ := d
  obtain ⟨f', events'⟩ := d'
  simp only at h1
  subst h1
  have h2 := h.2
  have h3 := h'.2
  simp only at h2 h3
  congr 1
  clear h h'
  generalize f.records = l at h2 h3
  induction h2 generalizing events' with
  | nil => cases h3; rfl
  | cons g1 _ ih =>
    cases h3 with
    | cons k1 k2 => rw [recordEvent_unique g1 k1, ih _ k2]

theorem eventFiles_unique [Zero K] [Mul K] [Div K] [LinearOrder V] {cfg : IOConfig K V} {fs : FS P} {paths : List P} {ds ds' : List (EventFile K V)}
    (h : EventFiles cfg fs paths ds) (h' : EventFiles cfg fs paths ds') : ds = ds' := by
  unfold EventFiles at h h'
  induction h generalizing ds' with
  | nil => cases h'; rfl
  | cons g1 _ ih =>
    cases h' with
    | cons k1 k2 =>
      obtain ⟨c, g1, g2⟩ := g1
      obtain ⟨c', k1, k3⟩ := k1
      rw [g1] at k1
      cases k1
      rw [isEventFile_unique g2 k3, ih k2]

end Cres

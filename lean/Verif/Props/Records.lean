import Mathlib.Data.List.Perm.Basic
import Mathlib.Algebra.BigOperators.Group.List.Basic
import Verif.Proofs.HepMCNamed
import Verif.Proofs.Lhef
import Verif.Proofs.Stripper
import Verif.Model.ExampleFormat
import Verif.Spec.Records

/-!
# C38–C41: updating the weights in event records
-/

namespace Cres

open Spec

variable {K V : Type*}

/-- If a text has no two adjacent bytes that are not white space, replacing an entry by one byte keeps the length. -/
theorem entryReplaced_length {record record' new : Bytes} (h : EntryReplaced record record' new) (hn : new.length = 1)
    (hr : ∀ n < record.length - 1, (record[n]?.any isAsciiWs || record[n + 1]?.any isAsciiWs) = true) :
    record'.length = record.length := by
  obtain ⟨pre, old, post, h2, h3, h4, h5⟩ := h
  have l1 := congrArg List.length h2
  have l2 := congrArg List.length h5
  simp only [List.length_append] at l1 l2
  have l3 : old.length ≠ 0 := by simpa using h3
  by_contra hc
  have e2 : ∀ b, record[pre.length]? = some b ∨ record[pre.length + 1]? = some b → isAsciiWs b = false := by
    intro b hb
    apply h4
    rw [h2, List.append_assoc] at hb
    rcases hb with hb | hb
    · rw [List.getElem?_append_right (by omega), List.getElem?_append_left (by omega)] at hb
      exact List.mem_of_getElem? hb
    · rw [List.getElem?_append_right (by omega), List.getElem?_append_left (by omega)] at hb
      exact List.mem_of_getElem? hb
  have := hr pre.length (by omega)
  rw [Bool.or_eq_true, Option.any_eq_true, Option.any_eq_true] at this
  rcases this with ⟨b, hb, hb'⟩ | ⟨b, hb, hb'⟩
  · simp [e2 b (Or.inl hb)] at hb'
  · simp [e2 b (Or.inr hb)] at hb'

/-! ## C38: central weight in HepMC2 records -/

/-- **C38** as stated: updating the central weight replaces the weight entry and nothing else. -/
def C38_claim : Prop :=
  ∀ (K V : Type) [Zero K] [LinearOrder V] (c : ParseCtx K V) (record : Bytes) (ev : Event K V) (w : K),
    (c.multi = true → c.names = []) → HepMC.parse c record = .ok ev → c.float.finite w = true →
    ∃ record', HepMC.update c [w] record = .ok record' ∧ EntryReplaced record record' (c.float.display w) ∧
      HepMC.parse c record' = .ok { ev with weights := [w] }

/-- A record with two blanks before the weight. -/
def hepmcTwoBlanks : Bytes := ascii "E 1 2 3 4 5 6 7 8 9 0 0 1  5\n"

/-- **C38** fails literally: if there is more than one blank before the weight entry, the others are removed. -/
theorem C38_violated : ¬ C38_claim := by
  intro h
  obtain ⟨record', h1, h2, -⟩ := h ℚ ℚ (ratCtx false false []) hepmcTwoBlanks
    { id := 0, weights := [5], outgoingByPid := [] } 7 (by decide) (by decide +kernel) (by decide +kernel)
  have hu : HepMC.update (ratCtx false false []) [7] hepmcTwoBlanks = .ok (ascii "E 1 2 3 4 5 6 7 8 9 0 0 1 7\n") := by
    decide +kernel
  rw [hu, Outcome.ok.injEq] at h1
  have := entryReplaced_length h2 (by decide +kernel) (by decide)
  rw [← h1] at this
  exact absurd this (by decide)

/-- **C38** for finite weights: updating the central weight of a record that can be read replaces the weight entry, with
further blanks in front of it, and reading the updated record gives the same event with the new weight. Without named
weights, see C39. -/
theorem C38_hepmc_update_partial [Zero K] [LinearOrder V] (c : ParseCtx K V) {record : Bytes} {ev : Event K V} {w : K}
    (hn : c.multi = true → c.names = []) (hp : HepMC.parse c record = .ok ev) (hw : c.float.finite w = true) :
    ∃ record', HepMC.update c [w] record = .ok record' ∧ EntryReplacedBlanks record record' (c.float.display w) ∧
      HepMC.parse c record' = .ok { ev with weights := [w] } := by
  obtain ⟨pre, sep, old, post, h1, -, h3, h4, h5, h6, h7, h8⟩ := HepMC.update_central c hn hp hw
  exact ⟨_, h7, ⟨pre, sep, old, post, h1, h3, fun b hb => by simpa [isBlank] using h4 b hb, h5, h6, rfl⟩, h8⟩

/-- **C38**, strictly, for records without adjacent blanks. -/
theorem C38_hepmc_update_exact_partial [Zero K] [LinearOrder V] (c : ParseCtx K V) {record : Bytes} {ev : Event K V} {w : K}
    (hn : c.multi = true → c.names = []) (hp : HepMC.parse c record = .ok ev) (hw : c.float.finite w = true)
    (hb : ∀ b b', isBlank b = true → isBlank b' = true → ¬ [b, b'] <:+: record) :
    ∃ record', HepMC.update c [w] record = .ok record' ∧ EntryReplaced record record' (c.float.display w) ∧
      HepMC.parse c record' = .ok { ev with weights := [w] } := by
  obtain ⟨pre, sep, old, post, h1, -, h3, h4, h5, h6, h7, h8⟩ := HepMC.update_central c hn hp hw
  refine ⟨_, h7, ⟨pre ++ sep, old, post, h1, h5, h6, ?_⟩, h8⟩
  match sep, h3, h4, h1 with
  | [b], _, _, _ => rfl
  | b :: b' :: sep, _, h4, h1 =>
    exfalso
    refine hb b b' (h4 b (by simp)) (h4 b' (by simp)) ⟨pre, sep ++ old ++ post, ?_⟩
    rw [h1]
    simp

/-- A record with particles, units, two weights and random states meets the hypotheses. -/
example : HepMC.parse (ratCtx true true [])
      (ascii "E 1 2 3 4 5 6 7 8 9 0 1 17 2 0.5 3e1\nU MEV MM\nV\nP 1 11 0 0 5 5 0 1\nP 2 21 0 0 5 5 0 2\n") =
        .ok { id := 0, weights := [1/2], outgoingByPid := [(11, [1/200])] } ∧
    HepMC.update (ratCtx true true []) [-42]
      (ascii "E 1 2 3 4 5 6 7 8 9 0 1 17 2 0.5 3e1\nU MEV MM\nV\nP 1 11 0 0 5 5 0 1\nP 2 21 0 0 5 5 0 2\n") =
        .ok (ascii "E 1 2 3 4 5 6 7 8 9 0 1 17 2 -42 3e1\nU MEV MM\nV\nP 1 11 0 0 5 5 0 1\nP 2 21 0 0 5 5 0 2\n") ∧
    (ratCtx true true []).float.finite (-42) = true := by
  decide +kernel

/-! ## C39: named weights in HepMC2 records -/

/-- **C39** as stated, in short: after an update reading the record gives the new weights. -/
def C39_claim : Prop :=
  ∀ (K V : Type) [Zero K] [LinearOrder V] (c : ParseCtx K V) (record : Bytes) (ev : Event K V) (ws' : List K),
    c.multi = true → c.names ≠ [] → c.names.Nodup → HepMC.parse c record = .ok ev →
    ev.weights.length = c.names.length + 1 → ws'.length = ev.weights.length → (∀ w ∈ ws', c.float.finite w = true) →
    ∃ record', HepMC.update c ws' record = .ok record' ∧ HepMC.parse c record' = .ok { ev with weights := ws' }

/-- A record with three named weights. -/
def hepmcNamed : Bytes := ascii "E 1 2 3 4 5 6 7 8 9 0 0 3 5 6 7\nN 3 \"a\" \"b\" \"c\"\nP 1 11 0 0 5 5 0 1 0 0 0 0\n"

theorem hepmcNamed_read : HepMC.parse (ratCtx true false [ascii "a"]) hepmcNamed =
    .ok { id := 0, weights := [5, 5], outgoingByPid := [(11, [5])] } := by decide +kernel

theorem hepmcNamed_update : HepMC.update (ratCtx true false [ascii "a"]) [1, 2] hepmcNamed = .ok
    (ascii "E 1 2 3 4 5 6 7 8 9 0 0 3 2 6 7\nN 3 \"a\" \"b\" \"c\"\nP 1 11 0 0 5 5 0 1 0 0 0 0\n") := by decide +kernel

theorem hepmcNamed_reread : HepMC.parse (ratCtx true false [ascii "a"])
      (ascii "E 1 2 3 4 5 6 7 8 9 0 0 3 2 6 7\nN 3 \"a\" \"b\" \"c\"\nP 1 11 0 0 5 5 0 1 0 0 0 0\n") =
    .ok { id := 0, weights := [2, 2], outgoingByPid := [(11, [5])] } := by decide +kernel

/-- **C39** fails if the name of the first weight is selected. This weight then occurs twice in the list of weights. If the
two get different values, the central weight is overwritten. -/
theorem C39_violated : ¬ C39_claim := by
  intro h
  obtain ⟨record', h1, h2⟩ := h ℚ ℚ (ratCtx true false [ascii "a"]) hepmcNamed _ [1, 2] rfl (by decide) (by decide)
    hepmcNamed_read rfl rfl (by decide +kernel)
  rw [hepmcNamed_update, Outcome.ok.injEq] at h1
  rw [← h1, hepmcNamed_reread] at h2
  simp at h2

/-- **C39**: the weights `ev.weights` of a record read with a selection of names are the central weight and the selected
ones among all weights `all` with names `names`. After writing new weights `ws'` all weights are `all'`: the selected ones
and the central one are those in `ws'`, the others are unchanged, and this is what is read from the updated record with
*any* selection of names. Only if the record announces more names than it has weights and these further names cannot be
read, updating fails with an error.

Assumptions: no name is selected twice or occurs twice in the record and there is a line with names (`hlen`); the new weights
are finite and as many as were read; if the name of the first weight is selected, so that this weight is read twice, the first
two new weights agree. -/
theorem C39_named_update_partial [Zero K] [LinearOrder V] (c : ParseCtx K V) {record : Bytes} {ev : Event K V} {ws' : List K}
    (hm : c.multi = true) (hne : c.names ≠ []) (hd : c.names.Nodup) (hp : HepMC.parse c record = .ok ev)
    (hlen : ev.weights.length = c.names.length + 1) (hlen' : ws'.length = ev.weights.length)
    (hfin : ∀ w ∈ ws', c.float.finite w = true) (h01 : FirstNameIn c.names record → ws'[0]? = ws'[1]?) :
    ∃ (names : List Bytes) (all all' : List K) (w0 w0' : K), names.length ≤ all.length ∧ all'.length = all.length ∧
      all.head? = some w0 ∧ all'.head? = some w0' ∧ (∀ n ∈ c.names, n ∈ names) ∧
      ev.weights = w0 :: selectedWeights c.names names all ∧ ws' = w0' :: selectedWeights c.names names all' ∧
      (∀ i, 0 < i → (∀ n, names[i]? = some n → n ∉ c.names) → all'[i]? = all[i]?) ∧
      (∀ sel, sel ≠ [] → (∀ n ∈ sel, n ∈ names) → (∀ w ∈ all, c.float.isNaN w = false) →
        HepMC.parse { c with names := sel } record = .ok { ev with weights := w0 :: selectedWeights sel names all }) ∧
      ((∃ record', HepMC.update c ws' record = .ok record' ∧
        HepMC.parse c record' = .ok { ev with weights := ws' } ∧
        ∀ sel, sel ≠ [] → (∀ n ∈ sel, n ∈ names) → (∀ w ∈ all', c.float.isNaN w = false) →
          HepMC.parse { c with names := sel } record' = .ok { ev with weights := w0' :: selectedWeights sel names all' }) ∨
       (∃ e before nline rest announced, HepMC.update c ws' record = .err e ∧
          splitAtPattern (ascii "\nN") record = some (before, nline) ∧ u32Entry nline = some (rest, announced) ∧
          all.length < announced ∧ count HepMC.stringEntry announced rest = none)) ∧
      (∃ n entries rest, NamesLine record n entries ∧ count HepMC.stringEntry (min n all.length) entries = some (rest, names)) := by
  obtain ⟨names, all, all', w0, w0', h1, h2, h3, h4, hsub, h5, h6, h7, h8, h9, ⟨pre, nline, entries, nn, rr, h10, h11, h12⟩, -⟩ :=
    HepMC.update_named c hm hne hd hp hlen hlen' hfin fun pre nline names nn rr n g1 g2 g3 g4 =>
      h01 ⟨nn, names, rr, n, g4, ⟨pre, nline, g1, g2⟩, g3⟩
  have hacc : ∀ sel (ws : List K), (∀ w ∈ ws, c.float.isNaN w = false) →
      ∀ w ∈ HepMC.selected sel names ws, HepMC.Accepts c w := by
    intro sel ws h w hw
    have hw' : w ∈ ws := by
      obtain ⟨x, hx, rfl⟩ := List.mem_map.1 hw
      exact (List.of_mem_zip (List.mem_filter.1 hx).1).2
    simp [HepMC.Accepts, h w hw']
  refine ⟨names, all, all', w0, w0', h1, h2, h3, h4, hsub, h5, h6, h7, fun sel a b d => h8 sel a b (hacc sel all d), ?_,
    nn, entries, rr, ⟨pre, nline, h10, h11⟩, h12⟩
  rcases h9 with ⟨record', g1, g2⟩ | ⟨e, pre, nline, nms, nn, g⟩
  · refine Or.inl ⟨record', g1, ?_, fun sel a b d => g2 sel a b (hacc sel all' d)⟩
    have := g2 c.names hne hsub (fun w hw => HepMC.accepts_of_finite c (hfin w (by rw [h6]; simp [hw])))
    rw [← h6] at this
    exact this
  · exact Or.inr ⟨e, pre, nline, nms, nn, g⟩

/-- A record with three weights of which two are selected meets the hypotheses, and the order of the selection does not
matter. -/
example : HepMC.parse (ratCtx true true [ascii "c", ascii "b"]) hepmcNamed =
      .ok { id := 0, weights := [5, 6, 7], outgoingByPid := [(11, [5])] } ∧
    [ascii "c", ascii "b"].Nodup ∧
    HepMC.update (ratCtx true true [ascii "c", ascii "b"]) [10, 20, 30] hepmcNamed = .ok
      (ascii "E 1 2 3 4 5 6 7 8 9 0 0 3 10 20 30\nN 3 \"a\" \"b\" \"c\"\nP 1 11 0 0 5 5 0 1 0 0 0 0\n") := by
  decide +kernel

/-! ## C40: LHEF -/

/-- **C40** as stated: updating the weight replaces the weight entry and nothing else. -/
def C40_claim : Prop :=
  ∀ (K V : Type) [Zero K] [LinearOrder V] (c : ParseCtx K V) (record : Bytes) (ev : Event K V) (w : K),
    Lhef.parse c record = .ok ev → c.float.finite w = true →
    ∃ record', Lhef.update c [w] record = .ok record' ∧ EntryReplaced record record' (c.float.display w) ∧
      Lhef.parse c record' = .ok { ev with weights := [w] }

/-- A record with two blanks before the weight. -/
def lhefTwoBlanks : Bytes := ascii "E\n2 0  5\n"

/-- **C40** fails literally: if there is more than one blank before the weight entry, the others are removed. -/
theorem C40_violated : ¬ C40_claim := by
  intro h
  obtain ⟨record', h1, h2, -⟩ := h ℚ ℚ (ratCtx false false []) lhefTwoBlanks
    { id := 0, weights := [5], outgoingByPid := [] } 7 (by decide +kernel) (by decide +kernel)
  have hu : Lhef.update (ratCtx false false []) [7] lhefTwoBlanks = .ok (ascii "E\n2 0 7\n") := by
    decide +kernel
  rw [hu, Outcome.ok.injEq] at h1
  have := entryReplaced_length h2 (by decide +kernel) (by decide)
  rw [← h1] at this
  exact absurd this (by decide)

/-- **C40** for finite weights: updating the weight of a record that can be read replaces the weight entry, with further
blanks in front of it, and reading the updated record gives the same event with the new weight. -/
theorem C40_lhef_update_partial [Zero K] [LinearOrder V] (c : ParseCtx K V) {record : Bytes} {ev : Event K V} {w : K}
    (hp : Lhef.parse c record = .ok ev) (hw : c.float.finite w = true) :
    ∃ record', Lhef.update c [w] record = .ok record' ∧ EntryReplacedBlanks record record' (c.float.display w) ∧
      Lhef.parse c record' = .ok { ev with weights := [w] } := by
  obtain ⟨pre, sep, old, post, h1, h3, h4, h5, h6, h7, h8⟩ := Lhef.update_central c hp hw
  exact ⟨_, h7, ⟨pre, sep, old, post, h1, h3, fun b hb => by simpa [isBlank] using h4 b hb, h5, h6, rfl⟩, h8⟩

/-- **C40**, strictly, for records without adjacent blanks. -/
theorem C40_lhef_update_exact_partial [Zero K] [LinearOrder V] (c : ParseCtx K V) {record : Bytes} {ev : Event K V} {w : K}
    (hp : Lhef.parse c record = .ok ev) (hw : c.float.finite w = true)
    (hb : ∀ b b', isBlank b = true → isBlank b' = true → ¬ [b, b'] <:+: record) :
    ∃ record', Lhef.update c [w] record = .ok record' ∧ EntryReplaced record record' (c.float.display w) ∧
      Lhef.parse c record' = .ok { ev with weights := [w] } := by
  obtain ⟨pre, sep, old, post, h1, h3, h4, h5, h6, h7, h8⟩ := Lhef.update_central c hp hw
  refine ⟨_, h7, ⟨pre ++ sep, old, post, h1, h5, h6, ?_⟩, h8⟩
  match sep, h3, h4, h1 with
  | [b], _, _, _ => rfl
  | b :: b' :: sep, _, h4, h1 =>
    exfalso
    refine hb b b' (h4 b (by simp)) (h4 b' (by simp)) ⟨pre, sep ++ old ++ post, ?_⟩
    rw [h1]
    simp

/-- A record with two incoming and one outgoing particle meets the hypotheses. -/
example : Lhef.parse (ratCtx true true [])
      (ascii "\n<event>\n 3 1 1.5 1 1 1\n21 -1 0 0 1 2 0 0 9 9 0 0 0\n21 -1 0 0 1 2 0 0 9 9 0 0 0\n11 1 1 2 0 0 3 4 0 5 0 0 0\n</event>") =
        .ok { id := 0, weights := [3/2], outgoingByPid := [(11, [5])] } ∧
    Lhef.update (ratCtx true true []) [-42]
      (ascii "\n<event>\n 3 1 1.5 1 1 1\n21 -1 0 0 1 2 0 0 9 9 0 0 0\n21 -1 0 0 1 2 0 0 9 9 0 0 0\n11 1 1 2 0 0 3 4 0 5 0 0 0\n</event>") =
        .ok (ascii "\n<event>\n 3 1 -42 1 1 1\n21 -1 0 0 1 2 0 0 9 9 0 0 0\n21 -1 0 0 1 2 0 0 9 9 0 0 0\n11 1 1 2 0 0 3 4 0 5 0 0 0\n</event>") := by
  decide +kernel

/-! ## C41: STRIPPER XML -/

/-- **C41** as stated, first part: the scale of every channel is its cross section divided by its number of events. -/
def C41_claim : Prop :=
  ∀ (files : List (Unit × Option (Stripper.XmlTag ℚ))) (channel : Bytes) (s : ℚ),
    (Stripper.extractScaling files).2 channel = some s →
    ∃ x ∈ crossSections channel (files.map Prod.snd), s = x / totalEvents channel (files.map Prod.snd)

/-- **C41** fails for a channel without a file with its cross section: the cross section -1 is used. -/
theorem C41_violated : ¬ C41_claim := by
  intro h
  obtain ⟨x, hx, -⟩ := h [((), some (.eventrecord (ascii "a") 2 3))] (ascii "a") (-1/2) (by decide +kernel)
  simp [crossSections] at hx

/-- **C41**, first part: if there is exactly one cross section for a channel, in whatever order the files are given, the
scale is this cross section divided by the total number of events. -/
theorem C41_scale_partial {α : Type*} [Field K] {files files' : List (α × Option (Stripper.XmlTag K))} {channel : Bytes} {x : K}
    (hx : crossSections channel (files.map Prod.snd) = [x]) (hp : files'.Perm files) :
    (Stripper.extractScaling files').2 channel = some (x / totalEvents channel (files.map Prod.snd)) := by
  have hp' := hp.map Prod.snd
  have h1 : Stripper.xsections channel (files'.map Prod.snd) = [x] := by
    have := hp'.filterMap (fun f => match f with
      | some (Stripper.XmlTag.normalization n s) => if n = channel then some s else none
      | _ => none)
    exact List.perm_singleton.1 (this.trans (by exact List.Perm.of_eq hx))
  have h2 : (Stripper.eventCounts channel (files'.map Prod.snd)).sum = totalEvents channel (files.map Prod.snd) :=
    (hp'.filterMap _).sum_eq
  simp only [Stripper.extractScaling, Stripper.foldl_scaling, h1, h2]
  simp [Stripper.ScalingMap.get]

/-- **C41**: the files with cross sections are removed from the list of event files, the other ones are kept in order. -/
theorem C41_event_files {α : Type*} [Field K] (files : List (α × Option (Stripper.XmlTag K))) :
    (Stripper.extractScaling files).1 =
      (files.filter (fun f => match f.2 with | some (.normalization _ _) => false | _ => true)).map Prod.fst := by
  simp only [Stripper.extractScaling]
  congr 2

/-- Two files with events and one with the cross section, in any order. -/
example : crossSections (ascii "a") [some (.eventrecord (ascii "a") 2 3), some (.normalization (ascii "a") (7 : ℚ)), none,
      some (.normalization (ascii "b") 8), some (.eventrecord (ascii "a") 4 5)] = [7] ∧
    totalEvents (ascii "a") [some (.eventrecord (ascii "a") 2 3), some (.normalization (ascii "a") (7 : ℚ)), none,
      some (.normalization (ascii "b") 8), some (.eventrecord (ascii "a") 4 5)] = 6 := by
  decide

/-- **C41**, second part: the weight of a record is multiplied with the scale when it is read. -/
theorem C41_read_partial [Zero K] [Mul K] [LinearOrder V] (c : ParseCtx K V) {record : Bytes} {ev : Event K V} {s : K}
    (hp : Stripper.parse c record = .ok ev)
    (hq : ∀ r w rest, Stripper.weightStart record = some r → c.float.double r = some (rest, w) → ascii "\"" <+: rest)
    (hfin : ∀ w, ev.weights = [w] → c.float.finite (s * w) = true) :
    ∃ w record', ev.weights = [w] ∧ Stripper.rescale c.float s record = .ok record' ∧
      Stripper.parse c record' = .ok { ev with weights := [s * w] } := by
  have hq' : ∀ r w rest, Stripper.weightStart record = some r → c.float.double r = some (rest, w) →
      rest.head? = some 34 := by
    intro r w rest h1 h2
    obtain ⟨t, rfl⟩ := hq r w rest h1 h2
    rfl
  obtain ⟨head, old, post, w, h1, h2, h3, h4, h5, h6⟩ := Stripper.replaceWeight_ok c (s * ·) hp hq' hfin
  exact ⟨w, _, h3, h5, h6⟩

/-- Writing a weight that is divided by a scale. -/
theorem write_divided [Zero K] [Mul K] [Div K] [LinearOrder V] (c : ParseCtx K V) {record : Bytes} {ev : Event K V} {s v : K}
    (hp : Stripper.parse c record = .ok ev)
    (hq : ∀ r w rest, Stripper.weightStart record = some r → c.float.double r = some (rest, w) → ascii "\"" <+: rest)
    (hvs : c.float.finite (v / s) = true) :
    ∃ record', Stripper.update c s [v] record = .ok record' ∧
      (∃ before old after, record = before ++ old ++ after ∧ (∀ r, Stripper.weightStart (before ++ r) = some r) ∧
        ascii "\"" <+: after ∧ record' = before ++ c.float.display (v / s) ++ after) ∧
      Stripper.parse c record' = .ok { ev with weights := [v / s] } := by
  have hq' : ∀ r w rest, Stripper.weightStart record = some r → c.float.double r = some (rest, w) →
      rest.head? = some 34 := by
    intro r w rest h1 h2
    obtain ⟨t, rfl⟩ := hq r w rest h1 h2
    rfl
  obtain ⟨head, old, post, w, h1, h2, h3, h4, h5, h6⟩ := Stripper.replaceWeight_ok c (fun _ => v / s) hp hq' (fun _ _ => hvs)
  refine ⟨_, ?_, ⟨head, old, 34 :: post, h1, h2, ⟨post, rfl⟩, rfl⟩, h6⟩
  simp only [Stripper.update]
  rw [HepMC.n64_eq_ok.2 ⟨HepMC.accepts_of_finite c hvs, rfl⟩]
  simp [Outcome.bind, h5]

/-- Writing and reading a weight that is divided by a scale. -/
theorem write_scaled [Zero K] [Mul K] [Div K] [LinearOrder V] (c : ParseCtx K V) {record : Bytes} {ev : Event K V} {s v : K} (hs : s * (v / s) = v)
    (hp : Stripper.parse c record = .ok ev)
    (hq : ∀ r w rest, Stripper.weightStart record = some r → c.float.double r = some (rest, w) → ascii "\"" <+: rest)
    (hv : c.float.finite v = true) (hvs : c.float.finite (v / s) = true) :
    ∃ record' record'', Stripper.update c s [v] record = .ok record' ∧
      (∃ before old after, record = before ++ old ++ after ∧ (∀ r, Stripper.weightStart (before ++ r) = some r) ∧
        ascii "\"" <+: after ∧ record' = before ++ c.float.display (v / s) ++ after) ∧
      Stripper.parse c record' = .ok { ev with weights := [v / s] } ∧
      Stripper.rescale c.float s record' = .ok record'' ∧ Stripper.parse c record'' = .ok { ev with weights := [v] } := by
  have hq' : ∀ r w rest, Stripper.weightStart record = some r → c.float.double r = some (rest, w) →
      rest.head? = some 34 := by
    intro r w rest h1 h2
    obtain ⟨t, rfl⟩ := hq r w rest h1 h2
    rfl
  obtain ⟨head, old, post, w, h1, h2, h3, h4, h5, h6⟩ := Stripper.replaceWeight_ok c (fun _ => v / s) hp hq' (fun _ _ => hvs)
  have hu : Stripper.update c s [v] record = .ok (head ++ c.float.display (v / s) ++ 34 :: post) := by
    simp only [Stripper.update]
    rw [HepMC.n64_eq_ok.2 ⟨HepMC.accepts_of_finite c hvs, rfl⟩]
    simp [Outcome.bind, h5]
  have hq2 : ∀ r w rest, Stripper.weightStart (head ++ c.float.display (v / s) ++ 34 :: post) = some r →
      c.float.double r = some (rest, w) → rest.head? = some 34 := by
    intro r w rest g1 g2
    rw [List.append_assoc, h2, Option.some.injEq] at g1
    subst g1
    rw [Stripper.double_display_stop c.float hvs (by decide), Option.some.injEq, Prod.mk.injEq] at g2
    rw [← g2.1]
    rfl
  obtain ⟨head2, old2, post2, w2, k1, k2, k3, k4, k5, k6⟩ := Stripper.replaceWeight_ok c (s * ·) h6 hq2 (by
    intro w hw
    simp only [List.cons.injEq, and_true] at hw
    rw [← hw, hs]
    exact hv)
  simp only [List.cons.injEq, and_true] at k3
  rw [← k3, hs] at k6
  refine ⟨_, _, hu, ⟨head, old, 34 :: post, h1, h2, ⟨post, rfl⟩, rfl⟩, h6, k5, by rw [← k3, hs]; exact k6⟩

/-- **C41**, third part: writing the weight `v` replaces the text of the weight by `v / s` and nothing else, and `v` is the
weight of the event when the written record is read again. If the weight has not changed, the original weight is written.
In exact arithmetic. -/
theorem C41_write_partial [Field K] [LinearOrder V] (c : ParseCtx K V) {record : Bytes} {ev : Event K V} {s v : K} (hs : s ≠ 0)
    (hp : Stripper.parse c record = .ok ev)
    (hq : ∀ r w rest, Stripper.weightStart record = some r → c.float.double r = some (rest, w) → ascii "\"" <+: rest)
    (hv : c.float.finite v = true) (hvs : c.float.finite (v / s) = true) :
    ∃ record' record'', Stripper.update c s [v] record = .ok record' ∧
      (∃ before old after, record = before ++ old ++ after ∧ (∀ r, Stripper.weightStart (before ++ r) = some r) ∧
        ascii "\"" <+: after ∧ record' = before ++ c.float.display (v / s) ++ after) ∧
      Stripper.parse c record' = .ok { ev with weights := [v / s] } ∧
      Stripper.rescale c.float s record' = .ok record'' ∧ Stripper.parse c record'' = .ok { ev with weights := [v] } ∧
      ∀ w, ev.weights = [w] → v = s * w → v / s = w := by
  obtain ⟨record', record'', h1, h2, h3, h4, h5⟩ := write_scaled c (mul_div_cancel₀ v hs) hp hq hv hvs
  refine ⟨record', record'', h1, h2, h3, h4, h5, ?_⟩
  rintro w - rfl
  exact mul_div_cancel_left₀ _ hs


/-- A STRIPPER XML record. -/
def stripperRecord : Bytes := ascii "<se w=\"3\" x=\"1\">\n<p id=\"0,11\"> 5,0,3,4</p>\n<p id=\"1,21\"> 5,0,3,4</p></se>"

theorem stripperRecord_start : Stripper.weightStart stripperRecord = some (stripperRecord.drop 7) := by decide +kernel

theorem stripperRecord_weight : ratFormat.double (stripperRecord.drop 7) = some (stripperRecord.drop 8, 3) := by
  decide +kernel

/-- The record with one outgoing particle meets the hypotheses of the previous two theorems, for scale 2 and new weight 8. -/
example : Stripper.parse (ratCtx true true []) stripperRecord = .ok { id := 0, weights := [3], outgoingByPid := [(11, [5])] } ∧
    ratFormat.finite (2 * 3) = true ∧ ratFormat.finite 8 = true ∧ ratFormat.finite (8 / 2) = true ∧
    Stripper.update (ratCtx true true []) 2 [8] stripperRecord =
      .ok (ascii "<se w=\"4\" x=\"1\">\n<p id=\"0,11\"> 5,0,3,4</p>\n<p id=\"1,21\"> 5,0,3,4</p></se>") := by
  decide +kernel

example : ∀ r w rest, Stripper.weightStart stripperRecord = some r → ratFormat.double r = some (rest, w) →
    ascii "\"" <+: rest := by
  intro r w rest h1 h2
  rw [stripperRecord_start, Option.some.injEq] at h1
  rw [← h1, stripperRecord_weight, Option.some.injEq, Prod.mk.injEq] at h2
  rw [← h2.1]
  decide

end Cres

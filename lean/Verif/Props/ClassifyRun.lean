import Verif.Proofs.ClassifyStripper
import Verif.Props.ClassifyReread
import Verif.Spec.ClassifyRun
import Verif.Props.Main

/-!
Property C94: the files of `cres-classify-events` are input files for cres.
-/

namespace Cres

open Classify Spec Path

variable {K V E D : Type*} [DistNum D]

/-! ### Records with and without footer -/

theorem hepmc_trimmed [Zero K] [LinearOrder V] (c : ParseCtx K V) {r : Bytes} {ev : Event K V} (hr : HepMC.parse c r = .ok ev)
    (he : RegularEnd (K := K) .hepmc2 r) : HepMC.parse c (trimFooter .hepmc r) = .ok ev ∧
      HepMC.parse c (trimFooter .hepmc r ++ footer .hepmc ++ [10]) = .ok ev ∧ (trimFooter .hepmc r).getLast? = some 10 := by
  obtain ⟨s, hs, hb⟩ := he _ (trimFooter_spec .hepmc r)
  have hnl : ascii "\n" = [10] := by decide
  rw [hnl] at hs
  have hb' : ∀ a y, s = a ++ 10 :: y → ¬ Blank y := by
    intro a y hy hbl
    exact hb ⟨a, y, hbl, by rw [hy, hnl]; simp⟩
  have hne : s ≠ [] := by
    rintro rfl
    have h10 : ∃ u, r = 10 :: u := by
      rcases trimFooter_spec .hepmc r with ⟨ws, _, h⟩ | ⟨h, _⟩
      · rw [hs] at h; exact ⟨_, h⟩
      · rw [h] at hs; exact ⟨_, hs⟩
    obtain ⟨u, rfl⟩ := h10
    simp [HepMC.parse, HepMC.extractWeights, Outcome.bind] at hr
  have hp : HepMC.parse c s = .ok ev := by
    rcases trimFooter_spec .hepmc r with ⟨ws, hw, h⟩ | ⟨h, _⟩
    · rw [hs, List.append_assoc, List.append_assoc, List.singleton_append] at h
      rw [← HepMC.parse_stops c hne hb' (tl := footer .hepmc ++ ws) (Or.inr ⟨ws, rfl, hw⟩), ← h]
      exact hr
    · rw [h] at hs
      rw [← HepMC.parse_stops c hne hb' (tl := []) (Or.inl Blank.nil), ← hs]
      exact hr
  rw [hs]
  refine ⟨?_, ?_, by simp⟩
  · rw [HepMC.parse_stops c hne hb' (tl := []) (Or.inl Blank.nil)]
    exact hp
  · rw [List.append_assoc, List.append_assoc, List.singleton_append,
      HepMC.parse_stops c hne hb' (tl := footer .hepmc ++ [10]) (Or.inr ⟨[10], rfl, ⟨[[10]], rfl, by simp [IsBlank, isWs1]⟩⟩)]
    exact hp

theorem blank_newline : Blank [10] := ⟨[[10]], rfl, by simp [IsBlank, isWs1]⟩

theorem stripper_trimmed [Zero K] [LinearOrder V] (c : ParseCtx K V) {r : Bytes} {s : K} (he : RegularEnd (.stripperXml s) r)
    {ev : Event K V} (hr : Stripper.parse c r = .ok ev) : Stripper.parse c (trimFooter .stripper r) = .ok ev ∧
      Stripper.parse c (trimFooter .stripper r ++ footer .stripper ++ [10]) = .ok ev := by
  obtain ⟨a, b, hab⟩ := he _ (trimFooter_spec .stripper r)
  have hgt : (62 : UInt8) ∈ trimFooter .stripper r := by
    rw [hab]
    have : ascii ">" = [62] := by decide
    rw [this]
    simp
  have hp : Stripper.parse c (trimFooter .stripper r) = .ok ev := by
    rcases trimFooter_spec .stripper r with ⟨ws, hw, h⟩ | ⟨h, _⟩
    · rw [Stripper.parse_foot c hw hgt, ← Stripper.foot_eq, ← List.append_assoc, ← h]
      exact hr
    · rw [h]; exact hr
  refine ⟨hp, ?_⟩
  rw [List.append_assoc, Stripper.foot_eq]
  exact (Stripper.parse_foot c blank_newline hgt ev).1 hp

theorem quoted_foot (F : FloatFormat K) (t u : Bytes) : Quoted F (t ++ Stripper.foot u) ↔ Quoted F t := by
  have hq : ∀ rest : Bytes, ascii "\"" <+: rest ++ Stripper.foot u ↔ ascii "\"" <+: rest := fun rest =>
    Stripper.noFoot_prefix (by decide)
  constructor
  · intro h r w rest h1 h2
    have := h (r ++ Stripper.foot u) w (rest ++ Stripper.foot u) (by rw [Stripper.weightStart_foot, h1]; rfl)
      (by rw [Stripper.double_foot, h2]; rfl)
    exact (hq rest).1 this
  · intro h r w rest h1 h2
    rw [Stripper.weightStart_foot] at h1
    cases h3 : Stripper.weightStart t with
    | none => simp [h3] at h1
    | some r' =>
      simp only [h3, Option.map_some, Option.some.injEq] at h1
      subst h1
      rw [Stripper.double_foot] at h2
      cases h4 : F.double r' with
      | none => simp [h4] at h2
      | some x =>
        simp only [h4, Option.map_some, Option.some.injEq, Prod.mk.injEq] at h2
        rw [← h2.1]
        exact (hq _).2 (h r' x.2 x.1 h3 h4)

theorem quoted_trimmed (F : FloatFormat K) {r : Bytes} (h : Quoted F r) : Quoted F (trimFooter .stripper r) ∧
    Quoted F (trimFooter .stripper r ++ footer .stripper ++ [10]) := by
  have ht : Quoted F (trimFooter .stripper r) := by
    rcases trimFooter_spec .stripper r with ⟨ws, _, hr⟩ | ⟨hr, _⟩
    · rw [← quoted_foot F _ ws, ← Stripper.foot_eq, ← List.append_assoc, ← hr]
      exact h
    · rw [hr]; exact h
  refine ⟨ht, ?_⟩
  rw [List.append_assoc, Stripper.foot_eq]
  exact (quoted_foot F _ _).2 ht

/-! ### Lists -/

theorem forall₂_filter {α β : Type*} {R : α → β → Prop} {p : α → Bool} {q : β → Bool} {l : List α} {m : List β} (h : List.Forall₂ R l m)
    (hpq : ∀ a ∈ l, ∀ b, R a b → p a = q b) : List.Forall₂ R (l.filter p) (m.filter q) := by
  induction h with
  | nil => exact .nil
  | @cons a b l m hab h ih =>
    have := ih fun a ha b hab => hpq a (by simp [ha]) b hab
    have e := hpq a (by simp) b hab
    rw [List.filter_cons, List.filter_cons, ← e]
    split_ifs
    · exact .cons hab this
    · exact this

/-- The records of an output file: the last one is followed by a text. -/
theorem forall₂_last {α β : Type*} {S : α → β → Prop} {g : α → α} {last : α} {rs l : List α} {m : List β} {k : α → α}
    (h : List.Forall₂ (fun a b => S (g a) b ∧ S (k (g a)) b) l m) (hl : l.map g = rs ++ [last]) : List.Forall₂ S (rs ++ [k last]) m := by
  induction rs generalizing l m with
  | nil =>
    cases h with
    | nil => simp at hl
    | cons h1 h2 =>
      simp only [List.map_cons, List.nil_append, List.cons.injEq, List.map_eq_nil_iff] at hl
      obtain ⟨rfl, rfl⟩ := hl
      cases h2
      exact .cons h1.2 .nil
  | cons r rs ih =>
    cases h with
    | nil => simp at hl
    | cons h1 h2 =>
      simp only [List.map_cons, List.cons_append, List.cons.injEq] at hl
      obtain ⟨rfl, hl⟩ := hl
      exact .cons h1.1 (ih h2 hl)

/-! ### The property -/

variable [Zero K] [Mul K] [LinearOrder V]

/-- **C94** for one file in which the ends of records are regular: the file for a region with events is again an input file for
cres, with the same header. Its events are those events of the input file that are in the region. In the format LHEF this also
holds for regions without events. -/
theorem C94_region_file_partial {cfg : IOConfig K V} {content : Bytes} {d : EventFile K V} (hd : IsEventFile cfg content d)
    (hend : ∀ r ∈ d.records, RegularEnd d.kind r) {event : Bytes → Outcome ReadError E} {p : VPTreePartition E D}
    {reg : Event K V → Nat} (hreg : ∀ r ∈ d.records, ∀ ev, RecordEvent cfg d.kind r ev → ∃ e, event r = .ok e ∧ p.region e = reg ev) :
    ∃ outs, classify (classifyFormat d.kind) event p d.header d.records = (.ok (), outs) ∧ outs.length = p.len ∧
      ∀ i (hi : i < outs.length), (d.kind = .lhef ∨ ∃ ev ∈ d.events, reg ev = i) →
        ∃ d', IsEventFile cfg outs[i] d' ∧ RegionPart reg i d d' := by
  obtain ⟨⟨hutf, hdet, hkind⟩, hev⟩ := hd
  have hev' : ∀ r ∈ d.records, ∃ e, event r = .ok e := by
    intro r hr
    obtain ⟨n, hn, rfl⟩ := List.getElem_of_mem hr
    obtain ⟨e, he, -⟩ := hreg _ hr _ (List.Forall₂.get hev hn (by rw [← hev.length_eq]; exact hn))
    exact ⟨e, he⟩
  refine ⟨_, classify_ok _ event p d.header d.records hev', by simp, ?_⟩
  intro i hi hne
  rw [List.getElem_map, List.getElem_range]
  -- the records and events of the region
  have hfilter : List.Forall₂ (RecordEvent cfg d.kind) (d.records.filter fun r => regionOf event p r = some i)
      (d.events.filter fun ev => reg ev = i) := by
    apply forall₂_filter hev
    intro r hr ev hrev
    obtain ⟨e, he, hre⟩ := hreg r hr ev hrev
    simp [regionOf, he, hre]
  have hlist : (d.records.filter fun r => regionOf event p r = some i) = [] ↔ (d.events.filter fun ev => reg ev = i) = [] := by
    rw [← List.length_eq_zero_iff, ← List.length_eq_zero_iff, hfilter.length_eq]
  have hmem : ∀ r ∈ (d.records.filter fun r => regionOf event p r = some i), r ∈ d.records := fun r hr => (List.mem_filter.1 hr).1
  have hfilter' : List.Forall₂ (fun r ev => r ∈ d.records ∧ RecordEvent cfg d.kind r ev)
      (d.records.filter fun r => regionOf event p r = some i) (d.events.filter fun ev => reg ev = i) :=
    (List.forall₂_and_left _ _).2 ⟨hmem, hfilter⟩
  obtain ⟨⟨kind, header, records⟩, events⟩ := d
  simp only at *
  -- there is a last record
  have hlast : (∃ ev ∈ events, reg ev = i) → ∃ rs last, regionRecords (classifyFormat kind) event p records i = rs ++ [last] := by
    rintro ⟨ev, h1, h2⟩
    have : regionRecords (classifyFormat kind) event p records i ≠ [] := by
      unfold regionRecords
      rw [Ne, List.map_eq_nil_iff, hlist]
      intro hn
      have : ev ∈ events.filter (fun ev => reg ev = i) := List.mem_filter.2 ⟨h1, by simp [h2]⟩
      rw [hn] at this
      simp at this
    exact ⟨_, _, (List.dropLast_concat_getLast this).symm⟩
  cases kind with
  | hepmc2 =>
    obtain ⟨rs, last, hrs⟩ := hlast (hne.resolve_left (by simp))
    obtain ⟨hsplit, -⟩ := hkind
    have htrim : ∀ r ∈ records, ∀ ev, RecordEvent cfg .hepmc2 r ev → _ := fun r hr ev hrev => hepmc_trimmed cfg.ctx hrev (hend r hr)
    have hnl : ∀ r ∈ records.dropLast, (trimFooter .hepmc r).getLast? = some 10 := by
      intro r hr
      have hr := List.mem_of_mem_dropLast hr
      obtain ⟨n, hn, rfl⟩ := List.getElem_of_mem hr
      exact (htrim _ hr _ (List.Forall₂.get hev hn (by rw [← hev.length_eq]; exact hn))).2.2
    obtain ⟨o1, o2, o3⟩ := hepmc_output_split hsplit hutf hnl event p i hrs
    refine ⟨⟨⟨.hepmc2, header, rs ++ [last ++ footer .hepmc ++ [10]]⟩, events.filter fun ev => reg ev = i⟩,
      ⟨⟨o1, hdet, o3, o2⟩, ?_⟩, ⟨rfl, rfl, rfl⟩⟩
    refine forall₂_last (k := fun r => r ++ footer .hepmc ++ [10]) (g := trimFooter .hepmc) ?_ hrs
    exact hfilter'.imp fun r ev h => ⟨(htrim r h.1 ev h.2).1, (htrim r h.1 ev h.2).2.1⟩
  | lhef =>
    obtain ⟨hsplit, hws⟩ := hkind
    obtain ⟨o1, o2⟩ := lhef_output_split hsplit hutf event p i
    refine ⟨⟨⟨.lhef, header, records.filter fun r => regionOf event p r = some i⟩, events.filter fun ev => reg ev = i⟩,
      ⟨⟨o1, hdet, o2, fun r hr => hws r (hmem r hr)⟩, hfilter⟩, ⟨rfl, rfl, rfl⟩⟩
  | stripperXml s =>
    obtain ⟨rs, last, hrs⟩ := hlast (hne.resolve_left (by simp))
    obtain ⟨hsplit, -, hq, name, n, m, hx, hsc, hm⟩ := hkind
    have hrs : regionRecords .stripper event p records i = rs ++ [last] := hrs
    obtain ⟨o1, o2, o3⟩ := stripper_output_split hsplit hutf event p i hrs
    have hlen : (rs ++ [last ++ footer .stripper ++ [10]]).length ≤ records.length := by
      have : (rs ++ [last]).length ≤ records.length := by
        rw [← hrs]
        unfold regionRecords
        rw [List.length_map]
        exact List.length_filter_le _ _
      simpa using this
    refine ⟨⟨⟨.stripperXml s, header, rs ++ [last ++ footer .stripper ++ [10]]⟩, events.filter fun ev => reg ev = i⟩,
      ⟨⟨o1, hdet, o3, o2, ?_, name, n, m, hx, hsc, fun hdb => hlen.trans (hm hdb)⟩, ?_⟩, ⟨rfl, rfl, rfl⟩⟩
    · intro r hr
      rcases List.mem_append.1 hr with hr | hr
      · obtain ⟨r', hr', rfl⟩ := regionRecords_mem (f := .stripper) (event := event) (p := p) (i := i) (x := r) (by rw [hrs]; simp [hr])
        exact (quoted_trimmed _ (hq r' hr')).1
      · obtain ⟨r', hr', hl⟩ := regionRecords_mem (f := .stripper) (event := event) (p := p) (i := i) (x := last) (by rw [hrs]; simp)
        rw [List.mem_singleton.1 hr, hl]
        exact (quoted_trimmed _ (hq r' hr')).2
    · refine forall₂_last (k := fun r => r ++ footer .stripper ++ [10]) (g := trimFooter .stripper) ?_ hrs
      refine hfilter'.imp fun r ev h => ?_
      obtain ⟨hr, ev0, w, h1, h2, h3, h4⟩ := h
      obtain ⟨t1, t2⟩ := stripper_trimmed cfg.ctx (hend r hr) h1
      exact ⟨⟨ev0, w, t1, h2, h3, h4⟩, ⟨ev0, w, t2, h2, h3, h4⟩⟩

/-- **C94** for several files with different names (also different up to a final dot): after classifying the events, the files for
a region that has events in each file are input files for cres, and contain exactly the events in the region. -/
theorem C94_files_partial {cfg : IOConfig K V} {event : Bytes → Outcome ReadError E} {p : VPTreePartition E D} {reg : Event K V → Nat}
    {inputs : List Input} {ds : List (EventFile K V)} (dir : Dir) (hnames : (inputs.map fun x => splitName x.name).Nodup)
    (hin : List.Forall₂ (fun x d => x.format = classifyFormat d.kind ∧ x.header = d.header ∧ x.records = d.records) inputs ds)
    (hd : ∀ d ∈ ds, ∃ content, IsEventFile cfg content d) (hend : ∀ d ∈ ds, ∀ r ∈ d.records, RegularEnd d.kind r)
    (hreg : ∀ d ∈ ds, ∀ r ∈ d.records, ∀ ev, RecordEvent cfg d.kind r ev → ∃ e, event r = .ok e ∧ p.region e = reg ev) :
    ∃ dir', classifyAll event p inputs dir = (.ok (), dir') ∧ ∀ i < p.len, (∀ d ∈ ds, d.kind = .lhef ∨ ∃ ev ∈ d.events, reg ev = i) →
      ∃ ds', EventFiles cfg dir' (inputs.map fun x => outName x.name i) ds' ∧ List.Forall₂ (RegionPart reg i) ds ds' := by
  have hev : ∀ x ∈ inputs, ∀ r ∈ x.records, ∃ e, event r = .ok e := by
    intro x hx r hr
    obtain ⟨n, hn, rfl⟩ := List.getElem_of_mem hx
    have hn' : n < ds.length := by rw [← hin.length_eq]; exact hn
    obtain ⟨h1, h2, h3⟩ := List.Forall₂.get hin hn hn'
    simp only [List.get_eq_getElem] at h3
    rw [h3] at hr
    have hm : ds[n] ∈ ds := List.getElem_mem hn'
    obtain ⟨content, -, hc⟩ := hd _ hm
    obtain ⟨m, hm', rfl⟩ := List.getElem_of_mem hr
    obtain ⟨e, he, -⟩ := hreg _ hm _ (List.getElem_mem hm') _ (List.Forall₂.get hc hm' (by rw [← hc.length_eq]; exact hm'))
    exact ⟨e, he⟩
  obtain ⟨dir', h1, h2, -⟩ := C60_several_partial event p inputs dir hnames hev
  refine ⟨dir', h1, ?_⟩
  intro i hi hne
  -- one file after the other
  have key : ∀ (xs : List Input) (es : List (EventFile K V)), (∀ x ∈ xs, x ∈ inputs) → (∀ d ∈ es, d ∈ ds) →
      List.Forall₂ (fun x d => x.format = classifyFormat d.kind ∧ x.header = d.header ∧ x.records = d.records) xs es →
      ∃ ds', EventFiles cfg dir' (xs.map fun x => outName x.name i) ds' ∧ List.Forall₂ (RegionPart reg i) es ds' := by
    intro xs es hxs hes h
    induction h with
    | nil => exact ⟨[], .nil, .nil⟩
    | @cons x d xs es hxd _ ih =>
      obtain ⟨ds', g1, g2⟩ := ih (fun y hy => hxs y (by simp [hy])) (fun y hy => hes y (by simp [hy]))
      obtain ⟨outs, k1, k2, k3⟩ := h2 x (hxs x (by simp))
      have hdm := hes d (by simp)
      obtain ⟨content, hc⟩ := hd d hdm
      obtain ⟨outs', l1, l2, l3⟩ := C94_region_file_partial hc (hend d hdm) (hreg d hdm)
      rw [hxd.1, hxd.2.1, hxd.2.2, l1] at k1
      simp only [Prod.mk.injEq, true_and] at k1
      subst k1
      obtain ⟨d', m1, m2⟩ := l3 i (by omega) (hne d hdm)
      exact ⟨d' :: ds', .cons ⟨_, k3 i (by omega), m1⟩ g1, .cons m2 g2⟩
  exact key inputs ds (fun _ h => h) (fun _ h => h) hin

/-! ### Sums of weights -/

omit [Zero K] [Mul K] [LinearOrder V] in
theorem regionPart_events {reg : Event K V → Nat} {i : Nat} {ds ds' : List (EventFile K V)} (h : List.Forall₂ (RegionPart reg i) ds ds') :
    allEvents ds' = (allEvents ds).filter fun ev => reg ev = i := by
  unfold allEvents
  induction h with
  | nil => rfl
  | cons h1 _ ih => rw [List.flatMap_cons, List.flatMap_cons, List.filter_append, ih, h1.events]

theorem sum_by_region {M α : Type*} [AddCommMonoid M] (reg : α → Nat) (f : α → M) (n : Nat) : ∀ (l : List α), (∀ x ∈ l, reg x < n) →
    ((List.range n).map fun i => ((l.filter fun x => reg x = i).map f).sum).sum = (l.map f).sum := by
  intro l
  induction l with
  | nil => intro _; simp
  | cons x l ih =>
    intro h
    rw [List.map_cons, List.sum_cons, ← ih fun y hy => h y (by simp [hy])]
    have hstep : ∀ i, (((x :: l).filter fun x => reg x = i).map f).sum =
        (if reg x = i then f x else 0) + ((l.filter fun x => reg x = i).map f).sum := by
      intro i
      rw [List.filter_cons]
      by_cases hi : reg x = i
      · simp [hi]
      · simp [hi]
    simp only [hstep]
    rw [List.sum_map_add]
    congr 1
    have := h x (by simp)
    have hr : ((List.range n).map fun i => if reg x = i then f x else 0).sum = ∑ i ∈ Finset.range n, if reg x = i then f x else 0 := by
      rw [Finset.sum_eq_multiset_sum]
      rfl
    rw [hr]
    simp [this]

/-- **C94**: resampling the regions separately preserves the sum of weights. The events of the files `ds` are distributed over the
regions `0, …, n - 1`, the files of each region are the input files of a run of cres as in C74. Then the weights in the output files
of all runs together have the same sum as in the files `ds`. Without `multiweight` the weights of events that have no
particles after clustering are missing in this sum. -/
theorem C94_sum {K V D : Type*} [LinearOrder V] [Zero D] [LinearOrder D] [DistNum D] [ExactComparison D]
    [Field K] [LinearOrder K] [IsStrictOrderedRing K] {s : CresSettings K V D} (hc : GoodChoices s) (h0 : s.minWeight = 0)
    {reg : Event K V → Nat} {n : Nat} {ds : List (EventFile K V)} (hreg : ∀ ev ∈ allEvents ds, reg ev < n)
    {cwd : List Bytes} {outdir : Nat → Bytes} {ins : Nat → List (Bytes × Bytes)} {tags : Nat → List (Option (Stripper.XmlTag K))}
    {fs fs' : Nat → FS (List Bytes)} (hg : ∀ i < n, GoodInputs s.io cwd (outdir i) (ins i) (tags i) (fs i))
    {io : Nat → IOConfig K V} (hio : ∀ i < n, io i = { s.io with scaling := channelScales (tags i) }) {parts : Nat → List (EventFile K V)}
    (hparts : ∀ i < n, List.Forall₂ (RegionPart reg i) ds (parts i))
    (hin : ∀ i < n, EventFiles (io i) (fs i) ((eventInputs (ins i) (tags i)).map fun x => locate cwd x.1 ++ [x.2]) (parts i))
    (hsup : ∀ i < n, WeightsSupported (io i) (parts i)) {ws : Nat → List (Weights K)} {res : Nat → Outcome MainError Unit}
    (h : ∀ i < n, MainRun s cwd (outdir i) ((ins i).map fun x => x.1 ++ x.2) (fs i) (some (ws i)) (res i) (fs' i))
    (hw : ∀ i < n, ∀ w ∈ ws i, ∀ x ∈ w, ∀ d ∈ parts i, Writable (io i) d.kind x) :
    ∃ outs : Nat → List (EventFile K V),
      (∀ i < n, res i = .ok () ∧
        EventFiles (io i) (fs' i) ((eventInputs (ins i) (tags i)).map fun x => locate cwd (outdir i) ++ [x.2]) (outs i) ∧
        List.Forall₂ SameExceptWeights (parts i) (outs i)) ∧
      ∀ k, ((List.range n).map fun i => weightSumNo k (allEvents (outs i))).sum =
        weightSumNo k ((allEvents ds).filter fun ev => s.io.ctx.multi || HasParticles s.program ev) := by
  have hrun : ∀ i, ∃ out : List (EventFile K V), i < n → res i = .ok () ∧
      EventFiles (io i) (fs' i) ((eventInputs (ins i) (tags i)).map fun x => locate cwd (outdir i) ++ [x.2]) out ∧
      List.Forall₂ SameExceptWeights (parts i) out ∧ ∀ k, weightSumNo k (allEvents out) =
        weightSumNo k ((allEvents (parts i)).filter fun ev => s.io.ctx.multi || HasParticles s.program ev) := by
    intro i
    by_cases hi : i < n
    · obtain ⟨h1, ⟨out, h2, h3, h4⟩, -⟩ := C74_run hc h0 (hg i hi) (hio i hi) (hin i hi) (hsup i hi) (h i hi) (hw i hi)
      exact ⟨out, fun _ => ⟨h1, h2, h3, h4⟩⟩
    · exact ⟨[], fun h => absurd h hi⟩
  choose outs houts using hrun
  refine ⟨outs, fun i hi => ⟨(houts i hi).1, (houts i hi).2.1, (houts i hi).2.2.1⟩, ?_⟩
  intro k
  have h1 : ((List.range n).map fun i => weightSumNo k (allEvents (outs i))) = (List.range n).map fun i =>
      ((((allEvents ds).filter fun ev => s.io.ctx.multi || HasParticles s.program ev).filter fun ev => reg ev = i).map (weightNo k)).sum := by
    apply List.map_congr_left
    intro i hi
    have hi := List.mem_range.1 hi
    rw [(houts i hi).2.2.2 k, regionPart_events (hparts i hi), List.filter_comm]
    rfl
  rw [h1, sum_by_region]
  · rfl
  · intro ev hev
    exact hreg ev (List.mem_filter.1 hev).1

/-! ### Blank lines -/

/-- **C94** as stated: whenever the input file is an event file, the files for regions with events are. -/
def C94_claim : Prop := ∀ (cfg : IOConfig ℚ ℚ) (content : Bytes) (d : EventFile ℚ ℚ) (event : Bytes → Outcome ReadError ℚ)
  (p : VPTreePartition ℚ ℚ) (reg : Event ℚ ℚ → Nat), IsEventFile cfg content d →
  (∀ r ∈ d.records, ∀ ev, RecordEvent cfg d.kind r ev → ∃ e, event r = .ok e ∧ p.region e = reg ev) →
  ∃ outs, classify (classifyFormat d.kind) event p d.header d.records = (.ok (), outs) ∧
    ∀ i (hi : i < outs.length), (∃ ev ∈ d.events, reg ev = i) → ∃ d', IsEventFile cfg outs[i] d' ∧ RegionPart reg i d d'

/-- A file with a blank line after an event. -/
def exBlank : EventFile ℚ ℚ :=
  ⟨⟨.hepmc2, ascii "H\n", [ascii "E 1 2 3 4 5 6 7 8 9 0 0 1 -2\nP 1 21 0 0 0 7 0 1 0 0 0\n\n"]⟩, [⟨0, [-2], [(21, [7])]⟩]⟩

theorem exBlank_ok : IsEventFile (exSettings false).io (exBlank.header ++ exBlank.records.flatten) exBlank := by
  refine ⟨⟨by decide +kernel, ?_, ⟨rfl, by simp [exBlank], by decide +kernel, ?_, ?_, ?_, ?_⟩, ?_⟩, ?_⟩
  · exact fun rest => detectFormat_append _ (b := 72) (h := [10]) (by decide) (Or.inr (by decide)) rest
  · unfold Contains; decide +kernel
  · decide +kernel
  · unfold Contains; decide +kernel
  · decide +kernel
  · decide +kernel
  · refine .cons ?_ .nil
    show HepMC.parse _ _ = _
    decide +kernel

/-- In the output file the footer follows the blank line. The line with the footer is then not recognised. -/
theorem C94_violated : ¬ C94_claim := by
  intro h
  obtain ⟨outs, h1, h2⟩ := h (exSettings false).io _ exBlank (fun _ => .ok 0) ⟨[], fun _ _ => 0⟩ (fun _ => 0) exBlank_ok
    (fun r hr ev _ => ⟨0, rfl, rfl⟩)
  have h3 : classify (classifyFormat exBlank.kind) (fun _ => .ok 0) (⟨[], fun _ _ => 0⟩ : VPTreePartition ℚ ℚ) exBlank.header exBlank.records =
      (.ok (), [ascii "H\nE 1 2 3 4 5 6 7 8 9 0 0 1 -2\nP 1 21 0 0 0 7 0 1 0 0 0\n\nHepMC::IO_GenEvent-END_EVENT_LISTING\n"]) := by
    decide +kernel
  rw [h3] at h1
  simp only [Prod.mk.injEq, true_and] at h1
  subst h1
  obtain ⟨d', ⟨⟨g1, -, g2⟩, g3⟩, k1, k2, k3⟩ := h2 0 (by simp) ⟨⟨0, [-2], [(21, [7])]⟩, by simp [exBlank], rfl⟩
  have hk : d'.kind = .hepmc2 := k1
  rw [hk] at g2 g3
  simp only [List.getElem_cons_zero] at g1 g2
  have hr := hepmc_read_of_split g2.1 g1 g2.2
  have hr' : HepMC.readFile (ascii "H\nE 1 2 3 4 5 6 7 8 9 0 0 1 -2\nP 1 21 0 0 0 7 0 1 0 0 0\n\nHepMC::IO_GenEvent-END_EVENT_LISTING\n") =
      (ascii "H\n", .ok [ascii "E 1 2 3 4 5 6 7 8 9 0 0 1 -2\nP 1 21 0 0 0 7 0 1 0 0 0\n\nHepMC::IO_GenEvent-END_EVENT_LISTING\n"]) := by
    decide +kernel
  rw [hr'] at hr
  simp only [Prod.mk.injEq, Outcome.ok.injEq] at hr
  rw [← hr.2] at g3
  generalize d'.events = evs at g3
  cases g3 with
  | cons g _ =>
    have hp : HepMC.parse (exSettings false).io.ctx
        (ascii "E 1 2 3 4 5 6 7 8 9 0 0 1 -2\nP 1 21 0 0 0 7 0 1 0 0 0\n\nHepMC::IO_GenEvent-END_EVENT_LISTING\n") =
        .err (.unrecognisedEntry "start") := by decide +kernel
    change HepMC.parse _ _ = _ at g
    rw [hp] at g
    simp at g

/-! ### Example -/

theorem withoutFooter_unique {f : Format} {r t : Bytes} (h : WithoutFooter (footer f) r t) : t = trimFooter f r := by
  rcases h with ⟨ws, hw, rfl⟩ | ⟨rfl, hn⟩
  · rw [trimFooter_append f t ws hw]
  · rcases trimFooter_spec f t with ⟨ws, hw, h⟩ | ⟨h, _⟩
    · exact absurd ⟨_, ws, hw, h⟩ hn
    · exact h.symm

/-- A text that ends with a visible character does not end with white space. -/
theorem visible_not_blank {s a w : Bytes} {b : UInt8} (hs : s = a ++ w) (hne : w ≠ []) (hw : Blank w) (hl : s.getLast? = some b)
    (hb : b < 0x80) (hv : isWs1 b = false) : False := by
  obtain ⟨s', rfl⟩ : ∃ s', s = s' ++ [b] := by
    rw [List.getLast?_eq_some_iff] at hl
    exact hl
  have h1 : trimEnd (s' ++ [b]) = s' ++ [b] := by
    unfold trimEnd
    rw [List.reverse_append, List.reverse_singleton, List.singleton_append, trimEndRev_visible hb hv]
    simp
  have h2 : trimEnd (a ++ w) = trimEnd a := by
    obtain ⟨cs, rfl, hc⟩ := hw
    unfold trimEnd
    rw [List.reverse_append, trimEndRev_blanks cs hc]
  rw [hs, h2] at h1
  have h3 := (trimEnd_prefix a).length_le
  rw [h1, List.length_append] at h3
  have : 0 < w.length := List.length_pos_iff.2 hne
  omega

/-- The records of the example for C69 have regular ends. -/
theorem exProgHepmc_regular : ∀ r ∈ exProgHepmc.records, RegularEnd exProgHepmc.kind r := by
  have key : ∀ s : Bytes, trimFooter .hepmc (s ++ [10]) = s ++ [10] → s.getLast? = some 48 → RegularEnd (K := ℚ) .hepmc2 (s ++ [10]) := by
    intro s h1 h2 t ht
    rw [withoutFooter_unique ht, h1]
    refine ⟨s, rfl, ?_⟩
    rintro ⟨a, ws, hw, hs⟩
    rw [List.append_assoc] at hs
    exact visible_not_blank hs (by simp [ascii]) (blank_cons_char (c := ascii "\n") (Or.inl ⟨10, rfl, by decide⟩) hw) h2 (by decide) (by decide)
  intro r hr
  simp only [exProgHepmc, List.mem_cons, List.not_mem_nil, or_false] at hr
  rcases hr with rfl | rfl
  · exact key (ascii "E 1 2 3 4 5 6 7 8 9 0 0 1 -2\nP 1 21 0 0 0 7 0 1 0 0 0") (by decide +kernel) (by decide +kernel)
  · exact key (ascii "E 1 2 3 4 5 6 7 8 9 0 0 1 6\nP 1 21 0 0 0 9 0 1 0 0 0") (by decide +kernel) (by decide +kernel)

/-- The two events of the example are in different regions. -/
example : ∃ d0 d1, IsEventFile (exSettings false).io
      (ascii "H\nE 1 2 3 4 5 6 7 8 9 0 0 1 -2\nP 1 21 0 0 0 7 0 1 0 0 0\nHepMC::IO_GenEvent-END_EVENT_LISTING\n") d0 ∧
    IsEventFile (exSettings false).io
      (ascii "H\nE 1 2 3 4 5 6 7 8 9 0 0 1 6\nP 1 21 0 0 0 9 0 1 0 0 0\nHepMC::IO_GenEvent-END_EVENT_LISTING\n") d1 ∧
    d0.events = [⟨0, [-2], [(21, [7])]⟩] ∧ d1.events = [⟨0, [6], [(21, [9])]⟩] := by
  obtain ⟨outs, h1, h2, h3⟩ := C94_region_file_partial (exProgHepmc_ok false) exProgHepmc_regular
    (event := fun r => .ok (r.length : Int)) (p := (⟨[⟨54, 0⟩], fun a b => |a - b|⟩ : VPTreePartition Int Int))
    (reg := fun ev => if ev.weights = [-2] then 0 else 1) (by
      intro r hr ev hrev
      simp only [exProgHepmc, List.mem_cons, List.not_mem_nil, or_false] at hr
      rcases hr with rfl | rfl
      · have h : HepMC.parse (exSettings false).io.ctx (ascii "E 1 2 3 4 5 6 7 8 9 0 0 1 -2\nP 1 21 0 0 0 7 0 1 0 0 0\n") =
            .ok ⟨0, [-2], [(21, [7])]⟩ := by decide +kernel
        change HepMC.parse _ _ = _ at hrev
        rw [h, Outcome.ok.injEq] at hrev
        subst hrev
        exact ⟨_, rfl, by decide +kernel⟩
      · have h : HepMC.parse (exSettings false).io.ctx (ascii "E 1 2 3 4 5 6 7 8 9 0 0 1 6\nP 1 21 0 0 0 9 0 1 0 0 0\n") =
            .ok ⟨0, [6], [(21, [9])]⟩ := by decide +kernel
        change HepMC.parse _ _ = _ at hrev
        rw [h, Outcome.ok.injEq] at hrev
        subst hrev
        exact ⟨_, rfl, by decide +kernel⟩)
  have ho : outs = [ascii "H\nE 1 2 3 4 5 6 7 8 9 0 0 1 -2\nP 1 21 0 0 0 7 0 1 0 0 0\nHepMC::IO_GenEvent-END_EVENT_LISTING\n",
      ascii "H\nE 1 2 3 4 5 6 7 8 9 0 0 1 6\nP 1 21 0 0 0 9 0 1 0 0 0\nHepMC::IO_GenEvent-END_EVENT_LISTING\n"] := by
    have := congrArg Prod.snd h1
    refine this.symm.trans ?_
    decide +kernel
  subst ho
  obtain ⟨d0, g1, g2⟩ := h3 0 (by simp) (Or.inr ⟨⟨0, [-2], [(21, [7])]⟩, by simp [exProgHepmc], by simp⟩)
  obtain ⟨d1, k1, k2⟩ := h3 1 (by simp) (Or.inr ⟨⟨0, [6], [(21, [9])]⟩, by simp [exProgHepmc], by norm_num⟩)
  refine ⟨d0, d1, g1, k1, ?_, ?_⟩
  · rw [g2.events]; decide +kernel
  · rw [k2.events]; decide +kernel

end Cres

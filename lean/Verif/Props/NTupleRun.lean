import Verif.Proofs.NTupleRun
import Verif.Props.Written

/-!
# C104: complete runs on ntuples
-/

set_option linter.unusedSectionVars false

namespace Cres

open Spec Program NTuple

section

variable {K V D P : Type*} [Zero D] [LinearOrder D] [Zero K] [One K] [Add K] [Mul K] [Div K] [NatCast K] [LinearOrder K]
  [LinearOrder V] [DecidableEq P]

/-- **C104**, files: a run on ntuples without unweighting that gets as far as updating the weights succeeds. Only output files
change. There is one output file for each input file, with the same number of records in the same order. Records differ only
in the central weight and, with `multiweight`, in the selected weights. -/
theorem C104_files {p : Program K V D} (hg : GoodComponents p) (hun : p.unweight = .ok) {fs fs' : Files K P}
    {files : List (P × P)} {ins : List (List (Record K))} (hin : Inputs fs files ins) (hf : GoodFiles files)
    {events : Option (List (Event K V))} {ws : List (Weights K)} {res : Outcome (CresError IOError) Unit}
    (h : NTuple.Run p files fs events (some ws) res fs') :
    res = .ok () ∧ OnlyOutputs files fs fs' ∧
      ∃ outs, Outputs fs' files outs ∧ List.Forall₂ (List.Forall₂ (NTupleSame p.io.ctx.multi p.io.ctx.names)) ins outs := by
  obtain ⟨_, _, -, -, -, -, h1, h2, outs, h3, h4, -⟩ := run_ntuples hg hun hin hf h
  exact ⟨h1, h2, outs, h3, h4⟩

/-- **C104**, progress: in release builds, if the records can be converted and clustering succeeds, every run gets as far as
updating the weights, and there is such a run. -/
theorem C104_completes {p : Program K V D} (hd : p.io.ctx.debug = false) (hg : GoodComponents p) (hun : p.unweight = .ok)
    {fs : Files K P} {files : List (P × P)} {ins : List (List (Record K))} (hin : Inputs fs files ins) (hf : GoodFiles files)
    (hcl : ∀ rs ∈ ins, ∀ r ∈ rs, ∃ ev ev', convert p.io.ctx r = .ok ev ∧ p.cluster ev = .ok ev' ∧ ev'.id = 0) :
    (∀ events ws res fs', NTuple.Run p files fs events ws res fs' → ∃ ws', ws = some ws') ∧
    ∃ events ws res fs', NTuple.Run p files fs events ws res fs' := by
  obtain ⟨s0, fs0, hnew, hread, hex⟩ := reads_ntuples (p := p) hin hf
  have hcl : ∀ r ∈ ins.flatten, ∃ ev ev', convert p.io.ctx r = .ok ev ∧ p.cluster ev = .ok ev' ∧ ev'.id = 0 := by
    intro r hr
    obtain ⟨rs, h1, h2⟩ := List.mem_flatten.1 hr
    exact hcl rs h1 r h2
  have hwc : ∀ {res x events}, ReadsEvents p s0 fs0 res x → res = .ok events →
      (∀ o, p.ComputesWeights events o → ∃ ws, o = .ok ws) ∧ ∃ o, p.ComputesWeights events o := by
    intro res x events h1 h2
    obtain ⟨-, -, h3, -⟩ := hread _ _ h1
    obtain ⟨evs, -, h4⟩ := h3 _ h2
    exact weights_computed hd hg hun (numWeights_pos _ _) (fun h => by rw [h, numWeights_single]) h4
  refine ⟨?_, ?_⟩
  · intro events ws res fs' h
    cases h with
    | createErr h => rw [hnew] at h; simp at h
    | createPanic h => rw [hnew] at h; simp at h
    | readErr h1 h2 =>
      rw [hnew] at h1
      simp only [Prod.mk.injEq, true_and] at h1
      obtain ⟨rfl, rfl⟩ := h1
      obtain ⟨evs, h3⟩ := (hread _ _ h2).2.2.2 hcl
      simp at h3
    | readPanic h1 h2 =>
      rw [hnew] at h1
      simp only [Prod.mk.injEq, true_and] at h1
      obtain ⟨rfl, rfl⟩ := h1
      obtain ⟨evs, h3⟩ := (hread _ _ h2).2.2.2 hcl
      simp at h3
    | weightsErr h1 h2 h3 =>
      rw [hnew] at h1
      simp only [Prod.mk.injEq, true_and] at h1
      obtain ⟨rfl, rfl⟩ := h1
      obtain ⟨ws, h4⟩ := (hwc h2 rfl).1 _ h3
      simp at h4
    | weightsPanic h1 h2 h3 =>
      rw [hnew] at h1
      simp only [Prod.mk.injEq, true_and] at h1
      obtain ⟨rfl, rfl⟩ := h1
      obtain ⟨ws, h4⟩ := (hwc h2 rfl).1 _ h3
      simp at h4
    | @update _ _ _ ws _ _ _ _ => exact ⟨ws, rfl⟩
  · obtain ⟨res, x, h1⟩ := hex
    obtain ⟨events, rfl⟩ := (hread _ _ h1).2.2.2 hcl
    obtain ⟨h2, o, h3⟩ := hwc h1 rfl
    obtain ⟨ws, rfl⟩ := h2 o h3
    exact ⟨_, _, _, _, .update hnew h1 h3⟩

/-- The new weights in the records are those of the events. -/
theorem written_weights {multi : Bool} {names : List Bytes} {conv : Record K → Event K V → Prop}
    (hconv : ∀ r ev, conv r ev → ev.weights = ntupleWeights multi names r) :
    ∀ {rs : List (Record K)} {evs : List (Event K V)} {ws : List (List K)} {out : List (Record K)},
      List.Forall₂ conv rs evs → ws.length = rs.length →
      List.Forall₂ (fun (x : List K × Record K) r' => NTupleUpdate multi names x.1 x.2 r') (ws.zip rs) out →
      out.map (ntupleWeights multi names) = (List.zipWith reweighted ws evs).map Event.weights ∧
        rs.map (ntupleWeights multi names) = evs.map Event.weights
  | [], _, [], _, .nil, _, h => by
    simp only [List.zip_nil_right, List.forall₂_nil_left_iff] at h
    simp [h]
  | r :: rs, ev :: evs, w :: ws, out, .cons h1 h2, hl, h => by
    simp only [List.zip_cons_cons, List.forall₂_cons_left_iff] at h
    obtain ⟨r', out, h3, h4, rfl⟩ := h
    obtain ⟨g1, g2⟩ := written_weights hconv h2 (by simpa using hl) h4
    refine ⟨?_, ?_⟩
    · rw [List.map_cons, List.zipWith_cons_cons, List.map_cons, g1]
      congr 1
      unfold reweighted
      split_ifs with hw
      · rw [h3.unchanged hw, hconv _ _ h1]
      · exact h3.weights hw
    · rw [List.map_cons, List.map_cons, g2, hconv _ _ h1]

/-- Each of the four weights is one of the weights of events, or does not change. -/
theorem field_cases (multi : Bool) (names : List Bytes) {f : Record K → K} (hf : f ∈ ntupleFields) :
    (∃ k, ∀ r, f r = (ntupleWeights multi names r).getD k 0) ∨ ∀ r r', NTupleSame multi names r r' → f r' = f r := by
  simp only [ntupleFields, List.mem_cons, List.not_mem_nil, or_false] at hf
  rcases hf with rfl | rfl | rfl | rfl
  · exact Or.inl ⟨0, fun r => rfl⟩
  · by_cases h : multi = true ∧ ascii "2" ∈ names
    · refine Or.inl ⟨1, fun r => ?_⟩
      simp [ntupleWeights, h.1, h.2]
    · exact Or.inr fun r r' hs => hs.weight2 fun h1 h2 => h ⟨h1, h2⟩
  · by_cases h : multi = true ∧ ascii "ME" ∈ names
    · refine Or.inl ⟨1 + if ascii "2" ∈ names then 1 else 0, fun r => ?_⟩
      by_cases h2 : ascii "2" ∈ names <;> simp [ntupleWeights, h.1, h.2, h2]
    · exact Or.inr fun r r' hs => hs.meWeight fun h1 h2 => h ⟨h1, h2⟩
  · by_cases h : multi = true ∧ ascii "ME2" ∈ names
    · refine Or.inl ⟨1 + (if ascii "2" ∈ names then 1 else 0) + if ascii "ME" ∈ names then 1 else 0, fun r => ?_⟩
      by_cases h2 : ascii "2" ∈ names <;> by_cases h3 : ascii "ME" ∈ names <;> simp [ntupleWeights, h.1, h.2, h2, h3]
    · exact Or.inr fun r r' hs => hs.meWeight2 fun h1 h2 => h ⟨h1, h2⟩

/-- A field that is a weight of events, in terms of events. -/
theorem field_map {f : Record K → K} {multi : Bool} {names : List Bytes} {k : Nat}
    (hk : ∀ r, f r = (ntupleWeights multi names r).getD k 0) {rs : List (Record K)} {evs : List (Event K V)}
    (h : rs.map (ntupleWeights multi names) = evs.map Event.weights) : rs.map f = evs.map (weightNo k) := by
  have h1 : rs.map f = (rs.map (ntupleWeights multi names)).map fun w => w.getD k 0 := by
    rw [List.map_map]
    exact List.map_congr_left fun r _ => hk r
  rw [h1, h, List.map_map]
  rfl

/-- A field that does not change. -/
theorem field_same {f : Record K → K} {R : Record K → Record K → Prop} (hs : ∀ r r', R r r' → f r' = f r)
    {ins outs : List (List (Record K))} (h : List.Forall₂ (List.Forall₂ R) ins outs) : outs.flatten.map f = ins.flatten.map f := by
  have h1 : List.Forall₂ R ins.flatten outs.flatten := by
    induction h with
    | nil => exact .nil
    | cons h1 _ ih => exact List.rel_append h1 ih
  generalize ins.flatten = a at h1
  generalize outs.flatten = b at h1
  induction h1 with
  | nil => rfl
  | cons h1 _ ih => rw [List.map_cons, List.map_cons, ih, hs _ _ h1]

end

section

variable {K V D P : Type*} [Zero D] [LinearOrder D] [Field K] [LinearOrder K] [IsStrictOrderedRing K] [LinearOrder V]
  [DecidableEq P]

/-- **C104**, sums: each of the four weights has the same sum over all output records as over all input records, with
`multiweight` or if all events have particles. This holds for all interleavings. -/
theorem C104_conserved {p : Program K V D} (hg : GoodComponents p) (hun : p.unweight = .ok) {fs fs' : Files K P}
    {files : List (P × P)} {ins : List (List (Record K))} (hin : Inputs fs files ins) (hf : GoodFiles files)
    {events : Option (List (Event K V))} {ws : List (Weights K)} {res : Outcome (CresError IOError) Unit}
    (h : NTuple.Run p files fs events (some ws) res fs')
    (hp : p.io.ctx.multi = true ∨ ∀ rs ∈ ins, ∀ r ∈ rs, RecordHasParticles p r = true)
    {outs : List (List (Record K))} (hout : Outputs fs' files outs) {f : Record K → K} (hfield : f ∈ ntupleFields) :
    ntupleSum f outs = ntupleSum f ins := by
  obtain ⟨evs, events, rfl, h1, he, hcw, -, -, outs', h3, h4, h5⟩ := run_ntuples hg hun hin hf h
  obtain rfl : outs = outs' := outputs_unique hout h3
  have hm0 := numWeights_pos p.io.ctx.multi p.io.ctx.names
  have hm1 : p.io.ctx.multi = false → numWeights p.io.ctx.multi p.io.ctx.names = 1 := fun h => by rw [h, numWeights_single]
  unfold ntupleSum
  rcases field_cases p.io.ctx.multi p.io.ctx.names hfield with ⟨k, hk⟩ | hs
  · obtain ⟨k1, -, k3⟩ := weights_passed_all hg hun hm0 hm1 he hcw
    rw [allEvents_asFile] at k1 k3
    obtain ⟨g1, g2⟩ := written_weights (fun r ev hc => (convert_weights hc).1) h1 (k1.trans h1.length_eq.symm) h5
    rw [field_map hk g1, field_map hk g2]
    refine (k3 k).trans ?_
    unfold weightSumNo
    rw [List.filter_eq_self.2]
    intro ev hev
    rcases hp with hp | hp
    · rw [hp, Bool.true_or]
    · obtain ⟨r, hr, hc⟩ := forall₂_mem h1 hev
      obtain ⟨rs, hrs, hr⟩ := List.mem_flatten.1 hr
      have := hp rs hrs r hr
      unfold RecordHasParticles at this
      rw [hc] at this
      rw [show HasParticles p ev = true from this, Bool.or_true]
  · rw [field_same hs h4]

/-- **C104**, negative weights: for each of the four weights, the contribution of negative weights, the sum of absolute values
and the sum of squares over all output records are at most those over all input records. This holds for all interleavings. -/
theorem C104_no_increase {p : Program K V D} (hg : GoodComponents p) (hun : p.unweight = .ok) {fs fs' : Files K P}
    {files : List (P × P)} {ins : List (List (Record K))} (hin : Inputs fs files ins) (hf : GoodFiles files)
    {events : Option (List (Event K V))} {ws : List (Weights K)} {res : Outcome (CresError IOError) Unit}
    (h : NTuple.Run p files fs events (some ws) res fs')
    {outs : List (List (Record K))} (hout : Outputs fs' files outs) {f : Record K → K} (hfield : f ∈ ntupleFields) :
    ntupleSum (fun r => max (-f r) 0) outs ≤ ntupleSum (fun r => max (-f r) 0) ins ∧
      ntupleSum (fun r => |f r|) outs ≤ ntupleSum (fun r => |f r|) ins ∧
      ntupleSum (fun r => f r ^ 2) outs ≤ ntupleSum (fun r => f r ^ 2) ins := by
  obtain ⟨evs, events, rfl, h1, he, hcw, -, -, outs', h3, h4, h5⟩ := run_ntuples hg hun hin hf h
  obtain rfl : outs = outs' := outputs_unique hout h3
  have hm0 := numWeights_pos p.io.ctx.multi p.io.ctx.names
  have hm1 : p.io.ctx.multi = false → numWeights p.io.ctx.multi p.io.ctx.names = 1 := fun h => by rw [h, numWeights_single]
  rcases field_cases p.io.ctx.multi p.io.ctx.names hfield with ⟨k, hk⟩ | hs
  · obtain ⟨s, hr, hfin, hrun⟩ := computesWeights_state hcw
    obtain ⟨k1, -, hsum⟩ := weights_written_all (M := K) hg hun hm0 hm1 he hr hfin hrun
    rw [allEvents_asFile] at k1 hsum
    obtain ⟨w1, w2⟩ := written_weights (fun r ev hc => (convert_weights hc).1) h1 (k1.trans h1.length_eq.symm) h5
    obtain ⟨g1, g2, g3⟩ := C07_no_increase_parallel (hg.valid _) (read_weights hg hm0 hm1 he) hr hfin k
    have hmap : ∀ (φ : K → K) {rs : List (Record K)} {es : List (Event K V)},
        rs.map (ntupleWeights p.io.ctx.multi p.io.ctx.names) = es.map Event.weights →
        rs.map (fun r => φ (f r)) = es.map fun e => φ (weightNo k e) := by
      intro φ rs es hw
      have := congrArg (List.map φ) (field_map hk hw)
      simpa only [List.map_map, Function.comp_def] using this
    have key : ∀ φ : K → K, (∀ x, φ 0 ≤ φ x) →
        ∑ j ∈ Finset.range (identified events).length, φ (wt s.mem k j) ≤
          ∑ j ∈ Finset.range (identified events).length, φ (wt (memOf (identified events)) k j) →
        ntupleSum (fun r => φ (f r)) outs ≤ ntupleSum (fun r => φ (f r)) ins := by
      intro φ h0 hle
      obtain ⟨e1, e2, -⟩ := (hsum k).1 φ
      unfold ntupleSum
      rw [hmap φ w1, hmap φ w2, e1, e2]
      refine add_le_add hle (list_sum_le _ fun e _ => ?_)
      split_ifs
      · exact le_rfl
      · exact h0 _
    refine ⟨?_, ?_, ?_⟩
    · exact key (fun x => max (-x) 0) (fun x => by simp) g1
    · exact key (fun x => |x|) (fun x => by simp) g2
    · exact key (fun x => x ^ 2) (fun x => by simpa using sq_nonneg x) g3
  · unfold ntupleSum
    refine ⟨le_of_eq ?_, le_of_eq ?_, le_of_eq ?_⟩ <;>
    · congr 1
      refine field_same (fun r r' h => ?_) h4
      simp only [hs r r' h]

end

section

variable {K V D P : Type*} [Zero D] [LinearOrder D] [DistNum D] [ExactComparison D] [Field K] [LinearOrder K]
  [IsStrictOrderedRing K] [LinearOrder V] [DecidableEq P]

/-- **C104** for the command line program: in release builds, if the records can be converted, every run on ntuples without
unweighting succeeds, and there is one. It writes the output files and nothing else, keeps all other contents of records, keeps
the sum of each of the four weights, with `multiweight` or if all events have particles, and does not increase the contribution
of negative weights. -/
theorem C104_cres {s : CresSettings K V D} (hc : GoodChoices s) (h0 : s.minWeight = 0) (hd : s.io.ctx.debug = false)
    {fs : Files K P} {files : List (P × P)} {ins : List (List (Record K))} (hin : Inputs fs files ins) (hf : GoodFiles files)
    (hconv : ∀ rs ∈ ins, ∀ r ∈ rs, ∃ ev, convert s.io.ctx r = .ok ev) :
    (∃ events ws res fs', NTuple.Run s.program files fs events ws res fs') ∧
    ∀ events ws res fs', NTuple.Run s.program files fs events ws res fs' →
      res = .ok () ∧ OnlyOutputs files fs fs' ∧
        ∃ outs, Outputs fs' files outs ∧ List.Forall₂ (List.Forall₂ (NTupleSame s.io.ctx.multi s.io.ctx.names)) ins outs ∧
          ∀ f ∈ ntupleFields,
            (s.io.ctx.multi = true ∨ (∀ rs ∈ ins, ∀ r ∈ rs, RecordHasParticles s.program r = true) →
              ntupleSum f outs = ntupleSum f ins) ∧
            ntupleSum (fun r => max (-f r) 0) outs ≤ ntupleSum (fun r => max (-f r) 0) ins := by
  have hg := cres_goodComponents hc
  have hun := cres_unweight h0
  obtain ⟨h1, h2⟩ := C104_completes (p := s.program) hd hg hun hin hf (by
    intro rs hrs r hr
    obtain ⟨ev, hev⟩ := hconv rs hrs r hr
    exact ⟨ev, _, hev, rfl, (convert_weights hev).2⟩)
  refine ⟨h2, fun events ws res fs' h => ?_⟩
  obtain ⟨ws, rfl⟩ := h1 _ _ _ _ h
  obtain ⟨g1, g2, outs, g3, g4⟩ := C104_files hg hun hin hf h
  exact ⟨g1, g2, outs, g3, g4, fun f hfield => ⟨fun hp => C104_conserved hg hun hin hf h hp g3 hfield,
    (C104_no_increase hg hun hin hf h g3 hfield).1⟩⟩

/-- **C104**, one thread: without unweighting and without a limit on the size of cells, if the sum of the weights of events
with particles is not negative, then no record of an event with particles has a negative weight in the output. -/
theorem C104_no_negative {s : CresSettings K V D} (hc : GoodChoices s) (h0 : s.minWeight = 0)
    {fs fs' : Files K P} {files : List (P × P)} {ins : List (List (Record K))} (hin : Inputs fs files ins) (hf : GoodFiles files)
    {events : List (Event K V)} {ws : List (Weights K)} {res : Outcome (CresError IOError) Unit}
    (h : NTuple.Run s.program files fs (some events) (some ws) res fs') (hone : OneThreadWeights s.program events ws)
    (hlen : events.length ≤ usizeMax) (hno : NoLimit s events)
    (hpos : 0 ≤ ((ins.flatten.filter (RecordHasParticles s.program)).map Record.weight).sum)
    {outs : List (List (Record K))} (hout : Outputs fs' files outs) (i : Nat) (r r' : Record K)
    (hr : ins.flatten[i]? = some r) (hr' : outs.flatten[i]? = some r') :
    (RecordHasParticles s.program r = true → 0 ≤ r'.weight) ∧
    (RecordHasParticles s.program r = false → r'.weight = if s.io.ctx.multi then r.weight else 0) := by
  have hg := cres_goodComponents hc
  have hun := cres_unweight h0
  obtain ⟨evs, events', h0', h1, he, hcw, -, -, outs', h3, h4, h5⟩ := run_ntuples hg hun hin hf h
  simp only [Option.some.injEq] at h0'
  subst h0'
  obtain rfl : outs = outs' := outputs_unique hout h3
  have hm0 := numWeights_pos s.program.io.ctx.multi s.program.io.ctx.names
  have hm1 : s.program.io.ctx.multi = false → numWeights s.program.io.ctx.multi s.program.io.ctx.names = 1 :=
    fun h => by rw [h, numWeights_single]
  obtain ⟨k1, -, -⟩ := weights_passed_all hg hun hm0 hm1 he hcw
  rw [allEvents_asFile] at k1
  obtain ⟨w1, w2⟩ := written_weights (fun r ev hc => (convert_weights hc).1) h1 (k1.trans h1.length_eq.symm) h5
  have hk : ∀ r : Record K, r.weight = (ntupleWeights s.program.io.ctx.multi s.program.io.ctx.names r).getD 0 0 := fun r => rfl
  have hpart : ∀ r ev, convert s.program.io.ctx r = .ok ev → RecordHasParticles s.program r = HasParticles s.program ev := by
    intro r ev hc
    unfold RecordHasParticles
    rw [hc]
  have hfilter : ∀ (rs : List (Record K)) (evs : List (Event K V)),
      List.Forall₂ (fun r ev => convert s.program.io.ctx r = .ok ev) rs evs →
      (rs.filter (RecordHasParticles s.program)).map Record.weight =
        (evs.filter (HasParticles s.program)).map centralWeight := by
    intro rs evs h
    induction h with
    | nil => rfl
    | @cons r ev _ _ h _ ih =>
      rw [List.filter_cons, List.filter_cons, hpart r ev h]
      split_ifs
      · rw [List.map_cons, List.map_cons, ih]
        congr 1
        rw [centralWeight, (convert_weights h).1]
        rfl
      · exact ih
  have hmain := one_thread_nonneg hc h0 hm0 hm1 he hone hlen hno (by
    rw [allEvents_asFile, centralSum, ← hfilter _ _ h1]
    exact hpos)
  rw [allEvents_asFile] at hmain
  have hm := congrArg (·[i]?) (field_map hk w1)
  simp only [List.getElem?_map, hr', Option.map_some] at hm
  obtain ⟨ev', g1, g2⟩ := Option.map_eq_some_iff.1 hm.symm
  have hlt : i < evs.length := by
    rw [← h1.length_eq]
    exact (List.getElem?_eq_some_iff.1 hr).1
  have hce := forall₂_get h1 hr (List.getElem?_eq_getElem hlt)
  obtain ⟨m1, m2⟩ := hmain i _ ev' (List.getElem?_eq_getElem hlt) g1
  rw [weightNo_zero] at g2
  rw [hpart r _ hce, ← g2]
  refine ⟨m1, fun hp => ?_⟩
  rw [m2 hp, centralWeight, (convert_weights hce).1]
  rfl

end

section

variable {K V D P : Type*} [Zero D] [LinearOrder D] [DistNum D] [ExactComparison D] [Zero K] [One K] [Add K] [Mul K] [Div K]
  [Neg K] [NatCast K] [LinearOrder K] [LinearOrder V] [DecidableEq P]

/-- A record with the same weights is the same. -/
theorem same_record {multi : Bool} {names : List Bytes} {r r' : Record K} (h : NTupleSame multi names r r')
    (hw : ntupleWeights multi names r' = ntupleWeights multi names r) : r' = r := by
  have key : ∀ f ∈ (ntupleFields : List (Record K → K)), f r' = f r := by
    intro f hf
    rcases field_cases multi names hf with ⟨k, hk⟩ | hs
    · rw [hk, hk, hw]
    · exact hs r r' h
  have h1 := key _ (by simp [ntupleFields] : Record.weight ∈ ntupleFields)
  have h2 := key _ (by simp [ntupleFields] : Record.weight2 ∈ ntupleFields)
  have h3 := key _ (by simp [ntupleFields] : Record.meWeight ∈ ntupleFields)
  have h4 := key _ (by simp [ntupleFields] : Record.meWeight2 ∈ ntupleFields)
  have h5 := h.rest
  simp only [Prod.mk.injEq] at h5
  obtain ⟨g1, g2, g3, g4, g5, g6, g7⟩ := h5
  cases r
  cases r'
  simp only at h1 h2 h3 h4 g1 g2 g3 g4 g5 g6 g7
  subst h1 h2 h3 h4 g1 g2 g3 g4 g5 g6 g7
  rfl

/-- The record at each position is updated with the weights at this position. -/
theorem updated_at {multi : Bool} {names : List Bytes} {ws : List (List K)} {rs out : List (Record K)}
    (h : List.Forall₂ (fun (x : List K × Record K) r' => NTupleUpdate multi names x.1 x.2 r') (ws.zip rs) out) {i : Nat}
    {w : List K} {r : Record K} (hw : ws[i]? = some w) (hr : rs[i]? = some r) :
    ∃ r', out[i]? = some r' ∧ NTupleUpdate multi names w r r' := by
  have hz : (ws.zip rs)[i]? = some (w, r) := by rw [List.getElem?_zip_eq_some]; exact ⟨hw, hr⟩
  have hlt : i < out.length := by
    rw [← h.length_eq]
    exact (List.getElem?_eq_some_iff.1 hz).1
  exact ⟨_, List.getElem?_eq_getElem hlt, forall₂_get h hz (List.getElem?_eq_getElem hlt)⟩

/-- **C104**, other records: in any arithmetic, the record of an event with non-negative weight that is further than the maximal
cell size from all events with negative weight is the same in the output. This holds for all interleavings. -/
theorem C104_far_records {s : CresSettings K V D} (hc : GoodChoices s) (h0 : s.minWeight = 0)
    {fs fs' : Files K P} {files : List (P × P)} {ins : List (List (Record K))} (hin : Inputs fs files ins) (hf : GoodFiles files)
    {events : Option (List (Event K V))} {ws : List (Weights K)} {res : Outcome (CresError IOError) Unit}
    (h : NTuple.Run s.program files fs events (some ws) res fs')
    {outs : List (List (Record K))} (hout : Outputs fs' files outs) {i : Nat} {r : Record K} {ev e : Event K V}
    (hr : ins.flatten[i]? = some r) (hev : convert s.io.ctx r = .ok ev) (hp : HasParticles s.program ev = true)
    (hread : AsRead s.program i ev e) (hw : 0 ≤ r.weight)
    (hfar : ∀ (i' : Nat) r' ev' e', ins.flatten[i']? = some r' → convert s.io.ctx r' = .ok ev' →
      HasParticles s.program ev' = true → AsRead s.program i' ev' e' → r'.weight < 0 → FarFrom s e' e) :
    outs.flatten[i]? = some r := by
  have hg := cres_goodComponents hc
  have hun := cres_unweight h0
  obtain ⟨evs, events, rfl, h1, he, hcw, -, -, outs', h3, h4, h5⟩ := run_ntuples hg hun hin hf h
  obtain rfl : outs = outs' := outputs_unique hout h3
  have hm0 := numWeights_pos s.program.io.ctx.multi s.program.io.ctx.names
  have hm1 : s.program.io.ctx.multi = false → numWeights s.program.io.ctx.multi s.program.io.ctx.names = 1 :=
    fun h => by rw [h, numWeights_single]
  have hcentral : ∀ {r : Record K} {ev : Event K V}, convert s.io.ctx r = .ok ev → centralWeight ev = r.weight := by
    intro r ev h
    rw [centralWeight, (convert_weights h).1]
    rfl
  have hget : ∀ {i : Nat} {r : Record K} {ev : Event K V}, ins.flatten[i]? = some r → convert s.io.ctx r = .ok ev →
      evs[i]? = some ev := by
    intro i r ev hr hev
    have hlt : i < evs.length := by
      rw [← h1.length_eq]
      exact (List.getElem?_eq_some_iff.1 hr).1
    have := forall₂_get h1 hr (List.getElem?_eq_getElem hlt)
    change convert s.io.ctx r = _ at this
    rw [hev, Outcome.ok.injEq] at this
    rw [List.getElem?_eq_getElem hlt, this]
  have hkey := far_event hc h0 hm0 hm1 he hcw (by rw [allEvents_asFile]; exact hget hr hev) hp hread
    (by rw [hcentral hev]; exact hw) (by
    rintro i' e' ⟨ev', k1, k2, k3⟩ hneg
    rw [allEvents_asFile] at k1
    obtain ⟨r', k4⟩ : ∃ r', ins.flatten[i']? = some r' := by
      have hlt : i' < ins.flatten.length := by
        rw [h1.length_eq]
        exact (List.getElem?_eq_some_iff.1 k1).1
      exact ⟨_, List.getElem?_eq_getElem hlt⟩
    have k5 : convert s.io.ctx r' = .ok ev' := forall₂_get h1 k4 k1
    refine hfar i' r' ev' e' k4 k5 k2 k3 ?_
    obtain ⟨e1, k6, k7⟩ := k3
    rw [← hcentral k5]
    rw [k7] at hneg
    simpa only [centralWeight, hg.cluster _ _ k6] using hneg)
  obtain ⟨r', g1, g2⟩ := updated_at h5 hkey hr
  rw [g1]
  congr 1
  have hne : ev.weights ≠ [] := by
    rw [(convert_weights hev).1]
    simp [ntupleWeights]
  refine same_record ⟨g2.weight2, g2.meWeight, g2.meWeight2, g2.rest⟩ ?_
  rw [g2.weights hne, (convert_weights hev).1]
  rfl

/-- **C104**: if all events have particles and none of them has a negative weight, the output files are copies of the input
files. -/
theorem C104_nothing_to_do {s : CresSettings K V D} (hc : GoodChoices s) (h0 : s.minWeight = 0)
    {fs fs' : Files K P} {files : List (P × P)} {ins : List (List (Record K))} (hin : Inputs fs files ins) (hf : GoodFiles files)
    {events : Option (List (Event K V))} {ws : List (Weights K)} {res : Outcome (CresError IOError) Unit}
    (h : NTuple.Run s.program files fs events (some ws) res fs')
    (hp : ∀ rs ∈ ins, ∀ r ∈ rs, RecordHasParticles s.program r = true) (hw : ∀ rs ∈ ins, ∀ r ∈ rs, 0 ≤ r.weight) :
    Outputs fs' files ins := by
  obtain ⟨-, -, outs, h1, h2⟩ := C104_files (cres_goodComponents hc) (cres_unweight h0) hin hf h
  have hflat : outs.flatten = ins.flatten := by
    have hl : outs.flatten.length = ins.flatten.length := by
      have := congrArg List.length (field_same (f := fun _ => (0 : K)) (fun _ _ _ => rfl) h2)
      simpa only [List.length_map] using this
    apply List.ext_getElem?
    intro i
    cases hr : ins.flatten[i]? with
    | none => rw [List.getElem?_eq_none (by rw [hl]; exact List.getElem?_eq_none_iff.1 hr)]
    | some r =>
      obtain ⟨rs, hrs, hr'⟩ := List.mem_flatten.1 (List.mem_of_getElem? hr)
      have hpr := hp rs hrs r hr'
      unfold RecordHasParticles at hpr
      change (match convert s.io.ctx r with | .ok ev => HasParticles s.program ev | _ => false) = true at hpr
      cases hev : convert s.io.ctx r with
      | err e => rw [hev] at hpr; cases hpr
      | panic => rw [hev] at hpr; cases hpr
      | ok ev =>
        rw [hev] at hpr
        simp only at hpr
        refine C104_far_records hc h0 hin hf h h1 hr hev hpr ⟨_, rfl, rfl⟩ (hw rs hrs r hr') ?_
        intro i' r' _ _ hr' _ _ _ hneg
        obtain ⟨rs', k1, k2⟩ := List.mem_flatten.1 (List.mem_of_getElem? hr')
        exact absurd (hw rs' k1 r' k2) (not_le.2 hneg)
  have : outs = ins := by
    clear h1 hin
    induction h2 with
    | nil => rfl
    | @cons a b as bs hab _ ih =>
      simp only [List.flatten_cons] at hflat
      have hl := hab.length_eq
      obtain ⟨g1, g2⟩ := List.append_inj hflat hl.symm
      rw [g1, ih (fun rs h => hp rs (by simp [h])) (fun rs h => hw rs (by simp [h])) g2]
  rw [← this]
  exact h1

end

/-! ### example -/

/-- A record with one gluon. -/
def exNTRecord (w e : ℚ) : Record ℚ := ⟨w, 1, 2, 3, 1, [21], [e], [0], [0], [0], ascii "x"⟩

/-- Two files with three records. -/
def exNTIns : List (List (Record ℚ)) := [[exNTRecord 6 9, exNTRecord 6 8], [exNTRecord (-2) 7]]

/-- The two files exist; there is an old output file. -/
def exNTFS : Files ℚ ℕ := fun n => if n = 0 then exNTIns[0]? else if n = 1 then exNTIns[1]? else if n = 10 then some [] else none

theorem exNTInputs : Inputs exNTFS [((0 : ℕ), 10), (1, 11)] exNTIns := .cons rfl (.cons rfl .nil)

/-- Execution of a list of reading steps. -/
def exNTRead (multi : Bool) : List ReadAction → ReadState IOError (Record ℚ) ℚ ℚ → Option (ReadState IOError (Record ℚ) ℚ ℚ)
  | [], s => some s
  | a :: as, s => (readStep (NTuple.tryConvert (exSettings multi).io.ctx) (exSettings multi).program.cluster (fun _ => true)
      (exNTIns.flatten.map .ok) s a).bind (exNTRead multi as)

theorem exNTRead_reachable {multi : Bool} {as : List ReadAction} {s s' : ReadState IOError (Record ℚ) ℚ ℚ}
    (h : exNTRead multi as s = some s')
    (hs : ReadReachable (NTuple.tryConvert (exSettings multi).io.ctx) (exSettings multi).program.cluster (fun _ => true)
      (exNTIns.flatten.map .ok) s) :
    ReadReachable (NTuple.tryConvert (exSettings multi).io.ctx) (exSettings multi).program.cluster (fun _ => true)
      (exNTIns.flatten.map .ok) s' := by
  induction as generalizing s with
  | nil =>
    simp only [exNTRead, Option.some.injEq] at h
    exact h ▸ hs
  | cons a as ih =>
    simp only [exNTRead] at h
    cases hst : readStep (NTuple.tryConvert (exSettings multi).io.ctx) (exSettings multi).program.cluster (fun _ => true)
        (exNTIns.flatten.map .ok) s a with
    | none => rw [hst] at h; cases h
    | some s1 =>
      rw [hst] at h
      exact ih h (.step hs hst)

/-- The events. -/
def exNTEvents : List (Event ℚ ℚ) := [⟨0, [6], [(81, [9])]⟩, ⟨1, [6], [(81, [8])]⟩, ⟨2, [-2], [(81, [7])]⟩]

theorem exNT_reads (multi : Bool) : ∃ s fs1 x, Combined.new (exSettings multi).io.ctx.names [((0 : ℕ), 10), (1, 11)] exNTFS =
    (.ok (), s, fs1) ∧ NTuple.ReadsEvents (exSettings multi).program s fs1 (.ok exNTEvents) x := by
  obtain ⟨s, fs1, h1, h2⟩ := Combined.new_ready (names := (exSettings multi).io.ctx.names) exNTInputs exProgGood.disjoint
  obtain ⟨s', fs', -, -, h5⟩ := Combined.items_ready (names := (exSettings multi).io.ctx.names) exNTInputs exProgGood.disjoint 4 s
    fs1 _ h2
  rw [if_pos (by decide)] at h5
  refine ⟨s, fs1, (s', fs'), h1, ?_⟩
  have hdec : (exNTRead multi [.main, .main, .main, .main] .init).map
      (fun s => (s.stopped.isSome, s.pending.isEmpty, s.result)) = some (true, true, .ok exNTEvents) := by
    cases multi <;> decide +kernel
  cases hr : exNTRead multi [.main, .main, .main, .main] .init with
  | none => rw [hr] at hdec; simp at hdec
  | some r =>
    rw [hr] at hdec
    simp only [Option.map_some, Option.some.injEq, Prod.mk.injEq] at hdec
    rw [← hdec.2.2]
    exact .done h5 (exNTRead_reachable hr .init) ⟨hdec.1, by simpa using hdec.2.1⟩

theorem exNT_oneThread (multi : Bool) : OneThreadWeights (exSettings multi).program exNTEvents [[6], [2], [2]] ∧
    (exSettings multi).program.ComputesWeights exNTEvents (.ok [[6], [2], [2]]) := by
  have hdec : (runSchedule (exSettings multi).program.cfg 3 ((exSettings multi).program.nearest exNTEvents)
      ((exSettings multi).program.seeds exNTEvents) (serialSchedule 0 [if multi then 11 else 9])
      (State.init (memOf exNTEvents))).map
      (fun s => (s.tasks 0, s.mem 0, s.mem 1, s.mem 2)) = some (.done (some ⟨[1, 2], 1, 4⟩), [6], [2], [2]) := by
    cases multi <;> decide +kernel
  have hseeds : (exSettings multi).program.seeds exNTEvents = [2] := by cases multi <;> decide +kernel
  cases hr : runSchedule (exSettings multi).program.cfg 3 ((exSettings multi).program.nearest exNTEvents)
      ((exSettings multi).program.seeds exNTEvents) (serialSchedule 0 [if multi then 11 else 9])
      (State.init (memOf exNTEvents)) with
  | none => rw [hr] at hdec; simp at hdec
  | some st =>
    rw [hr] at hdec
    simp only [Option.map_some, Option.some.injEq, Prod.mk.injEq] at hdec
    have hfin : st.Finished ((exSettings multi).program.seeds exNTEvents) := by
      intro t ht
      rw [hseeds] at ht
      simp only [List.length_cons, List.length_nil, zero_add, Nat.lt_one_iff] at ht
      subst ht
      exact ⟨_, hdec.1⟩
    have hw : withWeights exNTEvents st.mem = [⟨0, [6], [(81, [9])]⟩, ⟨1, [2], [(81, [8])]⟩, ⟨2, [2], [(81, [7])]⟩] := by
      simp [withWeights, exNTEvents, hdec]
    have hrun : runWeights (exSettings multi).program.cfg (exSettings multi).program.infoLog
        (fun _ => (.ok (withWeights exNTEvents st.mem) : Outcome IOError (List (Event ℚ ℚ))))
        (exSettings multi).program.unweight exNTEvents = .ok [[6], [2], [2]] := by
      rw [hw]
      cases multi <;> decide +kernel
    have hid : exNTEvents.filter (fun e => !e.outgoingByPid.isEmpty) = exNTEvents := by decide
    refine ⟨⟨exNTEvents, [if multi then 11 else 9], st, hid.symm, by rw [hseeds]; rfl, hr, hfin, hrun⟩, ?_⟩
    have hlog : logSumsPanics (exSettings multi).program.cfg (exSettings multi).program.infoLog exNTEvents = false := by
      cases multi <;> decide +kernel
    have hres : (exSettings multi).program.Resamples (exNTEvents.filter fun e => !e.outgoingByPid.isEmpty)
        (.ok (withWeights exNTEvents st.mem)) := by
      rw [hid]
      exact .ok hlog ⟨st, runSchedule_reachable _ Reachable.init hr, hfin, rfl⟩
    have := ComputesWeights.mk hres
    rw [hrun] at this
    exact this

/-- The hypotheses of the theorems for C104 are met in a run on two files with three records, one of which has a negative
weight. -/
example (multi : Bool) : (∃ res fs', NTuple.Run (exSettings multi).program [((0 : ℕ), 10), (1, 11)] exNTFS (some exNTEvents)
      (some [[6], [2], [2]]) res fs') ∧
    Inputs exNTFS [((0 : ℕ), 10), (1, 11)] exNTIns ∧
    OneThreadWeights (exSettings multi).program exNTEvents [[6], [2], [2]] ∧
    exNTEvents.length ≤ usizeMax ∧ NoLimit (exSettings multi) exNTEvents ∧
    (∀ rs ∈ exNTIns, ∀ r ∈ rs, RecordHasParticles (exSettings multi).program r = true) ∧
    0 ≤ ((exNTIns.flatten.filter (RecordHasParticles (exSettings multi).program)).map Record.weight).sum ∧
    (exSettings multi).io.ctx.debug = false := by
  obtain ⟨s, fs1, x, h1, h2⟩ := exNT_reads multi
  refine ⟨⟨_, _, .update h1 h2 (exNT_oneThread multi).2⟩, exNTInputs, (exNT_oneThread multi).1, by decide +kernel,
    noLimit_of_metric ⟨fun x y _ _ => abs_sub_comm _ _, fun x y z _ _ _ => abs_sub_le _ _ _⟩ ?_, ?_, ?_, rfl⟩ <;>
    cases multi <;> decide +kernel

/-- The weights in the output files of this run. -/
example (multi : Bool) {res : Outcome (CresError IOError) Unit} {fs' : Files ℚ ℕ}
    (h : NTuple.Run (exSettings multi).program [((0 : ℕ), 10), (1, 11)] exNTFS (some exNTEvents) (some [[6], [2], [2]]) res fs')
    {outs : List (List (Record ℚ))} (hout : Outputs fs' [((0 : ℕ), 10), (1, 11)] outs) :
    ntupleSum Record.weight outs = 10 := by
  rw [C104_conserved (cres_goodComponents (exSettings_good multi)) (cres_unweight rfl) exNTInputs exProgGood h
    (Or.inr (by cases multi <;> decide +kernel)) hout (by simp [ntupleFields])]
  decide +kernel

theorem exNT_converts (multi : Bool) : ∀ rs ∈ exNTIns, ∀ r ∈ rs, ∃ ev, convert (exSettings multi).io.ctx r = .ok ev := by
  have : ∀ rs ∈ exNTIns, ∀ r ∈ rs, (convert (exSettings multi).io.ctx r).isOk = true := by cases multi <;> decide +kernel
  intro rs hrs r hr
  have := this rs hrs r hr
  cases hc : convert (exSettings multi).io.ctx r with
  | ok ev => exact ⟨ev, rfl⟩
  | err e => rw [hc] at this; cases this
  | panic => rw [hc] at this; cases this

/-- The hypotheses of `C104_far_records` are met for the first record, if the maximal cell size is 1. -/
example (multi : Bool) : ∃ events ws res fs' outs,
    NTuple.Run (exNear multi).program [((0 : ℕ), 10), (1, 11)] exNTFS events (some ws) res fs' ∧
    Outputs fs' [((0 : ℕ), 10), (1, 11)] outs ∧ outs.flatten[0]? = some (exNTRecord 6 9) := by
  obtain ⟨⟨events, ws, res, fs', h⟩, h1⟩ := C104_cres (exNear_good multi) rfl rfl exNTInputs exProgGood (exNT_converts multi)
  obtain ⟨h2, -⟩ := C104_completes (p := (exNear multi).program) rfl (cres_goodComponents (exNear_good multi)) (cres_unweight rfl)
    exNTInputs exProgGood (by
      intro rs hrs r hr
      obtain ⟨ev, hev⟩ := exNT_converts multi rs hrs r hr
      exact ⟨ev, _, hev, rfl, (convert_weights hev).2⟩)
  obtain ⟨ws, rfl⟩ := h2 _ _ _ _ h
  obtain ⟨-, -, outs, h3, -⟩ := h1 _ _ _ _ h
  refine ⟨events, ws, res, fs', outs, h, h3, ?_⟩
  refine C104_far_records (ev := ⟨0, [6], [(21, [9])]⟩) (e := ⟨0, [6], [(81, [9])]⟩) (exNear_good multi) rfl exNTInputs exProgGood h
    h3 rfl (by cases multi <;> decide +kernel) (by cases multi <;> decide +kernel)
    ⟨⟨0, [6], [(81, [9])]⟩, by cases multi <;> decide +kernel, rfl⟩ (by decide) ?_
  rintro i' r' ev' e' k1 k2 - ⟨e1, k3, rfl⟩ hneg
  have hmem : r' ∈ exNTIns.flatten := List.mem_of_getElem? k1
  have hr : r' = exNTRecord (-2) 7 := by
    simp only [exNTIns, List.flatten_cons, List.flatten_nil, List.cons_append, List.nil_append, List.append_nil, List.mem_cons,
      List.not_mem_nil, or_false] at hmem
    rcases hmem with rfl | rfl | rfl
    · exact absurd hneg (by decide)
    · exact absurd hneg (by decide)
    · rfl
  subst hr
  have hev : ev' = ⟨0, [-2], [(21, [7])]⟩ := by
    have : convert (exNear multi).io.ctx (exNTRecord (-2) 7) = .ok ⟨0, [-2], [(21, [7])]⟩ := by cases multi <;> decide +kernel
    rw [k2] at this
    cases this
    rfl
  subst hev
  have he1 : e1 = ⟨0, [-2], [(81, [7])]⟩ := by
    have : (exNear multi).program.cluster ⟨0, [-2], [(21, [7])]⟩ = .ok ⟨0, [-2], [(81, [7])]⟩ := by cases multi <;> decide +kernel
    rw [k3] at this
    cases this
    rfl
  subst he1
  refine ⟨?_, ?_⟩
  · change (1 : ℚ) < |([7] : List ℚ).sum - ([9] : List ℚ).sum|
    decide +kernel
  · change (1 : ℚ) < |([9] : List ℚ).sum - ([7] : List ℚ).sum|
    decide +kernel

/-- The hypotheses of `C104_nothing_to_do` are met by a file with positive weights. -/
example (multi : Bool) : GoodFiles [((0 : ℕ), 10)] ∧
    Inputs exNTFS [((0 : ℕ), 10)] [[exNTRecord 6 9, exNTRecord 6 8]] ∧
    (∀ rs ∈ [[exNTRecord 6 9, exNTRecord 6 8]], ∀ r ∈ rs, RecordHasParticles (exSettings multi).program r = true ∧ 0 ≤ r.weight) :=
  ⟨⟨by decide, by decide⟩, .cons rfl .nil, by cases multi <;> decide +kernel⟩

end Cres

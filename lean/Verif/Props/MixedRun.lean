import Verif.Proofs.MixedRun
import Verif.Props.NTupleRun
import Verif.Spec.Negative
import Mathlib.Data.Countable.Basic
import Mathlib.Logic.Encodable.Basic

/-!
# C108: complete runs on text files and ntuples together
-/

set_option linter.unusedSectionVars false

namespace Cres

open Spec Program Mixed

section

variable {K V D P : Type*} [Zero D] [LinearOrder D] [Zero K] [One K] [Add K] [Mul K] [Div K] [NatCast K] [LinearOrder K]
  [LinearOrder V] [DecidableEq P]

/-- **C108**, files: a run on files of any formats without unweighting that gets as far as updating the weights succeeds, if
the new weights can be written. Only output files change. There is one output file of the same format for each input file, and
it differs only in the weights. There are new weights for each event in the input files, and the event at each position has
got those at the same position. -/
theorem C108_files {p : Program K V D} {lib : RootLib K} (hlib : GoodRootLib p.io lib)
    (hn : p.io.ctx.multi = true → p.io.ctx.names = []) (hg : GoodComponents p) (hun : p.unweight = .ok) {fs fs' : FS P}
    {files : List (P × P)} {ins : List (AnyFile K V)} (hin : AnyFiles p.io lib fs (files.map Prod.fst) ins) (hf : GoodFiles files)
    {events : Option (List (Event K V))} {ws : List (Weights K)} {res : Outcome (CresError IOError) Unit}
    (h : Mixed.Run p lib files fs events (some ws) res fs')
    (hw : ∀ w ∈ ws, ∀ x ∈ w, ∀ d ∈ ins, AnyWritable p.io d x) :
    res = .ok () ∧ (∀ q ∉ files.map Prod.snd, fs' q = fs q) ∧ ws.length = (anyEvents ins).length ∧
      ∃ outs, AnyFiles p.io lib fs' (files.map Prod.snd) outs ∧
        List.Forall₂ (AnySame p.io.ctx.multi p.io.ctx.names) ins outs ∧
        anyEvents outs = List.zipWith reweighted ws (anyEvents ins) := by
  obtain ⟨events, -, h1, h2, h3⟩ := run_mixed hlib hn hg hun hin hf h
  obtain ⟨h4, h5, outs, h6, h7, h8⟩ := h3 hw
  have := (weights_length hg hun Nat.one_pos (fun _ => rfl) h1 h2).1
  rw [NTuple.allEvents_asFile] at this
  exact ⟨h4, h5, this, outs, h6, h7, h8⟩

/-- **C108**, progress: in release builds, if clustering succeeds, every run on files of any formats gets as far as updating the
weights, and there is such a run. -/
theorem C108_completes {p : Program K V D} {lib : RootLib K} (hlib : GoodRootLib p.io lib)
    (hn : p.io.ctx.multi = true → p.io.ctx.names = []) (hd : p.io.ctx.debug = false) (hg : GoodComponents p)
    (hun : p.unweight = .ok) {fs : FS P} {files : List (P × P)} {ins : List (AnyFile K V)}
    (hin : AnyFiles p.io lib fs (files.map Prod.fst) ins) (hf : GoodFiles files)
    (hcl : ∀ ev ∈ anyEvents ins, ∃ ev', p.cluster ev = .ok ev' ∧ ev'.id = 0) :
    (∀ events ws res fs', Mixed.Run p lib files fs events ws res fs' → ∃ ws', ws = some ws') ∧
    ∃ events ws res fs', Mixed.Run p lib files fs events ws res fs' := by
  obtain ⟨s0, fs0, hnew, hread, hex⟩ := reads_mixed hlib hn hin hf
  have hwc : ∀ {res x events}, Mixed.ReadsEvents p lib s0 fs0 res x → res = .ok events →
      (∀ o, p.ComputesWeights events o → ∃ ws, o = .ok ws) ∧ ∃ o, p.ComputesWeights events o := by
    intro res x events h1 h2
    obtain ⟨-, -, h3, -⟩ := hread _ _ h1
    exact weights_computed hd hg hun Nat.one_pos (fun _ => rfl) (h3 _ h2)
  refine ⟨?_, ?_⟩
  · intro events ws res fs' h
    cases h with
    | createErr h => rw [hnew] at h; simp at h
    | createPanic h => rw [hnew] at h; simp at h
    | readErr h1 h2 =>
      rw [hnew] at h1
      simp only [Prod.mk.injEq, true_and] at h1
      obtain ⟨rfl, rfl⟩ := h1
      obtain ⟨evs, h3⟩ := (hread _ _ h2).2.2.2 hcl
      simp at h3
    | readPanic h1 h2 =>
      rw [hnew] at h1
      simp only [Prod.mk.injEq, true_and] at h1
      obtain ⟨rfl, rfl⟩ := h1
      obtain ⟨evs, h3⟩ := (hread _ _ h2).2.2.2 hcl
      simp at h3
    | weightsErr h1 h2 h3 =>
      rw [hnew] at h1
      simp only [Prod.mk.injEq, true_and] at h1
      obtain ⟨rfl, rfl⟩ := h1
      obtain ⟨ws, h4⟩ := (hwc h2 rfl).1 _ h3
      simp at h4
    | weightsPanic h1 h2 h3 =>
      rw [hnew] at h1
      simp only [Prod.mk.injEq, true_and] at h1
      obtain ⟨rfl, rfl⟩ := h1
      obtain ⟨ws, h4⟩ := (hwc h2 rfl).1 _ h3
      simp at h4
    | @update _ _ _ ws _ _ _ _ => exact ⟨ws, rfl⟩
  · obtain ⟨res, x, h1⟩ := hex
    obtain ⟨events, rfl⟩ := (hread _ _ h1).2.2.2 hcl
    obtain ⟨h2, o, h3⟩ := hwc h1 rfl
    obtain ⟨ws, rfl⟩ := h2 o h3
    exact ⟨_, _, _, _, .update hnew h1 h3⟩

end

section

variable {K V D P : Type*} [Zero D] [LinearOrder D] [Field K] [LinearOrder K] [IsStrictOrderedRing K] [LinearOrder V]
  [DecidableEq P]

/-- **C108**, sums: the sum of the weights in all output files is the sum of the weights in all input files, with
`multiweight` or if all events have particles, although the weight of an event in one file may be moved to an event in a file of
another format. The contribution of negative weights, the sum of absolute values and the sum of squares do not increase. This
holds for all interleavings. -/
theorem C108_conserved {p : Program K V D} {lib : RootLib K} (hlib : GoodRootLib p.io lib)
    (hn : p.io.ctx.multi = true → p.io.ctx.names = []) (hg : GoodComponents p) (hun : p.unweight = .ok) {fs fs' : FS P}
    {files : List (P × P)} {ins : List (AnyFile K V)} (hin : AnyFiles p.io lib fs (files.map Prod.fst) ins) (hf : GoodFiles files)
    {events : Option (List (Event K V))} {ws : List (Weights K)} {res : Outcome (CresError IOError) Unit}
    (h : Mixed.Run p lib files fs events (some ws) res fs')
    (hw : ∀ w ∈ ws, ∀ x ∈ w, ∀ d ∈ ins, AnyWritable p.io d x) :
    ∃ outs, AnyFiles p.io lib fs' (files.map Prod.snd) outs ∧
      List.Forall₂ (AnySame p.io.ctx.multi p.io.ctx.names) ins outs ∧
      (p.io.ctx.multi = true ∨ (∀ ev ∈ anyEvents ins, HasParticles p ev = true) →
        centralSum (anyEvents outs) = centralSum (anyEvents ins)) ∧
      negativeSum 0 (anyEvents outs) ≤ negativeSum 0 (anyEvents ins) ∧
      absSum 0 (anyEvents outs) ≤ absSum 0 (anyEvents ins) ∧
      squareSum 0 (anyEvents outs) ≤ squareSum 0 (anyEvents ins) := by
  obtain ⟨events, -, he, hcw, h3⟩ := run_mixed hlib hn hg hun hin hf h
  obtain ⟨-, -, outs, h6, h7, h8⟩ := h3 hw
  refine ⟨outs, h6, h7, fun hp => ?_, ?_⟩
  · obtain ⟨-, -, k3⟩ := weights_passed_all hg hun Nat.one_pos (fun _ => rfl) he hcw
    have := k3 0
    rw [NTuple.allEvents_asFile, ← h8, List.filter_eq_self.2] at this
    · unfold weightSumNo at this
      unfold centralSum
      rw [show (centralWeight : Event K V → K) = weightNo 0 from funext fun e => (weightNo_zero e).symm]
      exact this
    · intro ev hev
      rcases hp with hp | hp
      · rw [hp, Bool.true_or]
      · rw [hp ev hev, Bool.or_true]
  · obtain ⟨s, hr, hfin, hrun⟩ := computesWeights_state hcw
    obtain ⟨-, -, hsum⟩ := weights_written_all (M := K) hg hun Nat.one_pos (fun _ => rfl) he hr hfin hrun
    rw [NTuple.allEvents_asFile, ← h8] at hsum
    obtain ⟨g1, g2, g3⟩ := C07_no_increase_parallel (hg.valid _) (read_weights hg Nat.one_pos (fun _ => rfl) he) hr hfin 0
    have key : ∀ φ : K → K, (∀ x, φ 0 ≤ φ x) →
        ∑ j ∈ Finset.range (identified events).length, φ (wt s.mem 0 j) ≤
          ∑ j ∈ Finset.range (identified events).length, φ (wt (memOf (identified events)) 0 j) →
        ((anyEvents outs).map fun e => φ (weightNo 0 e)).sum ≤ ((anyEvents ins).map fun e => φ (weightNo 0 e)).sum := by
      intro φ h0 hle
      obtain ⟨e1, e2, -⟩ := (hsum 0).1 φ
      rw [e1, e2]
      refine add_le_add hle (list_sum_le _ fun e _ => ?_)
      split_ifs
      · exact le_rfl
      · exact h0 _
    exact ⟨key (fun x => max (-x) 0) (fun x => by simp) g1, key (fun x => |x|) (fun x => by simp) g2,
      key (fun x => x ^ 2) (fun x => by simpa using sq_nonneg x) g3⟩

end

section

variable {K V D P : Type*} [Zero D] [LinearOrder D] [DistNum D] [ExactComparison D] [Field K] [LinearOrder K]
  [IsStrictOrderedRing K] [LinearOrder V] [DecidableEq P]

/-- **C108** for the command line program: in release builds there is a run on files of any formats without unweighting, and
each run, if the new weights can be written, succeeds, writes the output files and nothing else, keeps everything but the
weights, keeps the sum of weights, with `multiweight` or if all events have particles, and does not increase the contribution of
negative weights. -/
theorem C108_cres {s : CresSettings K V D} (hc : GoodChoices s) (h0 : s.minWeight = 0) (hd : s.io.ctx.debug = false)
    {lib : RootLib K} (hlib : GoodRootLib s.io lib) (hn : s.io.ctx.multi = true → s.io.ctx.names = []) {fs : FS P}
    {files : List (P × P)} {ins : List (AnyFile K V)} (hin : AnyFiles s.io lib fs (files.map Prod.fst) ins) (hf : GoodFiles files) :
    (∃ events ws res fs', Mixed.Run s.program lib files fs events ws res fs') ∧
    ∀ events ws res fs', Mixed.Run s.program lib files fs events ws res fs' →
      ∃ ws', ws = some ws' ∧ ws'.length = (anyEvents ins).length ∧
        ((∀ w ∈ ws', ∀ x ∈ w, ∀ d ∈ ins, AnyWritable s.io d x) →
          res = .ok () ∧ (∀ q ∉ files.map Prod.snd, fs' q = fs q) ∧
          ∃ outs, AnyFiles s.io lib fs' (files.map Prod.snd) outs ∧
            List.Forall₂ (AnySame s.io.ctx.multi s.io.ctx.names) ins outs ∧
            (s.io.ctx.multi = true ∨ (∀ ev ∈ anyEvents ins, HasParticles s.program ev = true) →
              centralSum (anyEvents outs) = centralSum (anyEvents ins)) ∧
            negativeSum 0 (anyEvents outs) ≤ negativeSum 0 (anyEvents ins)) := by
  have hg := cres_goodComponents hc
  have hun := cres_unweight h0
  obtain ⟨h1, h2⟩ := C108_completes (p := s.program) hlib hn hd hg hun hin hf (by
    intro ev hev
    exact ⟨_, rfl, ((records_converted hn hin).2 ev hev).2⟩)
  refine ⟨h2, fun events ws res fs' h => ?_⟩
  obtain ⟨ws, rfl⟩ := h1 _ _ _ _ h
  obtain ⟨events', -, g1, g2, -⟩ := run_mixed hlib hn hg hun hin hf h
  have hlen := (weights_length hg hun Nat.one_pos (fun _ => rfl) g1 g2).1
  rw [NTuple.allEvents_asFile] at hlen
  refine ⟨ws, rfl, hlen, fun hw => ?_⟩
  obtain ⟨k1, k2, -, -⟩ := C108_files hlib hn hg hun hin hf h hw
  obtain ⟨outs, k3, k4, k5, k6, -⟩ := C108_conserved hlib hn hg hun hin hf h hw
  exact ⟨k1, k2, outs, k3, k4, k5, k6⟩

/-- **C108**, one thread: without unweighting and without a limit on the size of cells, if the sum of the weights of events
with particles in all files is not negative, then no event with particles has a negative weight in the output. -/
theorem C108_no_negative {s : CresSettings K V D} (hc : GoodChoices s) (h0 : s.minWeight = 0)
    {lib : RootLib K} (hlib : GoodRootLib s.io lib) (hn : s.io.ctx.multi = true → s.io.ctx.names = []) {fs fs' : FS P}
    {files : List (P × P)} {ins : List (AnyFile K V)} (hin : AnyFiles s.io lib fs (files.map Prod.fst) ins) (hf : GoodFiles files)
    {events : List (Event K V)} {ws : List (Weights K)} {res : Outcome (CresError IOError) Unit}
    (h : Mixed.Run s.program lib files fs (some events) (some ws) res fs') (hone : OneThreadWeights s.program events ws)
    (hlen : events.length ≤ usizeMax) (hno : NoLimit s events)
    (hpos : 0 ≤ centralSum ((anyEvents ins).filter (HasParticles s.program)))
    (hw : ∀ w ∈ ws, ∀ x ∈ w, ∀ d ∈ ins, AnyWritable s.io d x) :
    ∃ outs, AnyFiles s.io lib fs' (files.map Prod.snd) outs ∧
      List.Forall₂ (AnySame s.io.ctx.multi s.io.ctx.names) ins outs ∧
      List.Forall₂ (fun ev ev' => (HasParticles s.program ev = true → 0 ≤ centralWeight ev') ∧
        (HasParticles s.program ev = false → centralWeight ev' = if s.io.ctx.multi then centralWeight ev else 0))
        (anyEvents ins) (anyEvents outs) := by
  have hg := cres_goodComponents hc
  have hun := cres_unweight h0
  obtain ⟨events', h0', he, hcw, h3⟩ := run_mixed hlib hn hg hun hin hf h
  cases h0'
  obtain ⟨-, -, outs, h6, h7, h8⟩ := h3 hw
  have hmain := one_thread_nonneg hc h0 Nat.one_pos (fun _ => rfl) he hone hlen hno (by
    rw [NTuple.allEvents_asFile]
    exact hpos)
  have hl := (weights_length hg hun Nat.one_pos (fun _ => rfl) he hcw).1
  rw [NTuple.allEvents_asFile] at hmain hl
  rw [← h8] at hmain
  refine ⟨outs, h6, h7, List.forall₂_iff_get.2 ⟨?_, fun i hi hi' => ?_⟩⟩
  · rw [h8, List.length_zipWith]
    omega
  · exact hmain i _ _ (by simp [hi]) (by simp [hi'])

end

/-! ### example -/

instance : Countable (NTuple.Record ℚ) := by
  have hb : Countable UInt8 := Function.Injective.countable (f := UInt8.toNat) fun _ _ h => UInt8.toNat_inj.1 h
  refine Function.Injective.countable
    (f := fun r : NTuple.Record ℚ => (r.weight, r.weight2, r.meWeight, r.meWeight2, r.nparticle, r.pdgCode, r.energy, r.px, r.py,
      r.pz, r.other)) ?_
  intro a b h
  cases a
  cases b
  simpa using h

/-- A library for a file format in which the number of bytes stands for the records. -/
noncomputable def exRootLib : RootLib ℚ :=
  letI := Encodable.ofCountable (List (NTuple.Record ℚ))
  { read content := match Encodable.decode (content.length - 4) with
      | some rs => .ok rs
      | none => .err .openInput
    write rs := ascii "root" ++ List.replicate (Encodable.encode rs) 0 }

theorem exRootLib_good (multi : Bool) : GoodRootLib (exSettings multi).io exRootLib := by
  refine ⟨fun rs => ?_, fun rs => ?_⟩
  · simp only [exRootLib]
    have : (ascii "root" ++ List.replicate
        (@Encodable.encode _ (Encodable.ofCountable (List (NTuple.Record ℚ))) rs) (0 : UInt8)).length - 4 =
        @Encodable.encode _ (Encodable.ofCountable (List (NTuple.Record ℚ))) rs := by
      rw [List.length_append, List.length_replicate, show (ascii "root").length = 4 by decide]
      omega
    rw [this, @Encodable.encodek _ (Encodable.ofCountable (List (NTuple.Record ℚ)))]
  · simp only [exRootLib, detectFormat, exSettings, exIO, id]
    rw [if_pos (List.prefix_append _ _)]
    rfl

/-- A text file and an ntuple. -/
noncomputable def exMixedFS : FS ℕ
  | 0 => some (exProgHepmc.header ++ exProgHepmc.records.flatten)
  | 1 => some (exRootLib.write [exNTRecord 6 8])
  | _ => none

/-- What is in these files. -/
def exMixedIns : List (AnyFile ℚ ℚ) := [.text exProgHepmc, .ntuple [exNTRecord 6 8] [⟨0, [6], [(21, [8])]⟩]]

theorem exMixedFiles (multi : Bool) : AnyFiles (exSettings multi).io exRootLib exMixedFS [0, 1] exMixedIns := by
  refine .cons ⟨_, rfl, exProgHepmc_ok multi⟩ (.cons ⟨_, rfl, ?_⟩ .nil)
  refine ⟨(exRootLib_good multi).detect _, (exRootLib_good multi).read_write _, .cons ?_ .nil⟩
  cases multi <;> decide +kernel

/-- Execution of a list of reading steps. -/
def exMixedRead (multi : Bool) : List ReadAction → ReadState IOError (AnyRecord ℚ) ℚ ℚ → Option (ReadState IOError (AnyRecord ℚ) ℚ ℚ)
  | [], s => some s
  | a :: as, s => (readStep (anyConvert (exSettings multi).io.ctx) (exSettings multi).program.cluster Sum.isRight
      ((exMixedIns.flatMap (fileRecords (exSettings multi).io)).map .ok) s a).bind (exMixedRead multi as)

theorem exMixedRead_reachable {multi : Bool} {as : List ReadAction} {s s' : ReadState IOError (AnyRecord ℚ) ℚ ℚ}
    (h : exMixedRead multi as s = some s')
    (hs : ReadReachable (anyConvert (exSettings multi).io.ctx) (exSettings multi).program.cluster Sum.isRight
      ((exMixedIns.flatMap (fileRecords (exSettings multi).io)).map .ok) s) :
    ReadReachable (anyConvert (exSettings multi).io.ctx) (exSettings multi).program.cluster Sum.isRight
      ((exMixedIns.flatMap (fileRecords (exSettings multi).io)).map .ok) s' := by
  induction as generalizing s with
  | nil =>
    simp only [exMixedRead, Option.some.injEq] at h
    exact h ▸ hs
  | cons a as ih =>
    simp only [exMixedRead] at h
    cases hst : readStep (anyConvert (exSettings multi).io.ctx) (exSettings multi).program.cluster Sum.isRight
        ((exMixedIns.flatMap (fileRecords (exSettings multi).io)).map .ok) s a with
    | none => rw [hst] at h; cases h
    | some s1 =>
      rw [hst] at h
      exact ih h (.step hs hst)

theorem exMixed_reads (multi : Bool) : ∃ s fs1 x,
    Mixed.Combined.new (exSettings multi).io exRootLib [((0 : ℕ), 10), (1, 11)] exMixedFS = (.ok (), s, fs1) ∧
    Mixed.ReadsEvents (exSettings multi).program exRootLib s fs1 (.ok exProgEvents) x := by
  obtain ⟨s, fs1, h1, h2⟩ := Mixed.Combined.new_ready (files := [((0 : ℕ), 10), (1, 11)]) (exRootLib_good multi) (fun _ => rfl)
    (exMixedFiles multi) exProgGood.disjoint
  obtain ⟨s', fs', -, -, h5⟩ := Mixed.Combined.items_ready (files := [((0 : ℕ), 10), (1, 11)]) (exRootLib_good multi) (fun _ => rfl)
    (exMixedFiles multi) exProgGood.disjoint 4 s fs1 _ h2
  rw [if_pos (by simp [exMixedIns, fileRecords, exProgHepmc])] at h5
  refine ⟨s, fs1, (s', fs'), h1, ?_⟩
  have hdec : (exMixedRead multi [.main, .main, .task 1, .main, .task 0, .main] .init).map
      (fun s => (s.stopped.isSome, s.pending.isEmpty, s.result)) = some (true, true, .ok exProgEvents) := by
    cases multi <;> decide +kernel
  cases hr : exMixedRead multi [.main, .main, .task 1, .main, .task 0, .main] .init with
  | none => rw [hr] at hdec; simp at hdec
  | some r =>
    rw [hr] at hdec
    simp only [Option.map_some, Option.some.injEq, Prod.mk.injEq] at hdec
    rw [← hdec.2.2]
    exact .done h5 (exMixedRead_reachable hr .init) ⟨hdec.1, by simpa using hdec.2.1⟩

/-- The hypotheses of the theorems for C108 are met in a run on a text file with two events and an ntuple with one event. The
events with weights -2, in the text file, and 6, in the ntuple, are averaged. -/
example (multi : Bool) : (∃ res fs', Mixed.Run (exSettings multi).program exRootLib [((0 : ℕ), 10), (1, 11)] exMixedFS
      (some exProgEvents) (some [[2], [6], [2]]) res fs') ∧
    AnyFiles (exSettings multi).io exRootLib exMixedFS [0, 1] exMixedIns ∧ GoodRootLib (exSettings multi).io exRootLib ∧
    (∀ w ∈ ([[2], [6], [2]] : List (List ℚ)), ∀ x ∈ w, ∀ d ∈ exMixedIns, AnyWritable (exSettings multi).io d x) ∧
    (∀ ev ∈ anyEvents exMixedIns, HasParticles (exSettings multi).program ev = true) ∧
    0 ≤ centralSum ((anyEvents exMixedIns).filter (HasParticles (exSettings multi).program)) ∧
    exProgEvents.length ≤ usizeMax ∧ NoLimit (exSettings multi) exProgEvents ∧
    (exSettings multi).io.ctx.debug = false := by
  obtain ⟨s, fs1, x, h1, h2⟩ := exMixed_reads multi
  refine ⟨⟨_, _, .update h1 h2 (exProg_weights multi)⟩, exMixedFiles multi, exRootLib_good multi, ?_, ?_, ?_, by decide +kernel,
    noLimit_of_metric ⟨fun x y _ _ => abs_sub_comm _ _, fun x y z _ _ _ => abs_sub_le _ _ _⟩ ?_, rfl⟩
  · intro w hw x hx d hd
    have h2 : (exSettings multi).io.ctx.float.finite x = true := by
      simp only [List.mem_cons, List.not_mem_nil, or_false] at hw
      rcases hw with rfl | rfl | rfl <;> simp only [List.mem_cons, List.not_mem_nil, or_false] at hx <;> subst hx <;>
        cases multi <;> decide +kernel
    simp only [exMixedIns, List.mem_cons, List.not_mem_nil, or_false] at hd
    rcases hd with rfl | rfl
    · exact ⟨h2, trivial⟩
    · exact h2
  all_goals cases multi <;> decide +kernel

/-- The events in the output files of this run. -/
example : List.zipWith reweighted [[2], [6], [2]] (anyEvents exMixedIns) =
    [⟨0, [2], [(21, [7])]⟩, ⟨0, [6], [(21, [9])]⟩, ⟨0, [2], [(21, [8])]⟩] := by decide +kernel

end Cres

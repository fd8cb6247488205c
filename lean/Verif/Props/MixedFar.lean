import Verif.Props.MixedRun
import Verif.Props.Written

/-!
# C108: events that keep their weights, and bounds on weights, in runs on text files and ntuples together
-/

set_option linter.unusedSectionVars false

namespace Cres

open Spec Program Mixed

section

variable {K V D P : Type*} [Zero D] [LinearOrder D] [DistNum D] [ExactComparison D] [Zero K] [One K] [Add K] [Mul K] [Div K] [Neg K]
  [NatCast K] [LinearOrder K] [LinearOrder V] [DecidableEq P]

/-- **C108**, other events: in any arithmetic and for all interleavings, an event with non-negative weight that is further than the maximal cell size from all
events with negative weight, in files of any formats, is the same in the output. -/
theorem C108_far {s : CresSettings K V D} (hc : GoodChoices s) (h0 : s.minWeight = 0)
    {lib : RootLib K} (hlib : GoodRootLib s.io lib) (hn : s.io.ctx.multi = true → s.io.ctx.names = []) {fs fs' : FS P}
    {files : List (P × P)} {ins : List (AnyFile K V)} (hin : AnyFiles s.io lib fs (files.map Prod.fst) ins) (hf : GoodFiles files)
    {events : Option (List (Event K V))} {ws : List (Weights K)} {res : Outcome (CresError IOError) Unit}
    (h : Mixed.Run s.program lib files fs events (some ws) res fs') (hw : ∀ w ∈ ws, ∀ x ∈ w, ∀ d ∈ ins, AnyWritable s.io d x) :
    res = .ok () ∧ ∃ outs, AnyFiles s.io lib fs' (files.map Prod.snd) outs ∧
      List.Forall₂ (AnySame s.io.ctx.multi s.io.ctx.names) ins outs ∧ (anyEvents outs).length = (anyEvents ins).length ∧
      ∀ (i : Nat) ev e, (anyEvents ins)[i]? = some ev → HasParticles s.program ev = true → AsRead s.program i ev e →
        0 ≤ centralWeight ev →
        (∀ (i' : Nat) ev' e', (anyEvents ins)[i']? = some ev' → HasParticles s.program ev' = true → AsRead s.program i' ev' e' →
          centralWeight ev' < 0 → FarFrom s e' e) →
        (anyEvents outs)[i]? = some ev := by
  have hg := cres_goodComponents hc
  have hun := cres_unweight h0
  obtain ⟨events, -, he, hcw, h3⟩ := run_mixed hlib hn hg hun hin hf h
  obtain ⟨h4, -, outs, h6, h7, h8⟩ := h3 hw
  have hl := (weights_length hg hun Nat.one_pos (fun _ => rfl) he hcw).1
  rw [NTuple.allEvents_asFile] at hl
  refine ⟨h4, outs, h6, h7, by rw [h8, List.length_zipWith, hl, min_self], fun i ev e hev hp hread h0w hfar => ?_⟩
  have hkey := far_event hc h0 Nat.one_pos (fun _ => rfl) he hcw (by rw [NTuple.allEvents_asFile]; exact hev) hp hread h0w (by
    rintro i' e' ⟨ev', k1, k2, k3⟩ hneg
    rw [NTuple.allEvents_asFile] at k1
    refine hfar i' ev' e' k1 k2 k3 ?_
    obtain ⟨e1, k6, k7⟩ := k3
    rw [k7] at hneg
    simpa only [centralWeight, hg.cluster _ _ k6] using hneg)
  rw [h8, List.getElem?_zipWith, hkey, hev]
  exact congrArg some (reweighted_self ev)

/-- **C108**: if all events have particles and none of them has a negative weight, the events in the output files are those in the input
files. -/
theorem C108_nothing_to_do {s : CresSettings K V D} (hc : GoodChoices s) (h0 : s.minWeight = 0)
    {lib : RootLib K} (hlib : GoodRootLib s.io lib) (hn : s.io.ctx.multi = true → s.io.ctx.names = []) {fs fs' : FS P}
    {files : List (P × P)} {ins : List (AnyFile K V)} (hin : AnyFiles s.io lib fs (files.map Prod.fst) ins) (hf : GoodFiles files)
    {events : Option (List (Event K V))} {ws : List (Weights K)} {res : Outcome (CresError IOError) Unit}
    (h : Mixed.Run s.program lib files fs events (some ws) res fs') (hw : ∀ w ∈ ws, ∀ x ∈ w, ∀ d ∈ ins, AnyWritable s.io d x)
    (hp : ∀ ev ∈ anyEvents ins, HasParticles s.program ev = true) (hpos : ∀ ev ∈ anyEvents ins, 0 ≤ centralWeight ev) :
    res = .ok () ∧ ∃ outs, AnyFiles s.io lib fs' (files.map Prod.snd) outs ∧
      List.Forall₂ (AnySame s.io.ctx.multi s.io.ctx.names) ins outs ∧ anyEvents outs = anyEvents ins := by
  obtain ⟨h1, outs, h2, h3, hl, h4⟩ := C108_far hc h0 hlib hn hin hf h hw
  refine ⟨h1, outs, h2, h3, ?_⟩
  apply List.ext_getElem?
  intro i
  cases hr : (anyEvents ins)[i]? with
  | none => rw [List.getElem?_eq_none (by rw [hl]; exact List.getElem?_eq_none_iff.1 hr)]
  | some ev =>
    have hm := List.mem_of_getElem? hr
    refine h4 i ev _ hr (hp ev hm) ⟨_, rfl, rfl⟩ (hpos ev hm) ?_
    intro i' ev' _ hi' _ _ hneg
    exact absurd (hpos ev' (List.mem_of_getElem? hi')) (not_le.2 hneg)

end

section

variable {K V D P : Type*} [Zero D] [LinearOrder D] [DistNum D] [ExactComparison D] [Field K] [LinearOrder K]
  [IsStrictOrderedRing K] [LinearOrder V] [DecidableEq P]

/-- **C108**, bounds: with exact arithmetic and for all interleavings, the weights of events with particles in the output are not larger (smaller) than
the largest (smallest) weight of an event with particles in the input, in files of any formats. -/
theorem C108_bounds {s : CresSettings K V D} (hc : GoodChoices s) (h0 : s.minWeight = 0)
    {lib : RootLib K} (hlib : GoodRootLib s.io lib) (hn : s.io.ctx.multi = true → s.io.ctx.names = []) {fs fs' : FS P}
    {files : List (P × P)} {ins : List (AnyFile K V)} (hin : AnyFiles s.io lib fs (files.map Prod.fst) ins) (hf : GoodFiles files)
    {events : Option (List (Event K V))} {ws : List (Weights K)} {res : Outcome (CresError IOError) Unit}
    (h : Mixed.Run s.program lib files fs events (some ws) res fs') (hw : ∀ w ∈ ws, ∀ x ∈ w, ∀ d ∈ ins, AnyWritable s.io d x)
    {a b : K} (hb : ∀ ev ∈ anyEvents ins, HasParticles s.program ev = true → a ≤ centralWeight ev ∧ centralWeight ev ≤ b) :
    res = .ok () ∧ ∃ outs, AnyFiles s.io lib fs' (files.map Prod.snd) outs ∧
      List.Forall₂ (AnySame s.io.ctx.multi s.io.ctx.names) ins outs ∧
      ∀ (i : Nat) ev ev', (anyEvents ins)[i]? = some ev → HasParticles s.program ev = true → (anyEvents outs)[i]? = some ev' →
        a ≤ centralWeight ev' ∧ centralWeight ev' ≤ b := by
  have hg := cres_goodComponents hc
  have hun := cres_unweight h0
  obtain ⟨events', -, he, hcw, h3⟩ := run_mixed hlib hn hg hun hin hf h
  obtain ⟨h4, -, outs, h6, h7, h8⟩ := h3 hw
  refine ⟨h4, outs, h6, h7, fun i ev ev' hev hp hev' => ?_⟩
  obtain ⟨st, hr, hfin, hrun⟩ := computesWeights_state hcw
  obtain ⟨j, e, k1, -, k3, k4, k5⟩ := (event_written hg hun Nat.one_pos (fun _ => rfl) he hr hfin hrun i
    (by rw [NTuple.allEvents_asFile]; exact hev)).1 hp
  have hu := read_weights hg Nat.one_pos (fun _ => rfl) he
  have hv := hg.valid (identified events')
  obtain ⟨A, hA⟩ := inv_reachable hv hu hr
  have hmem := finished_mem hA hfin
  obtain ⟨hav, hok⟩ := inv_averageSeq hv hu hA
  have hin' : ∀ l < (identified events').length, a ≤ wt (memOf (identified events')) 0 l ∧ wt (memOf (identified events')) 0 l ≤ b := by
    intro l hl
    have hl' := List.getElem?_eq_getElem hl
    rw [wt_central hl']
    have hids := List.mem_filter.1 (List.getElem_mem hl)
    generalize (identified events')[l] = x at hl' hids
    obtain ⟨e0, e1, g1, g2, g3, -⟩ := he.from_file x hids.1
    rw [NTuple.allEvents_asFile] at g1
    have hb' := hb e0 (List.mem_of_getElem? g1) (by rw [HasParticles, g2]; rw [g3] at hids; exact hids.2)
    rw [g3]
    unfold centralWeight at hb' ⊢
    simp only [hg.cluster _ _ g2]
    exact hb'
  have hj := (List.getElem?_eq_some_iff.1 k1).1
  have key1 := averageSeq_linear hav hok [1] b (by
    intro l hl
    simpa using (hin' l hl).2) j hj
  have key2 := averageSeq_linear hav hok [-1] (-a) (by
    intro l hl
    simpa using (hin' l hl).1) j hj
  rw [h8, List.getElem?_zipWith, k4, hev] at hev'
  simp only [Option.some.injEq] at hev'
  have hne : st.mem j ≠ [] := by
    intro hnil
    rw [hnil] at k5
    exact absurd k5 (by simp)
  have hw' : centralWeight ev' = wt st.mem 0 j := by
    rw [← hev', reweighted, if_neg hne]
    simp [centralWeight, wt, List.head?_eq_getElem?]
  rw [hw', hmem]
  simp only [List.length_singleton, Finset.range_one, Finset.sum_singleton, List.getD_cons_zero, one_mul, neg_mul, neg_le_neg_iff]
    at key1 key2
  exact ⟨key2, key1⟩

end

/-- The hypotheses of `C108_far` and `C108_bounds` are met for a text file and an ntuple if the maximal cell size is 1: the second event in the text file is far from
the event with weight -2. -/
example (multi : Bool) : (∃ res fs', Mixed.Run (exNear multi).program exRootLib [((0 : ℕ), 10), (1, 11)] exMixedFS
      (some exProgEvents) (some [[2], [6], [2]]) res fs') ∧
    AnyFiles (exNear multi).io exRootLib exMixedFS [0, 1] exMixedIns ∧ GoodRootLib (exNear multi).io exRootLib ∧
    GoodChoices (exNear multi) ∧
    (anyEvents exMixedIns)[1]? = some ⟨0, [6], [(21, [9])]⟩ ∧ AsRead (exNear multi).program 1 ⟨0, [6], [(21, [9])]⟩ ⟨1, [6], [(81, [9])]⟩ ∧
    (∀ (i' : Nat) ev' e', (anyEvents exMixedIns)[i']? = some ev' → HasParticles (exNear multi).program ev' = true →
      AsRead (exNear multi).program i' ev' e' → centralWeight ev' < 0 → FarFrom (exNear multi) e' ⟨1, [6], [(81, [9])]⟩) ∧
    (∀ ev ∈ anyEvents exMixedIns, HasParticles (exNear multi).program ev = true ∧ -2 ≤ centralWeight ev ∧ centralWeight ev ≤ 6) := by
  obtain ⟨s, fs1, x, h1, h2⟩ := exMixed_reads multi
  have h2' : Mixed.ReadsEvents (exNear multi).program exRootLib s fs1 (.ok exProgEvents) x := by
    generalize hr : (.ok exProgEvents : Outcome (CresError IOError) (List (Event ℚ ℚ))) = r at h2
    cases h2 with
    | done g1 g2 g3 => exact .done g1 g2 g3
    | panic _ => cases hr
  refine ⟨⟨_, _, .update h1 h2' (exNear_weights multi)⟩, exMixedFiles multi, exRootLib_good multi, exNear_good multi, ?_, ?_, ?_, ?_⟩
  · decide +kernel
  · exact ⟨⟨0, [6], [(81, [9])]⟩, by cases multi <;> decide +kernel, rfl⟩
  · rintro i' ev' e' k1 - ⟨e1, k3, rfl⟩ hneg
    have hmem : ev' ∈ anyEvents exMixedIns := List.mem_of_getElem? k1
    have hall : ∀ ev ∈ anyEvents exMixedIns, centralWeight ev < 0 → ev = ⟨0, [-2], [(21, [7])]⟩ := by decide +kernel
    obtain rfl := hall _ hmem hneg
    have he1 : e1 = ⟨0, [-2], [(81, [7])]⟩ := by
      have : (exNear multi).program.cluster ⟨0, [-2], [(21, [7])]⟩ = .ok ⟨0, [-2], [(81, [7])]⟩ := by cases multi <;> decide +kernel
      rw [k3] at this
      cases this
      rfl
    subst he1
    refine ⟨?_, ?_⟩
    · change (1 : ℚ) < |([7] : List ℚ).sum - ([9] : List ℚ).sum|
      decide +kernel
    · change (1 : ℚ) < |([9] : List ℚ).sum - ([7] : List ℚ).sum|
      decide +kernel
  · cases multi <;> decide +kernel

/-- The hypotheses of `C108_nothing_to_do` are met for the ntuple alone. -/
example (multi : Bool) : GoodFiles [((1 : ℕ), 11)] ∧
    AnyFiles (exSettings multi).io exRootLib exMixedFS [1] [.ntuple [exNTRecord 6 8] [⟨0, [6], [(21, [8])]⟩]] ∧
    (∀ ev ∈ anyEvents ([.ntuple [exNTRecord 6 8] [⟨0, [6], [(21, [8])]⟩]] : List (AnyFile ℚ ℚ)),
      HasParticles (exSettings multi).program ev = true ∧ 0 ≤ centralWeight ev) := by
  refine ⟨⟨by decide, by decide⟩, ?_, by cases multi <;> decide +kernel⟩
  have := exMixedFiles multi
  cases this with
  | cons _ h => exact h

end Cres

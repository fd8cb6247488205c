import Verif.Model.ClassifyDisk
import Verif.Props.Classify

/-!
Property C128: what the output files of `cres-classify-events` contain in spite of write errors and interruptions.
-/

namespace Cres

open Classify Spec

/-- What is written to one of the files. -/
def writtenTo (i : Nat) (ops : List (Nat × Bytes)) : Bytes := ((ops.filter fun op => op.1 = i).map (·.2)).flatten

theorem writtenTo_cons_self (i : Nat) (d : Bytes) (ops : List (Nat × Bytes)) : writtenTo i ((i, d) :: ops) = d ++ writtenTo i ops := by
  simp [writtenTo]

theorem writtenTo_cons_ne {i j : Nat} (h : j ≠ i) (d : Bytes) (ops : List (Nat × Bytes)) : writtenTo i ((j, d) :: ops) = writtenTo i ops := by
  simp [writtenTo, h]

theorem writtenTo_append (i : Nat) (a b : List (Nat × Bytes)) : writtenTo i (a ++ b) = writtenTo i a ++ writtenTo i b := by
  simp [writtenTo]

theorem writtenTo_header {i n : Nat} (h : i < n) (header : Bytes) : writtenTo i (headerOps n header) = header := by
  induction n with
  | zero => omega
  | succ n ih =>
    rw [headerOps, List.range_succ, List.map_append, writtenTo_append]
    by_cases hi : i = n
    · subst hi
      have : writtenTo i ((List.range i).map fun i => (i, header)) = [] := by
        rw [writtenTo, List.filter_eq_nil_iff.2]
        · rfl
        · intro op hop
          obtain ⟨j, hj, rfl⟩ := List.mem_map.1 hop
          simp only [decide_eq_true_eq]
          have := List.mem_range.1 hj
          omega
      rw [this]
      simp [writtenTo]
    · have h1 := ih (by omega)
      rw [headerOps] at h1
      rw [h1, List.map_singleton, writtenTo_cons_ne (Ne.symm hi)]
      simp [writtenTo]

/-- All data that were accepted for a file. -/
def Classify.Out.all (o : Out) : Bytes := o.file ++ o.buf

theorem put_spec {cap : Nat} {faults b : Bool} {o o' : Out} {d : Bytes} (h : Put cap faults o d b o') (hb : o.buf.length ≤ cap) :
    o'.all <+: o.all ++ d ∧ (b = true → o'.all = o.all ++ d) ∧ o'.buf.length ≤ cap ∧ (faults = false → b = true) := by
  unfold Out.all
  cases h with
  | buffered h1 h2 => simp [h1]
  | flushFails h1 h2 h3 =>
    refine ⟨?_, by simp, by simp; omega, by simp [h2]⟩
    simp only [List.append_assoc, List.take_append_drop]
    exact ⟨d, by simp⟩
  | flushed h1 h2 => simp; omega
  | @direct n h1 h2 h3 =>
    refine ⟨?_, ?_, by simp, by simpa using h3⟩
    · simp only [List.append_nil]
      exact (List.prefix_append_right_inj _).2 (List.take_prefix _ _)
    · intro hn
      simp only [decide_eq_true_eq] at hn
      simp [hn]

theorem writes_spec {cap : Nat} {faults : Bool} {outs outs' : List Out} {ops : List (Nat × Bytes)} {e : Ending}
    (h : Writes cap faults outs ops e outs') (hb : ∀ o ∈ outs, o.buf.length ≤ cap) :
    outs'.length = outs.length ∧ (faults = false → e ≠ .failed) ∧ ∀ i o, outs[i]? = some o → ∃ o', outs'[i]? = some o' ∧ o'.buf.length ≤ cap ∧
      o'.all <+: o.all ++ writtenTo i ops ∧ (e = .finished → o'.all = o.all ++ writtenTo i ops) := by
  induction h with
  | finished => exact ⟨rfl, by simp, fun i o ho => ⟨o, ho, hb o (List.mem_of_getElem? ho), by simp [writtenTo], by simp [writtenTo]⟩⟩
  | interrupted =>
    exact ⟨rfl, by simp, fun i o ho => ⟨o, ho, hb o (List.mem_of_getElem? ho), List.prefix_append _ _, by simp⟩⟩
  | @interruptedIn outs j o1 o1' d b ops h1 h2 =>
    obtain ⟨p1, -, p3, -⟩ := put_spec h2 (hb _ (List.mem_of_getElem? h1))
    refine ⟨by simp, by simp, fun i o ho => ?_⟩
    by_cases hij : j = i
    · subst hij
      rw [h1, Option.some.injEq] at ho
      subst ho
      refine ⟨o1', by rw [List.getElem?_set_self (List.getElem?_eq_some_iff.1 h1).1], p3, ?_, by simp⟩
      rw [writtenTo_cons_self, ← List.append_assoc]
      exact p1.trans (List.prefix_append _ _)
    · exact ⟨o, by rw [List.getElem?_set_ne hij]; exact ho, hb o (List.mem_of_getElem? ho), List.prefix_append _ _, by simp⟩
  | @failed outs j o1 o1' d ops h1 h2 =>
    obtain ⟨p1, -, p3, p4⟩ := put_spec h2 (hb _ (List.mem_of_getElem? h1))
    refine ⟨by simp, fun hf => by simpa using p4 hf, fun i o ho => ?_⟩
    by_cases hij : j = i
    · subst hij
      rw [h1, Option.some.injEq] at ho
      subst ho
      refine ⟨o1', by rw [List.getElem?_set_self (List.getElem?_eq_some_iff.1 h1).1], p3, ?_, by simp⟩
      rw [writtenTo_cons_self, ← List.append_assoc]
      exact p1.trans (List.prefix_append _ _)
    · exact ⟨o, by rw [List.getElem?_set_ne hij]; exact ho, hb o (List.mem_of_getElem? ho), List.prefix_append _ _, by simp⟩
  | @step outs outs' j o1 o1' d ops e h1 h2 h3 ih =>
    obtain ⟨p1, p2, p3, p4⟩ := put_spec h2 (hb _ (List.mem_of_getElem? h1))
    obtain ⟨i1, i2, i3⟩ := ih (by
      intro o ho
      rcases List.mem_or_eq_of_mem_set ho with ho | rfl
      · exact hb o ho
      · exact p3)
    refine ⟨by simpa using i1, i2, fun i o ho => ?_⟩
    by_cases hij : j = i
    · subst hij
      rw [h1, Option.some.injEq] at ho
      subst ho
      obtain ⟨o', q1, q2, q3, q4⟩ := i3 j o1' (by rw [List.getElem?_set_self (List.getElem?_eq_some_iff.1 h1).1])
      rw [p2 rfl, List.append_assoc, ← writtenTo_cons_self] at q3 q4
      exact ⟨o', q1, q2, q3, q4⟩
    · obtain ⟨o', q1, q2, q3, q4⟩ := i3 i o (by rw [List.getElem?_set_ne hij]; exact ho)
      rw [← writtenTo_cons_ne hij d] at q3 q4
      exact ⟨o', q1, q2, q3, q4⟩

theorem close_spec {faults : Bool} {o : Out} {file : Bytes} (h : Close faults o file) :
    file <+: o.all ∧ (faults = false → file = o.all) ∧ o.file <+: file := by
  cases h with
  | mk n hn =>
    refine ⟨(List.prefix_append_right_inj _).2 (List.take_prefix _ _), fun hf => ?_, List.prefix_append _ _⟩
    rw [List.take_of_length_le (hn hf)]
    rfl

theorem foot_spec {cap : Nat} {faults : Bool} {f : Format} {o : Out} {file : Bytes} (h : Foot cap faults f o file) (hb : o.buf.length ≤ cap) :
    file <+: o.all ++ footer f ++ [10] ∧ (faults = false → file = o.all ++ footer f ++ [10]) := by
  cases h with
  | failed h1 h2 =>
    obtain ⟨p1, -, -, p4⟩ := put_spec h1 hb
    obtain ⟨c1, -, -⟩ := close_spec h2
    exact ⟨c1.trans (p1.trans (List.prefix_append _ _)), fun hf => by simpa using p4 hf⟩
  | written h1 h2 h3 =>
    obtain ⟨-, p2, p3, -⟩ := put_spec h1 hb
    obtain ⟨q1, q2, -, q4⟩ := put_spec h2 p3
    obtain ⟨c1, c2, -⟩ := close_spec h3
    rw [p2 rfl] at q1 q2
    exact ⟨c1.trans q1, fun hf => by rw [c2 hf, q2 (q4 hf)]⟩

theorem put_file {cap : Nat} {faults b : Bool} {o o' : Out} {d : Bytes} (h : Put cap faults o d b o') : o.file <+: o'.file := by
  cases h with
  | buffered => exact List.prefix_rfl
  | flushFails => exact List.prefix_append _ _
  | flushed => exact List.prefix_append _ _
  | direct => simp only [List.append_assoc]; exact List.prefix_append _ _

theorem foot_file {cap : Nat} {faults : Bool} {f : Format} {o : Out} {file : Bytes} (h : Foot cap faults f o file) : o.file <+: file := by
  cases h with
  | failed h1 h2 => exact (put_file h1).trans (close_spec h2).2.2
  | written h1 h2 h3 => exact (put_file h1).trans ((put_file h2).trans (close_spec h3).2.2)

theorem forall₂_getSome {A B : Type*} {R : A → B → Prop} {l : List A} {m : List B} (h : List.Forall₂ R l m) :
    ∀ {i : Nat} {a : A}, l[i]? = some a → ∃ b, m[i]? = some b ∧ R a b := by
  induction h with
  | nil => intro i a hi; simp at hi
  | cons h _ ih =>
    intro i a hi
    cases i with
    | zero =>
      simp only [List.getElem?_cons_zero, Option.some.injEq] at hi
      subst hi
      exact ⟨_, rfl, h⟩
    | succ i => simpa using ih (by simpa using hi)

section

variable {E K : Type*} [DistNum K]

theorem loop_written (f : Format) (event : Bytes → Outcome ReadError E) (p : VPTreePartition E K) : ∀ (rs ws : List Bytes), ws.length = p.len →
    (loop f event p rs ws).2.length = p.len ∧
      ∀ i w, ws[i]? = some w → (loop f event p rs ws).2[i]? = some (w ++ writtenTo i (loopOps f event p rs)) := by
  intro rs
  induction rs with
  | nil => intro ws hl; exact ⟨hl, fun i w hw => by simpa [loop, loopOps, writtenTo] using hw⟩
  | cons r rs ih =>
    intro ws hl
    rw [loop, loopOps]
    cases he : event r with
    | err e => exact ⟨hl, fun i w hw => by simpa [writtenTo] using hw⟩
    | panic => exact ⟨hl, fun i w hw => by simpa [writtenTo] using hw⟩
    | ok e =>
      have hlt : p.region e < ws.length := by rw [hl]; exact (C21_region_exists p e).2
      simp only [List.getElem?_eq_getElem hlt]
      obtain ⟨i1, i2⟩ := ih (ws.set (p.region e) (ws[p.region e] ++ trimFooter f r)) (by simpa using hl)
      refine ⟨i1, fun i w hw => ?_⟩
      by_cases hi : p.region e = i
      · subst hi
        rw [List.getElem?_eq_getElem hlt, Option.some.injEq] at hw
        subst hw
        rw [i2 _ _ (List.getElem?_set_self hlt), writtenTo_cons_self, List.append_assoc]
      · rw [i2 i w (by rw [List.getElem?_set_ne hi]; exact hw), writtenTo_cons_ne hi]

/-- The complete output, in terms of what is written. -/
theorem classify_written (f : Format) (event : Bytes → Outcome ReadError E) (p : VPTreePartition E K) (header : Bytes) (records : List Bytes) :
    (classify f event p header records).2.length = p.len ∧ ∀ i < p.len, (classify f event p header records).2[i]? =
      some (writtenTo i (headerOps p.len header ++ loopOps f event p records) ++
        if (classify f event p header records).1 = .ok () then footer f ++ [10] else []) := by
  obtain ⟨h1, h2⟩ := loop_written f event p records ((List.replicate p.len []).map (· ++ header)) (by simp)
  have h3 : ∀ i < p.len, (loop f event p records ((List.replicate p.len []).map (· ++ header))).2[i]? =
      some (writtenTo i (headerOps p.len header ++ loopOps f event p records)) := by
    intro i hi
    rw [h2 i header (by simp [hi]), writtenTo_append, writtenTo_header hi]
  have hc : classify f event p header records = match (loop f event p records ((List.replicate p.len []).map (· ++ header))).1 with
      | .ok () => (.ok (), (loop f event p records ((List.replicate p.len []).map (· ++ header))).2.map fun w => w ++ footer f ++ [10])
      | o => (o, (loop f event p records ((List.replicate p.len []).map (· ++ header))).2) := rfl
  generalize loop f event p records ((List.replicate p.len []).map (· ++ header)) = r at h1 h3 hc
  obtain ⟨res, ws⟩ := r
  cases res with
  | ok u =>
    rw [hc]
    refine ⟨by simpa using h1, fun i hi => ?_⟩
    have h4 := h3 i hi
    simp only at h4
    simp [h4]
  | err e =>
    rw [hc]
    exact ⟨h1, fun i hi => by simpa using h3 i hi⟩
  | panic =>
    rw [hc]
    exact ⟨h1, fun i hi => by simpa using h3 i hi⟩

/-- The number of files and the content of each, for all executions. -/
theorem exec_spec {cap : Nat} {faults : Bool} {f : Format} {event : Bytes → Outcome ReadError E} {p : VPTreePartition E K} {header : Bytes}
    {records : List Bytes} {e : Ending} {files : List Bytes} (h : ClassifyExec cap faults f event p header records e files) :
    files.length = p.len ∧ (e = .finished → (classify f event p header records).1 = .ok ()) ∧
      (faults = false → e = .failed → (classify f event p header records).1 ≠ .ok ()) ∧
      ∀ i < p.len, ∃ file content, files[i]? = some file ∧ (classify f event p header records).2[i]? = some content ∧ file <+: content ∧
        (e = .finished → content.length ≤ file.length + cap + (footer f).length + 1) ∧
        (faults = false → e ≠ .interrupted → file = content) := by
  obtain ⟨-, c2⟩ := classify_written f event p header records
  have hinit : ∀ o ∈ List.replicate p.len (⟨[], []⟩ : Out), o.buf.length ≤ cap := by
    intro o ho
    rw [List.eq_of_mem_replicate ho]
    simp
  have hget : ∀ i < p.len, (List.replicate p.len (⟨[], []⟩ : Out))[i]? = some ⟨[], []⟩ := by
    intro i hi; simp [hi]
  have hall : (⟨[], []⟩ : Out).all = [] := rfl
  cases h with
  | @finished outs _ h1 h2 h3 =>
    obtain ⟨w1, -, w3⟩ := writes_spec h1 hinit
    refine ⟨by rw [← h3.length_eq, w1]; simp, fun _ => h2, by simp, fun i hi => ?_⟩
    obtain ⟨o, o1, o2, -, o4⟩ := w3 i _ (hget i hi)
    have o4' := o4 rfl
    rw [hall, List.nil_append] at o4'
    obtain ⟨file, f1, f2⟩ := forall₂_getSome h3 o1
    obtain ⟨g1, g2⟩ := foot_spec f2 o2
    have g3 := (foot_file f2).length_le
    have hc := c2 i hi
    rw [if_pos h2, ← o4', ← List.append_assoc] at hc
    refine ⟨file, _, f1, hc, g1, fun _ => ?_, fun hf _ => g2 hf⟩
    simp only [Out.all, List.length_append, List.length_singleton]
    omega
  | @badRecord outs _ h1 h2 h3 =>
    obtain ⟨w1, -, w3⟩ := writes_spec h1 hinit
    refine ⟨by rw [← h3.length_eq, w1]; simp, by simp, fun _ _ => h2, fun i hi => ?_⟩
    obtain ⟨o, o1, o2, -, o4⟩ := w3 i _ (hget i hi)
    have o4' := o4 rfl
    rw [hall, List.nil_append] at o4'
    obtain ⟨file, f1, f2⟩ := forall₂_getSome h3 o1
    obtain ⟨g1, g2, -⟩ := close_spec f2
    have hc := c2 i hi
    rw [if_neg h2, ← o4', List.append_nil] at hc
    exact ⟨file, _, f1, hc, g1, by simp, fun hf _ => g2 hf⟩
  | @failed outs _ h1 h3 =>
    obtain ⟨w1, w2, w3⟩ := writes_spec h1 hinit
    refine ⟨by rw [← h3.length_eq, w1]; simp, by simp, fun hf => absurd rfl (w2 hf), fun i hi => ?_⟩
    obtain ⟨o, o1, o2, o3, -⟩ := w3 i _ (hget i hi)
    rw [hall, List.nil_append] at o3
    obtain ⟨file, f1, f2⟩ := forall₂_getSome h3 o1
    exact ⟨file, _, f1, c2 i hi, (close_spec f2).1.trans (o3.trans (List.prefix_append _ _)), by simp, fun hf => absurd rfl (w2 hf)⟩
  | @interrupted outs _ e h1 h2 h3 =>
    obtain ⟨w1, -, w3⟩ := writes_spec h1 hinit
    refine ⟨by rw [← h3.length_eq, w1]; simp, by simp, by simp, fun i hi => ?_⟩
    obtain ⟨o, o1, o2, o3, -⟩ := w3 i _ (hget i hi)
    rw [hall, List.nil_append] at o3
    obtain ⟨file, f1, f2⟩ := forall₂_getSome h3 o1
    have hp : file <+: o.all := by
      rcases f2 with rfl | f2
      · exact List.prefix_append _ _
      · exact (close_spec f2).1
    exact ⟨file, _, f1, c2 i hi, hp.trans (o3.trans (List.prefix_append _ _)), by simp, by simp⟩
  | @interruptedFooter outs _ h1 h2 h3 =>
    obtain ⟨w1, -, w3⟩ := writes_spec h1 hinit
    refine ⟨by rw [← h3.length_eq, w1]; simp, by simp, by simp, fun i hi => ?_⟩
    obtain ⟨o, o1, o2, -, o4⟩ := w3 i _ (hget i hi)
    have o4' := o4 rfl
    rw [hall, List.nil_append] at o4'
    obtain ⟨file, f1, f2⟩ := forall₂_getSome h3 o1
    have hc := c2 i hi
    rw [if_pos h2, ← o4', ← List.append_assoc] at hc
    refine ⟨file, _, f1, hc, ?_, by simp, by simp⟩
    rcases f2 with rfl | f2
    · exact (List.prefix_append _ _).trans (by rw [List.append_assoc]; exact List.prefix_append _ _)
    · exact (foot_spec f2 o2).1

/-- **C128**: however writing fails and whenever the program is interrupted, each output file contains a first part of the complete output. -/
theorem C128_prefix {cap : Nat} {faults : Bool} {f : Format} {event : Bytes → Outcome ReadError E} {p : VPTreePartition E K} {header : Bytes}
    {records : List Bytes} {e : Ending} {files : List Bytes} (h : ClassifyExec cap faults f event p header records e files) :
    List.Forall₂ (· <+: ·) files (classify f event p header records).2 := by
  obtain ⟨h1, -, -, h4⟩ := exec_spec h
  obtain ⟨c1, -⟩ := classify_written f event p header records
  rw [List.forall₂_iff_get]
  refine ⟨by rw [h1, c1], fun i hi hi' => ?_⟩
  obtain ⟨file, content, g1, g2, g3, -⟩ := h4 i (by rw [← h1]; exact hi)
  simp only [List.get_eq_getElem]
  rw [List.getElem?_eq_getElem hi, Option.some.injEq] at g1
  rw [List.getElem?_eq_getElem hi', Option.some.injEq] at g2
  rw [g1, g2]
  exact g3

/-- **C128** without write errors: if the program is not interrupted, all files are complete, and the program succeeds if all
records can be converted. -/
theorem C128_no_failure {cap : Nat} {f : Format} {event : Bytes → Outcome ReadError E} {p : VPTreePartition E K} {header : Bytes}
    {records : List Bytes} {e : Ending} {files : List Bytes} (h : ClassifyExec cap false f event p header records e files)
    (he : e ≠ .interrupted) :
    files = (classify f event p header records).2 ∧ (e = .finished ↔ (classify f event p header records).1 = .ok ()) := by
  obtain ⟨h1, h2, h3, h4⟩ := exec_spec h
  obtain ⟨c1, -⟩ := classify_written f event p header records
  constructor
  · apply List.ext_getElem (by rw [h1, c1])
    intro i hi hi'
    obtain ⟨file, content, g1, g2, -, -, g5⟩ := h4 i (by rw [← h1]; exact hi)
    rw [List.getElem?_eq_getElem hi, Option.some.injEq] at g1
    rw [List.getElem?_eq_getElem hi', Option.some.injEq] at g2
    rw [g1, g2]
    exact g5 rfl he
  · refine ⟨h2, fun hok => ?_⟩
    cases e with
    | finished => rfl
    | failed => exact absurd hok (h3 rfl rfl)
    | interrupted => exact absurd rfl he

/-- **C128**, what holds in general: if the program succeeds, then all records could be converted, and at most as many bytes as fit into the
buffer and the footer are missing at the end of each output file. -/
theorem C128_success_partial {cap : Nat} {faults : Bool} {f : Format} {event : Bytes → Outcome ReadError E} {p : VPTreePartition E K}
    {header : Bytes} {records : List Bytes} {files : List Bytes} (h : ClassifyExec cap faults f event p header records .finished files) :
    (classify f event p header records).1 = .ok () ∧
      List.Forall₂ (fun file content => file <+: content ∧ content.length ≤ file.length + cap + (footer f).length + 1) files
        (classify f event p header records).2 := by
  obtain ⟨h1, h2, -, h4⟩ := exec_spec h
  obtain ⟨c1, -⟩ := classify_written f event p header records
  refine ⟨h2 rfl, ?_⟩
  rw [List.forall₂_iff_get]
  refine ⟨by rw [h1, c1], fun i hi hi' => ?_⟩
  obtain ⟨file, content, g1, g2, g3, g4, -⟩ := h4 i (by rw [← h1]; exact hi)
  simp only [List.get_eq_getElem]
  rw [List.getElem?_eq_getElem hi, Option.some.injEq] at g1
  rw [List.getElem?_eq_getElem hi', Option.some.injEq] at g2
  rw [g1, g2]
  exact ⟨g3, g4 rfl⟩

/-! ### Loss of all data -/

theorem writes_buffered {cap : Nat} {faults : Bool} : ∀ (ops : List (Nat × Bytes)) (outs : List Out),
    (∀ op ∈ ops, op.1 < outs.length) → (∀ i o, outs[i]? = some o → o.file = [] ∧ o.buf.length + (writtenTo i ops).length < cap) →
    ∃ outs', Writes cap faults outs ops .finished outs' ∧ ∀ i o, outs'[i]? = some o → o.file = [] ∧
      ∃ o0, outs[i]? = some o0 ∧ o.buf.length = o0.buf.length + (writtenTo i ops).length := by
  intro ops
  induction ops with
  | nil => exact fun outs _ h => ⟨outs, .finished, fun i o ho => ⟨(h i o ho).1, o, ho, by simp [writtenTo]⟩⟩
  | cons op ops ih =>
    obtain ⟨j, d⟩ := op
    intro outs hi h
    have hj : j < outs.length := hi (j, d) (by simp)
    have hj' := List.getElem?_eq_getElem hj
    obtain ⟨h1, h2⟩ := h j _ hj'
    rw [writtenTo_cons_self, List.length_append] at h2
    obtain ⟨outs', w1, w2⟩ := ih (outs.set j ⟨outs[j].file, outs[j].buf ++ d⟩) (fun op hop => by simpa using hi op (by simp [hop])) (by
      intro i o ho
      by_cases hij : j = i
      · subst hij
        rw [List.getElem?_set_self hj, Option.some.injEq] at ho
        subst ho
        exact ⟨h1, by simp only [List.length_append]; omega⟩
      · rw [List.getElem?_set_ne hij] at ho
        have := h i o ho
        rwa [writtenTo_cons_ne hij] at this)
    refine ⟨outs', .step hj' (.buffered (by omega) (by omega)) w1, fun i o ho => ?_⟩
    obtain ⟨a, o0, b, c⟩ := w2 i o ho
    refine ⟨a, ?_⟩
    by_cases hij : j = i
    · subst hij
      rw [List.getElem?_set_self hj, Option.some.injEq] at b
      subst b
      refine ⟨_, hj', ?_⟩
      rw [c, writtenTo_cons_self]
      simp only [List.length_append]
      omega
    · rw [List.getElem?_set_ne hij] at b
      exact ⟨o0, b, by rw [c, writtenTo_cons_ne hij]⟩

theorem loopOps_lt (f : Format) (event : Bytes → Outcome ReadError E) (p : VPTreePartition E K) (rs : List Bytes) :
    ∀ op ∈ loopOps f event p rs, op.1 < p.len := by
  induction rs with
  | nil => simp [loopOps]
  | cons r rs ih =>
    rw [loopOps]
    cases he : event r with
    | err e => simp
    | panic => simp
    | ok e =>
      intro op hop
      rcases List.mem_cons.1 hop with rfl | hop
      · exact (C21_region_exists p e).2
      · exact ih op hop

/-- **C128**, what can happen: if all complete outputs fit into the buffers and writing to disk fails, the program succeeds and all
output files are empty. -/
theorem C128_lost {cap : Nat} (f : Format) (event : Bytes → Outcome ReadError E) (p : VPTreePartition E K) (header : Bytes)
    (records : List Bytes) (hev : ∀ r ∈ records, ∃ e, event r = .ok e)
    (hcap : ∀ content ∈ (classify f event p header records).2, content.length < cap) :
    ClassifyExec cap true f event p header records .finished (List.replicate p.len []) := by
  obtain ⟨c1, c2⟩ := classify_written f event p header records
  have hok : (classify f event p header records).1 = .ok () := by rw [classify_ok f event p header records hev]
  rw [hok] at c2
  simp only [if_true] at c2
  have hlen : ∀ i < p.len, (writtenTo i (headerOps p.len header ++ loopOps f event p records)).length + (footer f).length + 1 < cap := by
    intro i hi
    have := hcap _ (List.mem_of_getElem? (c2 i hi))
    simp only [List.length_append, List.length_singleton] at this ⊢
    omega
  obtain ⟨outs, w1, w2⟩ := writes_buffered (cap := cap) (faults := true) (headerOps p.len header ++ loopOps f event p records)
    (List.replicate p.len ⟨[], []⟩) (by
      intro op hop
      rw [List.length_replicate]
      rcases List.mem_append.1 hop with hop | hop
      · obtain ⟨i, hi, rfl⟩ := List.mem_map.1 hop
        exact List.mem_range.1 hi
      · exact loopOps_lt f event p records op hop) (by
      intro i o ho
      obtain ⟨hi, ho⟩ := List.getElem?_eq_some_iff.1 ho
      rw [List.length_replicate] at hi
      rw [List.getElem_replicate] at ho
      subst ho
      have := hlen i hi
      exact ⟨rfl, by simp only [List.length_nil]; omega⟩)
  have hl := (writes_spec w1 (by intro o ho; rw [List.eq_of_mem_replicate ho]; simp)).1
  rw [List.length_replicate] at hl
  refine .finished w1 hok ?_
  rw [List.forall₂_iff_get]
  refine ⟨by simp [hl], fun i hi hi' => ?_⟩
  have hip : i < p.len := by rw [← hl]; exact hi
  obtain ⟨a, o0, b, c⟩ := w2 i _ (List.getElem?_eq_getElem hi)
  rw [List.getElem?_replicate, if_pos hip, Option.some.injEq] at b
  subst b
  simp only [List.length_nil, Nat.zero_add] at c
  have hle := hlen i hip
  simp only [List.get_eq_getElem, List.getElem_replicate]
  have hput1 : Put cap true outs[i] (footer f) true ⟨outs[i].file, outs[i].buf ++ footer f⟩ := .buffered (by omega) (by omega)
  have hput2 : Put cap true ⟨outs[i].file, outs[i].buf ++ footer f⟩ [10] true ⟨outs[i].file, outs[i].buf ++ footer f ++ [10]⟩ :=
    .buffered (by simp only [List.length_append, List.length_singleton]; omega) (by simp only [List.length_singleton]; omega)
  have hclose : Close true ⟨outs[i].file, outs[i].buf ++ footer f ++ [10]⟩ (outs[i].file ++ (outs[i].buf ++ footer f ++ [10]).take 0) := .mk 0 (by simp)
  rw [a, List.take_zero, List.append_nil] at hclose
  rw [a] at hput1 hput2
  exact .written hput1 hput2 hclose

end

/-- **C128** as stated. -/
def C128_claim : Prop :=
  ∀ (event : Bytes → Outcome ReadError ℤ) (p : VPTreePartition ℤ ℤ) (f : Format) (header : Bytes) (records files : List Bytes),
    ClassifyExec 8192 true f event p header records .finished files → files = (classify f event p header records).2

/-- **C128** does not hold: if writing to disk fails when buffers are emptied at the end, output files can be empty although the program reports
success. -/
theorem C128_violated : ¬ C128_claim := by
  intro h
  have hc : classify .hepmc (fun r => .ok (r.length : ℤ)) (⟨[⟨0, 4⟩], fun a b => |a - b|⟩ : VPTreePartition ℤ ℤ) (ascii "h\n")
      [ascii "E 1\n", ascii "E 15\n"] = (.ok (), [ascii "h\nE 1\nHepMC::IO_GenEvent-END_EVENT_LISTING\n",
      ascii "h\nE 15\nHepMC::IO_GenEvent-END_EVENT_LISTING\n"]) := by decide +kernel
  have := h _ _ _ _ _ _ (C128_lost (cap := 8192) .hepmc (fun r => .ok (r.length : ℤ))
    (⟨[⟨0, 4⟩], fun a b => |a - b|⟩ : VPTreePartition ℤ ℤ) (ascii "h\n") [ascii "E 1\n", ascii "E 15\n"] (fun r _ => ⟨_, rfl⟩) (by
      rw [hc]
      decide +kernel))
  rw [hc] at this
  revert this
  decide +kernel

/-- Executions as in `C128_no_failure` exist: here all data are written directly. -/
example : ClassifyExec 0 false .hepmc (fun r => .ok (r.length : ℤ)) (⟨[], fun a b => |a - b|⟩ : VPTreePartition ℤ ℤ) (ascii "h\n")
    [ascii "E 1\n"] .finished [ascii "h\nE 1\nHepMC::IO_GenEvent-END_EVENT_LISTING\n"] := by
  have hput : ∀ (file d : Bytes), Put 0 false ⟨file, []⟩ d true ⟨file ++ d, []⟩ := by
    intro file d
    have := Put.direct (cap := 0) (faults := false) (o := ⟨file, []⟩) (data := d) (n := d.length) (by omega) le_rfl (fun _ => rfl)
    simpa using this
  refine .finished (outs := [⟨[] ++ ascii "h\n" ++ ascii "E 1\n", []⟩]) ?_ (by decide +kernel) ?_
  · exact .step (o := ⟨[], []⟩) (by decide +kernel) (hput [] _) (.step (o := ⟨[] ++ ascii "h\n", []⟩) (by decide +kernel) (hput _ _) .finished)
  · refine .cons (.written (hput _ _) (hput _ _) ?_) .nil
    have := Close.mk (faults := false) (o := ⟨[] ++ ascii "h\n" ++ ascii "E 1\n" ++ footer .hepmc ++ [10], []⟩) 0 (by simp)
    exact this

/-- An interrupted execution, where only the header was written. -/
example : ClassifyExec 0 true .hepmc (fun r => .ok (r.length : ℤ)) (⟨[], fun a b => |a - b|⟩ : VPTreePartition ℤ ℤ) (ascii "h\n")
    [ascii "E 1\n"] .interrupted [ascii "h\n"] := by
  refine .interrupted (e := .interrupted) (outs := [⟨ascii "h\n", []⟩]) ?_ (by simp) (.cons (Or.inl rfl) .nil)
  refine .step (o := ⟨[], []⟩) (o' := ⟨ascii "h\n", []⟩) (by decide +kernel) ?_ .interrupted
  have := Put.direct (cap := 0) (faults := true) (o := ⟨[], []⟩) (data := ascii "h\n") (n := (ascii "h\n").length) (by omega) le_rfl (fun _ => rfl)
  simpa using this

end Cres

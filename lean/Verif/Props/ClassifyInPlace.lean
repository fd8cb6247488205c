import Verif.Model.ClassifyInPlace
import Verif.Props.Classify
import Verif.Props.ClassifyDisk

/-!
Property C130: `cres-classify-events` does not change its input files.
-/

namespace Cres

open Classify

theorem splitName_length (s : List Char) : s.length ≤ (splitName s).1.length + (splitName s).2.length + 1 := by
  rcases C60_split_name s with h | ⟨h, -⟩
  · have := congrArg List.length h
    simp only [List.length_append, List.length_cons] at this
    omega
  · have := congrArg List.length h
    omega

/-- **C130**: a file is never overwritten while it is read: its name is not the name of one of its own output files. -/
theorem C130_not_itself (name : List Char) (i : Nat) : outName name i ≠ name := by
  intro h
  have h1 := splitName_length name
  have h2 := congrArg List.length h
  have h3 : 0 < (Nat.toDigits 10 i).length := Nat.length_toDigits_pos
  simp only [outName, List.length_append, List.length_singleton] at h2
  omega

section

variable {D E K : Type*} [DecidableEq D] [DistNum K]

omit [DistNum K] in
theorem writeTo_other (out : D) (name : List Char) (f : D × List Char) : ∀ (ws : List Bytes) (k : Nat) (files : Files D),
    (∀ i, k ≤ i → i < k + ws.length → f ≠ (out, outName name i)) → writeTo out name k ws files f = files f := by
  intro ws
  induction ws with
  | nil => intro k files _; rfl
  | cons w ws ih =>
    intro k files h
    rw [writeTo, ih (k + 1) _ fun i h1 h2 => h i (by omega) (by simp only [List.length_cons]; omega)]
    exact Function.update_of_ne (h k le_rfl (by simp)) _ _

omit [DistNum K] in
theorem writeTo_outputs (out : D) (name : List Char) : ∀ (ws : List Bytes) (k : Nat) (files : Files D),
    (fun n => writeTo out name k ws files (out, n)) = writeOutputs name k ws fun n => files (out, n) := by
  intro ws
  induction ws with
  | nil => intro k files; rfl
  | cons w ws ih =>
    intro k files
    rw [writeTo, ih, writeOutputs]
    congr 1
    funext n
    by_cases h : n = outName name k
    · subst h; simp
    · rw [Function.update_of_ne h, Function.update_of_ne (by simpa using h)]

omit [DecidableEq D] [DistNum K] in
theorem forall₂_imp_mem {A B : Type*} {r s : A → B → Prop} {l : List A} {m : List B} (h : List.Forall₂ r l m)
    (hrs : ∀ a ∈ l, ∀ b, r a b → s a b) : List.Forall₂ s l m := by
  induction h with
  | nil => exact .nil
  | cons h _ ih => exact .cons (hrs _ (by simp) _ h) (ih fun a ha => hrs a (by simp [ha]))

/-- **C130**: whatever happens, only files in the output directory with the names of output files can change. -/
theorem C130_frame (parse : Parse) (event : Bytes → Outcome ReadError E) (p : VPTreePartition E K) (out : D) (f : D × List Char) :
    ∀ (fs : List (D × List Char)) (files : Files D), (∀ g ∈ fs, ∀ i < p.len, f ≠ (out, outName g.2 i)) →
      (classifyFiles parse event p out fs files).2 f = files f := by
  intro fs
  induction fs with
  | nil => intro files _; rfl
  | cons g fs ih =>
    intro files h
    rw [classifyFiles]
    cases hg : (files g).bind parse with
    | none => rfl
    | some x =>
      obtain ⟨format, header, records⟩ := x
      simp only
      have hw := writeTo_other out g.2 f (classify format event p header records).2 0 files (by
        intro i _ hi
        rw [(classify_written format event p header records).1] at hi
        exact h g (by simp) i (by omega))
      cases (classify format event p header records).1 with
      | ok u =>
        simp only
        rw [ih _ fun g' hg' => h g' (by simp [hg']), hw]
      | err e => exact hw
      | panic => exact hw

/-- **C130**, if no input file has the place and the name of an output file, for example if no input file is in the output directory: then no input
file is changed, and the program does what is described in C60 for the original contents of the input files. -/
theorem C130_inputs_partial (parse : Parse) (event : Bytes → Outcome ReadError E) (p : VPTreePartition E K) (out : D) (fs : List (D × List Char))
    (files : Files D) (h : ∀ f ∈ fs, ∀ g ∈ fs, ∀ i < p.len, f ≠ (out, outName g.2 i)) :
    (∀ f ∈ fs, (classifyFiles parse event p out fs files).2 f = files f) ∧
      ∀ inputs : List Input, List.Forall₂ (fun f (x : Input) => x.name = f.2 ∧ (files f).bind parse = some (x.format, x.header, x.records)) fs inputs →
        (classifyFiles parse event p out fs files).1 = (classifyAll event p inputs fun n => files (out, n)).1 ∧
          (fun n => (classifyFiles parse event p out fs files).2 (out, n)) = (classifyAll event p inputs fun n => files (out, n)).2 := by
  refine ⟨fun f hf => C130_frame parse event p out f fs files fun g hg i hi => h f hf g hg i hi, ?_⟩
  induction fs generalizing files with
  | nil => intro inputs hin; cases hin; exact ⟨rfl, rfl⟩
  | cons f fs ih =>
    intro inputs hin
    cases hin with
    | @cons _ x _ xs hx hxs =>
      obtain ⟨h1, h2⟩ := hx
      rw [classifyFiles, h2, classifyAll]
      simp only
      have hlen := (classify_written x.format event p x.header x.records).1
      have hw : (fun n => writeTo out f.2 0 (classify x.format event p x.header x.records).2 files (out, n)) =
          writeOutputs x.name 0 (classify x.format event p x.header x.records).2 fun n => files (out, n) := by
        rw [writeTo_outputs, h1]
      cases (classify x.format event p x.header x.records).1 with
      | ok u =>
        simp only
        have := ih (writeTo out f.2 0 (classify x.format event p x.header x.records).2 files)
          (fun f' hf' g hg => h f' (by simp [hf']) g (by simp [hg])) xs (by
            refine forall₂_imp_mem hxs fun f' hf' y hy => ⟨hy.1, ?_⟩
            rw [writeTo_other out f.2 f' _ 0 files]
            · exact hy.2
            · intro i _ hi
              rw [hlen] at hi
              exact h f' (by simp [hf']) f (by simp) i (by omega))
        rw [hw] at this
        exact this
      | err e => exact ⟨rfl, hw⟩
      | panic => exact ⟨rfl, hw⟩

omit [DistNum K] in
theorem writeTo_congr (out : D) (name : List Char) (f : D × List Char) : ∀ (ws : List Bytes) (k : Nat) (files files' : Files D),
    (files f = files' f ∨ ∃ i, k ≤ i ∧ i < k + ws.length ∧ f = (out, outName name i)) →
      writeTo out name k ws files f = writeTo out name k ws files' f := by
  intro ws
  induction ws with
  | nil =>
    rintro k files files' (h | ⟨i, h1, h2, -⟩)
    · exact h
    · simp only [List.length_nil] at h2; omega
  | cons w ws ih =>
    intro k files files' h
    rw [writeTo, writeTo]
    apply ih
    by_cases hk : f = (out, outName name k)
    · left; subst hk; simp
    · rcases h with h | ⟨i, h1, h2, h3⟩
      · left; rw [Function.update_of_ne hk, Function.update_of_ne hk, h]
      · right
        have hik : i ≠ k := by rintro rfl; exact hk h3
        exact ⟨i, by omega, by simp only [List.length_cons] at h2; omega, h3⟩

theorem classifyFiles_congr (parse : Parse) (event : Bytes → Outcome ReadError E) (p : VPTreePartition E K) (out : D) :
    ∀ (fs : List (D × List Char)) (files files' : Files D), (∀ f ∈ fs, ∀ g ∈ fs, ∀ i < p.len, f ≠ (out, outName g.2 i)) →
      (∀ f ∈ fs, files f = files' f) →
      (classifyFiles parse event p out fs files).1 = (classifyFiles parse event p out fs files').1 ∧
        ((classifyFiles parse event p out fs files).1 = .ok () → ∀ f, (files f = files' f ∨ ∃ g ∈ fs, ∃ i < p.len, f = (out, outName g.2 i)) →
          (classifyFiles parse event p out fs files).2 f = (classifyFiles parse event p out fs files').2 f) := by
  intro fs
  induction fs with
  | nil =>
    intro files files' _ _
    refine ⟨rfl, fun _ f hf => ?_⟩
    rcases hf with hf | ⟨g, hg, -⟩
    · exact hf
    · simp at hg
  | cons g fs ih =>
    intro files files' hd heq
    rw [classifyFiles, classifyFiles, ← heq g (by simp)]
    cases hg : (files g).bind parse with
    | none => exact ⟨rfl, by simp⟩
    | some x =>
      obtain ⟨format, header, records⟩ := x
      simp only
      have hlen := (classify_written format event p header records).1
      cases (classify format event p header records).1 with
      | ok u =>
        simp only
        obtain ⟨i1, i2⟩ := ih (writeTo out g.2 0 (classify format event p header records).2 files)
          (writeTo out g.2 0 (classify format event p header records).2 files')
          (fun f hf g' hg' => hd f (by simp [hf]) g' (by simp [hg']))
          (fun f hf => writeTo_congr out g.2 f _ 0 files files' (Or.inl (heq f (by simp [hf]))))
        refine ⟨i1, fun hok f hf => i2 hok f ?_⟩
        rcases hf with hf | ⟨g', hg', i, hi, rfl⟩
        · exact Or.inl (writeTo_congr out g.2 f _ 0 files files' (Or.inl hf))
        · rcases List.mem_cons.1 hg' with rfl | hg'
          · exact Or.inl (writeTo_congr out g'.2 _ _ 0 files files' (Or.inr ⟨i, by omega, by omega, rfl⟩))
          · exact Or.inr ⟨g', hg', i, hi, rfl⟩
      | err e => exact ⟨rfl, by simp⟩
      | panic => exact ⟨rfl, by simp⟩

/-- **C130** under the same condition: what earlier runs, also interrupted ones, have left in output files does not matter. If files differ only in output
files, the result is the same, and after success all files are the same. -/
theorem C130_repeat_partial (parse : Parse) (event : Bytes → Outcome ReadError E) (p : VPTreePartition E K) (out : D) (fs : List (D × List Char))
    (files files' : Files D) (h : ∀ f ∈ fs, ∀ g ∈ fs, ∀ i < p.len, f ≠ (out, outName g.2 i))
    (hsame : ∀ f, (∀ g ∈ fs, ∀ i < p.len, f ≠ (out, outName g.2 i)) → files f = files' f) :
    (classifyFiles parse event p out fs files).1 = (classifyFiles parse event p out fs files').1 ∧
      ((classifyFiles parse event p out fs files).1 = .ok () →
        (classifyFiles parse event p out fs files).2 = (classifyFiles parse event p out fs files').2) := by
  obtain ⟨h1, h2⟩ := classifyFiles_congr parse event p out fs files files' h fun f hf => hsame f (h f hf)
  refine ⟨h1, fun hok => funext fun f => h2 hok f ?_⟩
  by_cases hf : ∀ g ∈ fs, ∀ i < p.len, f ≠ (out, outName g.2 i)
  · exact Or.inl (hsame f hf)
  · push Not at hf
    exact Or.inr hf

end

/-- **C130** as stated. -/
def C130_claim : Prop :=
  ∀ (parse : Parse) (event : Bytes → Outcome ReadError ℤ) (p : VPTreePartition ℤ ℤ) (out : Nat) (fs : List (Nat × List Char)) (files : Files Nat),
    fs.Nodup → ∀ f ∈ fs, (classifyFiles parse event p out fs files).2 f = files f

/-- A simple file format: the file is one record. -/
def lineParse : Parse := fun s => some (.hepmc, [], [s])

/-- **C130** does not hold: if `a.x` and `a.0.x` in the output directory are classified, then `a.0.x` is overwritten before it is read. -/
theorem C130_violated : ¬ C130_claim := by
  intro h
  have := h lineParse (fun r => .ok r.length) ⟨[], fun x y => |x - y|⟩ 0 [(0, "a.x".toList), (0, "a.0.x".toList)]
    (fun f => if f = (0, "a.x".toList) then some (ascii "E 1\n") else if f = (0, "a.0.x".toList) then some (ascii "E 2\n") else none)
    (by decide) (0, "a.0.x".toList) (by simp)
  revert this
  decide +kernel

/-- The events of the second file are then lost: no file contains `E 2`. -/
example :
    let r := classifyFiles lineParse (fun r => .ok (r.length : ℤ)) ⟨[], fun x y => |x - y|⟩ 0 [(0, "a.x".toList), (0, "a.0.x".toList)]
      (fun f => if f = (0, "a.x".toList) then some (ascii "E 1\n") else if f = (0, "a.0.x".toList) then some (ascii "E 2\n") else none);
    r.1 = .ok () ∧ r.2 (0, "a.0.0.x".toList) = some (ascii "E 1\nHepMC::IO_GenEvent-END_EVENT_LISTING\n") ∧
      r.2 (0, "a.0.x".toList) = some (ascii "E 1\nHepMC::IO_GenEvent-END_EVENT_LISTING\n") := by
  decide +kernel

/-- The condition in `C130_inputs_partial` for these files in another directory. -/
example : ∀ f ∈ [(1, "a.x".toList), (1, "a.0.x".toList)], ∀ g ∈ [(1, "a.x".toList), (1, "a.0.x".toList)], ∀ i < 4, f ≠ (0, outName g.2 i) := by
  decide

end Cres

import Mathlib.Algebra.BigOperators.Group.Finset.Basic
import Mathlib.Data.Fintype.BigOperators
import Verif.Model.Together

/-!
Computations that only use their own files are not influenced by others. The computations in `Verif/Model/Together.lean`
have the results of the functions in the other parts of the model if they are alone.
-/

namespace Cres

variable {K V D P : Type*}

/-- The result of a computation that is alone. -/
def Proc.run {S A : Type*} : Proc S A → S → A × S
  | .done a, s => (a, s)
  | .access u k, s => (k s).run (u s)

/-- The number of accesses of a computation that is alone. -/
def Proc.steps {S A : Type*} : Proc S A → S → Nat
  | .done _, _ => 0
  | .access u k, s => (k s).steps (u s) + 1

theorem Proc.run_bind {S A B : Type*} (p : Proc S A) (f : A → Proc S B) (s : S) :
    (p.bind f).run s = (f (p.run s).1).run (p.run s).2 := by
  induction p generalizing s with
  | done a => rfl
  | access u k ih => exact ih s (u s)

/-- The same content of the given files. -/
def AgreeOn (F : P → Prop) (fs fs' : FS P) : Prop := ∀ q, F q → fs q = fs' q

/-- A computation that only uses the files `I` and `O` and only changes files in `O`. The result has the property `Q`. -/
inductive Proc.Local {A : Type*} (I O : P → Prop) (Q : A → Prop) : Proc (FS P) A → Prop
  | done {a : A} : Q a → Local I O Q (.done a)
  | access {u : FS P → FS P} {k : FS P → Proc (FS P) A} : (∀ fs q, ¬ O q → u fs q = fs q) →
      (∀ fs fs', AgreeOn (fun q => I q ∨ O q) fs fs' → AgreeOn O (u fs) (u fs') ∧ k fs = k fs') →
      (∀ fs, Local I O Q (k fs)) → Local I O Q (.access u k)

section Local

variable {A B : Type*} {I O : P → Prop} {Q : A → Prop} {R : B → Prop}

theorem Proc.Local.bind {p : Proc (FS P) A} (h : p.Local I O Q) {f : A → Proc (FS P) B} (hf : ∀ a, Q a → (f a).Local I O R) :
    (p.bind f).Local I O R := by
  induction h with
  | done h => exact hf _ h
  | access h1 h2 h3 ih => exact .access h1 (fun fs fs' h => ⟨(h2 fs fs' h).1, by rw [(h2 fs fs' h).2]⟩) ih

theorem Proc.Local.imp {Q' : A → Prop} {p : Proc (FS P) A} (h : p.Local I O Q) (hq : ∀ a, Q a → Q' a) : p.Local I O Q' := by
  induction h with
  | done h => exact .done (hq _ h)
  | access h1 h2 h3 ih => exact .access h1 h2 ih

theorem agree_update {u : FS P → FS P} {k : FS P → Proc (FS P) A} (h1 : ∀ fs q, ¬ O q → u fs q = fs q)
    (h2 : ∀ fs fs', AgreeOn (fun q => I q ∨ O q) fs fs' → AgreeOn O (u fs) (u fs') ∧ k fs = k fs') {fs fs' : FS P}
    (h : AgreeOn (fun q => I q ∨ O q) fs fs') : AgreeOn (fun q => I q ∨ O q) (u fs) (u fs') := by
  intro q hq
  by_cases ho : O q
  · exact (h2 fs fs' h).1 q ho
  · rw [h1 fs q ho, h1 fs' q ho]
    exact h q hq

theorem Proc.Local.run_agree {p : Proc (FS P) A} (h : p.Local I O Q) {fs fs' : FS P}
    (ha : AgreeOn (fun q => I q ∨ O q) fs fs') :
    (p.run fs).1 = (p.run fs').1 ∧ AgreeOn (fun q => I q ∨ O q) (p.run fs).2 (p.run fs').2 ∧ p.steps fs = p.steps fs' := by
  induction h generalizing fs fs' with
  | done h => exact ⟨rfl, ha, rfl⟩
  | access h1 h2 h3 ih =>
    simp only [Proc.run, Proc.steps]
    rw [← (h2 fs fs' ha).2]
    obtain ⟨g1, g2, g3⟩ := ih fs (agree_update h1 h2 ha)
    exact ⟨g1, g2, by rw [g3]⟩

theorem Proc.Local.run_frame {p : Proc (FS P) A} (h : p.Local I O Q) (fs : FS P) {q : P} (hq : ¬ O q) :
    (p.run fs).2 q = fs q := by
  induction h generalizing fs with
  | done h => rfl
  | access h1 h2 h3 ih => exact (ih fs (_)).trans (h1 fs q hq)

end Local

/-! ### interleaving -/

section Interleaving

variable {ι A : Type*} [DecidableEq ι] {I O : ι → P → Prop} {Q : ι → A → Prop}

theorem together_local (hsep : ∀ i j, i ≠ j → ∀ q, O i q → ¬ I j q ∧ ¬ O j q) {ps ps' : ι → Proc (FS P) A} {fs fs' : FS P}
    {sched : List ι} (h : Together ps fs sched ps' fs') (hl : ∀ i, (ps i).Local (I i) (O i) (Q i)) :
    (∀ i, (ps' i).Local (I i) (O i) (Q i)) ∧ (∀ q, (∀ i, ¬ O i q) → fs' q = fs q) ∧
    ∀ i τ, AgreeOn (fun q => I i q ∨ O i q) τ fs →
      ∃ τ', AgreeOn (fun q => I i q ∨ O i q) τ' fs' ∧ (ps i).run τ = (ps' i).run τ' := by
  induction h with
  | nil => exact ⟨hl, fun _ _ => rfl, fun i τ h => ⟨τ, h, rfl⟩⟩
  | @step ps ps' fs fs' j sched u k hj h ih =>
    have hlj := hl j
    rw [hj] at hlj
    cases hlj with
    | access h1 h2 h3 =>
      obtain ⟨g1, g2, g3⟩ := ih (fun i => by
        by_cases hi : i = j
        · subst hi
          rw [Function.update_self]
          exact h3 fs
        · rw [Function.update_of_ne hi]
          exact hl i)
      refine ⟨g1, fun q hq => (g2 q hq).trans (h1 fs q (hq j)), fun i τ hτ => ?_⟩
      by_cases hi : i = j
      · subst hi
        obtain ⟨τ', k1, k2⟩ := g3 i (u τ) (agree_update h1 h2 hτ)
        refine ⟨τ', k1, ?_⟩
        rw [hj, Proc.run, ← k2, Function.update_self, (h2 τ fs hτ).2]
      · obtain ⟨τ', k1, k2⟩ := g3 i τ (fun q hq => by
          rw [h1 fs q (fun ho => ?_)]
          · exact hτ q hq
          · have := hsep j i (Ne.symm hi) q ho
            rcases hq with hq | hq
            · exact this.1 hq
            · exact this.2 hq)
        refine ⟨τ', k1, ?_⟩
        rw [← k2, Function.update_of_ne hi]

/-- The number of accesses does not depend on the interleaving. -/
theorem together_steps [Fintype ι] (hsep : ∀ i j, i ≠ j → ∀ q, O i q → ¬ I j q ∧ ¬ O j q) {ps ps' : ι → Proc (FS P) A}
    {fs fs' : FS P} {sched : List ι} (h : Together ps fs sched ps' fs') (hl : ∀ i, (ps i).Local (I i) (O i) (Q i)) :
    sched.length + ∑ i, (ps' i).steps fs' = ∑ i, (ps i).steps fs := by
  induction h with
  | nil => simp
  | @step ps ps' fs fs' j sched u k hj h ih =>
    have hlj := hl j
    rw [hj] at hlj
    cases hlj with
    | access h1 h2 h3 =>
      have := ih (fun i => by
        by_cases hi : i = j
        · subst hi
          rw [Function.update_self]
          exact h3 fs
        · rw [Function.update_of_ne hi]
          exact hl i)
      rw [List.length_cons, Nat.add_right_comm, this, ← Finset.add_sum_erase _ _ (Finset.mem_univ j),
        ← Finset.add_sum_erase (Finset.univ) (fun i => (ps i).steps fs) (Finset.mem_univ j), Function.update_self, hj, Proc.steps,
        Nat.add_right_comm]
      congr 1
      refine Finset.sum_congr rfl fun i hi => ?_
      have hi : i ≠ j := Finset.ne_of_mem_erase hi
      rw [Function.update_of_ne hi]
      refine ((hl i).run_agree fun q hq => ?_).2.2
      refine h1 fs q fun ho => ?_
      have := hsep j i (Ne.symm hi) q ho
      rcases hq with hq | hq
      · exact this.1 hq
      · exact this.2 hq

theorem Together.trans {S : Type*} {ps ps' ps'' : ι → Proc S A} {s s' s'' : S} {sched sched' : List ι}
    (h : Together ps s sched ps' s') (h' : Together ps' s' sched' ps'' s'') : Together ps s (sched ++ sched') ps'' s'' := by
  induction h with
  | nil => exact h'
  | step hi _ ih => exact .step hi (ih h')

/-- One computation can be carried out to the end. -/
theorem together_one {S : Type*} (ps : ι → Proc S A) (i : ι) (s : S) :
    ∃ sched, Together ps s sched (Function.update ps i (.done ((ps i).run s).1)) ((ps i).run s).2 := by
  generalize hp : ps i = p
  induction p generalizing ps s with
  | done a =>
    refine ⟨[], ?_⟩
    rw [Proc.run, ← hp, Function.update_eq_self]
    exact .nil
  | access u k ih =>
    obtain ⟨sched, h⟩ := ih s (Function.update ps i (k s)) (u s) (Function.update_self ..)
    refine ⟨i :: sched, .step hp ?_⟩
    rw [Function.update_idem] at h
    exact h

end Interleaving

/-! ### computations that are alone -/

section Alone

variable [DecidableEq P]

theorem FS.create_append (fs : FS P) (p : P) (a b : Bytes) : (fs.create p a).append p b = fs.create p (a ++ b) := by
  simp [FS.create, FS.append]

open CombinedIO

theorem openProc_run (cfg : IOConfig K V) (i : Nat) (s : CombinedIO K P) (fs : FS P) :
    s.openFile cfg i fs = (((s.openProc cfg i).run fs).1.1, ((s.openProc cfg i).run fs).1.2, ((s.openProc cfg i).run fs).2) := by
  unfold openFile openProc
  cases h : s.files[i]? with
  | none => rfl
  | some f =>
    obtain ⟨inn, out⟩ := f
    simp only [FileIO.new, Proc.run, id]
    cases h1 : fs inn with
    | none => rfl
    | some content =>
      simp only
      cases h2 : detectFormat cfg.feat (some (cfg.firstBuffer content)) with
      | err e => rfl
      | panic => rfl
      | ok format =>
        simp only
        cases h3 : Reader.new cfg content format with
        | err e => rfl
        | panic => rfl
        | ok reader =>
          simp only [Proc.run, FS.create_append, List.nil_append]
          cases h4 : Kind.find cfg reader.header format <;> simp only [Outcome.bind, Proc.run]

theorem initProc_run (cfg : IOConfig K V) : ∀ (n i : Nat) (s : CombinedIO K P) (fs : FS P),
    initLoop cfg n i s fs = (((initProc cfg n i s).run fs).1.1, ((initProc cfg n i s).run fs).1.2, ((initProc cfg n i s).run fs).2)
  | 0, _, _, _ => rfl
  | n + 1, i, s, fs => by
    rw [initLoop, initProc, Proc.run_bind, openProc_run]
    generalize (s.openProc cfg i).run fs = x
    obtain ⟨⟨o, s'⟩, fs'⟩ := x
    cases o with
    | err e => rfl
    | panic => rfl
    | ok u =>
      simp only
      cases s'.current with
      | none => rfl
      | some io => exact initProc_run cfg n (i + 1) _ fs'

theorem newProc_run (cfg : IOConfig K V) (files : List (P × P)) (fs : FS P) :
    CombinedIO.new cfg files fs =
      (((newProc cfg files).run fs).1.1, ((newProc cfg files).run fs).1.2, ((newProc cfg files).run fs).2) := by
  rw [CombinedIO.new, newProc]
  by_cases h : files = []
  · simp only [h, if_true]
    rfl
  · simp only [h, if_false]
    rw [Proc.run_bind, initProc_run]
    generalize (initProc cfg files.length 0 _).run fs = x
    obtain ⟨⟨o, s'⟩, fs'⟩ := x
    cases o with
    | err e => rfl
    | panic => rfl
    | ok u => exact openProc_run cfg 0 s' fs'

theorem nextProc_run [Mul K] (cfg : IOConfig K V) : ∀ (n : Nat) (s : CombinedIO K P) (fs : FS P),
    nextLoop cfg n s fs = (((nextProc cfg n s).run fs).1.1, ((nextProc cfg n s).run fs).1.2, ((nextProc cfg n s).run fs).2)
  | 0, _, _ => rfl
  | n + 1, s, fs => by
    rw [nextLoop, nextProc]
    cases s.current with
    | none =>
      simp only
      by_cases h : s.files = []
      · simp only [h, if_true]
        rfl
      · simp only [h, if_false]
        rw [Proc.run_bind, openProc_run]
        generalize (s.openProc cfg 0).run fs = x
        obtain ⟨⟨o, s'⟩, fs'⟩ := x
        cases o with
        | err e => rfl
        | panic => rfl
        | ok u => exact nextProc_run cfg n s' fs'
    | some io =>
      simp only
      rcases io.next cfg with ⟨_ | x, io'⟩
      · simp only
        by_cases h : s.idx + 1 = s.files.length
        · simp only [h, if_true]
          rfl
        · simp only [h, if_false]
          rw [Proc.run_bind, openProc_run]
          generalize (CombinedIO.openProc cfg _ _).run fs = x
          obtain ⟨⟨o, s'⟩, fs'⟩ := x
          cases o with
          | err e => rfl
          | panic => rfl
          | ok u => exact nextProc_run cfg n s' fs'
      · rfl

theorem recordProc_run [Mul K] (cfg : IOConfig K V) : ∀ (n : Nat) (s : CombinedIO K P) (fs : FS P),
    s.recordItems cfg n fs = (((s.recordProc cfg n).run fs).1.1, ((s.recordProc cfg n).run fs).1.2, ((s.recordProc cfg n).run fs).2)
  | 0, _, _ => rfl
  | n + 1, s, fs => by
    rw [recordItems, recordProc, Proc.run_bind, nextRecord, next, nextProc_run]
    generalize (nextProc cfg _ s).run fs = x
    obtain ⟨⟨o, s'⟩, fs'⟩ := x
    cases o with
    | none => rfl
    | some o =>
      cases o with
      | err e => rfl
      | panic => rfl
      | ok r =>
        simp only
        cases s'.current with
        | none => rfl
        | some io =>
          simp only
          rw [Proc.run_bind, recordProc_run cfg n s' fs']
          rfl

theorem updateNextProc_run [Div K] (cfg : IOConfig K V) (ws : List K) (io : FileIO K P) (fs : FS P) :
    io.updateNext cfg ws fs = (((io.updateProc cfg ws).run fs).1.1, ((io.updateProc cfg ws).run fs).1.2, ((io.updateProc cfg ws).run fs).2) := by
  unfold FileIO.updateNext FileIO.updateProc
  cases (io.reader.readRaw cfg.ctx.debug io.kind.format).1 with
  | none => rfl
  | some x =>
    simp only
    cases x.bind (io.kind.update cfg ws) <;> rfl

theorem finishProc_run (io : FileIO K P) (fs : FS P) : io.finish fs = (io.finishProc.run fs).2 := by
  unfold FileIO.finish FileIO.finishProc
  cases io.kind <;> rfl

theorem whileProc_run [Div K] (cfg : IOConfig K V) : ∀ (ws : List (List K)) (io : FileIO K P) (fs : FS P),
    updateWhile cfg ws io fs =
      (((whileProc cfg ws io).run fs).1.1, ((whileProc cfg ws io).run fs).1.2, ((whileProc cfg ws io).run fs).2)
  | [], _, _ => rfl
  | w :: ws, io, fs => by
    rw [updateWhile, whileProc, Proc.run_bind, updateNextProc_run]
    generalize (io.updateProc cfg w).run fs = x
    obtain ⟨⟨o, io'⟩, fs'⟩ := x
    cases o with
    | err e => rfl
    | panic => rfl
    | ok b =>
      cases b with
      | false => rfl
      | true => exact whileProc_run cfg ws io' fs'

theorem filesProc_run [Div K] (cfg : IOConfig K V) : ∀ (n i : Nat) (ws : List (List K)) (s : CombinedIO K P) (fs : FS P),
    ((updateFiles cfg n i ws s fs).1, (updateFiles cfg n i ws s fs).2.2) = (filesProc cfg n i ws s).run fs
  | 0, _, _, _, _ => rfl
  | n + 1, i, ws, s, fs => by
    rw [updateFiles, filesProc, Proc.run_bind, openProc_run]
    generalize (s.openProc cfg i).run fs = x
    obtain ⟨⟨o, s'⟩, fs'⟩ := x
    cases o with
    | err e => rfl
    | panic => rfl
    | ok u =>
      simp only
      cases s'.current with
      | none => rfl
      | some io =>
        simp only
        rw [Proc.run_bind, whileProc_run]
        generalize (whileProc cfg ws io).run fs' = y
        obtain ⟨⟨o', io'⟩, fs''⟩ := y
        cases o' with
        | err e => rfl
        | panic => rfl
        | ok ws' =>
          simp only
          rw [Proc.run_bind, finishProc_run]
          exact filesProc_run cfg n (i + 1) ws' _ _

theorem updateProc_run [Div K] (cfg : IOConfig K V) (ws : List (List K)) (s : CombinedIO K P) (fs : FS P) :
    ((s.updateAll cfg ws fs).1.map fun _ => (), (s.updateAll cfg ws fs).2.2) = (s.updateProc cfg ws).run fs := by
  rw [updateAll, CombinedIO.updateProc, Proc.run_bind, ← filesProc_run]
  generalize updateFiles cfg s.files.length 0 ws s.rewind fs = x
  obtain ⟨o, s', fs'⟩ := x
  cases o <;> rfl

theorem scanProc_run (cfg : IOConfig K V) (fs : FS P) : ∀ files : List (Option (P × P)),
    (scanFiles cfg fs files, fs) = (scanProc cfg files).run fs
  | [] => rfl
  | none :: _ => rfl
  | some f :: files => by
    have ih := scanProc_run cfg fs files
    simp only [scanFiles, scanProc, Proc.run, id]
    cases fs f.1 with
    | none => rfl
    | some content =>
      simp only
      generalize (if ascii "<?xml" <+: trimAsciiStart (cfg.firstBuffer content) then (cfg.xmlInfo content).map some
        else Outcome.ok none) = o
      cases o with
      | err e => rfl
      | panic => rfl
      | ok tag =>
        simp only [Outcome.bind]
        rw [Proc.run_bind, ← ih]
        rfl

theorem prepareProc_run [Zero K] [One K] [Neg K] [Div K] [NatCast K] (cfg : IOConfig K V) (fs : FS P)
    (files : List (Option (P × P))) : (prepareFiles cfg fs files, fs) = (prepareProc cfg files).run fs := by
  unfold prepareFiles prepareProc
  by_cases h : cfg.feat.stripperXml = true
  · simp only [h, if_true]
    rw [Proc.run_bind, ← scanProc_run]
    rfl
  · simp only [h]
    by_cases h' : files.all Option.isSome = true <;> simp only [h', if_true, if_false, Bool.false_eq_true] <;> rfl

end Alone

end Cres

import Mathlib.Data.List.Basic
import Verif.Model.ProgressBar

/-!
Property C61: progress bars and logging.
-/

namespace Cres

open Progress

namespace Spec

/-- Every bar that is created is finished later. Bars are numbered in the order in which they are created. -/
def AllFinished (ops : List Op) : Prop :=
  ∀ before after, ops = before ++ Op.create :: after → Op.finish (before.count .create) ∈ after

end Spec

/-- `Spec.AllFinished` after `n` bars have been created. -/
def FinishedFrom (n : Nat) (ops : List Op) : Prop :=
  ∀ before after, ops = before ++ Op.create :: after → Op.finish (n + before.count .create) ∈ after

theorem FinishedFrom.tail {n : Nat} {op : Op} {ops : List Op} (h : FinishedFrom n (op :: ops)) :
    FinishedFrom (if op = .create then n + 1 else n) ops := by
  intro before after he
  have := h (op :: before) after (by rw [he]; rfl)
  rw [List.count_cons] at this
  by_cases hop : op = .create
  · simp only [hop, if_true] at this ⊢
    simpa [Nat.add_assoc, Nat.add_comm 1] using this
  · simpa [hop] using this

theorem run_other : ∀ (ops : List Op) (bars : List Bar) (level : Level), level ≠ .info → (∀ b ∈ bars, b.loggingDisabled = false) →
    run ops bars level = level
  | [], _, _, _, _ => rfl
  | .create :: ops, bars, level, hl, hb => by
    rw [run]
    have : Bar.new level = (⟨false⟩, level) := by rw [Bar.new, if_pos hl]
    rw [this]
    apply run_other ops _ _ hl
    intro b hb'
    rcases List.mem_append.1 hb' with h | h
    · exact hb b h
    · simp at h; rw [h]
  | .finish i :: ops, bars, level, hl, hb => by
    rw [run]
    split
    · next b hi =>
      rw [Bar.finish, hb b (List.mem_of_getElem? hi)]
      exact run_other ops bars _ (by simpa using hl) hb
    · exact run_other ops bars level hl hb

theorem run_info : ∀ (ops : List Op) (bars : List Bar) (level : Level), FinishedFrom bars.length ops →
    (level = .info ∨ level = .off ∧ ∃ i : Nat, bars[i]? = some ⟨true⟩ ∧ Op.finish i ∈ ops) → run ops bars level = .info
  | [], _, _, _, h => by
    rcases h with h | ⟨_, i, _, h⟩
    · exact h
    · simp at h
  | .create :: ops, bars, level, hf, h => by
    rw [run]
    have hfin : Op.finish bars.length ∈ ops := by simpa using hf [] ops rfl
    have hf' := hf.tail
    rw [if_pos rfl] at hf'
    apply run_info ops
    · simpa using hf'
    · right
      rcases h with h | ⟨h, i, hi, hm⟩
      · subst h
        exact ⟨rfl, bars.length, by simp [Bar.new], hfin⟩
      · subst h
        refine ⟨rfl, i, ?_, by simpa using hm⟩
        rw [List.getElem?_append_left (List.getElem?_eq_some_iff.1 hi).1]
        exact hi
  | .finish j :: ops, bars, level, hf, h => by
    have hf' := hf.tail
    rw [if_neg (by simp)] at hf'
    rw [run]
    split
    · next b hj =>
      apply run_info ops bars _ hf'
      rw [Bar.finish]
      split
      · exact Or.inl rfl
      · next hb =>
        rcases h with h | ⟨h, i, hi, hm⟩
        · exact Or.inl h
        · right
          refine ⟨h, i, hi, ?_⟩
          rcases List.mem_cons.1 hm with hm | hm
          · exfalso
            cases hm
            rw [hj] at hi
            cases hi
            exact hb rfl
          · exact hm
    · next hj =>
      apply run_info ops bars _ hf'
      rcases h with h | ⟨h, i, hi, hm⟩
      · exact Or.inl h
      · right
        refine ⟨h, i, hi, ?_⟩
        rcases List.mem_cons.1 hm with hm | hm
        · exfalso
          cases hm
          rw [hj] at hi
          cases hi
        · exact hm

/-- **C61**: for every log level and every sequence of operations, with any number of bars that may overlap, the log level at the
end is the one from the start if every bar has been finished. -/
theorem C61_restored (ops : List Op) (h : Spec.AllFinished ops) (level : Level) : run ops [] level = level := by
  by_cases hl : level = .info
  · subst hl
    apply run_info
    · intro before after he
      simpa using h before after he
    · exact Or.inl rfl
  · exact run_other ops [] level hl (by simp)

/-- Two bars that overlap, the first one is finished first. -/
example : Spec.AllFinished [.create, .create, .finish 0, .finish 1] ∧ run [.create, .create, .finish 0, .finish 1] [] .info = .info ∧
    run [.create, .create] [] .info = .off := by
  refine ⟨?_, by decide, by decide⟩
  intro before after h
  match before with
  | [] => simp at h; subst h; simp
  | [a] => simp at h; obtain ⟨h1, h2⟩ := h; subst h1 h2; decide
  | [a, b] => simp at h
  | [a, b, c] => simp at h
  | a :: b :: c :: d :: l => simp at h

/-- **C61** as stated: also after errors. -/
def C61_claim : Prop := ∀ known o level, cresRun known o level = level

/-- **C61** does not hold: after an error while reading or writing, the bar is not finished, and logging stays disabled. -/
theorem C61_violated : ¬ C61_claim := by
  intro h
  have := h true .readErr .info
  revert this
  decide

/-- The second case of an error. -/
theorem C61_violated_update (known : Bool) : cresRun known .updateErr .info = .off := by
  cases known <;> decide

/-- **C61**: after classifying events from a file with a known number of events, logging stays disabled even without an error. -/
theorem C61_violated_classify : classify true .info = .off := rfl

/-- **C61** for runs without an error while reading or writing. Missing are other runs, see `C61_violated` and
`C61_violated_update`. -/
theorem C61_run_partial (known : Bool) (o : Outcome) (level : Level) (h1 : o ≠ .readErr) (h2 : o ≠ .updateErr) :
    cresRun known o level = level := by
  cases known <;> cases o <;> cases level <;> first | rfl | exact absurd rfl h1 | exact absurd rfl h2

/-- **C61**: any number of runs of this kind one after the other, e.g. by a program using the C interface. -/
theorem C61_runs_partial (level : Level) : ∀ (runs : List (Bool × Outcome)), (∀ r ∈ runs, r.2 ≠ .readErr ∧ r.2 ≠ .updateErr) →
    runs.foldl (fun l r => cresRun r.1 r.2 l) level = level
  | [], _ => rfl
  | r :: runs, h => by
    rw [List.foldl_cons, C61_run_partial _ _ _ (h r (by simp)).1 (h r (by simp)).2]
    exact C61_runs_partial level runs fun r hr => h r (by simp [hr])

example : cresRun true .ok .info = .info ∧ cresRun true .readErr .info = .off := by decide

end Cres

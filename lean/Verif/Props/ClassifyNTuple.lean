import Verif.Model.ClassifyNTuple
import Verif.Props.Classify
import Mathlib.Algebra.BigOperators.Group.List.Basic

/-!
Property C127: `cres-classify-events` writes every record of an ntuple to exactly one output file.
-/

namespace Cres

open Classify Spec

namespace Spec

/-- The records in a region, in order. -/
def recordsIn {R E K : Type*} [DistNum K] (event : R → Outcome ReadError E) (p : VPTreePartition E K) (i : Nat) (records : List R) : List R :=
  records.filter fun r => match event r with
    | .ok e => decide (p.region e = i)
    | _ => false

/-- The first item that is not a record that can be converted, and the resulting error. -/
def IsFailure {R E : Type*} (event : R → Outcome ReadError E) (item : Outcome ReadError R) (o : Outcome ReadError Unit) : Prop :=
  (∃ e, item = .err e ∧ o = .err e) ∨ (item = .panic ∧ o = .panic) ∨
    (∃ r e, item = .ok r ∧ event r = .err e ∧ o = .err e) ∨ (∃ r, item = .ok r ∧ event r = .panic ∧ o = .panic)

end Spec

section

variable {R E K : Type*} [DistNum K]

theorem ntupleLoop_append (event : R → Outcome ReadError E) (p : VPTreePartition E K) (rest : List (Outcome ReadError R)) :
    ∀ (records : List R) (ws : List (List R)), ws.length = p.len → (∀ r ∈ records, ∃ e, event r = .ok e) →
      ∃ ws', ntupleLoop event p (records.map .ok ++ rest) ws = ntupleLoop event p rest ws' ∧ ws'.length = p.len ∧
        ∀ i w, ws[i]? = some w → ws'[i]? = some (w ++ recordsIn event p i records) := by
  intro records
  induction records with
  | nil => intro ws hl _; exact ⟨ws, rfl, hl, fun i w h => by simpa [recordsIn] using h⟩
  | cons r rs ih =>
    intro ws hl hev
    obtain ⟨e, he⟩ := hev r (by simp)
    have hlt : p.region e < ws.length := by rw [hl]; exact (C21_region_exists p e).2
    obtain ⟨ws', h1, h2, h3⟩ := ih (ws.set (p.region e) (ws[p.region e] ++ [r])) (by simpa using hl) fun r hr => hev r (by simp [hr])
    refine ⟨ws', ?_, h2, ?_⟩
    · rw [List.map_cons, List.cons_append, ntupleLoop, he]
      simp only [List.getElem?_eq_getElem hlt]
      exact h1
    · intro i w hw
      by_cases hi : p.region e = i
      · subst hi
        rw [List.getElem?_eq_getElem hlt, Option.some.injEq] at hw
        subst hw
        rw [h3 _ (ws[p.region e] ++ [r]) (by rw [List.getElem?_set_self hlt])]
        simp [recordsIn, he]
      · rw [h3 i w (by rw [List.getElem?_set_ne hi]; exact hw)]
        simp [recordsIn, he, hi]

theorem outs_eq {event : R → Outcome ReadError E} {p : VPTreePartition E K} {records : List R} {ws' : List (List R)} (h2 : ws'.length = p.len)
    (h3 : ∀ i w, (List.replicate p.len ([] : List R))[i]? = some w → ws'[i]? = some (w ++ recordsIn event p i records)) :
    ws' = (List.range p.len).map fun i => recordsIn event p i records := by
  apply List.ext_getElem (by simp [h2])
  intro i hi hi'
  have hip : i < p.len := by rw [← h2]; exact hi
  have := h3 i [] (by simp [hip])
  rw [List.getElem?_eq_getElem hi, Option.some.injEq] at this
  rw [this]
  simp

/-- **C127**: if all records can be read and converted, then there is one output file per region. It contains exactly the records of
its region in the order of the input. -/
theorem C127_outputs (event : R → Outcome ReadError E) (p : VPTreePartition E K) (records : List R)
    (hev : ∀ r ∈ records, ∃ e, event r = .ok e) :
    classifyNTuple event p (records.map .ok) = (.ok (), (List.range p.len).map fun i => recordsIn event p i records) := by
  obtain ⟨ws', h1, h2, h3⟩ := ntupleLoop_append event p [] records (List.replicate p.len []) (by simp) hev
  rw [List.append_nil] at h1
  rw [classifyNTuple, h1, ntupleLoop, outs_eq h2 h3]

/-- **C127**: every record is in exactly one output file. -/
theorem C127_once (event : R → Outcome ReadError E) (p : VPTreePartition E K) (records : List R)
    (hev : ∀ r ∈ records, ∃ e, event r = .ok e) : (classifyNTuple event p (records.map .ok)).2.flatten.Perm records := by
  rw [C127_outputs event p records hev]
  simp only
  induction records with
  | nil =>
    have : (List.range p.len).map (fun i => recordsIn event p i ([] : List R)) = List.replicate p.len [] := by
      simp [recordsIn]
    rw [this]
    simp
  | cons r rs ih =>
    obtain ⟨e, he⟩ := hev r (by simp)
    have hreg := (C21_region_exists p e).2
    have hih := ih fun r hr => hev r (by simp [hr])
    have hsplit : List.range p.len = List.range (p.region e) ++ p.region e :: (List.range (p.len - p.region e - 1)).map (· + (p.region e + 1)) := by
      have h1 : p.len = p.region e + (1 + (p.len - p.region e - 1)) := by omega
      conv_lhs => rw [h1]
      rw [List.range_add, List.range_add]
      simp only [List.range_one, List.map_map, List.map_cons, List.singleton_append, Nat.add_zero]
      congr 2
      apply List.map_congr_left
      intro x _
      simp only [Function.comp]
      omega
    have hne : ∀ l : List Nat, p.region e ∉ l → l.map (fun i => recordsIn event p i (r :: rs)) = l.map fun i => recordsIn event p i rs := by
      intro l hl
      apply List.map_congr_left
      intro i hi
      have : p.region e ≠ i := by rintro rfl; exact hl hi
      simp [recordsIn, he, this]
    have hr : recordsIn event p (p.region e) (r :: rs) = r :: recordsIn event p (p.region e) rs := by simp [recordsIn, he]
    rw [hsplit, List.map_append, List.map_cons, List.flatten_append, List.flatten_cons] at hih ⊢
    rw [hne _ (by simp), hne _ (by simp; omega), hr, List.cons_append]
    exact List.perm_middle.trans (hih.cons r)

/-- **C127**: sums over all records, in particular of any of the weights in them, are those of the input. -/
theorem C127_sum {M : Type*} [AddCommMonoid M] (g : R → M) (event : R → Outcome ReadError E) (p : VPTreePartition E K) (records : List R)
    (hev : ∀ r ∈ records, ∃ e, event r = .ok e) :
    ((classifyNTuple event p (records.map .ok)).2.map fun out => (out.map g).sum).sum = (records.map g).sum := by
  have h := ((C127_once event p records hev).map g).sum_eq
  rw [List.map_flatten, List.sum_flatten, List.map_map] at h
  exact h

/-- **C127**: if a record cannot be read or converted, then this is the result, and the output files contain the records before it. -/
theorem C127_error (event : R → Outcome ReadError E) (p : VPTreePartition E K) (records : List R)
    (hev : ∀ r ∈ records, ∃ e, event r = .ok e) {item : Outcome ReadError R} {o : Outcome ReadError Unit} (hf : IsFailure event item o)
    (rest : List (Outcome ReadError R)) :
    classifyNTuple event p (records.map .ok ++ item :: rest) = (o, (List.range p.len).map fun i => recordsIn event p i records) := by
  obtain ⟨ws', h1, h2, h3⟩ := ntupleLoop_append event p (item :: rest) records (List.replicate p.len []) (by simp) hev
  rw [classifyNTuple, h1, ← outs_eq h2 h3]
  rcases hf with ⟨e, rfl, rfl⟩ | ⟨rfl, rfl⟩ | ⟨r, e, rfl, h, rfl⟩ | ⟨r, rfl, h, rfl⟩ <;> simp only [ntupleLoop, *]

end

-- two regions, and a record that cannot be converted
example : let p : VPTreePartition ℤ ℤ := ⟨[⟨0, 5⟩], fun x y => |x - y|⟩
    let event : ℤ → Outcome ReadError ℤ := fun r => if r = 100 then .panic else .ok r
    classifyNTuple event p ([3, 8, -4, 7].map .ok) = (.ok (), [[3, -4], [8, 7]]) ∧
      classifyNTuple event p [.ok 3, .ok 8, .ok 100, .ok 4] = (.panic, [[3], [8]]) := by decide +kernel

end Cres

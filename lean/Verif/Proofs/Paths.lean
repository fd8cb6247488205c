import Verif.Spec.Paths
import Mathlib.Tactic.Common

/-!
Lemmas about paths.
-/

namespace Cres.Path

open Spec

theorem split_ne_nil : ∀ p : Bytes, split p ≠ []
  | [] => by simp [split]
  | b :: bs => by
    rw [split]
    split_ifs
    · simp
    · split <;> simp

theorem split_append_sep : ∀ a b : Bytes, split (a ++ 47 :: b) = split a ++ split b
  | [], b => by simp [split]
  | c :: a, b => by
    rw [List.cons_append, split, split, split_append_sep a b]
    split_ifs with h
    · rfl
    · have := split_ne_nil a
      cases hs : split a with
      | nil => exact absurd hs this
      | cons x xs => simp

theorem split_no_sep : ∀ {n : Bytes}, (47 : UInt8) ∉ n → split n = [n]
  | [], _ => rfl
  | b :: bs, h => by
    have hb : b ≠ 47 := fun hb => h (by simp [hb])
    rw [split, if_neg hb, split_no_sep fun hm => h (by simp [hm])]

theorem mem_split : ∀ {p c : Bytes}, c ∈ split p → (47 : UInt8) ∉ c
  | [], c, h => by
    simp only [split, List.mem_singleton] at h
    simp [h]
  | b :: bs, c, h => by
    rw [split] at h
    split_ifs at h with hb
    · rcases List.mem_cons.1 h with h | h
      · simp [h]
      · exact mem_split h
    · have ih := fun c => @mem_split bs c
      cases hs : split bs with
      | nil =>
        rw [hs] at h
        simp only [List.mem_singleton] at h
        subst h
        simpa using fun h => hb h.symm
      | cons x xs =>
        rw [hs] at h ih
        rcases List.mem_cons.1 h with h | h
        · subst h
          simp only [List.mem_cons, not_or]
          exact ⟨fun h => hb h.symm, ih x (by simp)⟩
        · exact ih c (by simp [h])

theorem components_append_sep (a b : Bytes) : components (a ++ 47 :: b) = components a ++ components b := by
  rw [components, split_append_sep, List.filter_append]
  rfl

theorem components_name {n : Bytes} (h : IsName n) : components n = [n] := by
  rw [components, split_no_sep h.2.1]
  have h1 := h.1
  have h2 : n ≠ [46] := h.2.2.1
  simp [h1, h2]

/-- A directory path that is empty or ends with a slash. -/
theorem components_dir {d n : Bytes} (hd : d = [] ∨ d.getLast? = some 47) (h : IsName n) :
    components (d ++ n) = components d ++ [n] := by
  rcases hd with rfl | hd
  · rw [List.nil_append, components_name h]
    rfl
  · obtain ⟨d', rfl⟩ := List.getLast?_eq_some_iff.1 hd
    rw [List.append_assoc, List.singleton_append, components_append_sep, components_name h]
    congr 1
    rw [components_append_sep]
    simp [components, split]

theorem fileName_isName {f n : Bytes} (h : fileName f = some n) : IsName n := by
  unfold fileName at h
  cases hc : (components f).getLast? with
  | none => rw [hc] at h; simp at h
  | some c =>
    rw [hc] at h
    simp only at h
    split_ifs at h with hdd
    simp only [Option.some.injEq] at h
    subst h
    have hm := List.mem_of_getLast? hc
    unfold components at hm
    rw [List.mem_filter] at hm
    obtain ⟨h1, h2⟩ := hm
    simp only [ne_eq, decide_eq_true_eq] at h2
    exact ⟨h2.1, mem_split h1, h2.2, hdd⟩

theorem fileName_dir {f d n : Bytes} (h : IsFilePath f d n) : fileName f = some n := by
  obtain ⟨rfl, hd, hn⟩ := h
  have h2 : n ≠ [46, 46] := hn.2.2.2
  simp [fileName, components_dir hd hn, h2]

theorem head_name {n : Bytes} (h : IsName n) : isAbsolute n = false := by
  cases n with
  | nil => rfl
  | cons b n =>
    have : b ≠ 47 := fun hb => h.2.1 (by simp [hb])
    simp [isAbsolute, this]

theorem isAbsolute_append {d n : Bytes} (h : IsName n) : isAbsolute (d ++ n) = isAbsolute d := by
  cases d with
  | nil => exact head_name h
  | cons b d => rfl

theorem locate_dir (cwd : List Bytes) {f d n : Bytes} (h : IsFilePath f d n) : locate cwd f = locate cwd d ++ [n] := by
  obtain ⟨rfl, hd, hn⟩ := h
  have h2 : n ≠ [46, 46] := hn.2.2.2
  rw [locate, locate, components_dir hd hn, isAbsolute_append hn, List.foldl_append]
  simp [h2]

theorem push_nil (a : Bytes) : push [] a = a := by
  unfold push
  split_ifs <;> simp_all

theorem fromPair_path {outdir n : Bytes} (h : IsName n) : ∃ d, IsFilePath (fromPair outdir n) d n ∧
    components d = components outdir ∧ isAbsolute d = isAbsolute outdir := by
  unfold fromPair
  rw [push_nil, push, head_name h]
  by_cases ho : outdir = [] ∨ outdir.getLast? = some 47
  · simp only [Bool.false_eq_true, if_false, if_pos ho]
    exact ⟨outdir, ⟨rfl, ho, h⟩, rfl, rfl⟩
  · simp only [Bool.false_eq_true, if_false, if_neg ho]
    refine ⟨outdir ++ [47], ⟨by simp, Or.inr (by simp), h⟩, ?_, ?_⟩
    · rw [components_append_sep]
      simp [components, split]
    · cases outdir with
      | nil => simp at ho
      | cons b o => rfl

theorem locate_fromPair (cwd : List Bytes) {outdir n : Bytes} (h : IsName n) :
    locate cwd (fromPair outdir n) = locate cwd outdir ++ [n] := by
  obtain ⟨d, h1, h2, h3⟩ := fromPair_path (outdir := outdir) h
  rw [locate_dir cwd h1]
  congr 1
  rw [locate, locate, h2, h3]

theorem append_name_inj {a b : List Bytes} {m n : Bytes} : a ++ [m] = b ++ [n] ↔ a = b ∧ m = n := by
  constructor
  · intro h
    have := List.append_inj' h rfl
    simpa using this
  · rintro ⟨rfl, rfl⟩
    rfl

end Cres.Path

import Verif.Proofs.Paths
import Verif.Props.Classify

/-!
# C73: where `classify-events` writes its output
-/

namespace Cres

open Spec Cres.Path

theorem mem_splitDot : ∀ {s : Bytes} {b : UInt8}, b ∈ (splitDot s).1 ∨ b ∈ (splitDot s).2 → b ∈ s
  | [], b, h => by simp [splitDot] at h
  | c :: s, b, h => by
    rw [splitDot] at h
    split_ifs at h with hc
    · rcases h with h | h
      · simp at h
      · simp [h]
    · rcases h with h | h
      · rcases List.mem_cons.1 h with h | h
        · simp [h]
        · exact List.mem_cons_of_mem _ (mem_splitDot (Or.inl h))
      · exact List.mem_cons_of_mem _ (mem_splitDot (Or.inr h))

theorem digits_bytes (i : Nat) : ascii (toString i) ≠ [] ∧ (47 : UInt8) ∉ ascii (toString i) ∧ (46 : UInt8) ∉ ascii (toString i) := by
  have h : ∀ c ∈ (toString i).toList, c.isDigit = true := by
    intro c hc
    rw [Nat.toString_eq_repr, Nat.toList_repr] at hc
    exact Nat.isDigit_of_mem_toDigits (by decide) (by decide) hc
  have hd : ∀ c : Char, c.isDigit = true → UInt8.ofNat c.toNat ≠ 47 ∧ UInt8.ofNat c.toNat ≠ 46 := by
    intro c hc
    rw [Char.isDigit, Bool.and_eq_true, decide_eq_true_eq, decide_eq_true_eq] at hc
    have h1 : 48 ≤ c.toNat := hc.1
    have h2 : c.toNat ≤ 57 := hc.2
    have h3 : (UInt8.ofNat c.toNat).toNat = c.toNat := by
      rw [UInt8.toNat_ofNat']
      exact Nat.mod_eq_of_lt (by omega)
    constructor <;> intro he <;> rw [he] at h3 <;> simp at h3 <;> omega
  refine ⟨?_, ?_, ?_⟩
  · rw [ascii, Nat.toString_eq_repr, Nat.toList_repr]
    simp
  · intro hm
    obtain ⟨c, hc, he⟩ := List.mem_map.1 hm
    exact (hd c (h c hc)).1 he
  · intro hm
    obtain ⟨c, hc, he⟩ := List.mem_map.1 hm
    exact (hd c (h c hc)).2 he

theorem regionName_isName {n : Bytes} (h : IsName n) (i : Nat) : IsName (regionName n i) := by
  obtain ⟨h1, h2, -⟩ := digits_bytes i
  have hlen : 3 ≤ (regionName n i).length := by
    have := List.length_pos_iff.2 h1
    simp only [regionName, List.length_append, List.length_cons]
    omega
  refine ⟨fun h0 => by rw [h0] at hlen; simp at hlen, ?_, fun h0 => by rw [h0] at hlen; revert hlen; decide,
    fun h0 => by rw [h0] at hlen; revert hlen; decide⟩
  intro hm
  simp only [regionName, List.mem_append, List.mem_cons] at hm
  rcases hm with hm | hm | hm | hm | hm
  · exact h.2.1 (mem_splitDot (Or.inl hm))
  · revert hm; decide
  · exact h2 hm
  · revert hm; decide
  · exact h.2.1 (mem_splitDot (Or.inr hm))

theorem splitDot_dot {p : Bytes} (s : Bytes) (h : (46 : UInt8) ∉ p) : splitDot (p ++ 46 :: s) = (p, s) ∧ splitDot p = (p, []) := by
  induction p with
  | nil => exact ⟨by simp [splitDot], rfl⟩
  | cons b p ih =>
    simp only [List.mem_cons, not_or] at h
    obtain ⟨h3, h4⟩ := ih h.2
    have hb : b ≠ 46 := fun hb => h.1 hb.symm
    rw [List.cons_append, splitDot, splitDot, if_neg hb, if_neg hb, h3, h4]
    exact ⟨rfl, rfl⟩

theorem exists_first_dot : ∀ (n : Bytes), (46 : UInt8) ∈ n → ∃ p s, (46 : UInt8) ∉ p ∧ n = p ++ 46 :: s
  | [], h => by simp at h
  | b :: n, h => by
    by_cases hb : b = 46
    · exact ⟨[], n, by simp, by simp [hb]⟩
    · rcases List.mem_cons.1 h with h | h
      · exact absurd h.symm hb
      · obtain ⟨p, s, hp, rfl⟩ := exists_first_dot n h
        exact ⟨b :: p, s, by simp [hp, Ne.symm hb], rfl⟩

theorem regionName_spec (n : Bytes) (i : Nat) (m : Bytes) : IsRegionName n i m ↔ m = regionName n i := by
  have h4 : ascii "." = [46] := by decide
  unfold IsRegionName
  rw [h4]
  constructor
  · rintro (⟨p, s, hp, rfl, rfl⟩ | ⟨hp, rfl⟩)
    · rw [regionName, show p ++ [46] ++ s = p ++ 46 :: s by simp, (splitDot_dot s hp).1]
      simp
    · rw [regionName, (splitDot_dot [] hp).2]
      simp
  · rintro rfl
    by_cases hd : (46 : UInt8) ∈ n
    · obtain ⟨p, s, hp, rfl⟩ := exists_first_dot n hd
      refine Or.inl ⟨p, s, hp, by simp, ?_⟩
      rw [regionName, (splitDot_dot s hp).1]
      simp
    · refine Or.inr ⟨hd, ?_⟩
      rw [regionName, (splitDot_dot [] hd).2]
      simp

theorem ascii_toString_inj {i j : Nat} (h : ascii (toString i) = ascii (toString j)) : i = j := by
  have hd : ∀ (k : Nat) (c : Char), c ∈ Nat.toDigits 10 k → 48 ≤ c.toNat ∧ c.toNat ≤ 57 := by
    intro k c hc
    have := Nat.isDigit_of_mem_toDigits (by decide) (by decide) hc
    rw [Char.isDigit, Bool.and_eq_true, decide_eq_true_eq, decide_eq_true_eq] at this
    exact this
  have hmap : ∀ {l l' : List Char}, (∀ c ∈ l, 48 ≤ c.toNat ∧ c.toNat ≤ 57) → (∀ c ∈ l', 48 ≤ c.toNat ∧ c.toNat ≤ 57) →
      l.map (fun c => UInt8.ofNat c.toNat) = l'.map (fun c => UInt8.ofNat c.toNat) → l = l' := by
    intro l
    induction l with
    | nil => intro l' _ _ h; cases l' with
      | nil => rfl
      | cons => simp at h
    | cons c l ih =>
      intro l' h1 h2 h
      cases l' with
      | nil => simp at h
      | cons c' l' =>
        simp only [List.map_cons, List.cons.injEq] at h
        have h3 := congrArg UInt8.toNat h.1
        rw [UInt8.toNat_ofNat', UInt8.toNat_ofNat'] at h3
        have hc := h1 c (by simp)
        have hc' := h2 c' (by simp)
        have h4 : c.toNat = c'.toNat := by omega
        rw [Char.toNat_inj.1 h4, ih (fun x hx => h1 x (by simp [hx])) (fun x hx => h2 x (by simp [hx])) h.2]
  rw [ascii, ascii, Nat.toString_eq_repr, Nat.toString_eq_repr, Nat.toList_repr, Nat.toList_repr] at h
  exact toDigits_injective (hmap (hd i) (hd j) h)

theorem split_dot_unique_bytes {p p' s s' : Bytes} (h : (46 : UInt8) ∉ p) (h' : (46 : UInt8) ∉ p')
    (he : p ++ 46 :: s = p' ++ 46 :: s') : p = p' ∧ s = s' := by
  have h1 := (splitDot_dot s h).1
  rw [he, (splitDot_dot s' h').1] at h1
  simp only [Prod.mk.injEq] at h1
  exact ⟨h1.1.symm, h1.2.symm⟩

/-- **C73** as stated: for a file with name `n` in any directory, the output for region `i` is in the output directory, and
its name is `n` with `i` inserted before the first dot. -/
def C73_claim : Prop :=
  ∀ (cwd : List Bytes) (outdir f d n : Bytes) (i : Nat), IsFilePath f d n → validUtf8 f = true → validUtf8 n = true →
    (∃ out m, textOutput outdir f i = some out ∧ IsRegionName n i m ∧ locate cwd out = locate cwd outdir ++ [m]) ∧
    ∃ out m, ntupleOutput outdir f i = some out ∧ IsRegionName n i m ∧ locate cwd out = locate cwd outdir ++ [m]

/-- **C73** fails for ntuples with an absolute path: the output is written next to the input file. -/
theorem C73_violated : ¬ C73_claim := by
  intro h
  obtain ⟨-, out, m, h1, hm, h2⟩ := h [] (ascii "out") (ascii "/data/x.root") (ascii "/data/") (ascii "x.root") 0
    ⟨by decide +kernel, by decide +kernel, by unfold IsName; decide +kernel⟩ (by decide +kernel) (by decide +kernel)
  have h3 : ntupleOutput (ascii "out") (ascii "/data/x.root") 0 = some (ascii "/data/x.0.root") := by decide +kernel
  rw [h3] at h1
  simp only [Option.some.injEq] at h1
  rw [regionName_spec] at hm
  subst h1 hm
  revert h2
  decide +kernel

/-- **C73** fails for ntuples with a relative path that starts with a dot as well: the number of the region is inserted
before this dot, and the output is in a different directory. -/
theorem C73_relative_violated : ¬ C73_claim := by
  intro h
  obtain ⟨-, out, m, h1, hm, h2⟩ := h [] (ascii "out") (ascii "./x.root") (ascii "./") (ascii "x.root") 0
    ⟨by decide +kernel, by decide +kernel, by unfold IsName; decide +kernel⟩ (by decide +kernel) (by decide +kernel)
  have h3 : ntupleOutput (ascii "out") (ascii "./x.root") 0 = some (ascii "out/.0./x.root") := by decide +kernel
  rw [h3] at h1
  simp only [Option.some.injEq] at h1
  rw [regionName_spec] at hm
  subst h1 hm
  revert h2
  decide +kernel

/-- **C73** for text files. -/
theorem C73_text_partial (cwd : List Bytes) (outdir : Bytes) {f d n : Bytes} (i : Nat) (h : IsFilePath f d n)
    (hu : validUtf8 n = true) :
    ∃ out m, textOutput outdir f i = some out ∧ IsRegionName n i m ∧ IsName m ∧ locate cwd out = locate cwd outdir ++ [m] := by
  refine ⟨_, _, ?_, (regionName_spec n i _).2 rfl, regionName_isName h.2.2 i, locate_fromPair cwd (regionName_isName h.2.2 i)⟩
  rw [textOutput, fileName_dir h]
  simp [hu]

/-- **C73** for ntuples in the current directory that are given by their name. -/
theorem C73_ntuple_partial (cwd : List Bytes) (outdir : Bytes) {n : Bytes} (i : Nat) (h : IsName n) (hu : validUtf8 n = true) :
    ∃ out m, ntupleOutput outdir n i = some out ∧ IsRegionName n i m ∧ IsName m ∧ locate cwd out = locate cwd outdir ++ [m] := by
  refine ⟨_, _, ?_, (regionName_spec n i _).2 rfl, regionName_isName h i, locate_fromPair cwd (regionName_isName h i)⟩
  rw [ntupleOutput, if_pos hu]

/-- **C73**: outputs for different regions of the same input file have different names, and so do outputs for the same region
of input files with different names, if both names contain a dot. -/
theorem C73_names {n n' m m' : Bytes} {i j : Nat} (h : IsRegionName n i m) (h' : IsRegionName n' j m') :
    (n = n' → i ≠ j → m ≠ m') ∧ ((46 : UInt8) ∈ n → (46 : UInt8) ∈ n' → i = j → n ≠ n' → m ≠ m') := by
  rw [regionName_spec] at h h'
  subst h h'
  constructor
  · rintro rfl hij he
    have h1 := List.append_cancel_left he
    simp only [List.cons.injEq, true_and] at h1
    exact hij (ascii_toString_inj (List.append_cancel_right h1))
  · rintro hn hn' rfl hne he
    obtain ⟨p, s, hp, rfl⟩ := exists_first_dot n hn
    obtain ⟨p', s', hp', rfl⟩ := exists_first_dot n' hn'
    rw [regionName, regionName, (splitDot_dot s hp).1, (splitDot_dot s' hp').1] at he
    obtain ⟨h1, h2⟩ := split_dot_unique_bytes hp hp' he
    rw [h1] at hne
    have h3 := List.append_cancel_left h2
    simp only [List.cons.injEq, true_and] at h3
    exact hne (by rw [h3])

example : IsFilePath (ascii "data/x.hepmc.gz") (ascii "data/") (ascii "x.hepmc.gz") ∧
    textOutput (ascii "out") (ascii "data/x.hepmc.gz") 12 = some (ascii "out/x.12.hepmc.gz") ∧
    ntupleOutput (ascii "out") (ascii "x.root") 12 = some (ascii "out/x.12.root") := by
  refine ⟨⟨by decide +kernel, by decide +kernel, ?_, ?_, ?_, ?_⟩, ?_, ?_⟩ <;> decide +kernel

end Cres

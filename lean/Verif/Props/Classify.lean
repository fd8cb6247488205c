import Verif.Model.Classify
import Verif.Spec.Classify
import Verif.Props.Partition
import Verif.Props.SplitUnique

/-!
Property C60: distributing event records over regions.
-/

namespace Cres

open Classify Spec

namespace Spec

/-- The region of a record, if it can be converted. -/
def regionOf {E K : Type*} [DistNum K] (event : Bytes → Outcome ReadError E) (p : VPTreePartition E K) (r : Bytes) : Option Nat :=
  match event r with
  | .ok e => some (p.region e)
  | _ => none

end Spec

/-! ### Footers -/

theorem trimEndRev_suffix : ∀ s : Bytes, trimEndRev s <:+ s
  | [] => List.suffix_refl _
  | [b0] => by rw [trimEndRev]; split_ifs <;> simp
  | [b1, b0] => by
    rw [trimEndRev]
    split_ifs
    · exact (trimEndRev_suffix [b0]).trans (List.suffix_cons _ _)
    · simp
    · exact List.suffix_refl _
  | b2 :: b1 :: b0 :: r => by
    rw [trimEndRev]
    split_ifs
    · exact (trimEndRev_suffix (b1 :: b0 :: r)).trans (List.suffix_cons _ _)
    · exact (trimEndRev_suffix (b0 :: r)).trans ((List.suffix_cons _ _).trans (List.suffix_cons _ _))
    · exact (trimEndRev_suffix r).trans ((List.suffix_cons _ _).trans ((List.suffix_cons _ _).trans (List.suffix_cons _ _)))
    · exact List.suffix_refl _

theorem trimEnd_prefix (s : Bytes) : trimEnd s <+: s := by
  have := List.reverse_prefix.2 (trimEndRev_suffix s.reverse)
  rwa [List.reverse_reverse] at this

theorem trimEndRev_blank {c : Bytes} (hc : IsBlank c) (s : Bytes) : trimEndRev (c.reverse ++ s) = trimEndRev s := by
  have h1 : ∀ (b : UInt8) (s : Bytes), isWs1 b = true → trimEndRev (b :: s) = trimEndRev s := by
    intro b s hb
    match s with
    | [] => simp [trimEndRev, hb]
    | [x] => simp [trimEndRev, hb]
    | x :: y :: s => simp [trimEndRev, hb]
  have hn2 : ∀ b0 b1, isWs2 b0 b1 = true → isWs1 b1 = false := by
    intro b0 b1 h
    simp only [isWs2, Bool.and_eq_true, Bool.or_eq_true, decide_eq_true_eq] at h
    rcases h.2 with rfl | rfl <;> decide
  have hn3 : ∀ b0 b1 b2, isWs3 b0 b1 b2 = true → isWs1 b2 = false ∧ isWs2 b1 b2 = false := by
    intro b0 b1 b2 h
    simp only [isWs3, Bool.and_eq_true, Bool.or_eq_true, decide_eq_true_eq] at h
    constructor
    · have h80 : 0x80 ≤ b2 := by
        rcases h with ((⟨_, rfl⟩ | ⟨_, (⟨h, _⟩ | rfl) | rfl⟩) | ⟨_, rfl⟩) | ⟨_, rfl⟩
        · decide
        · exact h
        all_goals first | decide | skip
        next h => rw [h]; decide
      simp only [isWs1, Bool.or_eq_false_iff, Bool.and_eq_false_iff, decide_eq_false_iff_not]
      rw [UInt8.le_iff_toNat_le] at h80
      have : (0x80 : UInt8).toNat = 128 := by decide
      rw [this] at h80
      constructor
      · rintro rfl
        revert h80; decide
      · right
        rw [UInt8.le_iff_toNat_le]
        have : (13 : UInt8).toNat = 13 := by decide
        omega
    · have : b1 ≠ 0xC2 := by
        rcases h with ((⟨⟨_, rfl⟩, _⟩ | ⟨⟨_, rfl⟩, _⟩) | ⟨⟨_, rfl⟩, _⟩) | ⟨⟨_, rfl⟩, _⟩ <;> decide
      simp [isWs2, this]
  rcases hc with ⟨b, rfl, hb⟩ | ⟨b0, b1, rfl, hb⟩ | ⟨b0, b1, b2, rfl, hb⟩
  · exact h1 b s hb
  · have := hn2 _ _ hb
    match s with
    | [] => simp [trimEndRev, this, hb]
    | x :: s => simp [trimEndRev, this, hb]
  · obtain ⟨g1, g2⟩ := hn3 _ _ _ hb
    simp [trimEndRev, g1, g2, hb]

theorem trimEndRev_blanks (cs : List Bytes) (hc : ∀ c ∈ cs, IsBlank c) : ∀ s, trimEndRev (cs.flatten.reverse ++ s) = trimEndRev s := by
  induction cs using List.reverseRecOn with
  | nil => intro s; rfl
  | append_singleton cs c ih =>
    intro s
    rw [List.flatten_append, List.reverse_append, List.append_assoc]
    have : [c].flatten = c := by simp
    rw [this, trimEndRev_blank (hc c (by simp)), ih (fun c h => hc c (by simp [h]))]

/-- What `trim_end` removes is white space. -/
theorem trimEndRev_removed : ∀ s : Bytes, ∃ cs : List Bytes, (∀ c ∈ cs, IsBlank c) ∧ s = cs.flatten.reverse ++ trimEndRev s
  | [] => ⟨[], by simp, by simp [trimEndRev]⟩
  | [b0] => by
    rw [trimEndRev]
    split_ifs with h
    · exact ⟨[[b0]], fun c hc => by rw [List.mem_singleton.1 hc]; exact Or.inl ⟨b0, rfl, h⟩, by simp⟩
    · exact ⟨[], by simp, by simp⟩
  | [b1, b0] => by
    rw [trimEndRev]
    split_ifs with h h2
    · obtain ⟨cs, h3, h4⟩ := trimEndRev_removed [b0]
      refine ⟨cs ++ [[b1]], ?_, ?_⟩
      · intro c hc
        rcases List.mem_append.1 hc with hc | hc
        · exact h3 c hc
        · rw [List.mem_singleton.1 hc]; exact Or.inl ⟨b1, rfl, h⟩
      · conv_lhs => rw [h4]
        simp
    · exact ⟨[[b0, b1]], fun c hc => by rw [List.mem_singleton.1 hc]; exact Or.inr (Or.inl ⟨b0, b1, rfl, h2⟩), by simp⟩
    · exact ⟨[], by simp, by simp⟩
  | b2 :: b1 :: b0 :: r => by
    rw [trimEndRev]
    split_ifs with h h2 h3
    · obtain ⟨cs, g3, g4⟩ := trimEndRev_removed (b1 :: b0 :: r)
      refine ⟨cs ++ [[b2]], ?_, ?_⟩
      · intro c hc
        rcases List.mem_append.1 hc with hc | hc
        · exact g3 c hc
        · rw [List.mem_singleton.1 hc]; exact Or.inl ⟨b2, rfl, h⟩
      · conv_lhs => rw [g4]
        simp
    · obtain ⟨cs, g3, g4⟩ := trimEndRev_removed (b0 :: r)
      refine ⟨cs ++ [[b1, b2]], ?_, ?_⟩
      · intro c hc
        rcases List.mem_append.1 hc with hc | hc
        · exact g3 c hc
        · rw [List.mem_singleton.1 hc]; exact Or.inr (Or.inl ⟨b1, b2, rfl, h2⟩)
      · conv_lhs => rw [g4]
        simp
    · obtain ⟨cs, g3, g4⟩ := trimEndRev_removed r
      refine ⟨cs ++ [[b0, b1, b2]], ?_, ?_⟩
      · intro c hc
        rcases List.mem_append.1 hc with hc | hc
        · exact g3 c hc
        · rw [List.mem_singleton.1 hc]; exact Or.inr (Or.inr ⟨b0, b1, b2, rfl, h3⟩)
      · conv_lhs => rw [g4]
        simp
    · exact ⟨[], by simp, by simp⟩

theorem trimEnd_removed (s : Bytes) : ∃ ws, Blank ws ∧ s = trimEnd s ++ ws := by
  obtain ⟨cs, h1, h2⟩ := trimEndRev_removed s.reverse
  refine ⟨cs.flatten, ⟨cs, rfl, h1⟩, ?_⟩
  have := congrArg List.reverse h2
  rw [List.reverse_reverse, List.reverse_append, List.reverse_reverse] at this
  exact this

/-- `trim_end` stops at a visible ASCII character. -/
theorem trimEndRev_visible {b : UInt8} (hb : b < 0x80) (hw : isWs1 b = false) (s : Bytes) : trimEndRev (b :: s) = b :: s := by
  have h2 : ∀ x, isWs2 x b = false := by
    intro x
    have h1 : b ≠ 0x85 := by rintro rfl; revert hb; decide
    have h2 : b ≠ 0xA0 := by rintro rfl; revert hb; decide
    simp [isWs2, h1, h2]
  have h3 : ∀ x y, isWs3 x y b = false := by
    intro x y
    have g1 : b ≠ 0x80 := by rintro rfl; revert hb; decide
    have g2 : b ≠ 0xA8 := by rintro rfl; revert hb; decide
    have g3 : b ≠ 0xA9 := by rintro rfl; revert hb; decide
    have g4 : b ≠ 0xAF := by rintro rfl; revert hb; decide
    have g5 : b ≠ 0x9F := by rintro rfl; revert hb; decide
    have g6 : ¬ (0x80 ≤ b) := UInt8.not_le.2 hb
    simp [isWs3, g1, g2, g3, g4, g5, g6]
  match s with
  | [] => simp [trimEndRev, hw]
  | [x] => simp [trimEndRev, hw, h2]
  | x :: y :: s => simp [trimEndRev, hw, h2, h3]

theorem trimEnd_footer (f : Format) (a ws : Bytes) (h : Blank ws) : trimEnd (a ++ footer f ++ ws) = a ++ footer f := by
  obtain ⟨cs, rfl, hc⟩ := h
  unfold trimEnd
  rw [List.reverse_append, trimEndRev_blanks cs hc]
  have : ∃ b r, (footer f).reverse = b :: r ∧ b < 0x80 ∧ isWs1 b = false := by
    cases f
    · exact ⟨71, _, rfl, by decide, by decide⟩
    · exact ⟨62, _, rfl, by decide, by decide⟩
    · exact ⟨62, _, rfl, by decide, by decide⟩
  obtain ⟨b, r, h1, h2, h3⟩ := this
  have h4 : (a ++ footer f).reverse = b :: (r ++ a.reverse) := by rw [List.reverse_append, h1]; rfl
  rw [h4, trimEndRev_visible h2 h3, ← h4, List.reverse_reverse]

theorem trimFooter_append (f : Format) (a ws : Bytes) (h : Blank ws) : trimFooter f (a ++ footer f ++ ws) = a := by
  unfold trimFooter
  simp only [trimEnd_footer f a ws h]
  rw [if_pos (List.suffix_append _ _)]
  simp

theorem trimFooter_spec (f : Format) (r : Bytes) : WithoutFooter (footer f) r (trimFooter f r) := by
  by_cases h : ∃ a ws, Blank ws ∧ r = a ++ footer f ++ ws
  · obtain ⟨a, ws, hws, rfl⟩ := h
    exact Or.inl ⟨ws, hws, by rw [trimFooter_append f a ws hws]⟩
  · refine Or.inr ⟨?_, h⟩
    unfold trimFooter
    simp only
    split_ifs with hs
    · exfalso
      obtain ⟨a, ha⟩ := hs
      obtain ⟨ws, hws, hr⟩ := trimEnd_removed r
      exact h ⟨a, ws, hws, by rw [ha]; exact hr⟩
    · rfl

/-! ### The loop -/

variable {E K : Type*} [DistNum K]

/-- The records of a region as they are written. -/
def regionRecords (f : Format) (event : Bytes → Outcome ReadError E) (p : VPTreePartition E K) (records : List Bytes) (i : Nat) :
    List Bytes := (records.filter (fun r => regionOf event p r = some i)).map (trimFooter f)

theorem loop_ok (f : Format) (event : Bytes → Outcome ReadError E) (p : VPTreePartition E K) : ∀ (rs ws : List Bytes),
    ws.length = p.len → (∀ r ∈ rs, ∃ e, event r = .ok e) →
    ∃ ws', loop f event p rs ws = (.ok (), ws') ∧ ws'.length = p.len ∧
      ∀ i w, ws[i]? = some w → ws'[i]? = some (w ++ (regionRecords f event p rs i).flatten)
  | [], ws, hl, _ => ⟨ws, rfl, hl, by intro i w h; simpa [regionRecords] using h⟩
  | r :: rs, ws, hl, hev => by
    obtain ⟨e, he⟩ := hev r (by simp)
    have hreg : p.region e < ws.length := by rw [hl]; exact (C21_region_exists p e).2
    obtain ⟨ws', h1, h2, h3⟩ := loop_ok f event p rs (ws.set (p.region e) (ws[p.region e] ++ trimFooter f r))
      (by rw [List.length_set, hl]) (fun r hr => hev r (by simp [hr]))
    refine ⟨ws', ?_, h2, ?_⟩
    · rw [loop, he]
      simp only [List.getElem?_eq_getElem hreg]
      exact h1
    · intro i w hi
      have hro : regionOf event p r = some (p.region e) := by rw [regionOf, he]
      by_cases hie : p.region e = i
      · subst hie
        rw [List.getElem?_eq_getElem hreg, Option.some.injEq] at hi
        have := h3 (p.region e) (w ++ trimFooter f r) (by rw [List.getElem?_set_self hreg, hi])
        rw [this]
        simp [regionRecords, hro, List.append_assoc]
      · have := h3 i w (by rw [List.getElem?_set_ne hie]; exact hi)
        rw [this]
        simp [regionRecords, hro, hie]

/-- The content of an output file. -/
def output (f : Format) (event : Bytes → Outcome ReadError E) (p : VPTreePartition E K) (header : Bytes) (records : List Bytes)
    (i : Nat) : Bytes := header ++ (regionRecords f event p records i).flatten ++ footer f ++ [10]

theorem classify_ok (f : Format) (event : Bytes → Outcome ReadError E) (p : VPTreePartition E K) (header : Bytes)
    (records : List Bytes) (hev : ∀ r ∈ records, ∃ e, event r = .ok e) :
    classify f event p header records = (.ok (), (List.range p.len).map (output f event p header records)) := by
  obtain ⟨ws', h1, h2, h3⟩ := loop_ok f event p records ((List.replicate p.len []).map (· ++ header)) (by simp) hev
  unfold classify
  simp only [h1, Prod.mk.injEq, true_and]
  apply List.ext_getElem (by simp [h2])
  intro i hi hi'
  simp only [List.length_map] at hi
  have hip : i < p.len := by rw [← h2]; exact hi
  have := h3 i header (by
    rw [List.getElem?_eq_getElem (by simpa using hip)]
    simp)
  rw [List.getElem?_eq_getElem hi, Option.some.injEq] at this
  rw [List.getElem_map, List.getElem_map, List.getElem_range, this, output]

/-- **C60** for one input file whose records can be converted: there is one output file per region. Each consists of the
header, the records of its region in the order of the input without the footer, and the footer. -/
theorem C60_outputs (f : Format) (event : Bytes → Outcome ReadError E) (p : VPTreePartition E K) (header : Bytes)
    (records : List Bytes) (hev : ∀ r ∈ records, ∃ e, event r = .ok e) :
    ∃ outs, classify f event p header records = (.ok (), outs) ∧ outs.length = p.len ∧
      ∀ i (hi : i < outs.length), ∃ rs,
        List.Forall₂ (WithoutFooter (footer f)) (records.filter (fun r => regionOf event p r = some i)) rs ∧
        outs[i] = header ++ rs.flatten ++ footer f ++ ascii "\n" := by
  refine ⟨_, classify_ok f event p header records hev, by simp, ?_⟩
  intro i hi
  refine ⟨regionRecords f event p records i, ?_, ?_⟩
  · unfold regionRecords
    rw [List.forall₂_map_right_iff, List.forall₂_same]
    intro r _
    exact trimFooter_spec f r
  · rw [List.getElem_map, List.getElem_range]
    rfl

/-- **C60**: every record belongs to exactly one of the regions `0, …, len - 1`. -/
theorem C60_once (event : Bytes → Outcome ReadError E) (p : VPTreePartition E K) (records : List Bytes)
    (hev : ∀ r ∈ records, ∃ e, event r = .ok e) :
    ((List.range p.len).flatMap fun i => records.filter (fun r => regionOf event p r = some i)).Perm records := by
  induction records with
  | nil =>
    have : ((List.range p.len).flatMap fun i => ([] : List Bytes).filter (fun r => regionOf event p r = some i)) = [] := by simp
    rw [this]
  | cons r rs ih =>
    obtain ⟨e, he⟩ := hev r (by simp)
    have hreg := (C21_region_exists p e).2
    have hro : regionOf event p r = some (p.region e) := by rw [regionOf, he]
    have hsplit : List.range p.len = List.range (p.region e) ++ p.region e :: (List.range (p.len - p.region e - 1)).map (· + (p.region e + 1)) := by
      have h1 : p.len = p.region e + (1 + (p.len - p.region e - 1)) := by omega
      conv_lhs => rw [h1]
      rw [List.range_add, List.range_add]
      simp only [List.range_one, List.map_map, List.map_cons, List.singleton_append, Nat.add_zero]
      congr 2
      apply List.map_congr_left
      intro x _
      simp only [Function.comp]
      omega
    have hne : ∀ (l : List Nat), p.region e ∉ l → (l.flatMap fun i => (r :: rs).filter (fun r => regionOf event p r = some i)) =
        l.flatMap fun i => rs.filter (fun r => regionOf event p r = some i) := by
      intro l hl
      apply List.flatMap_congr
      intro i hi
      rw [List.filter_cons, if_neg]
      rw [hro]
      simp only [Option.some.injEq, decide_eq_true_eq]
      rintro rfl
      exact hl hi
    have hih := ih (fun r hr => hev r (by simp [hr]))
    rw [hsplit, List.flatMap_append, List.flatMap_cons] at hih ⊢
    rw [hne _ (by simp), hne _ (by simp; omega), List.filter_cons, if_pos (by simp [hro]), List.cons_append]
    exact List.perm_middle.trans (hih.cons r)

/-! ### Several files -/

theorem splitName_fst_no_dot : ∀ s : List Char, '.' ∉ (splitName s).1
  | [] => by simp [splitName]
  | c :: cs => by
    rw [splitName]
    split_ifs with h
    · simp
    · simp only [List.mem_cons, not_or]
      exact ⟨fun hc => h hc.symm, splitName_fst_no_dot cs⟩

theorem split_dot_unique : ∀ {a b s t : List Char}, '.' ∉ a → '.' ∉ b → a ++ '.' :: s = b ++ '.' :: t → a = b ∧ s = t
  | [], [], s, t, _, _, h => by simpa using h
  | [], c :: b, s, t, _, hb, h => by
    simp only [List.nil_append, List.cons_append, List.cons.injEq] at h
    exact absurd (by rw [h.1]; simp) hb
  | c :: a, [], s, t, ha, _, h => by
    simp only [List.nil_append, List.cons_append, List.cons.injEq] at h
    exact absurd (by rw [← h.1]; simp) ha
  | c :: a, d :: b, s, t, ha, hb, h => by
    simp only [List.cons_append, List.cons.injEq] at h
    obtain ⟨h1, h2⟩ := split_dot_unique (fun hm => ha (by simp [hm])) (fun hm => hb (by simp [hm])) h.2
    exact ⟨by rw [h.1, h1], h2⟩

theorem toDigits_no_dot (n : Nat) : '.' ∉ Nat.toDigits 10 n := by
  intro h
  have := Nat.isDigit_of_mem_toDigits (by decide) (by decide) h
  revert this
  decide

theorem toDigits_injective {i j : Nat} (h : Nat.toDigits 10 i = Nat.toDigits 10 j) : i = j := by
  have h1 := Nat.ofDigitChars_ten_toDigits (n := i)
  have h2 := Nat.ofDigitChars_ten_toDigits (n := j)
  rw [h] at h1
  exact h1.symm.trans h2

/-- **C60**: output files have the same name only for the same region of input files with the same name, up to a final dot. -/
theorem C60_names (a b : List Char) (i j : Nat) : outName a i = outName b j ↔ splitName a = splitName b ∧ i = j := by
  constructor
  · intro h
    unfold outName at h
    simp only [List.append_assoc, List.singleton_append] at h
    obtain ⟨h1, h2⟩ := split_dot_unique (splitName_fst_no_dot a) (splitName_fst_no_dot b) h
    obtain ⟨h3, h4⟩ := split_dot_unique (toDigits_no_dot i) (toDigits_no_dot j) h2
    exact ⟨Prod.ext h1 h4, toDigits_injective h3⟩
  · rintro ⟨h, rfl⟩
    rw [outName, outName, h]

/-- What splitting a name loses: only whether there is a dot at the end, if there is no other one. -/
theorem C60_split_name (a : List Char) : a = (splitName a).1 ++ '.' :: (splitName a).2 ∨ (a = (splitName a).1 ∧ (splitName a).2 = []) := by
  induction a with
  | nil => exact Or.inr ⟨rfl, rfl⟩
  | cons c cs ih =>
    rw [splitName]
    split_ifs with h
    · left; simp [h]
    · rcases ih with ih | ih
      · left
        simp only [List.cons_append]
        rw [← ih]
      · right
        simp only
        exact ⟨by rw [← ih.1], ih.2⟩

theorem writeOutputs_spec (file : List Char) : ∀ (ws : List Bytes) (k : Nat) (dir : Dir),
    (∀ i w, ws[i]? = some w → writeOutputs file k ws dir (outName file (k + i)) = some w) ∧
    (∀ name, (∀ i, k ≤ i → i < k + ws.length → name ≠ outName file i) → writeOutputs file k ws dir name = dir name)
  | [], k, dir => ⟨by simp, fun _ _ => rfl⟩
  | w :: ws, k, dir => by
    obtain ⟨h1, h2⟩ := writeOutputs_spec file ws (k + 1) (Function.update dir (outName file k) (some w))
    constructor
    · intro i w' hi
      cases i with
      | zero =>
        simp only [List.getElem?_cons_zero, Option.some.injEq] at hi
        subst hi
        rw [writeOutputs, h2]
        · rw [Nat.add_zero, Function.update_self]
        · intro i hi1 _ hne
          rw [Nat.add_zero] at hne
          have := ((C60_names _ _ _ _).1 hne).2
          omega
      | succ i =>
        have := h1 i w' (by simpa using hi)
        rw [writeOutputs]
        rwa [show k + (i + 1) = k + 1 + i from by omega]
    · intro name hname
      rw [writeOutputs, h2]
      · exact Function.update_of_ne (hname k le_rfl (by simp)) _ _
      · intro i hi1 hi2
        exact hname i (by omega) (by simp only [List.length_cons]; omega)

/-- **C60** for several input files, if all records can be converted and the names of the input files are different (also
different up to a final dot): for each input file there are the output files as in `C60_outputs`. No other file is
changed. -/
theorem C60_several_partial (event : Bytes → Outcome ReadError E) (p : VPTreePartition E K) : ∀ (inputs : List Input) (dir : Dir),
    (inputs.map (fun x => splitName x.name)).Nodup → (∀ x ∈ inputs, ∀ r ∈ x.records, ∃ e, event r = .ok e) →
    ∃ dir', classifyAll event p inputs dir = (.ok (), dir') ∧
      (∀ x ∈ inputs, ∃ outs, classify x.format event p x.header x.records = (.ok (), outs) ∧ outs.length = p.len ∧
        ∀ i (hi : i < outs.length), dir' (outName x.name i) = some outs[i]) ∧
      ∀ name, (∀ x ∈ inputs, ∀ i < p.len, name ≠ outName x.name i) → dir' name = dir name
  | [], dir, _, _ => ⟨dir, rfl, by simp, fun _ _ => rfl⟩
  | x :: xs, dir, hnd, hev => by
    rw [List.map_cons, List.nodup_cons] at hnd
    have hx := classify_ok x.format event p x.header x.records (hev x (by simp))
    obtain ⟨hw1, hw2⟩ := writeOutputs_spec x.name ((List.range p.len).map (output x.format event p x.header x.records)) 0 dir
    obtain ⟨dir', h1, h2, h3⟩ := C60_several_partial event p xs
      (writeOutputs x.name 0 ((List.range p.len).map (output x.format event p x.header x.records)) dir) hnd.2
      (fun y hy => hev y (by simp [hy]))
    refine ⟨dir', ?_, ?_, ?_⟩
    · rw [classifyAll, hx]
      exact h1
    · intro y hy
      rcases List.mem_cons.1 hy with rfl | hy
      · refine ⟨_, hx, by simp, ?_⟩
        intro i hi
        rw [h3]
        · have := hw1 i _ (List.getElem?_eq_getElem hi)
          rwa [Nat.zero_add] at this
        · intro z hz j hj he
          exact hnd.1 (by rw [((C60_names _ _ _ _).1 he).1]; exact List.mem_map.2 ⟨z, hz, rfl⟩)
      · exact h2 y hy
    · intro name hname
      rw [h3 name (fun y hy => hname y (by simp [hy]))]
      apply hw2
      intro i _ hi
      exact hname x (by simp) i (by simpa using hi)

theorem loop_error (f : Format) (event : Bytes → Outcome ReadError E) (p : VPTreePartition E K) {r : Bytes} (rest : List Bytes)
    {o : Outcome ReadError Unit} (ho : (∃ e, event r = .err e ∧ o = .err e) ∨ (event r = .panic ∧ o = .panic)) :
    ∀ (rs ws : List Bytes), ws.length = p.len → (∀ r ∈ rs, ∃ e, event r = .ok e) →
    ∃ ws', loop f event p (rs ++ r :: rest) ws = (o, ws') ∧ loop f event p rs ws = (.ok (), ws') ∧ ws'.length = p.len
  | [], ws, hl, _ => by
    refine ⟨ws, ?_, rfl, hl⟩
    rcases ho with ⟨e, he, rfl⟩ | ⟨he, rfl⟩
    · rw [List.nil_append, loop, he]
    · rw [List.nil_append, loop, he]
  | a :: rs, ws, hl, hev => by
    obtain ⟨e, he⟩ := hev a (by simp)
    have hreg : p.region e < ws.length := by rw [hl]; exact (C21_region_exists p e).2
    obtain ⟨ws', h1, h2, h3⟩ := loop_error f event p rest ho rs (ws.set (p.region e) (ws[p.region e] ++ trimFooter f a))
      (by rw [List.length_set, hl]) (fun r hr => hev r (by simp [hr]))
    refine ⟨ws', ?_, ?_, h3⟩
    · rw [List.cons_append, loop, he]
      simp only [List.getElem?_eq_getElem hreg]
      exact h1
    · rw [loop, he]
      simp only [List.getElem?_eq_getElem hreg]
      exact h2

/-- **C60** for a record that cannot be converted: the program ends with its error. The output files of the input files
before are as in `C60_several_partial`; the output files of the same input file contain the header and the records before,
without a footer; no output files are written for input files after it. -/
theorem C60_error (event : Bytes → Outcome ReadError E) (p : VPTreePartition E K) (x : Input) (later : List Input)
    {rs rest : List Bytes} {r : Bytes} (hx : x.records = rs ++ r :: rest) (hrs : ∀ r ∈ rs, ∃ e, event r = .ok e)
    {o : Outcome ReadError Unit} (ho : (∃ e, event r = .err e ∧ o = .err e) ∨ (event r = .panic ∧ o = .panic)) :
    ∀ (before : List Input) (dir : Dir), (∀ y ∈ before, ∀ r ∈ y.records, ∃ e, event r = .ok e) →
    ∃ dir' outs, classifyAll event p before dir = (.ok (), dir') ∧
      classifyAll event p (before ++ x :: later) dir = (o, writeOutputs x.name 0 outs dir') ∧ outs.length = p.len ∧
      ∀ i (hi : i < outs.length), ∃ rs', outs[i] = x.header ++ rs'.flatten ∧
        List.Forall₂ (WithoutFooter (footer x.format)) (rs.filter (fun r => regionOf event p r = some i)) rs'
  | [], dir, _ => by
    obtain ⟨ws, h1, h2, h3⟩ := loop_error x.format event p rest ho rs ((List.replicate p.len []).map (· ++ x.header))
      (by simp) hrs
    obtain ⟨ws', h1', h2', h3'⟩ := loop_ok x.format event p rs ((List.replicate p.len []).map (· ++ x.header)) (by simp) hrs
    rw [h2, Prod.mk.injEq] at h1'
    obtain ⟨-, rfl⟩ := h1'
    refine ⟨dir, ws, rfl, ?_, h3, ?_⟩
    · rw [List.nil_append, classifyAll]
      simp only [classify, hx, h1]
      rcases ho with ⟨e, he, rfl⟩ | ⟨he, rfl⟩ <;> rfl
    · intro i hi
      refine ⟨regionRecords x.format event p rs i, ?_, ?_⟩
      · have := h3' i x.header (by
          rw [List.getElem?_eq_getElem (by simpa [h3] using hi)]
          simp)
        rw [List.getElem?_eq_getElem hi, Option.some.injEq] at this
        exact this
      · unfold regionRecords
        rw [List.forall₂_map_right_iff, List.forall₂_same]
        intro r _
        exact trimFooter_spec x.format r
  | y :: ys, dir, hb => by
    have hy := classify_ok y.format event p y.header y.records (hb y (by simp))
    obtain ⟨dir', outs, h1, h2, h3⟩ := C60_error event p x later hx hrs ho ys
      (writeOutputs y.name 0 ((List.range p.len).map (output y.format event p y.header y.records)) dir)
      (fun z hz => hb z (by simp [hz]))
    refine ⟨dir', outs, ?_, ?_, h3⟩
    · rw [classifyAll, hy]
      exact h1
    · rw [List.cons_append, classifyAll, hy]
      exact h2

/-- The second of three input files contains a record that cannot be converted. -/
example :
    let r := classifyAll (fun r => if r = ascii "E x\n" then .err .utf8 else .ok 0) (⟨[], fun _ _ => (0 : Int)⟩ : VPTreePartition Nat Int)
      [⟨"a.x".toList, .hepmc, ascii "1\n", [ascii "E 1\n"]⟩, ⟨"b.x".toList, .hepmc, ascii "2\n", [ascii "E 2\n", ascii "E x\n"]⟩,
        ⟨"c.x".toList, .hepmc, ascii "3\n", [ascii "E 3\n"]⟩] (fun _ => none);
    r.1 = .err .utf8 ∧ (r.2 "a.0.x".toList).isSome ∧ r.2 "b.0.x".toList = some (ascii "2\nE 2\n") ∧ r.2 "c.0.x".toList = none := by
  decide +kernel

/-- **C60** as stated, for several input files. -/
def C60_claim : Prop :=
  ∀ (event : Bytes → Outcome ReadError Nat) (p : VPTreePartition Nat Int) (inputs : List Input) (dir : Dir),
    (∀ x ∈ inputs, ∀ r ∈ x.records, ∃ e, event r = .ok e) →
    ∀ x ∈ inputs, ∃ outs, classify x.format event p x.header x.records = (.ok (), outs) ∧
      ∀ i (hi : i < outs.length), (classifyAll event p inputs dir).2 (outName x.name i) = some outs[i]

/-- **C60** does not hold for input files with the same name in different directories: the output files of the first one are
overwritten, so its records are lost. -/
theorem C60_violated : ¬ C60_claim := by
  intro h
  obtain ⟨outs, h1, h2⟩ := h (fun _ => .ok 0) ⟨[], fun _ _ => 0⟩
    [⟨"a.x".toList, .hepmc, ascii "1\n", [ascii "E 1\n"]⟩, ⟨"a.x".toList, .hepmc, ascii "2\n", [ascii "E 2\n"]⟩] (fun _ => none)
    (fun _ _ _ _ => ⟨0, rfl⟩) ⟨"a.x".toList, .hepmc, ascii "1\n", [ascii "E 1\n"]⟩ (by simp)
  rw [classify_ok _ _ _ _ _ (fun _ _ => ⟨0, rfl⟩), Prod.mk.injEq] at h1
  have h1 := h1.2
  subst h1
  have := h2 0 (by simp [VPTreePartition.len])
  revert this
  decide +kernel

/-- A record that cannot be converted ends the program: the output files have no footer. -/
example : (classify .hepmc (fun r => if r = ascii "E 1\n" then .ok 0 else .err .utf8) (⟨[], fun _ _ => (0 : Int)⟩ : VPTreePartition Nat Int)
    (ascii "h\n") [ascii "E 1\n", ascii "E x\n"]) = (.err .utf8, [ascii "h\nE 1\n"]) := by
  decide +kernel

/-- Two regions: events up to distance 1 from event 0, and others. -/
example : classify .hepmc (fun r => .ok (r.length : Int)) (⟨[⟨0, 4⟩], fun a b => |a - b|⟩ : VPTreePartition Int Int)
    (ascii "h\n") [ascii "E 1\n", ascii "E 15\n", ascii "E\nHepMC::IO_GenEvent-END_EVENT_LISTING \n\n", ascii "E 2\n"] =
    (.ok (), [ascii "h\nE 1\nE 2\nHepMC::IO_GenEvent-END_EVENT_LISTING\n",
      ascii "h\nE 15\nE\nHepMC::IO_GenEvent-END_EVENT_LISTING\n"]) := by
  decide +kernel

end Cres

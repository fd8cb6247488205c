import Mathlib.Data.Nat.Bitwise
import Mathlib.Data.Nat.Log
import Mathlib.Tactic.Linarith
import Verif.Model.Options
import Verif.Spec.Options

/-!
Properties C54 to C56: command-line options.
-/

namespace Cres

open Options

/-! ### C54 -/

/-- **C54**: the validation accepts exactly the options for which all or none of the lepton options and all or none of the photon
options are set, and does not change them. -/
theorem C54_validate {F : Type} (opt : Opt F) :
    ((∃ opt', validate opt = .ok opt') ↔ Spec.AllOrNone opt.leptonalgorithm opt.leptonradius opt.leptonpt ∧
      Spec.AllOrNone opt.photonefrac opt.photonradius opt.photonpt) ∧
    (∀ opt', validate opt = .ok opt' → opt' = opt) := by
  obtain ⟨a, b, c, d, e, f⟩ := opt
  cases a <;> cases b <;> cases c <;> cases d <;> cases e <;> cases f <;>
    simp [validate, Spec.AllOrNone]

/-- **C54**: if the validation accepts the options, building the lepton and photon definitions does not panic. The definitions
contain the values of the options, and are absent if the options are absent. -/
theorem C54_no_panic {F : Type} (opt : Opt F) :
    (∃ e, cresClustering opt = .error e) ∨
    ∃ lepton photon, cresClustering opt = .ok (some (lepton, photon)) ∧
      (lepton = none ↔ opt.leptonalgorithm = none ∧ opt.leptonradius = none ∧ opt.leptonpt = none) ∧
      (photon = none ↔ opt.photonefrac = none ∧ opt.photonradius = none ∧ opt.photonpt = none) ∧
      (∀ d, lepton = some d → opt.leptonalgorithm = some d.algorithm ∧ opt.leptonradius = some d.radius ∧ opt.leptonpt = some d.minPt) ∧
      (∀ d, photon = some d → opt.photonefrac = some d.minEFraction ∧ opt.photonradius = some d.radius ∧
        opt.photonpt = some d.minPt) := by
  obtain ⟨a, b, c, d, e, f⟩ := opt
  cases a <;> cases b <;> cases c <;> cases d <;> cases e <;> cases f <;>
    simp [cresClustering, validate, Opt.clustering, Opt.leptonDef, Opt.photonDef]

/-- **C54** for `cres-make-partition`, which does not validate its options: building the definitions panics exactly if the lepton
algorithm is set without the other lepton options, or the photon radius without the other photon options. -/
theorem C54_partition_panics {F : Type} (opt : Opt F) :
    partitionClustering opt = none ↔
      (opt.leptonalgorithm ≠ none ∧ (opt.leptonradius = none ∨ opt.leptonpt = none)) ∨
      (opt.photonradius ≠ none ∧ (opt.photonefrac = none ∨ opt.photonpt = none)) := by
  obtain ⟨a, b, c, d, e, f⟩ := opt
  cases a <;> cases b <;> cases c <;> cases d <;> cases e <;> cases f <;>
    simp [partitionClustering, Opt.clustering, Opt.leptonDef, Opt.photonDef]

/-- **C54** for `cres-make-partition`: otherwise the definitions contain the values of the options. Without the lepton algorithm other lepton options are
ignored, and without the photon radius other photon options. -/
theorem C54_partition_values {F : Type} (opt : Opt F) {lepton : Option (JetDefinition F)} {photon : Option (PhotonDefinition F)}
    (h : partitionClustering opt = some (lepton, photon)) :
    (lepton = none ↔ opt.leptonalgorithm = none) ∧ (photon = none ↔ opt.photonradius = none) ∧
      (∀ d, lepton = some d → opt.leptonalgorithm = some d.algorithm ∧ opt.leptonradius = some d.radius ∧ opt.leptonpt = some d.minPt) ∧
      (∀ d, photon = some d → opt.photonefrac = some d.minEFraction ∧ opt.photonradius = some d.radius ∧
        opt.photonpt = some d.minPt) := by
  obtain ⟨a, b, c, d, e, f⟩ := opt
  cases a <;> cases b <;> cases c <;> cases d <;> cases e <;> cases f <;>
    simp [partitionClustering, Opt.clustering, Opt.leptonDef, Opt.photonDef] at h <;> obtain ⟨rfl, rfl⟩ := h <;> simp

/-- Options that are accepted, options that are rejected, and options on which `cres-make-partition` panics. -/
example : (cresClustering (F := Nat) ⟨some .kt, some 1, some 2, none, none, none⟩).toOption =
      some (some (some ⟨.kt, 1, 2⟩, none)) ∧
    (cresClustering (F := Nat) ⟨some .kt, some 1, none, none, none, none⟩).toOption = none ∧
    partitionClustering (F := Nat) ⟨some .kt, some 1, none, none, none, none⟩ = none ∧
    partitionClustering (F := Nat) ⟨some .kt, some 1, some 2, some 3, none, none⟩ ≠ none := by
  decide

/-! ### Numbers -/

theorem digit_eq_some {c : Char} {d : Nat} : digit c = some d ↔ ('0' ≤ c ∧ c ≤ '9') ∧ c.toNat - '0'.toNat = d := by
  rw [digit]
  split_ifs with h
  · simp [h]
  · simp [h]

/-- The value of digits that follow after digits with value `n`. -/
def numeralValue (s : List Char) (n : Nat) : Nat := s.foldl (fun n c => 10 * n + (c.toNat - '0'.toNat)) n

theorem digitsValue_ge (s : List Char) (n : Nat) : n ≤ numeralValue s n := by
  induction s generalizing n with
  | nil => exact le_refl n
  | cons c s ih =>
    have := ih (10 * n + (c.toNat - '0'.toNat))
    rw [numeralValue, List.foldl_cons]
    rw [numeralValue] at this
    omega

theorem parseDigits_eq_some {max : Nat} {s : List Char} {n m : Nat} (hn : n ≤ max) :
    parseDigits max s n = some m ↔ (∀ c ∈ s, '0' ≤ c ∧ c ≤ '9') ∧ numeralValue s n = m ∧ m ≤ max := by
  induction s generalizing n with
  | nil =>
    simp only [parseDigits, numeralValue, List.foldl_nil, Option.some.injEq, List.not_mem_nil, false_implies, implies_true, true_and]
    constructor
    · rintro rfl; exact ⟨rfl, hn⟩
    · rintro ⟨rfl, -⟩; rfl
  | cons c s ih =>
    rw [parseDigits]
    cases hd : digit c with
    | none =>
      simp only [reduceCtorEq, List.mem_cons, forall_eq_or_imp, false_iff, not_and]
      rintro ⟨h, -⟩
      have := digit_eq_some.2 ⟨h, rfl⟩
      rw [hd] at this
      cases this
    | some d =>
      obtain ⟨hc, rfl⟩ := digit_eq_some.1 hd
      simp only [List.mem_cons, forall_eq_or_imp, hc, and_self, true_and]
      split_ifs with hle
      · rw [ih hle]
        rfl
      · simp only [reduceCtorEq, false_iff, not_and]
        rintro - h2 h3
        have := digitsValue_ge s (10 * n + (c.toNat - '0'.toNat))
        rw [numeralValue, List.foldl_cons] at h2
        rw [numeralValue] at this
        omega

/-- An unsigned number in decimal notation, with an optional plus sign. -/
theorem parseUint_eq_some {max : Nat} {s : List Char} {n : Nat} :
    parseUint max s = some n ↔ n ≤ max ∧ (Spec.Numeral s n ∨ ∃ t, s = '+' :: t ∧ Spec.Numeral t n) := by
  have hplus : ¬ ('0' ≤ '+' ∧ '+' ≤ '9') := by decide
  unfold parseUint
  split
  · simp [Spec.Numeral]
  · rename_i cs
    cases cs with
    | nil =>
      simp only [List.isEmpty_nil, if_true, reduceCtorEq, Spec.Numeral, false_iff, not_and, not_or, not_exists]
      intro _
      refine ⟨?_, ?_⟩
      · rintro - h
        exact absurd (h '+' (by simp)) hplus
      · rintro t ht h
        cases ht
        exact absurd rfl h
    | cons c cs =>
      simp only [List.isEmpty_cons, Bool.false_eq_true, if_false]
      rw [parseDigits_eq_some (Nat.zero_le _)]
      constructor
      · rintro ⟨h1, h2, h3⟩
        exact ⟨h3, Or.inr ⟨_, rfl, by simp, h1, h2⟩⟩
      · rintro ⟨h3, ⟨-, h, -⟩ | ⟨t, ht, -, h1, h2⟩⟩
        · exact absurd (h '+' (by simp)) hplus
        · cases ht
          exact ⟨h1, h2, h3⟩
  · rename_i h1 h2
    rw [parseDigits_eq_some (Nat.zero_le _)]
    constructor
    · rintro ⟨h3, h4, h5⟩
      exact ⟨h5, Or.inl ⟨h1, h3, h4⟩⟩
    · rintro ⟨h5, ⟨-, h3, h4⟩ | ⟨t, ht, -⟩⟩
      · exact ⟨h3, h4, h5⟩
      · exact absurd ht (h2 t)

/-! ### C55 -/

theorem asciiLower_toNat {c : Char} (h : 'A' ≤ c ∧ c ≤ 'Z') : (asciiLower c).toNat = c.toNat + 32 := by
  have h1 : c.toNat ≤ 90 := UInt32.le_iff_toNat_le.1 h.2
  have hv : (c.toNat + 32).isValidChar := Or.inl (by omega)
  rw [asciiLower, if_pos h]
  change (Char.ofNat (c.toNat + 32)).val.toNat = _
  simp [Char.ofNat, hv, Char.ofNatAux]
  omega

theorem asciiLower_eq (c : Char) : asciiLower c = c.toLower := by
  by_cases h : 'A' ≤ c ∧ c ≤ 'Z'
  · have h1 : c.toNat ≤ 90 := UInt32.le_iff_toNat_le.1 h.2
    have h2 := asciiLower_toNat h
    rw [Char.toLower, dif_pos ⟨h.1, h.2⟩]
    apply Char.ext
    apply UInt32.toNat_inj.1
    refine h2.trans ?_
    change c.toNat + 32 = (c.toNat + 32) % 2 ^ 32
    omega
  · rw [Char.toLower, dif_neg (fun h' => h ⟨h'.1, h'.2⟩), asciiLower, if_neg h]

/-- Only letters are changed. -/
theorem asciiLower_eq_self {c x : Char} (h : asciiLower c = x) (hx : ¬ ('a' ≤ x ∧ x ≤ 'z')) : c = x := by
  by_cases hc : 'A' ≤ c ∧ c ≤ 'Z'
  · exfalso
    have h1 := asciiLower_toNat hc
    have h2 : 65 ≤ c.toNat := UInt32.le_iff_toNat_le.1 hc.1
    have h3 : c.toNat ≤ 90 := UInt32.le_iff_toNat_le.1 hc.2
    rw [h] at h1
    exact hx ⟨UInt32.le_iff_toNat_le.2 (by change 97 ≤ x.toNat; omega), UInt32.le_iff_toNat_le.2 (by change x.toNat ≤ 122; omega)⟩
  · rwa [asciiLower, if_neg hc] at h

theorem asciiLower_digit {c : Char} (h : '0' ≤ c ∧ c ≤ '9') : asciiLower c = c := by
  rw [asciiLower, if_neg]
  rintro ⟨h1, -⟩
  have h2 : c.toNat ≤ 57 := UInt32.le_iff_toNat_le.1 h.2
  have h3 : 65 ≤ c.toNat := UInt32.le_iff_toNat_le.1 h1
  omega

theorem digit_not_lower {x : Char} (h : '0' ≤ x ∧ x ≤ '9') : ¬ ('a' ≤ x ∧ x ≤ 'z') := by
  rintro ⟨h1, -⟩
  have h2 : x.toNat ≤ 57 := UInt32.le_iff_toNat_le.1 h.2
  have h3 : 97 ≤ x.toNat := UInt32.le_iff_toNat_le.1 h1
  omega

/-- Numerals are not changed. -/
theorem numeral_lower {ds : List Char} {n : Nat} : Spec.Numeral (ds.map asciiLower) n ↔ Spec.Numeral ds n := by
  have key : (∀ c ∈ ds, '0' ≤ c ∧ c ≤ '9') → ds.map asciiLower = ds := by
    intro h
    rw [List.map_congr_left (fun c hc => asciiLower_digit (h c hc)), List.map_id']
  constructor
  · intro h
    have : ∀ c ∈ ds, '0' ≤ c ∧ c ≤ '9' := by
      intro c hc
      have h1 := h.2.1 (asciiLower c) (List.mem_map_of_mem hc)
      have h2 := asciiLower_eq_self (c := c) rfl (digit_not_lower h1)
      rw [h2]
      exact h1
    rwa [key this] at h
  · intro h
    rwa [key h.2.1]

theorem captures_lower {decimal : Char → Bool} {s algo : List Char} {lvl : Option (List Char)} :
    captures decimal (s.map asciiLower) = some (algo, lvl) ↔
      ∃ name rest, s = name ++ rest ∧ name.map asciiLower = algo ∧ algo ≠ [] ∧ (∀ c ∈ algo, isAlnum c = true) ∧
        ((rest = [] ∧ lvl = none) ∨ ∃ ds, rest = '_' :: ds ∧ ds ≠ [] ∧ (∀ c ∈ ds, decimal (asciiLower c) = true) ∧
          lvl = some ('_' :: ds.map asciiLower)) := by
  have hus : asciiLower '_' = '_' := by decide
  constructor
  · intro h
    rw [captures, List.takeWhile_map, List.dropWhile_map] at h
    refine ⟨s.takeWhile (isAlnum ∘ asciiLower), s.dropWhile (isAlnum ∘ asciiLower), List.takeWhile_append_dropWhile.symm, ?_⟩
    split_ifs at h with he
    have hall : ∀ c ∈ (s.takeWhile (isAlnum ∘ asciiLower)).map asciiLower, isAlnum c = true := by
      intro c hc
      obtain ⟨d, hd, rfl⟩ := List.mem_map.1 hc
      exact List.all_eq_true.1 (List.all_takeWhile (p := isAlnum ∘ asciiLower)) d hd
    cases hr : s.dropWhile (isAlnum ∘ asciiLower) with
    | nil =>
      rw [hr] at h
      simp only [List.map_nil, Option.some.injEq, Prod.mk.injEq] at h
      obtain ⟨rfl, rfl⟩ := h
      exact ⟨rfl, by simpa using he, hall, Or.inl ⟨rfl, rfl⟩⟩
    | cons c ds =>
      rw [hr] at h
      simp only [List.map_cons] at h
      split_ifs at h with hc
      simp only [Option.some.injEq, Prod.mk.injEq] at h
      obtain ⟨rfl, rfl⟩ := h
      have hc' : c = '_' := asciiLower_eq_self hc.1 (by decide)
      subst hc'
      refine ⟨rfl, by simpa using he, hall, Or.inr ⟨ds, rfl, by simpa using hc.2.1, ?_, by rw [hus]⟩⟩
      have := hc.2.2
      rw [List.all_map, List.all_eq_true] at this
      exact this
  · rintro ⟨name, rest, rfl, rfl, hne, hall, h⟩
    have htake : ∀ r : List Char, (∀ c, r.head? = some c → isAlnum c = false) →
        (name.map asciiLower ++ r).takeWhile isAlnum = name.map asciiLower ∧
        (name.map asciiLower ++ r).dropWhile isAlnum = r := by
      intro r hr
      rw [List.takeWhile_append_of_pos hall, List.dropWhile_append_of_pos hall]
      cases r with
      | nil => simp
      | cons c r => simp [List.takeWhile, List.dropWhile, hr c rfl]
    rw [List.map_append, captures]
    rcases h with ⟨rfl, rfl⟩ | ⟨ds, rfl, hds, hdec, rfl⟩
    · obtain ⟨h1, h2⟩ := htake [] (by simp)
      simp only [List.map_nil, h1, h2]
      rw [if_neg (by simpa using hne)]
    · obtain ⟨h1, h2⟩ := htake ('_' :: ds.map asciiLower) (by rintro c hc; cases hc; decide)
      simp only [List.map_cons, hus, h1, h2]
      rw [if_neg (by simpa using hne), if_pos]
      refine ⟨trivial, by simpa using hds, ?_⟩
      rw [List.all_map, List.all_eq_true]
      exact hdec

theorem withLevel_eq_ok {algo : List Char} {lvl : Option (List Char)} {maxLevel default : Nat} {compr : Nat → Compression}
    {c : Compression} : withLevel algo lvl maxLevel default compr = .ok c ↔
      (lvl = none ∧ c = compr default) ∨ ∃ lv l, lvl = some lv ∧ parseUint 255 lv.tail = some l ∧ l ≤ maxLevel ∧ c = compr l := by
  cases lvl with
  | none => simp [withLevel, eq_comm]
  | some lv =>
    rw [withLevel]
    cases h : parseUint 255 lv.tail with
    | none => simp [h]
    | some l =>
      simp only [reduceCtorEq, false_and, Option.some.injEq, false_or]
      constructor
      · intro hc
        split_ifs at hc with hl
        cases hc
        exact ⟨lv, l, rfl, h, hl, rfl⟩
      · rintro ⟨lv', l', rfl, h', hl, rfl⟩
        rw [h] at h'
        cases h'
        rw [if_pos hl]

/-- What a successful capture and a level mean for the text. -/
theorem level_spec {decimal : Char → Bool} (hplus : decimal '+' = false)
    {s algo : List Char} {names : List String} {maxLevel default level : Nat} (halgo : algo ∈ names.map String.toList) :
    (∃ lvl, captures decimal (s.map asciiLower) = some (algo, lvl) ∧
      ((lvl = none ∧ level = default) ∨ ∃ lv, lvl = some lv ∧ parseUint 255 lv.tail = some level ∧ level ≤ maxLevel)) →
    Spec.NamedWithLevel s names maxLevel default level := by
  rintro ⟨lvl, hc, h⟩
  obtain ⟨name, rest, rfl, hname, -, -, hr⟩ := captures_lower.1 hc
  have hn : Spec.Named name names := by
    obtain ⟨n, hn, rfl⟩ := List.mem_map.1 halgo
    refine ⟨n, hn, ?_⟩
    rw [← hname]
    exact List.map_congr_left fun c _ => (asciiLower_eq c).symm
  rcases h with ⟨rfl, rfl⟩ | ⟨lv, rfl, hp, hl⟩
  · rcases hr with ⟨rfl, -⟩ | ⟨ds, -, -, -, h⟩
    · rw [List.append_nil]
      exact Or.inl ⟨hn, rfl⟩
    · cases h
  · rcases hr with ⟨-, h⟩ | ⟨ds, rfl, hds, hd, h⟩
    · cases h
    · cases h
      rw [List.tail_cons] at hp
      refine Or.inr ⟨name, ds, rfl, hn, ?_, hl⟩
      rcases (parseUint_eq_some.1 hp).2 with h | ⟨t, ht, -⟩
      · exact numeral_lower.1 h
      · exfalso
        have : '+' ∈ ds.map asciiLower := by rw [ht]; simp
        obtain ⟨c, hc', he⟩ := List.mem_map.1 this
        have := hd c hc'
        rw [he, hplus] at this
        cases this

theorem level_spec_mpr {decimal : Char → Bool} (hdec : ∀ c, '0' ≤ c ∧ c ≤ '9' → decimal c = true)
    {s : List Char} {names : List String} {maxLevel default level : Nat} (hmax : maxLevel ≤ 255)
    (hal : ∀ n ∈ names, n.toList ≠ [] ∧ ∀ c ∈ n.toList, isAlnum c = true) (h : Spec.NamedWithLevel s names maxLevel default level) :
    ∃ n ∈ names, ∃ lvl, captures decimal (s.map asciiLower) = some (n.toList, lvl) ∧
      ((lvl = none ∧ level = default) ∨ ∃ lv, lvl = some lv ∧ parseUint 255 lv.tail = some level ∧ level ≤ maxLevel) := by
  have hlow : ∀ {name : List Char} {n : String}, name.map Char.toLower = n.toList → name.map asciiLower = n.toList := by
    intro name n h
    rw [← h]
    exact List.map_congr_left fun c _ => asciiLower_eq c
  rcases h with ⟨⟨n, hn, h⟩, rfl⟩ | ⟨name, lvl, rfl, ⟨n, hn, h⟩, hnum, hl⟩
  · exact ⟨n, hn, none, captures_lower.2 ⟨s, [], by simp, hlow h, (hal n hn).1, (hal n hn).2, Or.inl ⟨rfl, rfl⟩⟩, Or.inl ⟨rfl, rfl⟩⟩
  · refine ⟨n, hn, some ('_' :: lvl.map asciiLower), captures_lower.2 ⟨name, '_' :: lvl, rfl, hlow h, (hal n hn).1, (hal n hn).2,
      Or.inr ⟨lvl, rfl, hnum.1, ?_, rfl⟩⟩, Or.inr ⟨_, rfl, ?_, hl⟩⟩
    · intro c hc
      rw [asciiLower_digit (hnum.2.1 c hc)]
      exact hdec c (hnum.2.1 c hc)
    · rw [List.tail_cons]
      exact parseUint_eq_some.2 ⟨by omega, Or.inl (numeral_lower.2 hnum)⟩

/-- **C55**: the option is accepted exactly if it is one of the documented settings, and the result is this setting, with the
default level if none is given. `decimal` is the character class `\d` of the regular expression library. -/
theorem C55_parse_compr (decimal : Char → Bool) (hplus : decimal '+' = false) (hdec : ∀ c, '0' ≤ c ∧ c ≤ '9' → decimal c = true)
    (s : List Char) (c : Compression) : parseCompr decimal s = .ok c ↔ Spec.ValidCompression s c := by
  constructor
  · intro h
    rw [parseCompr] at h
    cases hc : captures decimal (s.map asciiLower) with
    | none => rw [hc] at h; cases h
    | some r =>
      obtain ⟨algo, lvl⟩ := r
      rw [hc] at h
      simp only at h
      obtain ⟨name, rest, rfl, hname, hne, hal, hr⟩ := captures_lower.1 hc
      by_cases h1 : algo = "bzip2".toList ∨ algo = "bz2".toList
      · rw [if_pos h1] at h
        cases lvl with
        | some lvl => cases h
        | none =>
          cases h
          rcases hr with ⟨rfl, -⟩ | ⟨ds, -, -, -, h⟩
          · rw [List.append_nil]
            have hn : name.map Char.toLower = algo := by
              rw [← hname]
              exact List.map_congr_left fun c _ => (asciiLower_eq c).symm
            rcases h1 with h1 | h1
            · exact ⟨"bzip2", by simp, hn.trans h1⟩
            · exact ⟨"bz2", by simp, hn.trans h1⟩
          · cases h
      · rw [if_neg h1] at h
        by_cases h2 : algo = "gzip".toList ∨ algo = "gz".toList
        · rw [if_pos h2] at h
          rcases withLevel_eq_ok.1 h with ⟨hl, rfl⟩ | ⟨lv, l, hl, hp, hm, rfl⟩
          · exact level_spec hplus (by simpa using h2) ⟨lvl, hc, Or.inl ⟨hl, rfl⟩⟩
          · exact level_spec hplus (by simpa using h2) ⟨lvl, hc, Or.inr ⟨lv, hl, hp, hm⟩⟩
        · rw [if_neg h2] at h
          by_cases h3 : algo = "lz4".toList
          · rw [if_pos h3] at h
            rcases withLevel_eq_ok.1 h with ⟨hl, rfl⟩ | ⟨lv, l, hl, hp, hm, rfl⟩
            · exact level_spec hplus (by simpa using h3) ⟨lvl, hc, Or.inl ⟨hl, rfl⟩⟩
            · exact level_spec hplus (by simpa using h3) ⟨lvl, hc, Or.inr ⟨lv, hl, hp, hm⟩⟩
          · rw [if_neg h3] at h
            by_cases h4 : algo = "zstd".toList ∨ algo = "zstandard".toList
            · rw [if_pos h4] at h
              rcases withLevel_eq_ok.1 h with ⟨hl, rfl⟩ | ⟨lv, l, hl, hp, hm, rfl⟩
              · exact level_spec hplus (by simpa using h4) ⟨lvl, hc, Or.inl ⟨hl, rfl⟩⟩
              · exact level_spec hplus (by simpa using h4) ⟨lvl, hc, Or.inr ⟨lv, hl, hp, hm⟩⟩
            · rw [if_neg h4] at h
              cases h
  · intro h
    cases c with
    | bzip2 =>
      obtain ⟨n, hn, h⟩ := h
      have hs : s.map asciiLower = n.toList := by
        rw [← h]
        exact List.map_congr_left fun c _ => asciiLower_eq c
      simp only [List.mem_cons, List.not_mem_nil, or_false] at hn
      rcases hn with rfl | rfl
      · rw [parseCompr, captures_lower.2 ⟨s, [], by simp, hs, by decide, by decide, Or.inl ⟨rfl, rfl⟩⟩]
        rfl
      · rw [parseCompr, captures_lower.2 ⟨s, [], by simp, hs, by decide, by decide, Or.inl ⟨rfl, rfl⟩⟩]
        rfl
    | gzip level =>
      obtain ⟨n, hn, lvl, hc, hl⟩ := level_spec_mpr hdec (by decide) (by decide) h
      have hw : ∀ algo, withLevel algo lvl 9 6 .gzip = .ok (.gzip level) := by
        intro algo
        rw [withLevel_eq_ok]
        rcases hl with ⟨h1, rfl⟩ | ⟨lv, h1, h2, h3⟩
        · exact Or.inl ⟨h1, rfl⟩
        · exact Or.inr ⟨lv, level, h1, h2, h3, rfl⟩
      rw [parseCompr, hc]
      simp only [List.mem_cons, List.not_mem_nil, or_false] at hn
      rcases hn with rfl | rfl <;> simp only <;> rw [if_neg (by decide), if_pos (by decide), hw]
    | lz4 level =>
      obtain ⟨n, hn, lvl, hc, hl⟩ := level_spec_mpr hdec (by decide) (by decide) h
      have hw : ∀ algo, withLevel algo lvl 16 0 .lz4 = .ok (.lz4 level) := by
        intro algo
        rw [withLevel_eq_ok]
        rcases hl with ⟨h1, rfl⟩ | ⟨lv, h1, h2, h3⟩
        · exact Or.inl ⟨h1, rfl⟩
        · exact Or.inr ⟨lv, level, h1, h2, h3, rfl⟩
      rw [parseCompr, hc]
      simp only [List.mem_cons, List.not_mem_nil, or_false] at hn
      subst hn
      simp only
      rw [if_neg (by decide), if_neg (by decide), if_pos trivial, hw]
    | zstd level =>
      obtain ⟨n, hn, lvl, hc, hl⟩ := level_spec_mpr hdec (by decide) (by decide) h
      have hw : ∀ algo, withLevel algo lvl 19 0 .zstd = .ok (.zstd level) := by
        intro algo
        rw [withLevel_eq_ok]
        rcases hl with ⟨h1, rfl⟩ | ⟨lv, h1, h2, h3⟩
        · exact Or.inl ⟨h1, rfl⟩
        · exact Or.inr ⟨lv, level, h1, h2, h3, rfl⟩
      rw [parseCompr, hc]
      simp only [List.mem_cons, List.not_mem_nil, or_false] at hn
      rcases hn with rfl | rfl <;> simp only <;> rw [if_neg (by decide), if_neg (by decide), if_neg (by decide), if_pos (by decide), hw]

/-- Settings that are accepted and settings that are rejected. -/
example : (parseCompr Char.isDigit "Zstd_05".toList).toOption = some (.zstd 5) ∧
    (parseCompr Char.isDigit "gz".toList).toOption = some (.gzip 6) ∧
    (parseCompr Char.isDigit "lz4_17".toList).toOption = none ∧ (parseCompr Char.isDigit "bzip2_1".toList).toOption = none ∧
    (parseCompr Char.isDigit "gzip_".toList).toOption = none := by
  decide

/-! ### C56 -/

theorem leadingZeros_aux (n m : Nat) (hn : n ≠ 0) (hm : n < 2 ^ m) :
    ((List.range m).reverse.takeWhile fun i => !n.testBit i).length + 1 + n.log2 = m := by
  induction m with
  | zero => simp at hm; exact absurd hm hn
  | succ m ih =>
    rw [List.range_succ, List.reverse_append, List.reverse_singleton, List.singleton_append, List.takeWhile_cons]
    by_cases hlt : n < 2 ^ m
    · have : n.testBit m = false := Nat.testBit_lt_two_pow hlt
      have := ih hlt
      simp only [Nat.testBit_lt_two_pow hlt, Bool.not_false, if_true, List.length_cons]
      omega
    · have hl : n.log2 = m := (Nat.log2_eq_iff hn).2 ⟨not_lt.1 hlt, hm⟩
      have : n.testBit m = true := by
        rw [← hl]
        exact Nat.testBit_log2 hn
      simp only [this, Bool.not_true, Bool.false_eq_true, if_false, List.length_nil]
      omega

/-- **C56**: for every 32-bit number except zero `log2` is the binary logarithm, rounded down. For zero it panics. -/
theorem C56_log2 (n : Nat) (hn : n < 2 ^ 32) :
    (n = 0 → log2 n = none) ∧ (n ≠ 0 → ∃ k, log2 n = some k ∧ 2 ^ k ≤ n ∧ n < 2 ^ (k + 1)) := by
  constructor
  · rintro rfl
    decide
  · intro h
    have hl := leadingZeros_aux n 32 h hn
    refine ⟨n.log2, ?_, Nat.log2_self_le h, Nat.lt_log2_self⟩
    rw [log2, leadingZeros, if_pos (by omega)]
    congr 1
    omega

theorem countOnes_eq_one {n : Nat} (hn : n < 2 ^ 32) : countOnes n = 1 ↔ ∃ k < 32, n = 2 ^ k := by
  rw [countOnes]
  constructor
  · intro h
    rw [List.countP_eq_length_filter, List.length_eq_one_iff] at h
    obtain ⟨k, hk⟩ := h
    have hmem : ∀ i, i ∈ (List.range 32).filter (fun i => n.testBit i) ↔ i = k := by
      intro i
      rw [hk, List.mem_singleton]
    have hk' := (hmem k).2 rfl
    rw [List.mem_filter, List.mem_range] at hk'
    refine ⟨k, hk'.1, Nat.eq_of_testBit_eq ?_⟩
    intro i
    rw [Nat.testBit_two_pow]
    by_cases hi : i < 32
    · have := hmem i
      rw [List.mem_filter, List.mem_range] at this
      by_cases hik : i = k
      · subst hik
        simp [hk'.2]
      · have hf : n.testBit i = false := by
          by_contra hc
          exact hik (this.1 ⟨hi, by simpa using hc⟩)
        rw [hf]
        simp [Ne.symm hik]
    · have h1 : n.testBit i = false := Nat.testBit_lt_two_pow (lt_of_lt_of_le hn (Nat.pow_le_pow_right (by decide) (not_lt.1 hi)))
      rw [h1]
      have : k ≠ i := by omega
      simp [this]
  · rintro ⟨k, hk, rfl⟩
    have : ((List.range 32).countP fun i => (2 ^ k).testBit i) = (List.range 32).count k := by
      rw [List.count]
      apply List.countP_congr
      intro i _
      rw [Nat.testBit_two_pow, decide_eq_true_eq, beq_iff_eq, eq_comm]
    rw [this, List.nodup_range.count, if_pos (List.mem_range.2 hk)]

/-- **C56**: exactly the powers of two below `2³²` in decimal notation, with an optional plus sign, are accepted as number of regions.
The depth of the tree is the exponent. -/
theorem C56_parse_nregions (s : List Char) (n : Nat) :
    parseNregions s = some n ↔ ∃ k < 32, n = 2 ^ k ∧ log2 n = some k ∧ (Spec.Numeral s n ∨ ∃ t, s = '+' :: t ∧ Spec.Numeral t n) := by
  have hlog : ∀ k < 32, log2 (2 ^ k) = some k := by decide
  rw [parseNregions]
  cases hp : parseUint (2 ^ 32 - 1) s with
  | none =>
    simp only [reduceCtorEq, false_iff]
    rintro ⟨k, hk, rfl, -, h⟩
    have : 2 ^ k ≤ 2 ^ 32 - 1 := by
      have := Nat.pow_lt_pow_right (a := 2) (by decide) hk
      omega
    rw [parseUint_eq_some.2 ⟨this, h⟩] at hp
    cases hp
  | some m =>
    obtain ⟨hm, hs⟩ := parseUint_eq_some.1 hp
    have hm' : m < 2 ^ 32 := by omega
    simp only
    constructor
    · intro h
      split_ifs at h with h1
      cases h
      obtain ⟨k, hk, rfl⟩ := (countOnes_eq_one hm').1 h1
      exact ⟨k, hk, rfl, hlog k hk, hs⟩
    · rintro ⟨k, hk, rfl, -, h⟩
      have hle : 2 ^ k ≤ 2 ^ 32 - 1 := by
        have := Nat.pow_lt_pow_right (a := 2) (by decide) hk
        omega
      have := parseUint_eq_some.2 ⟨hle, h⟩
      rw [hp] at this
      cases this
      rw [if_pos ((countOnes_eq_one hm').2 ⟨k, hk, rfl⟩)]

/-- Numbers of regions that are accepted and some that are not. -/
example : parseNregions "1024".toList = some 1024 ∧ parseNregions "12".toList = none ∧ parseNregions "0".toList = none ∧
    parseNregions "4294967296".toList = none ∧ parseNregions "+08".toList = some 8 := by
  decide

end Cres

import Verif.Spec.Malformed
import Verif.Proofs.HepMC
import Verif.Proofs.Lhef
import Verif.Proofs.Stripper
import Verif.Model.ExampleFormat

/-!
Malformed records: C48.
-/

namespace Cres

open Cres.Spec

variable {K V E F α β : Type*}

/-! ### What can panic -/

theorem Outcome.bind_eq_panic {x : Outcome E α} {f : α → Outcome E β} :
    x.bind f = .panic ↔ x = .panic ∨ ∃ a, x = .ok a ∧ f a = .panic := by
  cases x <;> simp

theorem Outcome.map_eq_panic {x : Outcome E α} {f : α → β} : x.map f = .panic ↔ x = .panic := by
  cases x <;> simp

theorem orParseErr_ne_panic (what : String) (x : PResult α) : orParseErr what x ≠ .panic := by
  cases x <;> simp [orParseErr]

theorem n64_eq_panic {c : ParseCtx K V} {w : K} :
    (c.float.n64 c.debug w : Outcome E K) = .panic ↔ c.debug = true ∧ c.float.isNaN w = true := by
  unfold FloatFormat.n64
  rw [← Bool.and_eq_true]
  by_cases h : (c.debug && c.float.isNaN w) = true
  · rw [if_pos h]
    exact ⟨fun _ => h, fun _ => rfl⟩
  · rw [if_neg h]
    exact ⟨fun h' => (by cases h'), fun h' => absurd h' h⟩

theorem Spec.HasNan.of_suffix {s r : Bytes} (h : r <:+ s) (hr : HasNan r) : HasNan s := by
  obtain ⟨t, rfl⟩ := h
  obtain ⟨pre, x, y, z, post, rfl, h⟩ := hr
  exact ⟨t ++ pre, x, y, z, post, by simp, h⟩

theorem Spec.HasNan.of_prefix {s r : Bytes} (h : r <+: s) (hr : HasNan r) : HasNan s := by
  obtain ⟨t, rfl⟩ := h
  obtain ⟨pre, x, y, z, post, rfl, h⟩ := hr
  exact ⟨pre, x, y, z, post ++ t, by simp, h⟩

/-- Only a text that contains "nan" is read as NaN. -/
def NanText (F : FloatFormat K) : Prop := ∀ t, F.isNaN (F.value t) = true → HasNan t

/-- A parser leaves the end of its input. -/
def Leaves (p : Bytes → PResult α) : Prop := ∀ s r a, p s = some (r, a) → r <:+ s

theorem InLine.leaves {p : Bytes → PResult α} (h : InLine p) : Leaves p := by
  intro s r a hs
  obtain ⟨t, rfl, -⟩ := h s r a hs
  exact List.suffix_append _ _

theorem Leaves.count {p : Bytes → PResult α} (h : Leaves p) (n : Nat) : Leaves (count p n) :=
  fun _ _ _ hs => HepMC.count_suffix h hs

theorem doubleEntry_leaves (F : FloatFormat K) : Leaves F.doubleEntry := (doubleEntry_inLine F).leaves
theorem anyEntry_leaves : Leaves anyEntry := anyEntry_inLine.leaves
theorem u32Entry_leaves : Leaves u32Entry := u32Entry_inLine.leaves
theorem i32Entry_leaves : Leaves i32Entry := i32Entry_inLine.leaves
theorem parseI32_leaves : Leaves parseI32 := parseI32_inLine.leaves

theorem double_leaves (F : FloatFormat K) : Leaves F.double := by
  intro s r a h
  obtain ⟨t, rfl, -⟩ := double_append h
  exact List.suffix_append _ _

theorem double_nan {F : FloatFormat K} (hF : NanText F) {s r : Bytes} {w : K} (h : F.double s = some (r, w))
    (hw : F.isNaN w = true) : HasNan s := by
  obtain ⟨t, rfl, -, -, rfl⟩ := double_append h
  exact (hF t hw).of_prefix (List.prefix_append _ _)

theorem doubleEntry_nan {F : FloatFormat K} (hF : NanText F) {s r : Bytes} {w : K} (h : F.doubleEntry s = some (r, w))
    (hw : F.isNaN w = true) : HasNan s := by
  unfold FloatFormat.doubleEntry at h
  cases hs : space1 s with
  | none => simp [hs] at h
  | some x =>
    simp only [hs] at h
    obtain ⟨sp, -, -, -, rfl⟩ := space1_eq_some.1 hs
    exact (double_nan hF h hw).of_suffix (List.suffix_append _ _)

theorem count_nan {F : FloatFormat K} (hF : NanText F) : ∀ {n : Nat} {s r : Bytes} {ws : List K},
    count F.doubleEntry n s = some (r, ws) → ∀ w ∈ ws, F.isNaN w = true → HasNan s := by
  intro n
  induction n with
  | zero =>
    intro s r ws h
    simp only [count, Option.some.injEq, Prod.mk.injEq] at h
    simp [← h.2]
  | succ n ih =>
    intro s r ws h w hw hn
    simp only [count] at h
    cases hs : F.doubleEntry s with
    | none => simp [hs] at h
    | some x =>
      obtain ⟨r1, a⟩ := x
      simp only [hs] at h
      cases hc : count F.doubleEntry n r1 with
      | none => simp [hc] at h
      | some y =>
        obtain ⟨r2, as'⟩ := y
        simp only [hc, Option.some.injEq, Prod.mk.injEq] at h
        rw [← h.2, List.mem_cons] at hw
        rcases hw with rfl | hw
        · exact doubleEntry_nan hF hs hn
        · exact (ih hc w hw hn).of_suffix (doubleEntry_leaves F _ _ _ hs)

/-- A computation that panics only if something holds. -/
def OnlyIf (P : Prop) (x : Outcome E α) : Prop := x = .panic → P

namespace OnlyIf

variable {P : Prop}

theorem ok (a : α) : OnlyIf P (.ok a : Outcome E α) := fun h => by cases h

theorem err (e : E) : OnlyIf P (.err e : Outcome E α) := fun h => by cases h

theorem bind {x : Outcome E α} {f : α → Outcome E β} (h1 : OnlyIf P x) (h2 : ∀ a, x = .ok a → OnlyIf P (f a)) :
    OnlyIf P (x.bind f) := by
  intro h
  rcases Outcome.bind_eq_panic.1 h with h | ⟨a, h, h'⟩
  · exact h1 h
  · exact h2 a h h'

theorem map {x : Outcome E α} {f : α → β} (h1 : OnlyIf P x) : OnlyIf P (x.map f) :=
  fun h => h1 (Outcome.map_eq_panic.1 h)

/-- A parser is applied to the end of a text; the rest is an end of the text again. -/
theorem parse {p : Bytes → PResult α} (hp : Leaves p) {what : String} {text s : Bytes} (hs : s <:+ text)
    {f : Bytes × α → Outcome ReadError β} (h : ∀ r a, p s = some (r, a) → r <:+ text → OnlyIf P (f (r, a))) :
    OnlyIf P ((orParseErr what (p s)).bind f) := by
  apply bind
  · exact fun h => absurd h (orParseErr_ne_panic _ _)
  · rintro ⟨r, a⟩ ha
    rw [HepMC.orParseErr_eq_ok] at ha
    exact h r a ha ((hp _ _ _ ha).trans hs)

theorem n64 {c : ParseCtx K V} {w : K} (h : c.debug = true → c.float.isNaN w = true → P) {f : K → Outcome E β}
    (h2 : OnlyIf P (f w)) : OnlyIf P ((c.float.n64 c.debug w).bind f) := by
  apply bind
  · intro hp
    obtain ⟨h3, h4⟩ := n64_eq_panic.1 hp
    exact h h3 h4
  · intro a ha
    unfold FloatFormat.n64 at ha
    split at ha
    · cases ha
    · cases ha
      exact h2

end OnlyIf

/-! ### HepMC2 -/

namespace HepMC

theorem stringEntry_leaves : Leaves stringEntry := fun _ _ _ h => stringEntry_suffix h

theorem namesLoop_leaves (c : ParseCtx K V) : ∀ (ws : List K) {s r : Bytes} {b b' : EventBuilder K V} {seen seen' : List Bytes},
    namesLoop c ws s b seen = .ok (r, b', seen') → r <:+ s := by
  intro ws
  induction ws with
  | nil =>
    intro s r b b' seen seen' h
    simp only [namesLoop, Outcome.ok.injEq, Prod.mk.injEq] at h
    exact h.1 ▸ List.suffix_rfl
  | cons w ws ih =>
    intro s r b b' seen seen' h
    rw [namesLoop, Outcome.bind_eq_ok] at h
    obtain ⟨⟨r1, name⟩, h1, h2⟩ := h
    rw [orParseErr_eq_ok] at h1
    simp only at h2
    refine List.IsSuffix.trans ?_ (stringEntry_suffix h1)
    split_ifs at h2
    · rw [Outcome.bind_eq_ok] at h2
      obtain ⟨_, -, h2⟩ := h2
      exact ih h2
    · exact ih h2

theorem namesLoop_onlyIf (c : ParseCtx K V) {P : Prop} : ∀ (ws : List K) (s : Bytes) (b : EventBuilder K V) (seen : List Bytes),
    (∀ w ∈ ws, c.debug = true → c.float.isNaN w = true → P) → OnlyIf P (namesLoop c ws s b seen) := by
  intro ws
  induction ws with
  | nil => exact fun _ _ _ _ => OnlyIf.ok _
  | cons w ws ih =>
    intro s b seen h
    rw [namesLoop]
    refine OnlyIf.parse stringEntry_leaves List.suffix_rfl fun r name _ _ => ?_
    simp only
    split_ifs
    · exact OnlyIf.n64 (h w (by simp)) (ih _ _ _ fun w hw => h w (by simp [hw]))
    · exact ih _ _ _ fun w hw => h w (by simp [hw])

theorem parseNamesLine_onlyIf (c : ParseCtx K V) {P : Prop} (s : Bytes) (ws : List K) (b : EventBuilder K V)
    (h : ∀ w ∈ ws, c.debug = true → c.float.isNaN w = true → P) : OnlyIf P (parseNamesLine c s ws b) := by
  unfold parseNamesLine
  split_ifs
  · exact OnlyIf.ok _
  · refine OnlyIf.parse u32Entry_leaves List.suffix_rfl fun r n _ _ => ?_
    refine OnlyIf.bind (namesLoop_onlyIf c _ _ _ _ fun w hw => h w (List.mem_of_mem_take hw)) ?_
    rintro ⟨r, b, seen⟩ -
    simp only
    split
    · exact OnlyIf.err _
    · exact OnlyIf.ok _

theorem parseNamesLine_leaves (c : ParseCtx K V) {s r : Bytes} {ws : List K} {b b' : EventBuilder K V}
    (h : parseNamesLine c s ws b = .ok (r, b')) : r <:+ s := by
  unfold parseNamesLine at h
  split_ifs at h
  · simp only [Outcome.ok.injEq, Prod.mk.injEq] at h
    exact h.1 ▸ List.suffix_rfl
  · rw [Outcome.bind_eq_ok] at h
    obtain ⟨⟨r1, n⟩, h1, h2⟩ := h
    rw [orParseErr_eq_ok] at h1
    rw [Outcome.bind_eq_ok] at h2
    obtain ⟨⟨r2, b2, seen⟩, h2, h3⟩ := h2
    simp only at h2 h3
    have := (namesLoop_leaves c _ h2).trans ((u32Entry_leaves _ _ _ h1).trans (List.drop_suffix 1 s))
    split at h3
    · cases h3
    · simp only [Outcome.ok.injEq, Prod.mk.injEq] at h3
      exact h3.1 ▸ this

theorem parseParticleLine_onlyIf (c : ParseCtx K V) (hF : NanText c.float) (s : Bytes) (b : EventBuilder K V) :
    OnlyIf (c.debug = true ∧ HasNan s) (parseParticleLine c s b) := by
  unfold parseParticleLine
  refine OnlyIf.parse anyEntry_leaves (List.drop_suffix 1 s) fun r _ _ s1 => ?_
  refine OnlyIf.parse i32Entry_leaves s1 fun r id _ s1 => ?_
  refine OnlyIf.parse (doubleEntry_leaves _) s1 fun r px h1 s2 => ?_
  refine OnlyIf.parse (doubleEntry_leaves _) s2 fun r py h2 s3 => ?_
  refine OnlyIf.parse (doubleEntry_leaves _) s3 fun r pz h3 s4 => ?_
  refine OnlyIf.parse (doubleEntry_leaves _) s4 fun r e h4 s5 => ?_
  refine OnlyIf.parse anyEntry_leaves s5 fun r _ _ s5 => ?_
  refine OnlyIf.parse i32Entry_leaves s5 fun r status _ s5 => ?_
  simp only
  split_ifs
  · exact OnlyIf.ok _
  · refine OnlyIf.n64 (fun hd hn => ⟨hd, (doubleEntry_nan hF h4 hn).of_suffix s4⟩) ?_
    refine OnlyIf.n64 (fun hd hn => ⟨hd, (doubleEntry_nan hF h1 hn).of_suffix s1⟩) ?_
    refine OnlyIf.n64 (fun hd hn => ⟨hd, (doubleEntry_nan hF h2 hn).of_suffix s2⟩) ?_
    refine OnlyIf.n64 (fun hd hn => ⟨hd, (doubleEntry_nan hF h3 hn).of_suffix s3⟩) ?_
    exact OnlyIf.ok _

theorem parseParticleLine_leaves (c : ParseCtx K V) {s r : Bytes} {b b' : EventBuilder K V}
    (h : parseParticleLine c s b = .ok (r, b')) : r <:+ s := by
  unfold parseParticleLine at h
  simp only [Outcome.bind_eq_ok, orParseErr_eq_ok, Prod.exists] at h
  obtain ⟨r1, _, h1, r2, _, h2, r3, _, h3, r4, _, h4, r5, _, h5, r6, _, h6, r7, _, h7, r8, _, h8, h⟩ := h
  have : r8 <:+ s :=
    (i32Entry_leaves _ _ _ h8).trans <| (anyEntry_leaves _ _ _ h7).trans <| (doubleEntry_leaves _ _ _ _ h6).trans <|
    (doubleEntry_leaves _ _ _ _ h5).trans <| (doubleEntry_leaves _ _ _ _ h4).trans <| (doubleEntry_leaves _ _ _ _ h3).trans <|
    (i32Entry_leaves _ _ _ h2).trans <| (anyEntry_leaves _ _ _ h1).trans (List.drop_suffix 1 s)
  split_ifs at h
  · simp only [Outcome.ok.injEq, Prod.mk.injEq] at h
    exact h.1 ▸ this
  · simp only [Outcome.bind_eq_ok, Outcome.ok.injEq, Prod.mk.injEq] at h
    obtain ⟨_, -, _, -, _, -, _, -, h, -⟩ := h
    exact h ▸ this

theorem parseUnitsLine_onlyIf {P : Prop} (s : Bytes) : OnlyIf P (parseUnitsLine s) := by
  unfold parseUnitsLine
  refine OnlyIf.parse anyEntry_leaves (List.drop_suffix 1 s) fun r _ _ _ => ?_
  simp only
  split_ifs
  · exact OnlyIf.ok _
  · exact OnlyIf.ok _
  · exact OnlyIf.err _

theorem parseUnitsLine_leaves {s r : Bytes} {u : EnergyUnit} (h : parseUnitsLine s = .ok (u, r)) : r <:+ s := by
  unfold parseUnitsLine at h
  simp only [Outcome.bind_eq_ok, orParseErr_eq_ok, Prod.exists] at h
  obtain ⟨r1, x, h1, h⟩ := h
  have := (anyEntry_leaves _ _ _ h1).trans (List.drop_suffix 1 s)
  split_ifs at h <;> simp only [Outcome.ok.injEq, Prod.mk.injEq] at h <;> exact h.2 ▸ this

theorem parseLine_onlyIf (c : ParseCtx K V) (hF : NanText c.float) {P : Prop} {ws : List K}
    (hws : ∀ w ∈ ws, c.debug = true → c.float.isNaN w = true → P) (b : EventBuilder K V) (unit : EnergyUnit) (s : Bytes)
    (hs : c.debug = true ∧ HasNan s → P) : OnlyIf P (parseLine c ws b unit s) := by
  unfold parseLine
  split
  · exact OnlyIf.ok _
  · exact OnlyIf.ok _
  · exact OnlyIf.ok _
  · exact OnlyIf.ok _
  · split_ifs
    · exact (parseNamesLine_onlyIf c s ws b hws).map
    · exact OnlyIf.ok _
  · exact fun h => hs ((parseParticleLine_onlyIf c hF s b).map h)
  · exact (parseUnitsLine_onlyIf s).map
  · split_ifs
    · exact OnlyIf.err _
    · exact OnlyIf.ok _

theorem parseLine_leaves (c : ParseCtx K V) {ws : List K} {b b' : EventBuilder K V} {unit unit' : EnergyUnit} {s r : Bytes}
    (h : parseLine c ws b unit s = .ok (r, b', unit')) : r <:+ s := by
  have done : (.ok (s, b, unit) : Outcome ReadError _) = .ok (r, b', unit') → r <:+ s := by
    intro h
    simp only [Outcome.ok.injEq, Prod.mk.injEq] at h
    exact h.1 ▸ List.suffix_rfl
  unfold parseLine at h
  split at h
  · exact done h
  · exact done h
  · exact done h
  · exact done h
  · split_ifs at h
    · rw [Outcome.map_eq_ok] at h
      obtain ⟨⟨r1, b1⟩, h1, h2⟩ := h
      simp only [Prod.mk.injEq] at h2
      exact h2.1 ▸ parseNamesLine_leaves c h1
    · exact done h
  · rw [Outcome.map_eq_ok] at h
    obtain ⟨⟨r1, b1⟩, h1, h2⟩ := h
    simp only [Prod.mk.injEq] at h2
    exact h2.1 ▸ parseParticleLine_leaves c h1
  · rw [Outcome.map_eq_ok] at h
    obtain ⟨⟨u1, r1⟩, h1, h2⟩ := h
    simp only [Prod.mk.injEq] at h2
    exact h2.1 ▸ parseUnitsLine_leaves h1
  · split_ifs at h
    exact done h

theorem afterByte_suffix {ch : UInt8} {s r : Bytes} (h : afterByte ch s = some r) : r <:+ s := by
  obtain ⟨l, rfl, -⟩ := afterByte_eq h
  exact ⟨l ++ [ch], by simp⟩

theorem parseLoop_onlyIf (c : ParseCtx K V) (hF : NanText c.float) {P : Prop} {ws : List K}
    (hws : ∀ w ∈ ws, c.debug = true → c.float.isNaN w = true → P) : ∀ (fuel : Nat) (b : EventBuilder K V) (unit : EnergyUnit)
    (s : Bytes), (c.debug = true ∧ HasNan s → P) → OnlyIf P (parseLoop c ws fuel b unit s) := by
  intro fuel
  induction fuel with
  | zero => exact fun _ _ _ _ => OnlyIf.ok _
  | succ fuel ih =>
    intro b unit s hs
    rw [parseLoop]
    cases ha : afterByte 10 s with
    | none => exact OnlyIf.ok _
    | some r =>
      have hr : c.debug = true ∧ HasNan r → P := fun h => hs ⟨h.1, h.2.of_suffix (afterByte_suffix ha)⟩
      refine OnlyIf.bind (parseLine_onlyIf c hF hws b unit r hr) ?_
      rintro ⟨r', b', unit'⟩ h
      exact ih _ _ _ fun h' => hr ⟨h'.1, h'.2.of_suffix (parseLine_leaves c h)⟩

theorem nonWeightEntries_leaves {s r : Bytes} (h : nonWeightEntries s = some r) : r <:+ s := by
  unfold nonWeightEntries at h
  split at h
  · cases h
  · rename_i h1
    split at h
    · cases h
    · rename_i h2
      split at h
      · cases h
      · rename_i h3
        cases h
        exact (anyEntry_leaves.count _ _ _ _ h3).trans <| (u32Entry_leaves _ _ _ h2).trans <|
          (anyEntry_leaves.count _ _ _ _ h1).trans (List.drop_suffix 1 s)

end HepMC

/-- The record announces zero weights. -/
def AnnouncesNoWeights (record : Bytes) : Prop :=
  ∃ rest r, HepMC.nonWeightEntries record = some rest ∧ u32Entry rest = some (r, 0)

/-- **C48** for HepMC2: reading a record panics only if there is no weight, or in debug builds if the record contains "nan".
What is missing: these cases should lead to an error. -/
theorem C48_hepmc_partial [Zero K] [LinearOrder V] (c : ParseCtx K V) (hF : NanText c.float) {record : Bytes}
    (h : HepMC.parse c record = .panic) :
    (c.multi = true ∧ AnnouncesNoWeights record) ∨ (c.debug = true ∧ HasNan record) := by
  revert h
  change OnlyIf _ _
  unfold HepMC.parse
  have hE : OnlyIf ((c.multi = true ∧ AnnouncesNoWeights record) ∨ (c.debug = true ∧ HasNan record))
      (HepMC.extractWeights c record) := by
    unfold HepMC.extractWeights
    by_cases h1 : ¬ [69] <+: record
    · rw [if_pos h1]
      exact OnlyIf.err _
    · rw [if_neg h1]
      cases h2 : HepMC.nonWeightEntries record with
      | none => exact OnlyIf.err _
      | some rest =>
        refine OnlyIf.parse u32Entry_leaves List.suffix_rfl fun r n h3 _ => ?_
        by_cases hm : c.multi = true
        · simp only [hm, if_true]
          refine OnlyIf.parse ((doubleEntry_leaves _).count _) List.suffix_rfl fun r' ws h4 _ => ?_
          simp only
          cases ws with
          | nil =>
            intro _
            have hn : n = 0 := by
              have := HepMC.count_length h4
              simpa using this.symm
            subst hn
            exact Or.inl ⟨trivial, rest, r, h2, h3⟩
          | cons w ws => exact OnlyIf.ok _
        · simp only [hm, Bool.false_eq_true, if_false]
          refine OnlyIf.parse (doubleEntry_leaves _) List.suffix_rfl fun r' w _ _ => OnlyIf.ok _
  refine OnlyIf.bind hE ?_
  rintro ⟨w, ws, rest⟩ hw
  simp only
  have hnan : (c.float.isNaN w = true → HasNan record) ∧ (∀ w ∈ ws, c.float.isNaN w = true → HasNan record) ∧ rest <:+ record := by
    rw [HepMC.extractWeights_eq] at hw
    obtain ⟨-, r, n, h1, h2⟩ := hw
    have hr : r <:+ record := by
      unfold HepMC.headEntries at h1
      cases h3 : HepMC.nonWeightEntries record with
      | none => simp [h3] at h1
      | some rest =>
        simp only [h3] at h1
        exact (u32Entry_leaves _ _ _ h1).trans (HepMC.nonWeightEntries_leaves h3)
    rcases h2 with ⟨-, h2, h3⟩ | ⟨-, rfl, h3⟩
    · exact ⟨fun hn => (count_nan hF h3 w (List.mem_of_head? h2) hn).of_suffix hr,
        fun w hw hn => (count_nan hF h3 w hw hn).of_suffix hr, ((doubleEntry_leaves _).count _ _ _ _ h3).trans hr⟩
    · exact ⟨fun hn => (doubleEntry_nan hF h3 hn).of_suffix hr, by simp, (doubleEntry_leaves _ _ _ _ h3).trans hr⟩
  obtain ⟨n1, n2, n3⟩ := hnan
  refine OnlyIf.n64 (fun hd hn => Or.inr ⟨hd, n1 hn⟩) ?_
  refine OnlyIf.bind (HepMC.parseLoop_onlyIf c hF (fun w hw hd hn => Or.inr ⟨hd, n2 w hw hn⟩) _ _ _ _
    fun h => Or.inr ⟨h.1, h.2.of_suffix n3⟩) ?_
  rintro ⟨b, unit⟩ -
  simp only
  split_ifs
  · exact OnlyIf.ok _
  · exact OnlyIf.ok _

/-- The case without weights does lead to a panic. -/
theorem C48_no_weights [Zero K] [LinearOrder V] (c : ParseCtx K V) (hm : c.multi = true) {record : Bytes}
    (hE : [69] <+: record) (h : AnnouncesNoWeights record) : HepMC.parse c record = .panic := by
  obtain ⟨rest, r, h1, h2⟩ := h
  simp [HepMC.parse, HepMC.extractWeights, hE, h1, h2, hm, orParseErr, count]

/-! ### LHEF -/

theorem hasNan_linesLoop : ∀ (s acc : Bytes), ∀ l ∈ linesLoop acc s, HasNan l → HasNan (acc ++ s) := by
  intro s
  induction s with
  | nil =>
    intro acc l hl h
    simp only [linesLoop] at hl
    split_ifs at hl
    · simp at hl
    · simp only [List.mem_singleton] at hl
      simpa [← hl] using h
  | cons b s ih =>
    intro acc l hl h
    simp only [linesLoop] at hl
    by_cases hb : b = 10
    · simp only [hb, if_true, List.mem_cons] at hl
      rcases hl with rfl | hl
      · refine HasNan.of_prefix (List.prefix_append _ _) ?_
        split_ifs at h
        · exact h.of_prefix (List.dropLast_prefix _)
        · exact h
      · refine (ih [] l hl h).of_suffix ?_
        exact ⟨acc ++ [b], by simp⟩
    · simp only [hb, if_false] at hl
      simpa using ih _ l hl h

theorem hasNan_lines {s l : Bytes} (hl : l ∈ lines s) (h : HasNan l) : HasNan s := by
  simpa using hasNan_linesLoop s [] l hl h

theorem trimStart_suffix_aux : ∀ (n : Nat) (s : Bytes), s.length ≤ n → trimStart s <:+ s := by
  intro n
  induction n with
  | zero =>
    intro s hs
    have : s = [] := List.length_eq_zero_iff.1 (by omega)
    subst this
    exact List.suffix_rfl
  | succ n ih =>
    intro s hs
    unfold trimStart
    split
    · exact List.suffix_rfl
    all_goals
      split_ifs
      all_goals first
        | exact List.suffix_rfl
        | exact List.nil_suffix
        | (refine (ih _ ?_).trans ?_
           · simp at hs ⊢; omega
           · first
              | exact List.suffix_cons _ _
              | exact (List.suffix_cons _ _).trans (List.suffix_cons _ _)
              | exact ((List.suffix_cons _ _).trans (List.suffix_cons _ _)).trans (List.suffix_cons _ _))

theorem trimStart_suffix (s : Bytes) : trimStart s <:+ s := trimStart_suffix_aux s.length s le_rfl

namespace Lhef

theorem space0_suffix (s : Bytes) : space0 s <:+ s := List.dropWhile_suffix _

theorem i32Entry0_leaves : Leaves i32Entry0 := fun _ _ _ h => (parseI32_leaves _ _ _ h).trans (space0_suffix _)

theorem u32Entry0_leaves : Leaves u32Entry0 := by
  intro s r a h
  obtain ⟨t, rfl, -⟩ := u32Entry0_word h
  exact List.suffix_append _ _

theorem parseParticle_onlyIf (c : ParseCtx K V) (hF : NanText c.float) (b : EventBuilder K V) (s : Bytes) :
    OnlyIf (c.debug = true ∧ HasNan s) (parseParticle c b s) := by
  unfold parseParticle
  refine OnlyIf.parse i32Entry0_leaves List.suffix_rfl fun r id _ s1 => ?_
  refine OnlyIf.parse i32Entry_leaves s1 fun r status _ s1 => ?_
  simp only
  split_ifs
  · exact OnlyIf.ok _
  · refine OnlyIf.parse (anyEntry_leaves.count _) s1 fun r _ _ s1 => ?_
    refine OnlyIf.parse (doubleEntry_leaves _) s1 fun r px h1 s2 => ?_
    refine OnlyIf.parse (doubleEntry_leaves _) s2 fun r py h2 s3 => ?_
    refine OnlyIf.parse (doubleEntry_leaves _) s3 fun r pz h3 s4 => ?_
    refine OnlyIf.parse (doubleEntry_leaves _) s4 fun r e h4 s5 => ?_
    refine OnlyIf.n64 (fun hd hn => ⟨hd, (doubleEntry_nan hF h4 hn).of_suffix s4⟩) ?_
    refine OnlyIf.n64 (fun hd hn => ⟨hd, (doubleEntry_nan hF h1 hn).of_suffix s1⟩) ?_
    refine OnlyIf.n64 (fun hd hn => ⟨hd, (doubleEntry_nan hF h2 hn).of_suffix s2⟩) ?_
    refine OnlyIf.n64 (fun hd hn => ⟨hd, (doubleEntry_nan hF h3 hn).of_suffix s3⟩) ?_
    exact OnlyIf.ok _

theorem parseParticles_onlyIf (c : ParseCtx K V) (hF : NanText c.float) {P : Prop} : ∀ (ls : List Bytes) (b : EventBuilder K V),
    (∀ l ∈ ls, c.debug = true ∧ HasNan l → P) → OnlyIf P (parseParticles c ls b) := by
  intro ls
  induction ls with
  | nil => exact fun _ _ => OnlyIf.ok _
  | cons l ls ih =>
    intro b h
    rw [parseParticles]
    refine OnlyIf.bind (fun hp => h l (by simp) (parseParticle_onlyIf c hF b l hp)) fun b' _ => ?_
    exact ih b' fun l hl => h l (by simp [hl])

end Lhef

/-- The first number after the first line, the number of particles, is less than two. -/
def AnnouncesFewParticles (record : Bytes) : Prop :=
  ∃ line rest n, afterByte 10 (trimStart record) = some line ∧ Lhef.u32Entry0 line = some (rest, n) ∧ n < 2

/-- **C48** for LHEF: reading a record panics only if it announces less than two particles, or in debug builds if it contains
"nan". What is missing: these cases should lead to an error. -/
theorem C48_lhef_partial [Zero K] [LinearOrder V] (c : ParseCtx K V) (hF : NanText c.float) {record : Bytes}
    (h : Lhef.parse c record = .panic) : AnnouncesFewParticles record ∨ (c.debug = true ∧ HasNan record) := by
  revert h
  change OnlyIf _ _
  unfold Lhef.parse
  cases h1 : afterByte 10 (trimStart record) with
  | none => exact OnlyIf.err _
  | some line =>
    have hl : line <:+ record := (HepMC.afterByte_suffix h1).trans (trimStart_suffix _)
    refine OnlyIf.parse Lhef.u32Entry0_leaves hl fun r n h2 s1 => ?_
    simp only
    by_cases hn : n < 2
    · exact fun _ => Or.inl ⟨line, r, n, h1, h2, hn⟩
    · rw [if_neg hn]
      refine OnlyIf.parse anyEntry_leaves s1 fun r _ _ s1 => ?_
      refine OnlyIf.parse (doubleEntry_leaves _) s1 fun r wt h3 s2 => ?_
      refine OnlyIf.n64 (fun hd hn => Or.inr ⟨hd, (doubleEntry_nan hF h3 hn).of_suffix s1⟩) ?_
      refine OnlyIf.bind (Lhef.parseParticles_onlyIf c hF _ _ fun l hl h => ?_) fun b _ => OnlyIf.ok _
      exact Or.inr ⟨h.1, (hasNan_lines (List.mem_of_mem_drop (List.mem_of_mem_take hl)) h.2).of_suffix s2⟩

/-- The case of less than two particles does lead to a panic. -/
theorem C48_few_particles [Zero K] [LinearOrder V] (c : ParseCtx K V) {record : Bytes} (h : AnnouncesFewParticles record) :
    Lhef.parse c record = .panic := by
  obtain ⟨line, rest, n, h1, h2, h3⟩ := h
  simp [Lhef.parse, h1, h2, h3, orParseErr]

/-! ### STRIPPER XML -/

namespace Stripper

theorem tag_suffix {t s r : Bytes} (h : tag t s = some r) : r <:+ s := by
  rw [tag_eq_some] at h
  exact h ▸ List.suffix_append _ _

theorem weightStart_suffix {s r : Bytes} (h : weightStart s = some r) : r <:+ s := by
  unfold weightStart at h
  split at h
  · cases h
  · rename_i h1
    split at h
    · cases h
    · rename_i h2
      obtain ⟨sp, -, -, -, rfl⟩ := space1_eq_some.1 h2
      exact (tag_suffix h).trans ((List.suffix_append _ _).trans (tag_suffix h1))

theorem particleStart_suffix {s r : Bytes} (h : particleStart s = some r) : r <:+ s :=
  (tag_suffix h).trans (List.dropWhile_suffix _)

theorem particleStatus_leaves : Leaves particleStatus := by
  intro s r a h
  unfold particleStatus at h
  split at h
  · cases h
  · rename_i h1
    exact (parseI32_leaves _ _ _ h).trans ((tag_suffix h1).trans (Lhef.space0_suffix _))

theorem particleId_leaves : Leaves particleId := by
  intro s r a h
  unfold particleId at h
  split at h
  · cases h
  · rename_i h1
    exact (parseI32_leaves _ _ _ h).trans (tag_suffix h1)

theorem commaDouble_leaves (F : FloatFormat K) : Leaves (commaDouble F) := by
  intro s r a h
  unfold commaDouble at h
  split at h
  · cases h
  · rename_i h1
    exact (double_leaves F _ _ _ h).trans (tag_suffix h1)

theorem commaDouble_nan {F : FloatFormat K} (hF : NanText F) {s r : Bytes} {w : K} (h : commaDouble F s = some (r, w))
    (hw : F.isNaN w = true) : HasNan s := by
  unfold commaDouble at h
  split at h
  · cases h
  · rename_i h1
    exact (double_nan hF h hw).of_suffix (tag_suffix h1)

theorem particleMomentum_eq {F : FloatFormat K} {s r : Bytes} {p : K × K × K × K} (h : particleMomentum F s = some (r, p)) :
    r <:+ s ∧ (NanText F → (F.isNaN p.1 = true ∨ F.isNaN p.2.1 = true ∨ F.isNaN p.2.2.1 = true ∨ F.isNaN p.2.2.2 = true) →
      HasNan s) := by
  unfold particleMomentum at h
  split at h
  · cases h
  rename_i r0 p0 h0
  split at h
  · cases h
  rename_i r1 p1 h1
  split at h
  · cases h
  rename_i r2 p2 h2
  split at h
  · cases h
  rename_i r3 p3 h3
  simp only [Option.some.injEq, Prod.mk.injEq] at h
  obtain ⟨rfl, rfl⟩ := h
  have s0 := (double_leaves F _ _ _ h0).trans (Lhef.space0_suffix s)
  have s1 := (commaDouble_leaves F _ _ _ h1).trans s0
  have s2 := (commaDouble_leaves F _ _ _ h2).trans s1
  have s3 := (commaDouble_leaves F _ _ _ h3).trans s2
  refine ⟨(Lhef.space0_suffix _).trans s3, fun hF h => ?_⟩
  rcases h with h | h | h | h
  · exact (double_nan hF h0 h).of_suffix (Lhef.space0_suffix s)
  · exact (commaDouble_nan hF h1 h).of_suffix s0
  · exact (commaDouble_nan hF h2 h).of_suffix s1
  · exact (commaDouble_nan hF h3 h).of_suffix s2

theorem skipOne_eq {s r : Bytes} (h : (skipOne s : Outcome E Bytes) = .ok r) : r <:+ s := by
  cases s with
  | nil => cases h
  | cons b s =>
    simp only [skipOne] at h
    split_ifs at h
    cases h
    exact List.suffix_cons _ _

theorem skipOne_panic {s : Bytes} (h : (skipOne s : Outcome E Bytes) = .panic) : ∀ b, s.head? = some b → 128 ≤ b := by
  cases s with
  | nil => simp
  | cons b s =>
    simp only [skipOne] at h
    split_ifs at h with hb
    simpa using hb

theorem parseParticle_onlyIf (c : ParseCtx K V) (hF : NanText c.float) {P : Prop} (b : EventBuilder K V) (s : Bytes)
    (h1 : BadTagEnd s → P) (h2 : c.debug = true → HasNan s → P) : OnlyIf P (parseParticle c b s) := by
  unfold parseParticle
  refine OnlyIf.parse particleStatus_leaves List.suffix_rfl fun r status _ s1 => ?_
  simp only
  split_ifs with hst
  · split
    · exact OnlyIf.err _
    · exact OnlyIf.ok _
  · refine OnlyIf.parse particleId_leaves s1 fun r pid _ s1 => ?_
    simp only
    cases ht : tag (ascii "\">") r with
    | none => exact OnlyIf.err _
    | some r1 =>
      have s2 := (tag_suffix ht).trans s1
      simp only
      refine OnlyIf.bind ?_ ?_
      · intro hp
        apply h1
        rw [tag_eq_some] at ht
        obtain ⟨pre, hpre⟩ := s1
        exact ⟨pre, r1, by rw [← hpre, ht]; simp; rfl, skipOne_panic hp⟩
      · intro r2 hr2
        have s3 := (skipOne_eq hr2).trans s2
        refine OnlyIf.parse (fun _ _ _ h => (particleMomentum_eq h).1) s3 fun r p hp s4 => ?_
        have hn : ∀ w, (w = p.1 ∨ w = p.2.1 ∨ w = p.2.2.1 ∨ w = p.2.2.2) → c.debug = true → c.float.isNaN w = true → P := by
          intro w hw hd hnan
          refine h2 hd (((particleMomentum_eq hp).2 hF ?_).of_suffix s3)
          rcases hw with rfl | rfl | rfl | rfl <;> simp [hnan]
        refine OnlyIf.n64 (hn _ (by simp)) ?_
        refine OnlyIf.n64 (hn _ (by simp)) ?_
        refine OnlyIf.n64 (hn _ (by simp)) ?_
        refine OnlyIf.n64 (hn _ (by simp)) ?_
        split
        · exact OnlyIf.err _
        · exact OnlyIf.ok _

theorem parseParticle_leaves (c : ParseCtx K V) {b b' : EventBuilder K V} {s r : Bytes}
    (h : parseParticle c b s = .ok (r, b')) : r <:+ s := by
  unfold parseParticle at h
  rw [Outcome.bind_eq_ok] at h
  obtain ⟨⟨r1, st⟩, h1, h⟩ := h
  rw [HepMC.orParseErr_eq_ok] at h1
  have s1 := particleStatus_leaves _ _ _ h1
  simp only at h
  split_ifs at h
  · split at h
    · cases h
    · rename_i hsp
      simp only [Outcome.ok.injEq, Prod.mk.injEq] at h
      rw [← h.1]
      rw [HepMC.splitAtPattern_suffix hsp] at s1
      exact (List.suffix_append _ _).trans s1
  · rw [Outcome.bind_eq_ok] at h
    obtain ⟨⟨r2, pid⟩, h2, h⟩ := h
    rw [HepMC.orParseErr_eq_ok] at h2
    have s2 := (particleId_leaves _ _ _ h2).trans s1
    simp only at h
    split at h
    · cases h
    · rename_i r3 h3
      have s3 := (tag_suffix h3).trans s2
      rw [Outcome.bind_eq_ok] at h
      obtain ⟨r4, h4, h⟩ := h
      have s4 := (skipOne_eq h4).trans s3
      rw [Outcome.bind_eq_ok] at h
      obtain ⟨⟨r5, p⟩, h5, h⟩ := h
      rw [HepMC.orParseErr_eq_ok] at h5
      have s5 := (particleMomentum_eq h5).1.trans s4
      simp only [Outcome.bind_eq_ok] at h
      obtain ⟨_, -, _, -, _, -, _, -, h⟩ := h
      split at h
      · cases h
      · rename_i h6
        simp only [Outcome.ok.injEq, Prod.mk.injEq] at h
        rw [← h.1]
        exact (tag_suffix h6).trans s5

theorem parseLoop_onlyIf (c : ParseCtx K V) (hF : NanText c.float) {P : Prop} : ∀ (fuel : Nat) (b : EventBuilder K V) (s : Bytes),
    (BadTagEnd s → P) → (c.debug = true → HasNan s → P) → OnlyIf P (parseLoop c fuel b s) := by
  intro fuel
  induction fuel with
  | zero => exact fun _ _ _ _ => OnlyIf.ok _
  | succ fuel ih =>
    intro b s h1 h2
    rw [parseLoop]
    cases hp : particleStart s with
    | none => exact OnlyIf.ok _
    | some r =>
      have hb : ∀ {x y : Bytes}, x <:+ y → BadTagEnd x → BadTagEnd y := by
        rintro x y ⟨t, rfl⟩ ⟨pre, post, rfl, h⟩
        exact ⟨t ++ pre, post, by simp, h⟩
      have s1 := particleStart_suffix hp
      simp only
      refine OnlyIf.bind (parseParticle_onlyIf c hF b r (fun h => h1 (hb s1 h)) fun hd h => h2 hd (h.of_suffix s1)) ?_
      rintro ⟨r', b'⟩ hr'
      have s2 := (parseParticle_leaves c hr').trans s1
      exact ih b' r' (fun h => h1 (hb s2 h)) fun hd h => h2 hd (h.of_suffix s2)

end Stripper

/-- **C48** for STRIPPER XML: reading a record panics only if somewhere `">` is not followed by an ASCII character, or in
debug builds if the record contains "nan". What is missing: these cases should lead to an error. -/
theorem C48_stripper_partial [Zero K] [LinearOrder V] (c : ParseCtx K V) (hF : NanText c.float) {record : Bytes}
    (h : Stripper.parse c record = .panic) : BadTagEnd record ∨ (c.debug = true ∧ HasNan record) := by
  revert h
  change OnlyIf _ _
  unfold Stripper.parse
  cases h1 : Stripper.weightStart record with
  | none => exact OnlyIf.err _
  | some rest =>
    have s1 := Stripper.weightStart_suffix h1
    refine OnlyIf.parse (double_leaves _) s1 fun r w h2 s2 => ?_
    refine OnlyIf.n64 (fun hd hn => Or.inr ⟨hd, (double_nan hF h2 hn).of_suffix s1⟩) ?_
    split
    · exact OnlyIf.err _
    · rename_i r' h3
      have s3 := (HepMC.afterByte_suffix h3).trans s2
      refine OnlyIf.bind (Stripper.parseLoop_onlyIf c hF _ _ _ ?_ fun hd hn => Or.inr ⟨hd, hn.of_suffix s3⟩) fun b _ => OnlyIf.ok _
      intro h
      obtain ⟨t, rfl⟩ := s3
      obtain ⟨pre, post, rfl, h⟩ := h
      exact Or.inl ⟨t ++ pre, post, by simp, h⟩

/-! ### The claim -/

/-- **C48** as stated, for the three text formats. -/
def C48_claim : Prop :=
  ∀ (c : ParseCtx ℚ ℚ) (record : Bytes),
    HepMC.parse c record ≠ .panic ∧ Lhef.parse c record ≠ .panic ∧ Stripper.parse c record ≠ .panic

/-- The numbers used in the examples meet the assumption on NaN. -/
theorem nanText_rat : NanText ratFormat := fun t h => by cases h

theorem nanText_nan : NanText nanFormat := by
  intro t h
  have hn : ascii "nan" = [110, 97, 110] := by decide
  have h : (if (tagNoCase (ascii "nan") t).isSome then (⊥ : WithBot ℚ) else (decValue t : WithBot ℚ)) = ⊥ := by
    simpa [nanFormat] using h
  split_ifs at h with h1
  · rw [hn] at h1
    rcases t with _ | ⟨x, t⟩
    · simp [tagNoCase] at h1
    by_cases hx : eqNoCase 110 x = true
    · rcases t with _ | ⟨y, t⟩
      · simp [tagNoCase, hx] at h1
      by_cases hy : eqNoCase 97 y = true
      · rcases t with _ | ⟨z, t⟩
        · simp [tagNoCase, hx, hy] at h1
        by_cases hz : eqNoCase 110 z = true
        · have e1 : (110 : UInt8) - 32 = 78 := by decide
          have e2 : (97 : UInt8) - 32 = 65 := by decide
          simp only [eqNoCase, Bool.or_eq_true, decide_eq_true_eq, e1, e2] at hx hy hz
          exact ⟨[], x, y, z, t, by simp, hx.symm, hy.symm, hz.symm⟩
        · simp [tagNoCase, hx, hy, hz] at h1
      · simp [tagNoCase, hx, hy] at h1
    · simp [tagNoCase, hx] at h1
  · cases h

/-- **C48** fails: an LHEF record with one particle. -/
theorem C48_violated : ¬ C48_claim := by
  intro h
  refine (h (ratCtx false false []) (ascii "<event>\n 1 1 2.0 3 4 5\n</event>")).2.1 ?_
  decide +kernel

/-- **C48** fails: a HepMC2 record without weights. -/
theorem C48_hepmc_violated : HepMC.parse (ratCtx true false []) (ascii "E 1 2 3 4 5 6 7 8 9 10 0 0\n") = .panic := by
  decide +kernel

/-- **C48** fails: a STRIPPER XML record that ends after the start of a particle. -/
theorem C48_stripper_violated :
    Stripper.parse (ratCtx false false []) (ascii "<se w=\"1\"><p id=\"0,11\">") = .panic := by
  decide +kernel

/-- **C48** fails: in debug builds the weight may not be NaN. -/
theorem C48_nan_violated : HepMC.parse (nanCtx false true []) (ascii "E 1 2 3 4 5 6 7 8 9 10 0 1 NaN\n") = .panic ∧
    ∃ ev, HepMC.parse (nanCtx false false []) (ascii "E 1 2 3 4 5 6 7 8 9 10 0 1 NaN\n") = .ok ev := by
  refine ⟨by decide +kernel, ⟨0, [⊥], []⟩, by decide +kernel⟩

/-- A malformed record without any of these peculiarities gives an error. -/
example : HepMC.parse (ratCtx true true []) (ascii "E 1 2 3 4 5 6 7 8 9 10 0 1 2.0\nP 1 x\n") ≠ .panic ∧
    Lhef.parse (ratCtx true true []) (ascii "<event>\n 2 1 x\n") ≠ .panic := by
  decide +kernel

end Cres

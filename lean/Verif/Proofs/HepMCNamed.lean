import Verif.Proofs.HepMC

/-!
Updating weights with names in HepMC2 records.
-/

namespace Cres

variable {K V : Type*}

/-! ### Words -/

theorem splitWsLoop_word {acc tok after : Bytes} (h : ∀ b ∈ tok, isAsciiWs b = false) (hne : acc ++ tok ≠ [])
    (ht : TailOk after) : splitWsLoop acc (tok ++ after) = (acc ++ tok) :: splitWsLoop [] after := by
  induction tok generalizing acc with
  | nil =>
    simp only [List.append_nil] at hne
    cases after with
    | nil => simp [splitWsLoop, hne]
    | cons b after =>
      have hb := ht b rfl
      simp [splitWsLoop, hb, hne]
  | cons t tok ih =>
    have h1 := h t (by simp)
    simp only [List.cons_append, splitWsLoop, h1, Bool.false_eq_true, if_false]
    rw [ih (fun b hb => h b (by simp [hb])) (by simp)]
    simp

theorem splitWsLoop_blanks {sp s : Bytes} (h : ∀ b ∈ sp, isBlank b = true) : splitWsLoop [] (sp ++ s) = splitWsLoop [] s := by
  induction sp with
  | nil => rfl
  | cons b sp ih =>
    have hb := isAsciiWs_of_isBlank (h b (by simp))
    simp only [List.cons_append, splitWsLoop, hb, if_true]
    exact ih (fun x hx => h x (by simp [hx]))

theorem splitAsciiWs_entry {sp tok after : Bytes} (h1 : ∀ b ∈ sp, isBlank b = true) (h2 : tok ≠ [])
    (h3 : ∀ b ∈ tok, isAsciiWs b = false) (h4 : TailOk after) :
    splitAsciiWs (sp ++ tok ++ after) = tok :: splitAsciiWs after := by
  unfold splitAsciiWs
  rw [List.append_assoc, splitWsLoop_blanks h1, splitWsLoop_word h3 (by simpa using h2) h4]
  rfl

/-- Words that are read as the given numbers. The last one may be followed by further text in the same word. -/
def ToksOk (F : FloatFormat K) : List Bytes → List K → Bytes → Prop
  | [], ws, junk => ws = [] ∧ junk = []
  | [t], ws, junk => ∃ w, ws = [w] ∧ (∀ b ∈ t, isAsciiWs b = false) ∧ F.double t = some (junk, w)
  | t :: t' :: ts, ws, junk => ∃ w ws', ws = w :: ws' ∧ (∀ b ∈ t, isAsciiWs b = false) ∧ F.double t = some ([], w) ∧
      ToksOk F (t' :: ts) ws' junk

theorem ToksOk.length {F : FloatFormat K} : ∀ {toks : List Bytes} {ws : List K} {junk : Bytes}, ToksOk F toks ws junk →
    toks.length = ws.length := by
  intro toks
  induction toks with
  | nil => intro ws junk h; simp [h.1]
  | cons t toks ih =>
    intro ws junk h
    cases toks with
    | nil =>
      obtain ⟨w, rfl, -⟩ := h
      rfl
    | cons t' ts =>
      obtain ⟨w, ws', rfl, -, -, h⟩ := h
      simp only [List.length_cons, ← ih h]

theorem ToksOk.noNewline {F : FloatFormat K} : ∀ {toks : List Bytes} {ws : List K} {junk : Bytes}, ToksOk F toks ws junk →
    (10 : UInt8) ∉ junk := by
  intro toks
  induction toks with
  | nil => intro ws junk h; simp [h.2]
  | cons t toks ih =>
    intro ws junk h
    cases toks with
    | nil =>
      obtain ⟨w, rfl, h1, h2⟩ := h
      obtain ⟨t', rfl, -⟩ := double_append h2
      exact fun hm => not_newline_of_noWs h1 (by simp [hm])
    | cons t' ts =>
      obtain ⟨w, ws', rfl, -, -, h⟩ := h
      exact ih h

/-- The words of weight entries. -/
theorem count_toks {F : FloatFormat K} : ∀ {n : Nat} {s rest : Bytes} {ws : List K}, 0 < n →
    count F.doubleEntry n s = some (rest, ws) → ∃ toks junk after pre, toks.length = n ∧ ToksOk F toks ws junk ∧
      splitAsciiWs s = toks ++ splitAsciiWs after ∧ rest = junk ++ after ∧ s = pre ++ after ∧ (10 : UInt8) ∉ pre ∧
      TailOk after := by
  intro n
  induction n with
  | zero => intro s rest ws h; omega
  | succ n ih =>
    intro s rest ws _ h
    simp only [count] at h
    cases hd : F.doubleEntry s with
    | none => simp [hd] at h
    | some x =>
      obtain ⟨r1, w⟩ := x
      simp only [hd] at h
      cases hc : count F.doubleEntry n r1 with
      | none => simp [hc] at h
      | some y =>
        obtain ⟨r2, ws2⟩ := y
        simp only [hc, Option.some.injEq, Prod.mk.injEq] at h
        obtain ⟨rfl, rfl⟩ := h
        obtain ⟨sp, tok, junk, after, h1, h2, h3, h4, h5, rfl, h7, h8, h9, h10⟩ := doubleEntry_eq_some hd
        have hpre : (10 : UInt8) ∉ sp ++ tok := by
          simp [not_newline_of_blank h2, not_newline_of_noWs h4]
        cases n with
        | zero =>
          simp only [count, Option.some.injEq, Prod.mk.injEq] at hc
          obtain ⟨rfl, rfl⟩ := hc
          exact ⟨[tok], junk, after, sp ++ tok, rfl, ⟨w, rfl, h4, h8⟩, by simpa using splitAsciiWs_entry h2 h3 h4 h5, h7, rfl,
            hpre, h5⟩
        | succ n =>
          have hb : StartsBlank r1 := by
            simp only [count] at hc
            cases hd2 : F.doubleEntry r1 with
            | none => simp [hd2] at hc
            | some z => exact doubleEntry_blank _ _ _ hd2
          have hj : junk = [] := by
            cases junk with
            | nil => rfl
            | cons j junk =>
              obtain ⟨b, t, e, hb⟩ := hb
              rw [h7] at e
              simp only [List.cons_append, List.cons.injEq] at e
              have := h9 j (by simp)
              rw [e.1, isAsciiWs_of_isBlank hb] at this
              simp at this
          subst hj
          simp only [List.nil_append] at h7
          subst h7
          obtain ⟨toks, junk, after', pre, g1, g2, g3, g4, g5, g6, g7⟩ := ih (by omega) hc
          refine ⟨tok :: toks, junk, after', sp ++ tok ++ pre, by simp [g1], ?_, ?_, g4, by rw [g5]; simp,
            InLine.trans hpre g6, g7⟩
          · cases toks with
            | nil => simp at g1
            | cons t' ts => exact ⟨w, ws2, rfl, h4, h8, g2⟩
          · rw [splitAsciiWs_entry h2 h3 h4 h5, g3, List.cons_append]

/-- Writing the words separated by spaces. -/
theorem count_join {F : FloatFormat K} : ∀ {toks : List Bytes} {ws : List K} {junk after : Bytes} {b : UInt8}, toks ≠ [] →
    ToksOk F toks ws junk → isBlank b = true → TailOk after →
    count F.doubleEntry toks.length (b :: (joinWith [32] toks ++ after)) = some (junk ++ after, ws) := by
  intro toks
  induction toks with
  | nil => intro ws junk after b h; exact absurd rfl h
  | cons t toks ih =>
    intro ws junk after b _ h hb ha
    cases toks with
    | nil =>
      obtain ⟨w, rfl, h1, h2⟩ := h
      have := doubleEntry_word (F := F) (sp := [b]) (by simp) (by simpa using hb) h1 ha h2
      simp only [List.cons_append, List.nil_append] at this
      simp [joinWith, count, this]
    | cons t' ts =>
      obtain ⟨w, ws', rfl, h1, h2, h3⟩ := h
      have h4 := ih (after := after) (b := 32) (by simp) h3 (by decide) ha
      have := doubleEntry_word (F := F) (sp := [b]) (after := 32 :: (joinWith [32] (t' :: ts) ++ after)) (by simp)
        (by simpa using hb) h1 (by intro x hx; simp at hx; subst hx; decide) h2
      simp only [List.cons_append, List.nil_append] at this
      simp only [joinWith, List.length_cons, count, List.append_assoc, List.cons_append, List.nil_append] at h4 this ⊢
      rw [this]
      simp only
      rw [h4]

/-- Replacing a word. -/
theorem ToksOk.set {F : FloatFormat K} {w : K} (hw : F.finite w = true) : ∀ {toks : List Bytes} {ws : List K} {junk : Bytes}
    (i : Nat), ToksOk F toks ws junk → ∃ junk', ToksOk F (toks.set i (F.display w)) (ws.set i w) junk' := by
  intro toks
  induction toks with
  | nil => rintro ws junk i ⟨rfl, rfl⟩; exact ⟨[], by simp [ToksOk]⟩
  | cons t toks ih =>
    intro ws junk i h
    cases toks with
    | nil =>
      obtain ⟨w0, rfl, h1, h2⟩ := h
      cases i with
      | zero => exact ⟨[], w, rfl, display_noWs F hw, double_display F hw⟩
      | succ i => exact ⟨junk, w0, rfl, h1, h2⟩
    | cons t' ts =>
      obtain ⟨w0, ws', rfl, h1, h2, h3⟩ := h
      cases i with
      | zero => exact ⟨junk, w, ws', rfl, display_noWs F hw, double_display F hw, h3⟩
      | succ i =>
        obtain ⟨junk', h4⟩ := ih i h3
        refine ⟨junk', ?_⟩
        rw [List.set_cons_succ, List.set_cons_succ]
        cases i with
        | zero => exact ⟨w0, ws'.set 0 w, rfl, h1, h2, h4⟩
        | succ i => exact ⟨w0, ws'.set (i + 1) w, rfl, h1, h2, h4⟩

namespace HepMC

/-- Writing several entries of a list. -/
def setAll (ws : List K) (l : List (Nat × K)) : List K := l.foldl (fun ws x => ws.set x.1 x.2) ws

theorem setAll_length (l : List (Nat × K)) : ∀ ws : List K, (setAll ws l).length = ws.length := by
  induction l with
  | nil => intro ws; rfl
  | cons x l ih => intro ws; simp only [setAll, List.foldl_cons] at ih ⊢; rw [ih]; simp

theorem setAll_of_notMem {i : Nat} (l : List (Nat × K)) : ∀ ws : List K, i ∉ l.map Prod.fst → (setAll ws l)[i]? = ws[i]? := by
  induction l with
  | nil => intro ws _; rfl
  | cons x l ih =>
    intro ws h
    simp only [List.map_cons, List.mem_cons, not_or] at h
    simp only [setAll, List.foldl_cons] at ih ⊢
    rw [ih _ h.2, List.getElem?_set_ne (Ne.symm h.1)]

theorem setAll_get (pos : List Nat) : ∀ (vs ws : List K), pos.Nodup → (∀ i ∈ pos, i < ws.length) → pos.length = vs.length →
    pos.map (fun i => (setAll ws (pos.zip vs))[i]?) = vs.map some := by
  induction pos with
  | nil => intro vs ws _ _ h; cases vs <;> simp at h ⊢
  | cons i pos ih =>
    intro vs ws hn hl h
    cases vs with
    | nil => simp at h
    | cons v vs =>
      simp only [List.nodup_cons] at hn
      have hs : setAll ws ((i :: pos).zip (v :: vs)) = setAll (ws.set i v) (pos.zip vs) := rfl
      rw [hs]
      simp only [List.map_cons]
      rw [ih vs (ws.set i v) hn.2 (fun j hj => by simpa using hl j (by simp [hj])) (by simpa using h)]
      congr 1
      rw [setAll_of_notMem]
      · rw [List.getElem?_set_self (hl i (by simp))]
      · intro hm
        obtain ⟨x, hx, rfl⟩ := List.mem_map.1 hm
        exact hn.1 (List.of_mem_zip (show (x.1, x.2) ∈ _ from hx)).1

theorem replaceEntries_ok {F : FloatFormat K} : ∀ (l : List (Nat × K)) {toks : List Bytes} {ws : List K} {junk : Bytes},
    (∀ x ∈ l, x.1 < toks.length ∧ F.finite x.2 = true) → ToksOk F toks ws junk →
    ∃ toks' junk', replaceEntries F l toks = some toks' ∧ toks'.length = toks.length ∧ ToksOk F toks' (setAll ws l) junk' := by
  intro l
  induction l with
  | nil => intro toks ws junk _ h; exact ⟨toks, junk, rfl, rfl, h⟩
  | cons x l ih =>
    intro toks ws junk hl h
    obtain ⟨i, w⟩ := x
    obtain ⟨h1, h2⟩ := hl (i, w) (by simp)
    obtain ⟨junk1, h3⟩ := h.set h2 i
    obtain ⟨toks', junk', g1, g2, g3⟩ := ih (fun y hy => by simpa using hl y (by simp [hy])) h3
    refine ⟨toks', junk', ?_, by simpa using g2, g3⟩
    simp only [replaceEntries]
    rw [if_pos h1, g1]

/-! ### Positions of names -/

/-- Positions of the requested names, counted from `k`. -/
def positions (names : List Bytes) : Nat → List Bytes → List Nat
  | _, [] => []
  | k, n :: nms => if n ∈ names then k :: positions names (k + 1) nms else positions names (k + 1) nms

theorem positions_range {names : List Bytes} : ∀ {nms : List Bytes} {k i : Nat}, i ∈ positions names k nms →
    k ≤ i ∧ i < k + nms.length := by
  intro nms
  induction nms with
  | nil => intro k i h; simp [positions] at h
  | cons n nms ih =>
    intro k i h
    simp only [positions] at h
    simp only [List.length_cons]
    split_ifs at h with hn
    · rcases List.mem_cons.1 h with rfl | h
      · omega
      · have := ih h
        omega
    · have := ih h
      omega

theorem positions_nodup (names : List Bytes) : ∀ (nms : List Bytes) (k : Nat), (positions names k nms).Nodup := by
  intro nms
  induction nms with
  | nil => intro k; simp [positions]
  | cons n nms ih =>
    intro k
    simp only [positions]
    split_ifs with hn
    · refine List.nodup_cons.2 ⟨fun h => ?_, ih _⟩
      have := positions_range h
      omega
    · exact ih _

theorem positions_append (names : List Bytes) : ∀ (a b : List Bytes) (k : Nat),
    positions names k (a ++ b) = positions names k a ++ positions names (k + a.length) b := by
  intro a
  induction a with
  | nil => intro b k; rfl
  | cons n a ih =>
    intro b k
    simp only [List.cons_append, positions, ih, List.length_cons]
    rw [Nat.add_right_comm k 1 a.length, Nat.add_assoc]
    split_ifs <;> rfl

theorem positions_length (names : List Bytes) : ∀ (nms : List Bytes) (k : Nat) (ws : List K), nms.length ≤ ws.length →
    (positions names k nms).length = (selected names nms ws).length := by
  intro nms
  induction nms with
  | nil => intro k ws _; simp [positions, selected]
  | cons n nms ih =>
    intro k ws h
    cases ws with
    | nil => simp at h
    | cons w ws =>
      have := ih (k + 1) ws (by simpa using h)
      by_cases hn : n ∈ names
      · simpa [positions, selected, hn] using this
      · simpa [positions, selected, hn] using this

theorem selected_eq_positions (names : List Bytes) : ∀ (nms : List Bytes) (pre ws : List K), nms.length ≤ ws.length →
    (selected names nms ws).map some = (positions names pre.length nms).map (fun i => (pre ++ ws)[i]?) := by
  intro nms
  induction nms with
  | nil => intro pre ws _; simp [positions, selected]
  | cons n nms ih =>
    intro pre ws h
    cases ws with
    | nil => simp at h
    | cons w ws =>
      have := ih (pre ++ [w]) ws (by simpa using h)
      simp only [List.length_append, List.length_singleton, List.append_assoc, List.cons_append, List.nil_append] at this
      by_cases hn : n ∈ names
      · simp only [selected, List.zip_cons_cons, List.filter_cons, hn, decide_true, if_true, List.map_cons, positions]
        congr 1
        · simp
      · simpa [selected, hn, positions] using this

/-- At least as many weights are selected as there are distinct names that occur. -/
theorem selected_length_ge {names nms : List Bytes} (hd : names.Nodup) (hs : ∀ n ∈ names, n ∈ nms) :
    names.length ≤ (nms.filter (fun n => decide (n ∈ names))).length := by
  apply List.Subperm.length_le
  apply List.subperm_of_subset hd
  intro n hn
  simp [hs n hn, hn]

theorem selected_length_eq (names : List Bytes) : ∀ (nms : List Bytes) (ws : List K), nms.length ≤ ws.length →
    (selected names nms ws).length = (nms.filter (fun n => decide (n ∈ names))).length := by
  intro nms
  induction nms with
  | nil => intro ws _; simp [selected]
  | cons n nms ih =>
    intro ws h
    cases ws with
    | nil => simp at h
    | cons w ws =>
      have := ih ws (by simpa using h)
      by_cases hn : n ∈ names <;> simpa [selected, hn] using this

theorem weightPositions_ok {names : List Bytes} : ∀ (n k : Nat) (rest : Bytes),
    (∃ r nms, count stringEntry n rest = some (r, nms) ∧ weightPositions names n k rest = .ok (positions names k nms)) ∨
    (count stringEntry n rest = none ∧ ∃ e, weightPositions names n k rest = .err e) := by
  intro n
  induction n with
  | zero => intro k rest; exact Or.inl ⟨rest, [], rfl, rfl⟩
  | succ n ih =>
    intro k rest
    simp only [count, weightPositions]
    cases hs : stringEntry rest with
    | none => exact Or.inr ⟨rfl, _, rfl⟩
    | some x =>
      obtain ⟨r1, name⟩ := x
      simp only [orParseErr, Outcome.bind_ok]
      rcases ih (k + 1) r1 with ⟨r, nms, h1, h2⟩ | ⟨h1, e, h2⟩
      · refine Or.inl ⟨r, name :: nms, by simp [h1], ?_⟩
        simp [h2, positions]
      · exact Or.inr ⟨by simp [h1], e, by simp [h2]⟩

theorem count_add {α : Type*} {p : Bytes → PResult α} : ∀ {n m : Nat} {s r : Bytes} {as : List α},
    count p (n + m) s = some (r, as) → ∃ r1 as1 as2, count p n s = some (r1, as1) ∧ as = as1 ++ as2 := by
  intro n
  induction n with
  | zero => intro m s r as _; exact ⟨s, [], as, rfl, rfl⟩
  | succ n ih =>
    intro m s r as h
    rw [Nat.add_right_comm, count] at h
    cases hs : p s with
    | none => simp [hs] at h
    | some x =>
      obtain ⟨r1, a⟩ := x
      simp only [hs] at h
      cases hc : count p (n + m) r1 with
      | none => simp [hc] at h
      | some y =>
        obtain ⟨r2, as'⟩ := y
        simp only [hc, Option.some.injEq, Prod.mk.injEq] at h
        obtain ⟨rfl, rfl⟩ := h
        obtain ⟨r3, as1, as2, g1, rfl⟩ := ih hc
        exact ⟨r3, a :: as1, as2, by simp [count, hs, g1], rfl⟩

theorem splitAtPattern_single {ch : UInt8} : ∀ (s : Bytes), splitAtPattern [ch] s = none → afterByte ch s = none := by
  intro s
  induction s with
  | nil => intro _; rfl
  | cons b s ih =>
    intro h
    simp only [splitAtPattern] at h
    split_ifs at h with hp
    simp only [List.cons_prefix_cons, List.nil_prefix, and_true] at hp
    simp only [afterByte, if_neg (Ne.symm hp)]
    apply ih
    cases hs : splitAtPattern [ch] s with
    | none => rfl
    | some x => simp [hs] at h

theorem splitAtPattern_single_some {ch : UInt8} : ∀ (s : Bytes) {a b : Bytes}, splitAtPattern [ch] s = some (a, b) →
    afterByte ch s = some b := by
  intro s
  induction s with
  | nil => intro a b h; simp [splitAtPattern] at h
  | cons x s ih =>
    intro a b h
    simp only [splitAtPattern] at h
    split_ifs at h with hp
    · simp only [List.cons_prefix_cons, List.nil_prefix, and_true] at hp
      simp only [Option.some.injEq, Prod.mk.injEq] at h
      simp [afterByte, hp, ← h.2]
    · simp only [List.cons_prefix_cons, List.nil_prefix, and_true] at hp
      simp only [afterByte, if_neg (Ne.symm hp)]
      cases hs : splitAtPattern [ch] s with
      | none => simp [hs] at h
      | some y =>
        obtain ⟨u, v⟩ := y
        simp only [hs, Option.some.injEq, Prod.mk.injEq] at h
        rw [← h.2]
        exact ih hs

/-- The text before the line that follows does not matter to the loop over lines. -/
theorem parseLoop_afterByte (c : ParseCtx K V) {ws : List K} {b : EventBuilder K V} {unit : EnergyUnit} {s s' : Bytes}
    (h : afterByte 10 s = afterByte 10 s') :
    parseLoop c ws (s.length + 1) b unit s = parseLoop c ws (s'.length + 1) b unit s' := by
  rw [← parseLoop_fuel c (s.length + s'.length + 1) (s.length + 1) (record := s) (by omega) (by omega),
    ← parseLoop_fuel c (s.length + s'.length + 1) (s'.length + 1) (record := s') (by omega) (by omega)]
  simp only [parseLoop, h]

theorem afterByte_none {ch : UInt8} : ∀ {s : Bytes}, afterByte ch s = none → ch ∉ s := by
  intro s
  induction s with
  | nil => intro _; simp
  | cons b s ih =>
    intro h
    simp only [afterByte] at h
    split_ifs at h with hb
    simp [ih h, Ne.symm hb]

/-- Reading a record with any selection of names, once the entries and the names are known. -/
theorem parse_withNames [Zero K] [LinearOrder V] {c : ParseCtx K V} {t r rest rest0 : Bytes} {w0 : K} {all ws : List K} {n : Nat}
    {unit : EnergyUnit} {nms : List Bytes} {outs : List (ℤ × V)} (hm : c.multi = true) (hne : c.names ≠ []) (hE : [69] <+: t)
    (hh : headEntries (t ++ r) = some (r, n)) (hc : count c.float.doubleEntry n r = some (rest, all))
    (hw : all.head? = some w0) (ha : Accepts c w0) (hl : all.length = ws.length) (hb : afterByte 10 rest = afterByte 10 rest0)
    (le : LoopEffect c ws (rest0.length + 1) rest0 .GeV unit [nms] outs) (sel : List Bytes) (hs : sel ≠ [])
    (hsub : ∀ n ∈ sel, n ∈ nms) (hacc : ∀ w ∈ selected sel nms all, Accepts c w) :
    parse (c.withNames sel) (t ++ r) =
      .ok { (if unit ≠ .GeV then (⟨[], outs⟩ : EventBuilder K V).rescaleEnergies c.milli else ⟨[], outs⟩).build with
        weights := w0 :: selected sel nms all } := by
  rw [parse_ok]
  have o := le.other sel all ⟨[w0], []⟩ (by simp [hs, hne]) hl (by simpa using hsub) (by simpa using hacc)
  refine ⟨w0, all, rest, ⟨w0 :: selected sel nms all, outs⟩, unit, ?_, ha, ?_, ?_⟩
  · rw [extractWeights_withNames, extractWeights_eq]
    exact ⟨hE.trans (List.prefix_append _ _), r, n, hh, Or.inl ⟨hm, hw, hc⟩⟩
  · rw [parseLoop_afterByte (c.withNames sel) hb, o]
    simp
  · by_cases hu : unit = .GeV <;> simp [hu, EventBuilder.build, EventBuilder.rescaleEnergies]

/-- Reading a record with names. `nms` are the names in the record, `all` all weights. -/
theorem parse_named [Zero K] [LinearOrder V] (c : ParseCtx K V) (hm : c.multi = true) (hne : c.names ≠ [])
    (hd : c.names.Nodup) {record : Bytes} {ev : Event K V} (hp : parse c record = .ok ev)
    (hlen : ev.weights.length = c.names.length + 1) :
    ∃ (nms : List Bytes) (all : List K) (w0 : K), nms.length ≤ all.length ∧ all.head? = some w0 ∧ (∀ n ∈ c.names, n ∈ nms) ∧
      ev.weights = w0 :: selected c.names nms all ∧
      (∀ sel, sel ≠ [] → (∀ n ∈ sel, n ∈ nms) → (∀ w ∈ selected sel nms all, Accepts c w) →
        parse (c.withNames sel) record = .ok { ev with weights := w0 :: selected sel nms all }) ∧
      (∃ pre nline names nn rr, splitAtPattern [10, 78] record = some (pre, nline) ∧ u32Entry nline = some (names, nn) ∧
        count stringEntry (min nn all.length) names = some (rr, nms)) ∧
      (∀ n evn, parse (c.withNames [n]) record = .ok evn → n ∈ nms) := by
  obtain ⟨w0, ws, rest, b, unit, h1, h2, h3, rfl⟩ := (parse_ok c).1 hp
  obtain ⟨hE, r, n, h4, h5⟩ := (extractWeights_eq c record).1 h1
  obtain ⟨nls, outs, le, hacc⟩ := parseLoop_ok c _ h3
  have h3' := h3
  have hn : ws.head? = some w0 ∧ count c.float.doubleEntry n r = some (rest, ws) := by
    rcases h5 with ⟨-, h, h'⟩ | ⟨h, -⟩
    · exact ⟨h, h'⟩
    · simp [hm] at h
  have hnl := count_length hn.2
  have hnpos : 0 < n := by
    rw [← hnl]
    cases ws with
    | nil => simp at hn
    | cons => simp
  -- the builder after the loop
  have o1 := le.other c.names ws ⟨[w0], []⟩ Iff.rfl rfl (fun nms hm => (le.names nms hm).2.2.1) hacc
  rw [withNames_self, h3] at o1
  simp only [List.nil_append, Outcome.ok.injEq, Prod.mk.injEq, and_true] at o1
  subst o1
  have hev : ∀ b : EventBuilder K V, (if unit ≠ .GeV then b.rescaleEnergies c.milli else b).build.weights = b.weights := by
    intro b
    split_ifs <;> rfl
  rw [hev] at hlen
  simp only [List.cons_append, List.nil_append, List.length_cons, Nat.add_right_cancel_iff] at hlen
  -- there is one names line
  obtain ⟨nms, hnls⟩ : ∃ nms, nls = [nms] := by
    have hpos : 0 < c.names.length := by
      cases hcn : c.names with
      | nil => exact absurd hcn hne
      | cons => simp
    have hge : ∀ nms ∈ nls, c.names.length ≤ (selected c.names nms ws).length := by
      intro nms hmem
      obtain ⟨-, -, k1, k2⟩ := le.names nms hmem
      rw [selected_length_eq _ _ _ k2]
      exact selected_length_ge hd k1
    match nls, hlen, hge with
    | [], hlen, _ => simp at hlen; omega
    | [nms], _, _ => exact ⟨nms, rfl⟩
    | x :: y :: l, hlen, hge =>
      have g1 := hge x (by simp)
      have g2 := hge y (by simp)
      simp only [List.map_cons, List.flatten_cons, List.length_append] at hlen
      omega
  subst hnls
  simp only [List.map_cons, List.map_nil, List.flatten_cons, List.flatten_nil, List.append_nil, List.cons_append,
    List.nil_append] at hlen
  obtain ⟨-, -, hsub, hnmsl⟩ := le.names nms (by simp)
  obtain ⟨pre3, nline, names, nn, rr, f1, f2, f3⟩ := le.first nms rfl
  obtain ⟨toksr, junkr, afterr, prer, -, r2, -, r4, r5, r6, -⟩ := count_toks hnpos hn.2
  have hjr := r2.noNewline
  have hsb : StartsBlank r := by
    have hc := hn.2
    cases n with
    | zero => omega
    | succ n =>
      simp only [count] at hc
      cases hd2 : c.float.doubleEntry r with
      | none => simp [hd2] at hc
      | some z => exact doubleEntry_blank _ _ _ hd2
  obtain ⟨t, e1, e2, e3, e4⟩ := headEntries_cut h4 hE hsb
  obtain ⟨pr, hpr⟩ : ∃ p, splitAtPattern [10, 78] afterr = some (p, nline) := by
    rw [r4, splitAtPattern_append hjr] at f1
    cases hs : splitAtPattern [10, 78] afterr with
    | none => simp [hs] at f1
    | some x =>
      obtain ⟨p, q⟩ := x
      simp only [hs, Option.map_some, Option.some.injEq, Prod.mk.injEq] at f1
      exact ⟨p, by rw [f1.2]⟩
  obtain ⟨prec, hprec⟩ : ∃ p, splitAtPattern [10, 78] record = some (p, nline) := by
    rw [e1, splitAtPattern_append e3, r5, splitAtPattern_append r6, hpr]
    exact ⟨_, rfl⟩
  refine ⟨nms, ws, w0, hnmsl, hn.1, hsub, ?_, ?_, ⟨prec, nline, names, nn, rr, hprec, f2, f3⟩, ?_⟩
  · rw [hev]
    simp
  · intro sel hs1 hs2 hs3
    rw [e1, parse_withNames hm hne e2 (e1 ▸ h4) hn.2 hn.1 h2 rfl rfl le sel hs1 hs2 hs3]
    by_cases hu : unit = .GeV <;> simp [hu, EventBuilder.build, EventBuilder.rescaleEnergies]
  · intro m evn hpn
    obtain ⟨v0, vs, rest2, b2, unit2, p1, -, p3, -⟩ := (parse_ok (c.withNames [m])).1 hpn
    rw [extractWeights_withNames, h1] at p1
    simp only [Outcome.ok.injEq, Prod.mk.injEq] at p1
    obtain ⟨rfl, rfl, rfl⟩ := p1
    obtain ⟨nls2, outs2, le2, -⟩ := parseLoop_ok (c.withNames [m]) _ p3
    cases nls2 with
    | nil =>
      have := le2.other c.names ws ⟨[w0], []⟩ (by simp [ParseCtx.withNames, hne]) rfl (by simp) (by simp)
      rw [show (c.withNames [m]).withNames c.names = c from rfl, h3'] at this
      simp only [List.map_nil, List.flatten_nil, List.append_nil, List.nil_append, Outcome.ok.injEq, Prod.mk.injEq,
        EventBuilder.mk.injEq, List.map_cons, List.flatten_cons, List.cons_append, List.cons.injEq, true_and] at this
      rw [this.1.1] at hlen
      have : c.names = [] := List.length_eq_zero_iff.1 hlen.symm
      exact absurd this hne
    | cons nms2 l =>
      obtain ⟨pre', nline', rest', nn', r', q1', q2', q3'⟩ := le2.first nms2 rfl
      rw [f1] at q1'
      simp only [Option.some.injEq, Prod.mk.injEq] at q1'
      rw [← q1'.2, f2] at q2'
      simp only [Option.some.injEq, Prod.mk.injEq] at q2'
      rw [← q2'.1, ← q2'.2, f3] at q3'
      simp only [Option.some.injEq, Prod.mk.injEq] at q3'
      rw [q3'.2]
      exact (le2.names nms2 (by simp)).2.2.1 m (by simp [ParseCtx.withNames])

/-- Updating the central and all named weights. `nms` are the names in the record, `all` and `all'` all weights before and
after the update. If the update fails, then because the names line announces more names than there are weights and these
cannot be read. -/
theorem update_named [Zero K] [LinearOrder V] (c : ParseCtx K V) (hm : c.multi = true) (hne : c.names ≠ [])
    (hd : c.names.Nodup) {record : Bytes} {ev : Event K V} {ws' : List K} (hp : parse c record = .ok ev)
    (hlen : ev.weights.length = c.names.length + 1) (hlen' : ws'.length = ev.weights.length)
    (hfin : ∀ w ∈ ws', c.float.finite w = true)
    (h01 : ∀ pre nline names nn rr n, splitAtPattern [10, 78] record = some (pre, nline) → u32Entry nline = some (names, nn) →
      stringEntry names = some (rr, n) → n ∈ c.names → ws'[0]? = ws'[1]?) :
    ∃ (nms : List Bytes) (all all' : List K) (w0 w0' : K), nms.length ≤ all.length ∧ all'.length = all.length ∧
      all.head? = some w0 ∧ all'.head? = some w0' ∧ (∀ n ∈ c.names, n ∈ nms) ∧
      ev.weights = w0 :: selected c.names nms all ∧ ws' = w0' :: selected c.names nms all' ∧
      (∀ i, 0 < i → (∀ n, nms[i]? = some n → n ∉ c.names) → all'[i]? = all[i]?) ∧
      (∀ sel, sel ≠ [] → (∀ n ∈ sel, n ∈ nms) → (∀ w ∈ selected sel nms all, Accepts c w) →
        parse (c.withNames sel) record = .ok { ev with weights := w0 :: selected sel nms all }) ∧
      ((∃ record', update c ws' record = .ok record' ∧
        ∀ sel, sel ≠ [] → (∀ n ∈ sel, n ∈ nms) → (∀ w ∈ selected sel nms all', Accepts c w) →
          parse (c.withNames sel) record' = .ok { ev with weights := w0' :: selected sel nms all' }) ∨
       (∃ e pre nline names nn, update c ws' record = .err e ∧ splitAtPattern [10, 78] record = some (pre, nline) ∧
          u32Entry nline = some (names, nn) ∧ all.length < nn ∧ count stringEntry nn names = none)) ∧
      (∃ pre nline names nn rr, splitAtPattern [10, 78] record = some (pre, nline) ∧ u32Entry nline = some (names, nn) ∧
        count stringEntry (min nn all.length) names = some (rr, nms)) ∧
      (∀ n evn, parse (c.withNames [n]) record = .ok evn → n ∈ nms) := by
  obtain ⟨w0, ws, rest, b, unit, h1, h2, h3, rfl⟩ := (parse_ok c).1 hp
  obtain ⟨hE, r, n, h4, h5⟩ := (extractWeights_eq c record).1 h1
  obtain ⟨nls, outs, le, hacc⟩ := parseLoop_ok c _ h3
  have h3' := h3
  have hn : ws.head? = some w0 ∧ count c.float.doubleEntry n r = some (rest, ws) := by
    rcases h5 with ⟨-, h, h'⟩ | ⟨h, -⟩
    · exact ⟨h, h'⟩
    · simp [hm] at h
  have hnl := count_length hn.2
  have hnpos : 0 < n := by
    rw [← hnl]
    cases ws with
    | nil => simp at hn
    | cons => simp
  -- the builder after the loop
  have o1 := le.other c.names ws ⟨[w0], []⟩ Iff.rfl rfl (fun nms hm => (le.names nms hm).2.2.1) hacc
  rw [withNames_self, h3] at o1
  simp only [List.nil_append, Outcome.ok.injEq, Prod.mk.injEq, and_true] at o1
  subst o1
  have hev : ∀ b : EventBuilder K V, (if unit ≠ .GeV then b.rescaleEnergies c.milli else b).build.weights = b.weights := by
    intro b
    split_ifs <;> rfl
  rw [hev] at hlen hlen'
  simp only [List.cons_append, List.nil_append, List.length_cons, Nat.add_right_cancel_iff] at hlen
  -- there is one names line
  obtain ⟨nms, hnls⟩ : ∃ nms, nls = [nms] := by
    have hpos : 0 < c.names.length := by
      cases hcn : c.names with
      | nil => exact absurd hcn hne
      | cons => simp
    have hge : ∀ nms ∈ nls, c.names.length ≤ (selected c.names nms ws).length := by
      intro nms hmem
      obtain ⟨-, -, k1, k2⟩ := le.names nms hmem
      rw [selected_length_eq _ _ _ k2]
      exact selected_length_ge hd k1
    match nls, hlen, hge with
    | [], hlen, _ => simp at hlen; omega
    | [nms], _, _ => exact ⟨nms, rfl⟩
    | x :: y :: l, hlen, hge =>
      have g1 := hge x (by simp)
      have g2 := hge y (by simp)
      simp only [List.map_cons, List.flatten_cons, List.length_append] at hlen
      omega
  subst hnls
  simp only [List.map_cons, List.map_nil, List.flatten_cons, List.flatten_nil, List.append_nil, List.cons_append,
    List.nil_append] at hlen hlen'
  obtain ⟨-, -, hsub, hnmsl⟩ := le.names nms (by simp)
  -- the new weights
  obtain ⟨w0', more, rfl⟩ : ∃ w0' more, ws' = w0' :: more := by
    cases ws' with
    | nil => simp at hlen'
    | cons x l => exact ⟨x, l, rfl⟩
  simp only [List.length_cons, Nat.add_right_cancel_iff] at hlen'
  have hw0 := hfin w0' (by simp)
  obtain ⟨sp, old, after, junk, rest', g1, g2, g3, g4, g5, g6, g7, g8, g9⟩ := firstWeight_replace c hw0 h5
  have g9 : count c.float.doubleEntry n (sp.take 1 ++ c.float.display w0' ++ after) = some (rest', ws.set 0 w0') := by
    rcases g9 with ⟨-, -, h⟩ | ⟨h, -⟩
    · exact h
    · simp [hm] at h
  obtain ⟨s0, sp, rfl⟩ : ∃ s0 sp', sp = s0 :: sp' := by
    cases sp with
    | nil => exact absurd rfl g1
    | cons x l => exact ⟨x, l, rfl⟩
  have hs0 := g2 s0 (by simp)
  have hsb : StartsBlank r := ⟨s0, _, g5, hs0⟩
  obtain ⟨t, e1, e2, e3, e4⟩ := headEntries_cut h4 hE hsb
  have htake : r.take 1 = [s0] := by rw [g5]; simp
  simp only [List.take_succ_cons, List.take_zero, List.cons_append, List.nil_append] at g9
  -- positions
  have hPr : ∀ i ∈ positions c.names 0 nms, i < ws.length := fun i hi => by have := positions_range hi; omega
  have hPl : (positions c.names 0 nms).length = more.length := by
    rw [positions_length c.names nms 0 ws hnmsl, hlen']
  have hsel := selected_eq_positions c.names nms [] ws hnmsl
  simp only [List.length_nil, List.nil_append] at hsel
  obtain ⟨all', hall⟩ : ∃ all', all' = setAll (ws.set 0 w0') ((positions c.names 0 nms).zip more) := ⟨_, rfl⟩
  have hall_len : all'.length = ws.length := by rw [hall, setAll_length]; simp
  have hsel' : selected c.names nms all' = more := by
    have := selected_eq_positions c.names nms [] all' (by omega)
    simp only [List.length_nil, List.nil_append] at this
    rw [hall, setAll_get _ _ _ (positions_nodup _ _ _) (by simpa using hPr) hPl, ← hall] at this
    exact List.map_injective_iff.2 (Option.some_injective K) this
  have hunsel : ∀ i, 0 < i → (∀ n, nms[i]? = some n → n ∉ c.names) → all'[i]? = ws[i]? := by
    intro i hi hnot
    rw [hall, setAll_of_notMem]
    · rw [List.getElem?_set_ne (by omega)]
    · intro hmem
      obtain ⟨x, hx, rfl⟩ := List.mem_map.1 hmem
      have hxp := (List.of_mem_zip (show (x.1, x.2) ∈ _ from hx)).1
      have key : ∀ (nms : List Bytes) (k i : Nat), i ∈ positions c.names k nms → ∃ n, nms[i - k]? = some n ∧ n ∈ c.names := by
        intro nms
        induction nms with
        | nil => intro k i h; simp [positions] at h
        | cons m nms ih =>
          intro k i h
          simp only [positions] at h
          have hrec : i ∈ positions c.names (k + 1) nms → ∃ n, (m :: nms)[i - k]? = some n ∧ n ∈ c.names := by
            intro h
            obtain ⟨n, hn1, hn2⟩ := ih _ _ h
            have := positions_range h
            refine ⟨n, ?_, hn2⟩
            rw [show i - k = (i - (k + 1)) + 1 by omega, List.getElem?_cons_succ]
            exact hn1
          split_ifs at h with hmn
          · rcases List.mem_cons.1 h with rfl | h
            · exact ⟨m, by simp, hmn⟩
            · exact hrec h
          · exact hrec h
      obtain ⟨n, hn1, hn2⟩ := key nms 0 x.1 hxp
      exact hnot n (by simpa using hn1) hn2
  -- the words in the updated line
  obtain ⟨toks, junk2, after2, pre2, t1, t2, t3, t4, t5, t6, t7⟩ := count_toks hnpos g9
  obtain ⟨toksr, junkr, afterr, prer, -, r2, -, r4, r5, r6, -⟩ := count_toks hnpos hn.2
  have hjr := r2.noNewline
  have hj2 := t2.noNewline
  obtain ⟨pre3, nline, names, nn, rr, f1, f2, f3⟩ := le.first nms rfl
  -- where the names line is
  have hal : ∃ p, splitAtPattern [10, 78] after2 = some (p, nline) := by
    rw [g8, splitAtPattern_append g7, t4, splitAtPattern_append hj2] at f1
    cases hs : splitAtPattern [10, 78] after2 with
    | none => simp [hs] at f1
    | some x =>
      obtain ⟨p, q⟩ := x
      simp only [hs, Option.map_some, Option.some.injEq, Prod.mk.injEq] at f1
      exact ⟨p, by rw [f1.2]⟩
  have halr : ∃ p, splitAtPattern [10, 78] afterr = some (p, nline) := by
    rw [r4, splitAtPattern_append hjr] at f1
    cases hs : splitAtPattern [10, 78] afterr with
    | none => simp [hs] at f1
    | some x =>
      obtain ⟨p, q⟩ := x
      simp only [hs, Option.map_some, Option.some.injEq, Prod.mk.injEq] at f1
      exact ⟨p, by rw [f1.2]⟩
  obtain ⟨pa, hpa⟩ := hal
  obtain ⟨pr, hpr⟩ := halr
  have hwhole : ∃ p, splitAtPattern (ascii "\nN") (t ++ (s0 :: (c.float.display w0' ++ after))) = some (p, nline) := by
    rw [show ascii "\nN" = [10, 78] by decide, splitAtPattern_append e3, t5, splitAtPattern_append t6, hpa]
    exact ⟨_, rfl⟩
  have hrecord : ∃ p, splitAtPattern [10, 78] record = some (p, nline) := by
    rw [e1, splitAtPattern_append e3, r5, splitAtPattern_append r6, hpr]
    exact ⟨_, rfl⟩
  obtain ⟨pw, hpw⟩ := hwhole
  obtain ⟨prec, hprec⟩ := hrecord
  have hhead : all'.head? = some w0' := by
    rw [List.head?_eq_getElem?, hall]
    by_cases h0 : 0 ∈ positions c.names 0 nms
    · obtain ⟨m, nms', hnm, hmn⟩ : ∃ m nms', nms = m :: nms' ∧ m ∈ c.names := by
        cases nms with
        | nil => simp [positions] at h0
        | cons m nms =>
          by_cases hmn : m ∈ c.names
          · exact ⟨m, nms, rfl, hmn⟩
          · simp only [positions, hmn, if_false] at h0
            have := positions_range h0
            omega
      obtain ⟨P, hP⟩ : ∃ P, positions c.names 0 nms = 0 :: P := ⟨_, by rw [hnm]; simp [positions, hmn]; rfl⟩
      have hget := setAll_get (positions c.names 0 nms) more (ws.set 0 w0') (positions_nodup _ _ _) (by simpa using hPr) hPl
      rw [hP] at hget hPl ⊢
      cases more with
      | nil => simp at hPl
      | cons m1 more =>
        simp only [List.map_cons, List.cons.injEq] at hget
        rw [hget.1]
        obtain ⟨r1, hr1⟩ : ∃ r1, stringEntry names = some (r1, m) := by
          rw [hnm] at f3
          cases hk : min nn ws.length with
          | zero => rw [hk] at f3; simp [count] at f3
          | succ k =>
            rw [hk] at f3
            simp only [count] at f3
            cases hs : stringEntry names with
            | none => simp [hs] at f3
            | some y =>
              obtain ⟨r1, a⟩ := y
              simp only [hs] at f3
              cases hc : count stringEntry k r1 with
              | none => simp [hc] at f3
              | some z =>
                simp only [hc, Option.some.injEq, Prod.mk.injEq, List.cons.injEq] at f3
                exact ⟨r1, by rw [f3.2.1]⟩
        have := h01 _ _ _ _ _ _ hprec f2 hr1 hmn
        simpa using this.symm
    · rw [setAll_of_notMem]
      · rw [List.getElem?_set_self]
        omega
      · intro hmem
        obtain ⟨x, hx, hx0⟩ := List.mem_map.1 hmem
        exact h0 (hx0 ▸ (List.of_mem_zip (show (x.1, x.2) ∈ _ from hx)).1)
  -- the line break after the weights
  obtain ⟨A, hA⟩ : ∃ A, afterByte 10 after2 = some A := by
    cases hx : afterByte 10 after2 with
    | some A => exact ⟨A, rfl⟩
    | none =>
      have := afterByte_none hx
      rw [splitAtPattern_suffix hpa] at this
      simp at this
  have hArest : afterByte 10 rest = some A := by
    rw [g8, afterByte_append g7, t4, afterByte_append hj2, hA]
  have hs0n : (10 : UInt8) ∉ [s0] := not_newline_of_blank (sp := [s0]) (by simpa using hs0)
  have hAdrop : afterByte 10 (c.float.display w0' ++ after) = some A := by
    rw [← afterByte_append hs0n]
    simp only [List.cons_append, List.nil_append]
    rw [t5, afterByte_append t6, hA]
  obtain ⟨lineEnd, hle⟩ : ∃ l, splitAtPattern [10] (c.float.display w0' ++ after) = some (l, A) := by
    cases hx : splitAtPattern [10] (c.float.display w0' ++ after) with
    | none => rw [splitAtPattern_single _ hx] at hAdrop; simp at hAdrop
    | some y =>
      obtain ⟨a, b⟩ := y
      have := splitAtPattern_single_some _ hx
      rw [hAdrop] at this
      simp only [Option.some.injEq] at this
      exact ⟨a, by rw [this]⟩
  -- replacing the words
  obtain ⟨toks', junk', q1, q2, q3⟩ := replaceEntries_ok (F := c.float) ((positions c.names 0 nms).zip more) (by
    intro x hx
    have := List.of_mem_zip (show (x.1, x.2) ∈ _ from hx)
    exact ⟨by rw [t1, ← hnl]; exact hPr _ this.1, hfin _ (by simp [this.2])⟩) t2
  rw [← hall] at q3
  have hupd := update_head c (w' := w0') (more := more) (e1 ▸ h4) g6
  rw [← e1, htake, hm] at hupd
  simp only [if_true, updateNamedWeights, List.cons_append, List.nil_append, List.length_cons, hlen', hlen, ne_eq,
    not_true_eq_false, if_false, hne, hpw, f2, orParseErr, Outcome.bind_ok, List.tail_cons] at hupd
  refine ⟨nms, ws, all', w0, w0', hnmsl, hall_len, hn.1, hhead, hsub, ?_, by rw [hsel'], hunsel, ?_, ?_,
    ⟨prec, nline, names, nn, rr, hprec, f2, f3⟩, ?_⟩
  · rw [hev]
    simp
  · intro sel hs1 hs2 hs3
    rw [e1, parse_withNames hm hne e2 (e1 ▸ h4) hn.2 hn.1 h2 rfl rfl le sel hs1 hs2 hs3]
    by_cases hu : unit = .GeV <;> simp [hu, EventBuilder.build, EventBuilder.rescaleEnergies]
  · rcases weightPositions_ok (names := c.names) nn 0 names with ⟨r', nms2, k1, k2⟩ | ⟨k1, e, k2⟩
    · left
      obtain ⟨extra, hextra⟩ : ∃ extra, nms2 = nms ++ extra := by
        rw [show nn = min nn ws.length + (nn - min nn ws.length) by omega] at k1
        obtain ⟨ra, as1, as2, z1, z2⟩ := count_add k1
        rw [f3] at z1
        simp only [Option.some.injEq, Prod.mk.injEq] at z1
        exact ⟨as2, by rw [z2, z1.2]⟩
      have hzip : (positions c.names 0 nms2).zip more = (positions c.names 0 nms).zip more := by
        rw [hextra, positions_append]
        conv_lhs => rw [← List.append_nil more]
        rw [List.zip_append hPl]
        simp
      rw [k2, Outcome.bind_ok, hzip, t3, ← t1, List.take_left, q1] at hupd
      simp only [List.drop_succ_cons, List.drop_zero, hle, List.take_succ_cons, List.take_zero] at hupd
      refine ⟨_, hupd, ?_⟩
      intro sel hs1 hs2 hs3
      have hjoin := count_join (F := c.float) (toks := toks') (after := 10 :: A) (b := s0)
        (by intro h; rw [h] at q2; simp at q2; omega) q3 hs0 (by intro x hx; simp at hx; subst hx; decide)
      rw [q2, t1] at hjoin
      have hrw : t ++ [s0] ++ joinWith [32] toks' ++ 10 :: A = t ++ (s0 :: (joinWith [32] toks' ++ 10 :: A)) := by simp
      rw [hrw]
      have hlast : afterByte 10 (junk' ++ 10 :: A) = afterByte 10 rest := by
        rw [afterByte_append q3.noNewline, hArest]
        simp [afterByte]
      rw [parse_withNames hm hne e2 (e4 _ ⟨s0, _, rfl, hs0⟩) hjoin hhead (accepts_of_finite c hw0) hall_len hlast le sel
        hs1 hs2 hs3]
      by_cases hu : unit = .GeV <;> simp [hu, EventBuilder.build, EventBuilder.rescaleEnergies]
    · right
      rw [k2, Outcome.bind_err] at hupd
      refine ⟨e, prec, nline, names, nn, hupd, hprec, f2, ?_, k1⟩
      by_contra hle'
      rw [min_eq_left (by omega), k1] at f3
      simp at f3
  · intro m evn hpn
    obtain ⟨v0, vs, rest2, b2, unit2, p1, -, p3, -⟩ := (parse_ok (c.withNames [m])).1 hpn
    rw [extractWeights_withNames, h1] at p1
    simp only [Outcome.ok.injEq, Prod.mk.injEq] at p1
    obtain ⟨rfl, rfl, rfl⟩ := p1
    obtain ⟨nls2, outs2, le2, -⟩ := parseLoop_ok (c.withNames [m]) _ p3
    cases nls2 with
    | nil =>
      have := le2.other c.names ws ⟨[w0], []⟩ (by simp [ParseCtx.withNames, hne]) rfl (by simp) (by simp)
      rw [show (c.withNames [m]).withNames c.names = c from rfl, h3'] at this
      simp only [List.map_nil, List.flatten_nil, List.append_nil, List.nil_append, Outcome.ok.injEq, Prod.mk.injEq,
        EventBuilder.mk.injEq, List.map_cons, List.flatten_cons, List.cons_append, List.cons.injEq, true_and] at this
      rw [this.1.1] at hlen
      have : c.names = [] := List.length_eq_zero_iff.1 hlen.symm
      exact absurd this hne
    | cons nms2 l =>
      obtain ⟨pre', nline', rest', nn', r', q1', q2', q3'⟩ := le2.first nms2 rfl
      rw [f1] at q1'
      simp only [Option.some.injEq, Prod.mk.injEq] at q1'
      rw [← q1'.2, f2] at q2'
      simp only [Option.some.injEq, Prod.mk.injEq] at q2'
      rw [← q2'.1, ← q2'.2, f3] at q3'
      simp only [Option.some.injEq, Prod.mk.injEq] at q3'
      rw [q3'.2]
      exact (le2.names nms2 (by simp)).2.2.1 m (by simp [ParseCtx.withNames])

end HepMC

end Cres

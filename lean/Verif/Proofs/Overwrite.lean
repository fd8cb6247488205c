import Verif.Proofs.Reread

/-!
Writing weights twice is the same as writing only the last ones.
-/

namespace Cres

open Spec CombinedIO

variable {K V P : Type*}

/-! ### HepMC2 -/

theorem map_fst_zip_take {α β : Type*} : ∀ (l : List α) (l' : List β), (l.zip l').map Prod.fst = l.take l'.length
  | [], _ => by simp
  | _ :: _, [] => by simp
  | a :: l, b :: l' => by simp [map_fst_zip_take l l']

namespace HepMC

theorem joinWith_noNewline : ∀ {ts : List Bytes}, (∀ t ∈ ts, (10 : UInt8) ∉ t) → (10 : UInt8) ∉ joinWith [32] ts
  | [], _ => by simp [joinWith]
  | [t], h => by simpa [joinWith] using h t (by simp)
  | t :: t' :: ts, h => by
    have h1 := joinWith_noNewline (ts := t' :: ts) fun x hx => h x (by simp [hx])
    have h2 := h t (by simp)
    simp [joinWith] at h1 ⊢
    exact ⟨h2, h1⟩

/-- The central weight that was written before does not matter. -/
theorem overwrite_central [Zero K] [LinearOrder V] (c : ParseCtx K V) (hc : c.multi = true → c.names = []) {record : Bytes}
    {ev : Event K V} {w : K} (hp : parse c record = .ok ev) (hw : c.float.finite w = true) {record' : Bytes}
    (hu : update c [w] record = .ok record') (v : K) : update c [v] record' = update c [v] record := by
  obtain ⟨w0, ws, rest, b, unit, h1, h2, h3, rfl⟩ := (parse_ok c).1 hp
  obtain ⟨hE, r, n, h4, h5⟩ := (extractWeights_eq c record).1 h1
  obtain ⟨sp, old, after, junk, rest', g1, g2, g3, g4, g5, g6, -⟩ := firstWeight_replace c hw h5
  obtain ⟨-, -, -, -, -, htail, -⟩ := anyEntry_eq_some.1 g6
  obtain ⟨s, sp, rfl⟩ := List.exists_cons_of_ne_nil g1
  have hsb : StartsBlank r := ⟨s, _, g5, g2 s (by simp)⟩
  obtain ⟨t, e1, e2, e3, e4⟩ := headEntries_cut h4 hE hsb
  have htake : r.take 1 = [s] := by rw [g5]; simp
  have key : ∀ (u : K) (r0 : Bytes) (x : Bytes), r0.take 1 = [s] → headEntries (t ++ r0) = some (r0, n) →
      anyEntry r0 = some (after, x) → update c [u] (t ++ r0) = .ok (t ++ ([s] ++ c.float.display u ++ after)) := by
    intro u r0 x k1 k2 k3
    rw [update_head c k2 k3, k1]
    cases hm : c.multi with
    | false => simp
    | true =>
      simp only [if_true, updateNamedWeights, hc hm]
      simp
  rw [e1, key w r old htake (e1 ▸ h4) g6, Outcome.ok.injEq] at hu
  rw [← hu, e1, key v r old htake (e1 ▸ h4) g6, key v ([s] ++ c.float.display w ++ after) (c.float.display w) (by simp) (e4 _ ⟨s, _, rfl, g2 s (by simp)⟩)]
  rw [anyEntry_eq_some]
  exact ⟨[s], by simp, by simpa using g2 s (by simp), display_ne_nil _ hw, display_noWs _ hw, htail, rfl⟩

theorem replaceEntries_congr {F : FloatFormat K} : ∀ (l : List (Nat × K)) {ts ts' : List Bytes}, ts.length = ts'.length →
    (∀ i, i ∉ l.map Prod.fst → ts[i]? = ts'[i]?) → replaceEntries F l ts = replaceEntries F l ts' := by
  intro l
  induction l with
  | nil =>
    intro ts ts' _ h
    simp only [replaceEntries, Option.some.injEq]
    exact List.ext_getElem? fun i => h i (by simp)
  | cons x l ih =>
    obtain ⟨j, w⟩ := x
    intro ts ts' hl h
    simp only [replaceEntries, hl]
    split_ifs with hj
    · refine ih (by simp [hl]) fun i hi => ?_
      by_cases hij : j = i
      · subst hij
        rw [List.getElem?_set_self (by omega), List.getElem?_set_self hj]
      · rw [List.getElem?_set_ne hij, List.getElem?_set_ne hij]
        exact h i (by simpa [hi] using fun e => hij e.symm)
    · rfl

theorem replaceEntries_other {F : FloatFormat K} : ∀ (l : List (Nat × K)) {ts ts' : List Bytes},
    replaceEntries F l ts = some ts' → ts'.length = ts.length ∧ (∀ i, i ∉ l.map Prod.fst → ts'[i]? = ts[i]?) ∧
      ∀ t ∈ ts', t ∈ ts ∨ ∃ x ∈ l, t = F.display x.2 := by
  intro l
  induction l with
  | nil =>
    intro ts ts' h
    simp only [replaceEntries, Option.some.injEq] at h
    subst h
    exact ⟨rfl, fun _ _ => rfl, fun t ht => Or.inl ht⟩
  | cons x l ih =>
    obtain ⟨j, w⟩ := x
    intro ts ts' h
    simp only [replaceEntries] at h
    split_ifs at h with hj
    obtain ⟨h1, h2, h3⟩ := ih h
    refine ⟨by simpa using h1, fun i hi => ?_, fun t ht => ?_⟩
    · simp only [List.map_cons, List.mem_cons, not_or] at hi
      rw [h2 i hi.2, List.getElem?_set_ne (Ne.symm hi.1)]
    · rcases h3 t ht with h4 | ⟨x, hx, rfl⟩
      · rcases List.mem_or_eq_of_mem_set h4 with h5 | rfl
        · exact Or.inl h5
        · exact Or.inr ⟨(j, w), by simp, rfl⟩
      · exact Or.inr ⟨x, by simp [hx], rfl⟩

theorem splitWsLoop_words : ∀ (s acc : Bytes), (∀ b ∈ acc, isAsciiWs b = false) →
    ∀ t ∈ splitWsLoop acc s, t ≠ [] ∧ ∀ b ∈ t, isAsciiWs b = false := by
  intro s
  induction s with
  | nil =>
    intro acc h t ht
    simp only [splitWsLoop] at ht
    split_ifs at ht with h0
    · simp at ht
    · simp only [List.mem_singleton] at ht
      subst ht
      exact ⟨h0, h⟩
  | cons b s ih =>
    intro acc h t ht
    simp only [splitWsLoop] at ht
    split_ifs at ht with h0 h1
    · exact ih [] (by simp) t ht
    · rcases List.mem_cons.1 ht with rfl | ht
      · exact ⟨h1, h⟩
      · exact ih [] (by simp) t ht
    · refine ih _ ?_ t ht
      intro b' hb'
      rcases List.mem_append.1 hb' with hb' | hb'
      · exact h b' hb'
      · simp only [List.mem_singleton] at hb'
        subst hb'
        simpa using h0

/-- The words in a text in which they are separated by spaces. -/
theorem splitAsciiWs_join : ∀ {ts : List Bytes} {s : Bytes}, (∀ t ∈ ts, t ≠ [] ∧ ∀ b ∈ t, isAsciiWs b = false) → TailOk s →
    splitAsciiWs (joinWith [32] ts ++ s) = ts ++ splitAsciiWs s := by
  intro ts
  induction ts with
  | nil => intro s _ _; rfl
  | cons t ts ih =>
    intro s h hs
    have ht := h t (by simp)
    cases ts with
    | nil =>
      have := splitAsciiWs_entry (sp := []) (by simp) ht.1 ht.2 hs
      simpa [joinWith] using this
    | cons t' ts =>
      have h1 := ih (s := s) (fun x hx => h x (by simp [hx])) hs
      have h2 := splitAsciiWs_entry (sp := []) (after := 32 :: (joinWith [32] (t' :: ts) ++ s)) (by simp) ht.1 ht.2
        (by intro x hx; simp at hx; subst hx; decide)
      have h3 : splitAsciiWs (32 :: (joinWith [32] (t' :: ts) ++ s)) = splitAsciiWs (joinWith [32] (t' :: ts) ++ s) := by
        unfold splitAsciiWs
        exact splitWsLoop_blanks (sp := [32]) (by simp [isBlank])
      rw [h3, h1] at h2
      simpa [joinWith] using h2

/-- Named weights: the result of an update in terms of the words in the line. -/
def namedResult (F : FloatFormat K) (names : List Bytes) (pre : Bytes) (words : List Bytes) (more : List K) (after : Bytes) :
    Outcome ReadError Bytes :=
  match (splitAtPattern [10, 78] (10 :: after)).map Prod.snd with
  | none => .err (.findEntry "weight name entry (line starting with 'N')")
  | some nline =>
    (orParseErr "number of weight names entry" (u32Entry nline)).bind fun (rest, nnames) =>
    (weightPositions names nnames 0 rest).bind fun pos =>
      match replaceEntries F (pos.zip more) words with
      | none => .panic
      | some words => .ok (pre ++ joinWith [32] words ++ 10 :: after)

theorem update_words (c : ParseCtx K V) (hm : c.multi = true) (hne : c.names ≠ []) {t : Bytes} (ht : (10 : UInt8) ∉ t) {s0 : UInt8}
    {sp old l after : Bytes} {n : Nat} (hh : headEntries (t ++ (s0 :: sp ++ old ++ (l ++ 10 :: after))) =
      some (s0 :: sp ++ old ++ (l ++ 10 :: after), n)) (hs : ∀ b ∈ s0 :: sp, isBlank b = true) (ho : old ≠ [])
    (how : ∀ b ∈ old, isAsciiWs b = false) (hl : (10 : UInt8) ∉ l) (hta : TailOk (l ++ 10 :: after)) {w : K} {ws : List K}
    (hw : c.float.finite w = true) (hlen : ws.length = c.names.length) (hn : 0 < n) :
    update c (w :: ws) (t ++ (s0 :: sp ++ old ++ (l ++ 10 :: after))) =
      namedResult c.float c.names (t ++ [s0]) (c.float.display w :: (splitAsciiWs (l ++ 10 :: after)).take (n - 1)) ws after := by
  have ha : anyEntry (s0 :: sp ++ old ++ (l ++ 10 :: after)) = some (l ++ 10 :: after, old) :=
    anyEntry_eq_some.2 ⟨s0 :: sp, by simp, hs, ho, how, hta, rfl⟩
  rw [update_head c hh ha, if_pos hm]
  have htake : (s0 :: sp ++ old ++ (l ++ 10 :: after)).take 1 = [s0] := by simp
  rw [htake]
  have hs0 : isBlank s0 = true := hs s0 (by simp)
  have hdn : (10 : UInt8) ∉ c.float.display w := not_newline_of_noWs (display_noWs _ hw)
  have h10 : (10 : UInt8) ≠ s0 := by rintro rfl; exact absurd hs0 (by decide)
  have hpat : ascii "\nN" = [10, 78] := by decide
  have hsplit : splitAtPattern (ascii "\nN") (t ++ ([s0] ++ c.float.display w ++ (l ++ 10 :: after))) =
      (splitAtPattern [10, 78] (10 :: after)).map fun x => (t ++ s0 :: (c.float.display w ++ l) ++ x.1, x.2) := by
    rw [hpat, show t ++ ([s0] ++ c.float.display w ++ (l ++ 10 :: after)) = (t ++ s0 :: (c.float.display w ++ l)) ++ 10 :: after by simp]
    refine splitAtPattern_append ?_ _
    simp [ht, hdn, hl, h10]
  have hwords : (splitAsciiWs ([s0] ++ c.float.display w ++ (l ++ 10 :: after))).take n =
      c.float.display w :: (splitAsciiWs (l ++ 10 :: after)).take (n - 1) := by
    rw [splitAsciiWs_entry (by simpa using hs0) (display_ne_nil _ hw) (display_noWs _ hw) hta]
    obtain ⟨k, rfl⟩ : ∃ k, n = k + 1 := ⟨n - 1, by omega⟩
    simp
  have hline : splitAtPattern [10] (([s0] ++ c.float.display w ++ (l ++ 10 :: after)).drop 1) =
      some (c.float.display w ++ l, after) := by
    have : ([s0] ++ c.float.display w ++ (l ++ 10 :: after)).drop 1 = (c.float.display w ++ l) ++ ([10] ++ after) := by simp
    rw [this, splitAtPattern_append (by simp [hdn, hl]), splitAtPattern_here]
    simp
  unfold updateNamedWeights namedResult
  rw [if_neg (by simp [hlen]), if_neg hne, hsplit, hwords, hline]
  cases splitAtPattern [10, 78] (10 :: after) with
  | none => rfl
  | some x =>
    obtain ⟨x1, x2⟩ := x
    simp
    rfl

/-- Named weights that were written before do not matter. -/
theorem overwrite_named [Zero K] [LinearOrder V] (c : ParseCtx K V) (hm : c.multi = true) (hne : c.names ≠ []) {record : Bytes}
    {ev : Event K V} {w : K} {ws : List K} (hp : parse c record = .ok ev) (hw : ∀ x ∈ w :: ws, c.float.finite x = true)
    {record' : Bytes} (hu : update c (w :: ws) record = .ok record') {v : K} (hv : c.float.finite v = true) (vs : List K)
    (hlen : vs.length = ws.length) :
    update c (v :: vs) record' = update c (v :: vs) record ∧
      (splitAtPattern (ascii "\nN") record').map Prod.snd = (splitAtPattern (ascii "\nN") record).map Prod.snd := by
  have hw0 := hw w (by simp)
  obtain ⟨w0, all, rest, b, unit, h1, h2, h3, rfl⟩ := (parse_ok c).1 hp
  obtain ⟨hE, r, n, h4, h5⟩ := (extractWeights_eq c record).1 h1
  obtain ⟨sp, old, after, junk, rest', g1, g2, g3, g4, g5, g6, g7, g8, g9⟩ := firstWeight_replace c hw0 h5
  obtain ⟨-, -, -, -, -, htail, -⟩ := anyEntry_eq_some.1 g6
  obtain ⟨s, sp, rfl⟩ := List.exists_cons_of_ne_nil g1
  have hs := g2 s (by simp)
  have hsb : StartsBlank r := ⟨s, _, g5, hs⟩
  obtain ⟨t, e1, e2, e3, e4⟩ := headEntries_cut h4 hE hsb
  have hcount : all.head? = some w0 ∧ count c.float.doubleEntry n r = some (rest, all) := by
    rcases h5 with ⟨-, h, h'⟩ | ⟨h, -⟩
    · exact ⟨h, h'⟩
    · simp [hm] at h
  have hnl := count_length hcount.2
  have hnpos : 0 < n := by
    rw [← hnl]
    cases all with
    | nil => simp at hcount
    | cons => simp
  obtain ⟨toks, junk2, after2, pre2, t1, t2, t3, -⟩ := count_toks hnpos hcount.2
  -- the number of words
  have hwl : n - 1 ≤ (splitAsciiWs after).length := by
    have := splitAsciiWs_entry g2 g3 g4 htail
    rw [← g5, t3] at this
    have := congrArg List.length this
    simp only [List.length_append, List.length_cons] at this
    omega
  -- there is a line after the weights
  have hu' := hu
  rw [e1, update_head c (e1 ▸ h4) g6, if_pos hm] at hu'
  have hlen' : ws.length = c.names.length := by
    by_contra hne'
    unfold updateNamedWeights at hu'
    rw [if_pos (by simpa using hne')] at hu'
    cases hu'
  obtain ⟨l, a2, rfl, hl⟩ : ∃ l a2, after = l ++ 10 :: a2 ∧ (10 : UInt8) ∉ l := by
    cases hb : afterByte 10 after with
    | some a2 => 
      obtain ⟨x, hx, hxn⟩ := afterByte_eq hb
      exact ⟨x, a2, hx, hxn⟩
    | none =>
      exfalso
      have hnot := afterByte_none hb
      unfold updateNamedWeights at hu'
      rw [if_neg (by simp [hlen']), if_neg hne] at hu'
      have htake : r.take 1 = [s] := by rw [g5]; simp
      have h10 : (10 : UInt8) ≠ s := by rintro rfl; exact absurd hs (by decide)
      have : splitAtPattern (ascii "\nN") (t ++ (r.take 1 ++ c.float.display w ++ after)) = none := by
        have hx := splitAtPattern_append (p0 := 10) (pat := [78]) (l := t ++ (r.take 1 ++ c.float.display w ++ after))
          (by simp [htake, e3, hnot, h10, not_newline_of_noWs (display_noWs c.float hw0)]) []
        rw [List.append_nil] at hx
        rw [show ascii "\nN" = [10, 78] by decide, hx]
        rfl
      rw [this] at hu'
      cases hu'
  subst g5
  rw [e1, update_words c hm hne e3 (e1 ▸ h4) g2 g3 g4 hl htail hw0 hlen' hnpos] at hu
  rw [e1, update_words c hm hne e3 (e1 ▸ h4) g2 g3 g4 hl htail hv (hlen.trans hlen') hnpos]
  unfold namedResult at hu ⊢
  cases hsp : (splitAtPattern [10, 78] (10 :: a2)).map Prod.snd with
  | none => rw [hsp] at hu; cases hu
  | some nline =>
    rw [hsp] at hu
    simp only [Outcome.bind_eq_ok, orParseErr_eq_ok] at hu
    obtain ⟨⟨nrest, nn⟩, k1, pos, k2, k3⟩ := hu
    cases hre : replaceEntries c.float (pos.zip ws) (c.float.display w :: (splitAsciiWs (l ++ 10 :: a2)).take (n - 1)) with
    | none => rw [hre] at k3; cases k3
    | some words =>
      rw [hre] at k3
      simp only [Outcome.ok.injEq] at k3
      obtain ⟨m1, m2, m3⟩ := replaceEntries_other _ hre
      have hwords : ∀ x ∈ words, x ≠ [] ∧ ∀ b ∈ x, isAsciiWs b = false := by
        intro x hx
        rcases m3 x hx with h6 | ⟨y, hy, rfl⟩
        · rcases List.mem_cons.1 h6 with rfl | h6
          · exact ⟨display_ne_nil _ hw0, display_noWs _ hw0⟩
          · exact splitWsLoop_words _ [] (by simp) x (List.mem_of_mem_take h6)
        · have hy' : y.2 ∈ w :: ws := List.mem_cons_of_mem _ (List.of_mem_zip (show (y.1, y.2) ∈ _ from hy)).2
          exact ⟨display_ne_nil _ (hw _ hy'), display_noWs _ (hw _ hy')⟩
      have hl1 : words.length = n := by
        rw [m1, List.length_cons, List.length_take]
        omega
      obtain ⟨x, xs, rfl⟩ : ∃ x xs, words = x :: xs := by
        cases words with
        | nil => simp at hl1; omega
        | cons x xs => exact ⟨x, xs, rfl⟩
      have hx := hwords x (by simp)
      have hxs := fun y hy => hwords y (List.mem_cons_of_mem x hy)
      -- the text after the first word
      obtain ⟨l', hl', hl'n, htl'⟩ : ∃ l', joinWith [32] (x :: xs) = x ++ l' ∧ (10 : UInt8) ∉ l' ∧ TailOk (l' ++ 10 :: a2) ∧
          splitAsciiWs (l' ++ 10 :: a2) = xs ++ splitAsciiWs (10 :: a2) := by
        have htl : TailOk (10 :: a2) := by intro x hx; simp at hx; subst hx; decide
        cases xs with
        | nil => exact ⟨[], by simp [joinWith], by simp, htl, rfl⟩
        | cons y ys =>
          refine ⟨32 :: joinWith [32] (y :: ys), by simp [joinWith], ?_, ?_, ?_⟩
          · have := (joinWith_noNewline (ts := y :: ys) fun z hz => not_newline_of_noWs (hxs z hz).2)
            simp [this]
          · intro z hz; simp at hz; subst hz; decide
          · have h7 := splitAsciiWs_join hxs htl
            rw [← h7]
            unfold splitAsciiWs
            exact splitWsLoop_blanks (sp := [32]) (by simp [isBlank])
      have hrec : record' = t ++ (s :: [] ++ x ++ (l' ++ 10 :: a2)) := by
        rw [← k3, hl']
        simp
      have hnames : ∀ y z : Bytes, (10 : UInt8) ∉ y → (10 : UInt8) ∉ z →
          (splitAtPattern (ascii "\nN") (t ++ (s :: z ++ y ++ 10 :: a2))).map Prod.snd =
            (splitAtPattern [10, 78] (10 :: a2)).map Prod.snd := by
        intro y z hy hz
        have h10 : (10 : UInt8) ≠ s := by rintro rfl; exact absurd hs (by decide)
        rw [show ascii "\nN" = [10, 78] by decide, show t ++ (s :: z ++ y ++ 10 :: a2) = (t ++ s :: (z ++ y)) ++ 10 :: a2 by simp,
          splitAtPattern_append (by simp [e3, hz, hy, h10])]
        cases splitAtPattern [10, 78] (10 :: a2) <;> simp
      refine ⟨?_, ?_⟩
      swap
      · have n1 := hnames l' x hl'n (not_newline_of_noWs hx.2)
        have n2 := hnames l (sp ++ old) hl (by
          simp only [List.mem_append, not_or]
          exact ⟨not_newline_of_blank fun b hb => g2 b (by simp [hb]), not_newline_of_noWs g4⟩)
        rw [hrec, show t ++ (s :: [] ++ x ++ (l' ++ 10 :: a2)) = t ++ (s :: x ++ l' ++ 10 :: a2) by simp, n1, ← n2]
        simp
      rw [hrec, update_words c hm hne e3 (e4 _ ⟨s, _, rfl, hs⟩) (by simpa using hs) hx.1 hx.2 hl'n htl'.1 hv (hlen.trans hlen') hnpos]
      have htk : (splitAsciiWs (l' ++ 10 :: a2)).take (n - 1) = xs := by
        rw [htl'.2]
        apply List.take_left'
        simp at hl1
        omega
      unfold namedResult
      rw [hsp, htk]
      simp only [k1, orParseErr, Outcome.bind_ok, k2]
      rw [replaceEntries_congr (ts' := c.float.display v :: (splitAsciiWs (l ++ 10 :: a2)).take (n - 1))]
      · simpa using m1
      · intro i hi
        have hi' : i ∉ (pos.zip ws).map Prod.fst := by
          intro h8
          apply hi
          rw [map_fst_zip_take] at h8 ⊢
          rw [hlen]
          exact h8
        cases i with
        | zero => rfl
        | succ i => simpa using m2 (i + 1) hi'

end HepMC

/-! ### Les Houches Event Files -/

namespace Lhef

/-- The weight that was written before does not matter. -/
theorem overwrite [Zero K] [LinearOrder V] (c : ParseCtx K V) {record : Bytes}
    {ev : Event K V} {w : K} (hp : parse c record = .ok ev) (hw : c.float.finite w = true) {record' : Bytes}
    (hu : update c [w] record = .ok record') (v : K) : update c [v] record' = update c [v] record := by
  unfold parse at hp
  cases ha : afterByte 10 (trimStart record) with
  | none => simp [ha] at hp
  | some body =>
    simp only [ha, Outcome.bind_eq_ok, HepMC.orParseErr_eq_ok] at hp
    obtain ⟨⟨r1, np⟩, h1, h2⟩ := hp
    simp only at h2
    by_cases hnp : np < 2
    · rw [if_pos hnp] at h2
      simp at h2
    · rw [if_neg hnp] at h2
      simp only [Outcome.bind_eq_ok, HepMC.orParseErr_eq_ok, HepMC.n64_eq_ok] at h2
      obtain ⟨⟨r2, x2⟩, k2, ⟨r3, w0⟩, k3, -⟩ := h2
      simp only at k2 k3
      obtain ⟨x, hx, hxn⟩ := HepMC.afterByte_eq ha
      obtain ⟨p, hp1, hp2⟩ := trimStart_stable _ record x body le_rfl hx
      have hb1 := anyEntry_cuts.blank _ _ k2
      have hb2 := doubleEntry_blank _ _ _ k3
      obtain ⟨t1, e1, l1, g1⟩ := u32Entry0_word h1
      obtain ⟨t2, e2, l2, g2⟩ := anyEntry_cuts.cut _ _ _ k2 hb2
      obtain ⟨sp, tok, junk, after, s1, s2, s3, s4, s5, s6, s7, s8, s9, s10⟩ := doubleEntry_eq_some k3
      obtain ⟨s0, sp, rfl⟩ := List.exists_cons_of_ne_nil s1
      have hs0 := s2 s0 (by simp)
      have sb2 : ∀ r', StartsBlank r' → StartsBlank (t2 ++ r') := by
        intro r' hr'
        cases t2 with
        | nil => exact hr'
        | cons z t2 =>
          obtain ⟨b, r, e, hb⟩ := hb1
          rw [e2] at e
          simp only [List.cons_append, List.cons.injEq] at e
          exact ⟨z, t2 ++ r', rfl, e.1 ▸ hb⟩
      obtain ⟨pre, hpre⟩ : ∃ pre, pre = p ++ x ++ 10 :: (t1 ++ t2) := ⟨_, rfl⟩
      have hrec : record = pre ++ r2 := by
        rw [hp1, e1, e2, hpre]
        simp
      have hnw : ∀ r', StartsBlank r' → nonWeightEntries (pre ++ r') = .ok (some r') := by
        intro r' hr'
        unfold nonWeightEntries
        obtain ⟨wd, hwd⟩ := (g1 (t2 ++ r') (sb2 r' hr')).2
        have : pre ++ r' = p ++ x ++ 10 :: (t1 ++ (t2 ++ r')) := by rw [hpre]; simp
        rw [this, hp2, HepMC.afterByte_append hxn]
        simp only [show afterByte 10 (10 :: (t1 ++ (t2 ++ r'))) = some (t1 ++ (t2 ++ r')) by simp [afterByte], hwd, g2 r' hr']
      have key : ∀ (u : K) (r' y : Bytes), r'.take 1 = [s0] → StartsBlank r' → anyEntry r' = some (after, y) →
          update c [u] (pre ++ r') = .ok (pre ++ ([s0] ++ c.float.display u ++ after)) := by
        intro u r' y k1 k4 k5
        have htk : (pre ++ r').take ((pre ++ r').length - r'.length) = pre := by simp
        simp only [update, hnw r' k4, Outcome.bind_ok, updateCentralWeight, k5, htk, k1]
        simp
      have hb2' : r2.take 1 = [s0] := by rw [s6]; simp
      rw [hrec, key w r2 tok hb2' hb2 s10, Outcome.ok.injEq] at hu
      rw [← hu, hrec, key v r2 tok hb2' hb2 s10, key v ([s0] ++ c.float.display w ++ after) (c.float.display w) (by simp) ⟨s0, _, rfl, hs0⟩]
      rw [anyEntry_eq_some]
      exact ⟨[s0], by simp, by simpa using hs0, display_ne_nil _ hw, display_noWs _ hw, s5, rfl⟩

end Lhef

/-! ### STRIPPER XML -/

namespace Stripper

/-- The weight that was written before does not matter. -/
theorem overwrite [Zero K] [Div K] [LinearOrder V] (c : ParseCtx K V) {record : Bytes} {s : K}
    {ev : Event K V} {w : K} (hp : parse c record = .ok ev) (hq : Quoted c.float record)
    (hw : c.float.finite (w / s) = true) {record' : Bytes}
    (hu : update c s [w] record = .ok record') (v : K) : update c s [v] record' = update c s [v] record := by
  obtain ⟨r, w0, rest, body, b, h1, h2, h3, h4, h5, rfl⟩ := (parse_ok c).1 hp
  obtain ⟨head, rfl, hh⟩ := weightStart_eq h1
  obtain ⟨post, rfl⟩ : ∃ post, rest = 34 :: post := by
    obtain ⟨t, ht⟩ := hq _ _ _ h1 h2
    exact ⟨t, by rw [← ht]; rfl⟩
  have key : ∀ (u y : K) (old : Bytes), c.float.double old = some (34 :: post, y) →
      replaceWeight c.float (fun _ => u) (head ++ old) = .ok (head ++ c.float.display u ++ 34 :: post) := by
    intro u y old k1
    have htk : (head ++ old).take ((head ++ old).length - old.length) = head := by simp
    simp only [replaceWeight, hh old, k1, orParseErr, Outcome.bind_ok, htk]
  have hn : c.float.n64 c.debug (w / s) = (.ok (w / s) : Outcome ReadError K) :=
    HepMC.n64_eq_ok.2 ⟨HepMC.accepts_of_finite c hw, rfl⟩
  have hr : record' = head ++ c.float.display (w / s) ++ 34 :: post := by
    simp only [update, hn, Outcome.bind_ok, key _ _ _ h2] at hu
    simpa using hu.symm
  have h6 : ∀ u, replaceWeight c.float (fun _ => u) record' = replaceWeight c.float (fun _ => u) (head ++ r) := by
    intro u
    rw [hr, List.append_assoc, key u _ _ h2, key u (w / s) _ (double_display_stop _ hw (by decide) _)]
  simp only [update, h6]

end Stripper

/-! ### records and files -/

section

variable [Zero K] [Mul K] [Div K] [LinearOrder V]

/-- A weight that was written before does not matter. -/
theorem kind_overwrite {cfg : IOConfig K V} (hn : cfg.ctx.multi = true → cfg.ctx.names = [])
    {kind : Kind K} {r : Bytes} {ev : Event K V} (h : RecordEvent cfg kind r ev)
    (hq : ∀ s, kind = .stripperXml s → Quoted cfg.ctx.float r) {w v : K} (hw : Storable cfg kind w) {r' : Bytes}
    (hu : kind.update cfg [w] r = .ok r') : kind.update cfg [v] r' = kind.update cfg [v] r := by
  cases kind with
  | hepmc2 => exact HepMC.overwrite_central cfg.ctx hn h hw hu v
  | lhef => exact Lhef.overwrite cfg.ctx h hw hu v
  | stripperXml s =>
    obtain ⟨ev0, w0, h1, -⟩ := h
    exact Stripper.overwrite cfg.ctx h1 (hq s rfl) hw.1 hu v

end

end Cres

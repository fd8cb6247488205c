import Verif.Model.Capacity
import Verif.Props.CombinedIO

/-!
# C120: the number of records that is declared in files need not be right
-/

namespace Cres

open Spec CombinedIO

/-- What files declare in total. -/
def Spec.totalDeclared {K V : Type*} (cfg : IOConfig K V) (ds : List (FileData K)) : Nat := (ds.map fun d => (declared cfg d).getD 0).sum

theorem usizeAdd_release (a b : Nat) : usizeAdd false a b = some ((a + b) % 2 ^ 64) := by
  unfold usizeAdd usizeMax
  by_cases h : a + b ≤ 18446744073709551615
  · rw [if_pos h, Nat.mod_eq_of_lt (by omega)]
  · rw [if_neg h]
    rfl

theorem usizeAdd_ok (debug : Bool) {a b : Nat} (h : a + b < 2 ^ 64) : usizeAdd debug a b = some (a + b) := by
  unfold usizeAdd usizeMax
  rw [if_pos (by omega)]

theorem usizeAdd_debug {a b : Nat} (h : 2 ^ 64 ≤ a + b) : usizeAdd true a b = none := by
  unfold usizeAdd usizeMax
  rw [if_neg (by omega), if_pos rfl]

theorem hint_le (o : Option Nat) : ∀ m, (hintOf o).2 = some m → (hintOf o).1 = m := by
  intro m
  cases o <;> simp [hintOf]

/-- Without overflow the bounds are added up. -/
theorem totalHint_small (debug : Bool) : ∀ (os : List (Option Nat)) (a : Nat) (b : Option Nat), (∀ m, b = some m → a = m) →
    a + (os.map (·.getD 0)).sum < 2 ^ 64 →
    ∃ b', (∀ m, b' = some m → a + (os.map (·.getD 0)).sum = m) ∧
      (os.map hintOf).foldlM (combineHints64 debug) (a, b) = some (a + (os.map (·.getD 0)).sum, b') := by
  intro os
  induction os with
  | nil => intro a b hb _; exact ⟨b, by simpa using hb, by simp⟩
  | cons o os ih =>
    intro a b hb h
    simp only [List.map_cons, List.sum_cons] at h ⊢
    have ho : (hintOf o).1 = o.getD 0 := by cases o <;> rfl
    have h1 : a + (hintOf o).1 < 2 ^ 64 := by omega
    obtain ⟨b1, hb1, hc⟩ : ∃ b1, (∀ m, b1 = some m → a + (hintOf o).1 = m) ∧
        combineHints64 debug (a, b) (hintOf o) = some (a + (hintOf o).1, b1) := by
      unfold combineHints64
      simp only [usizeAdd_ok debug h1, Option.bind_some]
      cases b with
      | none => exact ⟨none, by simp, rfl⟩
      | some m =>
        have hm : a = m := hb m rfl
        cases o with
        | none => exact ⟨none, by simp, rfl⟩
        | some k =>
          have h2 : m + k < 2 ^ 64 := by rw [← hm]; exact h1
          refine ⟨some (m + k), ?_, ?_⟩
          · intro j hj
            cases hj
            rw [hm]
            rfl
          · simp only [hintOf, usizeAdd_ok debug h2, Option.map_some]
    obtain ⟨b', hb', hf⟩ := ih (a + (hintOf o).1) b1 hb1 (by omega)
    refine ⟨b', ?_, ?_⟩
    · intro m hm
      rw [← hb' m hm]
      omega
    · rw [List.foldlM_cons, hc]
      simp only [Option.bind_eq_bind, Option.bind_some]
      rw [hf, ho, Nat.add_assoc]

/-- In release builds the lower bound is the sum of what the files declare, modulo 2⁶⁴. -/
theorem totalHint_release : ∀ (os : List (Option Nat)) (a : Nat) (b : Option Nat),
    ∃ b', (os.map hintOf).foldlM (combineHints64 false) (a % 2 ^ 64, b) = some ((a + (os.map (·.getD 0)).sum) % 2 ^ 64, b') := by
  intro os
  induction os with
  | nil => intro a b; exact ⟨b, by simp⟩
  | cons o os ih =>
    intro a b
    have ho : (hintOf o).1 = o.getD 0 := by cases o <;> rfl
    obtain ⟨b1, hc⟩ : ∃ b1, combineHints64 false (a % 2 ^ 64, b) (hintOf o) = some ((a + o.getD 0) % 2 ^ 64, b1) := by
      unfold combineHints64
      simp only [usizeAdd_release, Option.bind_some, Option.map_some, ho, Nat.mod_add_mod]
      split <;> exact ⟨_, rfl⟩
    obtain ⟨b', hf⟩ := ih (a + o.getD 0) b1
    refine ⟨b', ?_⟩
    rw [List.map_cons, List.foldlM_cons, hc]
    simp only [Option.bind_eq_bind, Option.bind_some]
    rw [hf, List.map_cons, List.sum_cons, Nat.add_assoc]

/-- Debug builds panic if the sum is too large. -/
theorem totalHint_debug : ∀ (os : List (Option Nat)) (a : Nat) (b : Option Nat), a < 2 ^ 64 → 2 ^ 64 ≤ a + (os.map (·.getD 0)).sum →
    (os.map hintOf).foldlM (combineHints64 true) (a, b) = none := by
  intro os
  induction os with
  | nil => intro a b h1 h2; simp at h2; omega
  | cons o os ih =>
    intro a b h1 h2
    have ho : (hintOf o).1 = o.getD 0 := by cases o <;> rfl
    simp only [List.map_cons, List.sum_cons] at h2
    rw [List.map_cons, List.foldlM_cons]
    by_cases hs : 2 ^ 64 ≤ a + (hintOf o).1
    · unfold combineHints64
      simp [usizeAdd_debug hs]
    · cases hc : combineHints64 true (a, b) (hintOf o) with
      | none => rfl
      | some h =>
        have : h.1 = a + (hintOf o).1 := by
          unfold combineHints64 at hc
          simp only [usizeAdd_ok true (not_le.1 hs), Option.bind_some] at hc
          split at hc
          · obtain ⟨m, -, hm⟩ := Option.map_eq_some_iff.1 hc
            rw [← hm]
          · cases hc
            rfl
        obtain ⟨h1', h2'⟩ := h
        simp only at this
        subst this
        simp only [Option.bind_eq_bind, Option.bind_some]
        exact ih _ _ (by omega) (by omega)

variable {K V P : Type*}

/-- The size hints of the readers for files with the given data. -/
def fileHints (cfg : IOConfig K V) (ds : List (FileData K)) : List (Nat × Option Nat) := ds.map fun d => hintOf (declared cfg d)

/-- The size hints are those of the model of I/O objects. -/
theorem C120_hints [DecidableEq P] {cfg : IOConfig K V} {files : List (P × P)} {fs : FS P} {d : FileData K}
    {ds : List (FileData K)} (hin : Inputs cfg fs files (d :: ds)) (hdis : ∀ p ∈ files.map Prod.fst, p ∉ files.map Prod.snd) :
    ∃ s fs', CombinedIO.new cfg files fs = (.ok (), s, fs') ∧ s.sizeHint.1 = totalDeclared cfg (d :: ds) ∧
      (totalDeclared cfg (d :: ds) < 2 ^ 64 → ∃ m, totalHint64 cfg.ctx.debug (fileHints cfg (d :: ds)) = some (s.sizeHint.1, m)) := by
  obtain ⟨s, fs', h1, -, -, h4, h5⟩ := new_at hin hdis
  have hfold : ∀ (l : List (FileData K)) (h : Nat × Option Nat),
      ((l.map fun d => hintOf (declared cfg d)).foldl combineHints h).1 = h.1 + totalDeclared cfg l := by
    intro l
    induction l with
    | nil => intro h; simp [totalDeclared]
    | cons d l ih =>
      intro h
      have hd : (hintOf (declared cfg d)).1 = (declared cfg d).getD 0 := by cases declared cfg d <;> rfl
      rw [List.map_cons, List.foldl_cons, ih, totalDeclared, totalDeclared, List.map_cons, List.sum_cons, combineHints, hd, Nat.add_assoc]
  have hs : s.sizeHint.1 = totalDeclared cfg (d :: ds) := by
    rw [CombinedIO.sizeHint, h4, h5, hfold]
    simp
  refine ⟨s, fs', h1, hs, fun hsmall => ?_⟩
  obtain ⟨b', -, hb⟩ := totalHint_small cfg.ctx.debug ((d :: ds).map (declared cfg)) 0 (some 0) (by simp)
    (by simpa [totalDeclared, List.map_map, Function.comp_def] using hsmall)
  refine ⟨b', ?_⟩
  rw [hs, totalHint64, show fileHints cfg (d :: ds) = ((d :: ds).map (declared cfg)).map hintOf by simp [fileHints, Function.comp_def], hb]
  simp [totalDeclared, Function.comp_def]

/-- **C120**, what decides: reading starts exactly if there is enough memory for the number of records that the files declare, and without
overflow checks only modulo 2⁶⁴. The records in the files do not matter. -/
theorem C120_start (cfg : IOConfig K V) (ds : List (FileData K)) (debug : Bool) (size free : Nat) :
    startReading debug size free (fileHints cfg ds) = .ok ↔
      (debug = true → totalDeclared cfg ds < 2 ^ 64) ∧ totalDeclared cfg ds % 2 ^ 64 * size ≤ min free (2 ^ 63 - 1) := by
  have hcap : ∀ n, withCapacity size free n = .ok ↔ n * size ≤ min free (2 ^ 63 - 1) := by
    intro n
    unfold withCapacity isizeMax
    rw [le_min_iff]
    split_ifs with h1 h2
    · simp only [false_iff]; omega
    · simp only [false_iff]; omega
    · simp only [true_iff]; omega
  have hmap : fileHints cfg ds = (ds.map (declared cfg)).map hintOf := by simp [fileHints, Function.comp_def]
  have htot : ((ds.map (declared cfg)).map (·.getD 0)).sum = totalDeclared cfg ds := by simp [totalDeclared, Function.comp_def]
  unfold startReading totalHint64
  rw [hmap]
  cases debug with
  | false =>
    obtain ⟨b', hb⟩ := totalHint_release (ds.map (declared cfg)) 0 (some 0)
    rw [htot, Nat.zero_add] at hb
    rw [show ((0, some 0) : Nat × Option Nat) = (0 % 2 ^ 64, some 0) from rfl, hb]
    simp only [hcap, Bool.false_eq_true, false_implies, true_and]
  | true =>
    by_cases hs : totalDeclared cfg ds < 2 ^ 64
    · obtain ⟨b', -, hb⟩ := totalHint_small true (ds.map (declared cfg)) 0 (some 0) (by simp) (by rw [htot]; omega)
      rw [htot, Nat.zero_add] at hb
      rw [hb]
      simp only [hcap, Nat.mod_eq_of_lt hs, hs, implies_true, true_and]
    · rw [totalHint_debug (ds.map (declared cfg)) 0 (some 0) (by norm_num) (by rw [htot]; omega)]
      simp only [reduceCtorEq, false_iff]
      exact fun h => hs (h.1 trivial)

/-- **C120**, full statement: if there is enough memory for the records in the files then reading can start, whatever files declare. -/
def C120_claim : Prop :=
  ∀ (cfg : IOConfig ℚ ℚ) (fs : FS ℕ) (files : List (ℕ × ℕ)) (ds : List (FileData ℚ)) (size free : Nat),
    Inputs cfg fs files ds → cfg.ctx.debug = false → total ds * size ≤ min free (2 ^ 63 - 1) →
    startReading cfg.ctx.debug size free (fileHints cfg ds) = .ok

/-- For examples: all XML files declare `m` records. -/
def exDeclared (debug : Bool) (m : Nat) : IOConfig ℚ ℚ :=
  { exIO debug with xmlInfo := fun _ => .ok (.eventrecord (ascii "a") 2 m) }

theorem exXml_declared (debug : Bool) (m : Nat) (hm : debug = true → 2 ≤ m) :
    Readable (exDeclared debug m) (exXml.header ++ exXml.records.flatten) exXml := by
  refine readable_stripper (name := ascii "a") (n := 2) (m := m) ?_ ?_ rfl rfl hm
  · change detectFormat (exIO debug).feat (some ((exIO debug).firstBuffer (exXml.header ++ exXml.records.flatten))) = _
    cases debug <;> decide +kernel
  · change Stripper.readFile (exIO debug).ctx.debug (exXml.header ++ exXml.records.flatten) = _
    cases debug <;> decide +kernel

/-- **C120 is false**: a file with two records that declares `2⁶⁴ - 1` records. -/
theorem C120_violated : ¬ C120_claim := by
  intro h
  have := h (exDeclared false (2 ^ 64 - 1)) exFS [(2, 10)] [exXml] 100 1000
    (.cons ⟨_, rfl, exXml_declared false _ (by simp)⟩ .nil) rfl (by decide)
  revert this
  decide +kernel

/-- What happens there: a panic. With a number that is not quite as large, the process ends if there is not enough memory. -/
example : startReading false 100 1000 (fileHints (exDeclared false (2 ^ 64 - 1)) [exXml]) = .panic ∧
    startReading false 100 1000 (fileHints (exDeclared false 11) [exXml]) = .abort ∧
    startReading false 100 1000 (fileHints (exDeclared false 10) [exXml]) = .ok := by
  decide +kernel

/-- **C120**, partial: if no file declares more records than it contains, reading starts whenever there is enough memory for the records. In
particular for HepMC2 files and Les Houches Event Files, which never declare a number. -/
theorem C120_honest_partial (cfg : IOConfig K V) (ds : List (FileData K)) (size free : Nat) (h64 : total ds < 2 ^ 64)
    (hd : ∀ d ∈ ds, ∀ m, declared cfg d = some m → m ≤ d.records.length) (hmem : total ds * size ≤ min free (2 ^ 63 - 1)) (debug : Bool) :
    startReading debug size free (fileHints cfg ds) = .ok := by
  have hle : totalDeclared cfg ds ≤ total ds := by
    clear hmem h64
    unfold totalDeclared total
    induction ds with
    | nil => simp
    | cons d ds ih =>
      have h1 := ih fun d' hd' => hd d' (List.mem_cons_of_mem _ hd')
      have h2 : (declared cfg d).getD 0 ≤ d.records.length := by
        cases hm : declared cfg d with
        | none => simp
        | some m => exact hd d (List.mem_cons_self ..) m hm
      simp only [List.map_cons, List.sum_cons]
      omega
  rw [C120_start]
  refine ⟨fun _ => by omega, le_trans (Nat.mul_le_mul_right _ ?_) hmem⟩
  exact (Nat.mod_le _ _).trans hle

example : ∀ d ∈ [exHepmc, exLhef, exXml], ∀ m, declared (exIO true) d = some m → m ≤ d.records.length := by
  intro d hd m hm
  simp only [List.mem_cons, List.not_mem_nil, or_false] at hd
  rcases hd with rfl | rfl | rfl
  · exact absurd hm (by simp [declared, exHepmc])
  · exact absurd hm (by simp [declared, exLhef])
  · have : m = 2 := by simpa [declared, exXml, exIO] using hm.symm
    subst this
    decide

theorem readRaw_declared {format : FileFormat} {r r' : Reader} {x : Option (Outcome ReadError Bytes)} {m : Nat} (hr : r.rem = some m)
    (h : r.readRaw false format = (x, r')) (n : Nat) :
    (∃ m', r'.rem = some m') ∧ ∃ n', ({ r with rem := some n } : Reader).readRaw false format = (x, { r' with rem := some n' }) := by
  have hdec : ∀ k, ∃ k', Stripper.decRemaining false k = some k' := by
    intro k
    unfold Stripper.decRemaining
    split_ifs <;> simp_all
  obtain ⟨m', hm'⟩ := hdec m
  obtain ⟨n', hn'⟩ := hdec n
  cases format with
  | hepmc2 => cases h; exact ⟨⟨m, hr⟩, n, rfl⟩
  | lhef => cases h; exact ⟨⟨m, hr⟩, n, rfl⟩
  | ntuple => cases h; exact ⟨⟨m, hr⟩, n, rfl⟩
  | stripperXml =>
    simp only [Reader.readRaw, hr, hm', hn'] at h ⊢
    cases hx : (Stripper.readRaw r.src).1 with
    | none => simp only [hx] at h ⊢; cases h; exact ⟨⟨m, rfl⟩, n, rfl⟩
    | some y =>
      cases y with
      | ok record => simp only [hx] at h ⊢; cases h; exact ⟨⟨m', rfl⟩, n', rfl⟩
      | err e => simp only [hx] at h ⊢; cases h; exact ⟨⟨m, rfl⟩, n, rfl⟩
      | panic => simp only [hx] at h ⊢; cases h; exact ⟨⟨m, rfl⟩, n, rfl⟩

/-- **C120**, partial: without overflow checks the records that are read do not depend on the declared number. -/
theorem C120_records_partial {format : FileFormat} {r : Reader} {records : List Bytes} {m : Nat} (hr : r.rem = some m)
    (h : Reads false format r records) (n : Nat) : Reads false format { r with rem := some n } records := by
  induction h generalizing m n with
  | @done r h =>
    obtain ⟨-, n', hn'⟩ := readRaw_declared (x := (r.readRaw false format).1) (r' := (r.readRaw false format).2) hr rfl n
    refine .done ?_
    rw [hn']
    exact h
  | @more r r1 record records h _ ih =>
    obtain ⟨⟨m', hm'⟩, n', hn'⟩ := readRaw_declared hr h n
    exact .more hn' (ih hm' n')

/-- **C120**, with overflow checks: a file that contains more records than it declares leads to a panic when the first record is read that is not
announced. -/
theorem C120_debug {r : Reader} {records : List Bytes} {m : Nat} (hr : r.rem = some m) (h : Reads false .stripperXml r records)
    (hm : m < records.length) :
    (((fun r => (Reader.readRaw true .stripperXml r).2)^[m] r).readRaw true .stripperXml).1 = some .panic := by
  induction h generalizing m with
  | done h => simp at hm
  | @more r r1 record records h _ ih =>
    have hx : (Stripper.readRaw r.src).1 = some (.ok record) ∧ r1.src = (Stripper.readRaw r.src).2 := by
      simp only [Reader.readRaw, hr] at h
      cases hx : (Stripper.readRaw r.src).1 with
      | none => simp [hx] at h
      | some y =>
        cases y with
        | ok record' =>
          simp only [hx] at h
          split at h
          · simp only [Prod.mk.injEq, Option.some.injEq, Outcome.ok.injEq] at h
            exact ⟨by rw [h.1], by rw [← h.2]⟩
          · simp at h
        | err e => simp [hx] at h
        | panic => simp [hx] at h
    cases m with
    | zero => simp [Reader.readRaw, hx.1, hr, Stripper.decRemaining]
    | succ m =>
      have h1 : Reader.readRaw true .stripperXml r = (some (.ok record), { r with src := r1.src, rem := some m }) := by
        simp [Reader.readRaw, hx.1, hr, Stripper.decRemaining, hx.2]
      have h2 : Reader.readRaw false .stripperXml r = (some (.ok record), { r with src := r1.src, rem := some m }) := by
        simp [Reader.readRaw, hx.1, hr, Stripper.decRemaining, hx.2]
      rw [h2, Prod.mk.injEq] at h
      rw [Function.iterate_succ, Function.comp_apply, h1]
      simp only
      rw [h.2]
      exact ih (by rw [← h.2]) (by simpa using hm)

-- a file with two records which declares one: read completely without overflow checks
example : ∃ r, Reader.new (exDeclared false 1) (exXml.header ++ exXml.records.flatten) .stripperXml = .ok r ∧ r.rem = some 1 ∧
    Reads false .stripperXml r exXml.records := by
  obtain ⟨-, r, h1, -, -, h4⟩ := exXml_declared false 1 (by simp)
  refine ⟨r, h1, ?_, h4⟩
  have h1' : Reader.new (exDeclared false 1) (exXml.header ++ exXml.records.flatten) .stripperXml = .ok r := h1
  have hr : Reader.new (exDeclared false 1) (exXml.header ++ exXml.records.flatten) .stripperXml =
      .ok ⟨ascii " w=\"3\"></se><se w=\"4\"></se></r>", ascii "<?xml?><r>", some 1⟩ := by decide +kernel
  rw [hr, Outcome.ok.injEq] at h1'
  rw [← h1']

end Cres

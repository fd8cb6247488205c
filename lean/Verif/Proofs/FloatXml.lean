import Verif.Proofs.FloatRun

/-!
`f64` weights in STRIPPER XML files are divided by a scale, and multiplied by the scale when they are read.
-/

set_option linter.unusedSectionVars false

namespace Cres

open Spec CombinedIO Program

/-- Dividing and multiplying again. -/
theorem scaled_error {s w : ℚ} (hs : s ≠ 0) : |s * fl64 (w / s)| ≤ 2 * |w| + |s| * 2 ^ (-1075 : ℤ) ∧
    |fl64 (s * fl64 (w / s)) - w| ≤ 2 ^ (-51 : ℤ) * |w| + (2 * |s| + 1) * 2 ^ (-1075 : ℤ) := by
  set η : ℚ := 2 ^ (-1075 : ℤ) with hη
  have hη0 : 0 ≤ η := by positivity
  set q := fl64 (w / s) with hq
  have h1 : |q - w / s| ≤ 2 ^ (-53 : ℤ) * |w / s| + η := fl64_err (w / s)
  have hws : |s| * |w / s| = |w| := by
    rw [← abs_mul]
    congr 1
    field_simp
  have h2 : |s * q - w| ≤ 2 ^ (-53 : ℤ) * |w| + |s| * η := by
    have : s * q - w = s * (q - w / s) := by field_simp
    rw [this, abs_mul]
    calc |s| * |q - w / s| ≤ |s| * (2 ^ (-53 : ℤ) * |w / s| + η) := mul_le_mul_of_nonneg_left h1 (abs_nonneg _)
      _ = 2 ^ (-53 : ℤ) * (|s| * |w / s|) + |s| * η := by ring
      _ = _ := by rw [hws]
  have h3 : |s * q| ≤ |w| + (2 ^ (-53 : ℤ) * |w| + |s| * η) := by
    have := abs_add_le (s * q - w) w
    rw [sub_add_cancel] at this
    linarith
  have h4 : |fl64 (s * q) - s * q| ≤ 2 ^ (-53 : ℤ) * |s * q| + η := fl64_err (s * q)
  have h5 : |fl64 (s * q) - w| ≤ |fl64 (s * q) - s * q| + |s * q - w| := by
    have := abs_add_le (fl64 (s * q) - s * q) (s * q - w)
    rwa [sub_add_sub_cancel] at this
  have hw0 := abs_nonneg w
  have hs0 : 0 ≤ |s| * η := by positivity
  have e53 : (2 : ℚ) ^ (-53 : ℤ) ≤ 1 := by norm_num
  have h6 : 2 ^ (-53 : ℤ) * |s * q| ≤ 2 ^ (-53 : ℤ) * (2 * |w| + |s| * η) := by
    refine mul_le_mul_of_nonneg_left (h3.trans ?_) (by positivity)
    nlinarith
  refine ⟨h3.trans (by nlinarith), ?_⟩
  have e51 : (2 : ℚ) ^ (-51 : ℤ) = 4 * 2 ^ (-53 : ℤ) := by norm_num
  rw [e51]
  have hu0 : (0 : ℚ) ≤ 2 ^ (-53 : ℤ) := by positivity
  generalize (2 : ℚ) ^ (-53 : ℤ) = u at *
  have h7 : u * (|s| * η) ≤ |s| * η := mul_le_of_le_one_left hs0 e53
  have h8 : (2 * |s| + 1) * η = 2 * (|s| * η) + η := by ring
  have h9 : u * (2 * |w| + |s| * η) = 2 * (u * |w|) + u * (|s| * η) := by ring
  have h10 : 0 ≤ u * |w| := by positivity
  rw [h8]
  linarith

section

variable {V D P : Type*} [Zero D] [LinearOrder D] [DistNum D] [ExactComparison D] [LinearOrder V] [DecidableEq P]

/-- What happens to weights in files. -/
theorem f64_stored {io : IOConfig N64 V} (hfmt : ∀ w : N64, IsF64 w.val → io.ctx.float.finite w = true)
    {ds : List (EventFile N64 V)} (hsc : ScaleRange ds) {x : N64} (hx : IsF64 x.val)
    (hb : ∃ k, |x.val| ≤ 3 * exactAbsSum k (allEvents ds) + 2 ^ (-1000 : ℤ)) {d : EventFile N64 V} (hd : d ∈ ds) :
    Storable io d.kind x ∧ |(stored d.kind x).val - x.val| ≤ 2 ^ (-51 : ℤ) * |x.val| + 2 ^ (-573 : ℤ) ∧
    (¬ IsXmlFile d → stored d.kind x = x) ∧ (x = 0 → stored d.kind x = 0) := by
  cases hk : d.kind with
  | hepmc2 => exact ⟨hfmt _ hx, by simp only [stored, sub_self, abs_zero]; positivity, fun _ => rfl, fun h => h⟩
  | lhef => exact ⟨hfmt _ hx, by simp only [stored, sub_self, abs_zero]; positivity, fun _ => rfl, fun h => h⟩
  | stripperXml s =>
    obtain ⟨h1, h2, h3⟩ := hsc d hd s hk
    obtain ⟨k, hb⟩ := hb
    have hs0 : 0 < |s.val| := lt_of_lt_of_le (by positivity) h1
    have hs : s.val ≠ 0 := abs_pos.1 hs0
    have hx2 : |x.val| ≤ 2 ^ (502 : ℤ) := by
      refine hb.trans ?_
      have e1 : (2 : ℚ) ^ (-1000 : ℤ) ≤ 2 ^ (500 : ℤ) := zpow_two_mono (by norm_num)
      have e2 : (2 : ℚ) ^ (502 : ℤ) = 4 * 2 ^ (500 : ℤ) := by
        rw [show (502 : ℤ) = 2 + 500 by norm_num, zpow_add₀ (by norm_num)]; norm_num
      rw [e2]
      linarith [h3 k]
    obtain ⟨e1, e2⟩ := scaled_error (s := s.val) (w := x.val) hs
    have hm : ∀ {e : ℤ}, e ≤ 1023 → (2 : ℚ) ^ e ≤ maxF64 := fun {e} he => by
      have : (2 : ℚ) ^ (1023 : ℤ) = 2 ^ 52 * 2 ^ (971 : ℤ) := by
        rw [← zpow_natCast, ← zpow_add₀ (by norm_num)]; norm_num
      refine (zpow_two_mono he).trans ?_
      rw [this]
      unfold maxF64
      exact mul_le_mul_of_nonneg_right (by norm_num) (by positivity)
    have h4 : |x.val / s.val| ≤ maxF64 := by
      rw [abs_div, div_le_iff₀ hs0]
      refine hx2.trans ?_
      calc (2 : ℚ) ^ (502 : ℤ) = 2 ^ (1002 : ℤ) * 2 ^ (-500 : ℤ) := by rw [← zpow_add₀ (by norm_num)]; norm_num
        _ ≤ maxF64 * |s.val| := mul_le_mul (hm (by norm_num)) h1 (by positivity) (le_trans (by positivity) (hm (e := 0) (by norm_num)))
    have hsη : |s.val| * 2 ^ (-1075 : ℤ) ≤ 2 ^ (-575 : ℤ) := by
      calc |s.val| * 2 ^ (-1075 : ℤ) ≤ 2 ^ (500 : ℤ) * 2 ^ (-1075 : ℤ) := mul_le_mul_of_nonneg_right h2 (by positivity)
        _ = 2 ^ (-575 : ℤ) := by rw [← zpow_add₀ (by norm_num)]; norm_num
    have h5 : |s.val * fl64 (x.val / s.val)| ≤ maxF64 := by
      refine e1.trans (le_trans ?_ (hm (e := 504) (by norm_num)))
      have g1 : (2 : ℚ) ^ (-575 : ℤ) ≤ 2 ^ (502 : ℤ) := zpow_two_mono (by norm_num)
      have g2 : (2 : ℚ) ^ (504 : ℤ) = 4 * 2 ^ (502 : ℤ) := by
        rw [show (504 : ℤ) = 2 + 502 by norm_num, zpow_add₀ (by norm_num)]; norm_num
      rw [g2]
      have aux : ∀ {a c c' c'' : ℚ}, 0 ≤ a → a ≤ c' → c ≤ c'' → c'' ≤ c' → 2 * a + c ≤ 4 * c' := by intros; linarith
      exact aux (abs_nonneg _) hx2 hsη g1
    refine ⟨⟨hfmt _ (fl64_isF64 h4), hfmt _ (fl64_isF64 h5)⟩, ?_, fun h => absurd ⟨s, hk⟩ h, ?_⟩
    · simp only [stored, val_mul, val_div]
      refine e2.trans ?_
      have g1 : (2 : ℚ) ^ (-1075 : ℤ) ≤ 2 ^ (-575 : ℤ) := zpow_two_mono (by norm_num)
      have g2 : (2 : ℚ) ^ (-573 : ℤ) = 4 * 2 ^ (-575 : ℤ) := by
        rw [show (-573 : ℤ) = 2 + -575 by norm_num, zpow_add₀ (by norm_num)]; norm_num
      rw [g2]
      have g3 : (2 * |s.val| + 1) * (2 : ℚ) ^ (-1075 : ℤ) = 2 * (|s.val| * 2 ^ (-1075 : ℤ)) + 2 ^ (-1075 : ℤ) := by ring
      rw [g3]
      have g4 : (0 : ℚ) ≤ 2 ^ (-575 : ℤ) := by positivity
      generalize |s.val| * (2 : ℚ) ^ (-1075 : ℤ) = c at *
      generalize (2 : ℚ) ^ (-1075 : ℤ) = c' at *
      generalize (2 : ℚ) ^ (-575 : ℤ) = c'' at *
      linarith
    · rintro rfl
      refine Rounded.val_injective ?_
      simp [stored, val_mul, val_div, val_zero, fl64_zero]

theorem weightNo_new {w : Weights N64} (hw : w ≠ []) (k : Nat) (ev : Event N64 V) :
    weightNo k (reweighted w ev) = w.getD k 0 := by
  simp [reweighted, hw, weightNo]

/-- The weights that are read differ slightly from the ones that were written. -/
theorem stored_weight {a b : ℚ} (ha : 0 ≤ a) (hb : 0 ≤ b) {f : N64 → N64} {w : Weights N64}
    (hf : ∀ x ∈ w, |(f x).val - x.val| ≤ a * |x.val| + b) (k : Nat) (ev : Event N64 V) :
    |(weightNo k (reweighted (w.map f) ev)).val - (weightNo k (reweighted w ev)).val| ≤
      a * |(weightNo k (reweighted w ev)).val| + b := by
  have h0 : ∀ y : N64, 0 ≤ a * |y.val| + b := fun y => by positivity
  by_cases hw : w = []
  · subst hw
    simp only [List.map_nil, sub_self, abs_zero]
    exact h0 _
  · rw [weightNo_new hw, weightNo_new (by simpa using hw)]
    by_cases hk : k < w.length
    · simp only [List.getD_eq_getElem?_getD, List.getElem?_map, List.getElem?_eq_getElem hk, Option.map_some, Option.getD_some]
      exact hf _ (List.getElem_mem hk)
    · have h1 : w[k]? = none := List.getElem?_eq_none (by omega)
      simp only [List.getD_eq_getElem?_getD, List.getElem?_map, h1, Option.map_none, Option.getD_none, sub_self, abs_zero]
      exact h0 0

theorem stored_sum {a b : ℚ} (ha : 0 ≤ a) (hb : 0 ≤ b) {ds : List (EventFile N64 V)} (k : Nat) :
    ∀ {ws ws' : List (Weights N64)} {evs : List (Event N64 V)},
    (∀ w ∈ ws, ∀ x ∈ w, ∀ d ∈ ds, |(stored d.kind x).val - x.val| ≤ a * |x.val| + b) →
    List.Forall₂ (fun w w' => ∃ d ∈ ds, w' = w.map (stored d.kind)) ws ws' →
    |exactSum k (List.zipWith reweighted ws' evs) - exactSum k (List.zipWith reweighted ws evs)| ≤
      a * exactAbsSum k (List.zipWith reweighted ws evs) + evs.length * b := by
  intro ws ws' evs hf h
  induction h generalizing evs with
  | nil => simp [exactSum, exactAbsSum]; positivity
  | @cons w w' ws ws' h1 h2 ih =>
    obtain ⟨d, hd, rfl⟩ := h1
    cases evs with
    | nil => simp [exactSum, exactAbsSum]
    | cons ev evs =>
      have g1 := ih (evs := evs) fun w hw => hf w (List.mem_cons_of_mem _ hw)
      have g2 := stored_weight ha hb (fun x hx => hf w List.mem_cons_self x hx d hd) k ev
      simp only [exactSum, exactAbsSum, List.zipWith_cons_cons, List.map_cons, List.sum_cons, List.length_cons] at g1 ⊢
      push_cast
      rw [add_sub_add_comm]
      refine (abs_add_le _ _).trans ?_
      nlinarith

theorem scaleError_nonneg (k : Nat) (ds : List (EventFile N64 V)) : 0 ≤ scaleError k ds := by
  unfold scaleError
  have : 0 ≤ exactAbsSum k (allEvents ds) := List.sum_nonneg fun x hx => by
    obtain ⟨e, -, rfl⟩ := List.mem_map.1 hx
    exact abs_nonneg _
  split_ifs
  · positivity
  · exact le_refl 0

theorem scaleError_bound {k : Nat} {ds : List (EventFile N64 V)} {T : ℚ} {n : Nat} (hn : n ≤ (allEvents ds).length)
    (hT : T ≤ 3 * exactAbsSum k (allEvents ds) + 2 ^ (-1000 : ℤ)) (hx : ∃ d ∈ ds, IsXmlFile d) :
    2 ^ (-51 : ℤ) * T + n * 2 ^ (-573 : ℤ) ≤ scaleError k ds := by
  unfold scaleError
  rw [if_pos hx]
  have h0 : 0 ≤ exactAbsSum k (allEvents ds) := List.sum_nonneg fun x hx => by
    obtain ⟨e, -, rfl⟩ := List.mem_map.1 hx
    exact abs_nonneg _
  have e1 : (2 : ℚ) ^ (-1000 : ℤ) ≤ 2 ^ (-573 : ℤ) := zpow_two_mono (by norm_num)
  have e2 : (2 : ℚ) ^ (-49 : ℤ) = 4 * 2 ^ (-51 : ℤ) := by norm_num
  have e3 : (2 : ℚ) ^ (-51 : ℤ) ≤ 1 := by norm_num
  have e4 : (0 : ℚ) ≤ 2 ^ (-51 : ℤ) := by positivity
  have e5 : (0 : ℚ) ≤ 2 ^ (-1000 : ℤ) := by positivity
  have e6 : (0 : ℚ) ≤ 2 ^ (-573 : ℤ) := by positivity
  have e7 : (n : ℚ) ≤ (allEvents ds).length := by exact_mod_cast hn
  rw [e2]
  generalize (2 : ℚ) ^ (-51 : ℤ) = c at *
  generalize (2 : ℚ) ^ (-1000 : ℤ) = c1 at *
  generalize (2 : ℚ) ^ (-573 : ℤ) = c2 at *
  have f1 : c * T ≤ c * (3 * exactAbsSum k (allEvents ds) + c1) := mul_le_mul_of_nonneg_left hT e4
  have f2 : c * c1 ≤ c1 := mul_le_of_le_one_left e5 e3
  have f3 : (n : ℚ) * c2 ≤ (allEvents ds).length * c2 := mul_le_mul_of_nonneg_right e7 e6
  have f4 : 0 ≤ c * exactAbsSum k (allEvents ds) := by positivity
  nlinarith

/-- Without STRIPPER XML files nothing changes. -/
theorem stored_same {ds : List (EventFile N64 V)} (hx : ¬ ∃ d ∈ ds, IsXmlFile d) {ws ws' : List (Weights N64)}
    (h : List.Forall₂ (fun w w' => ∃ d ∈ ds, w' = w.map (stored d.kind)) ws ws') : ws' = ws := by
  induction h with
  | nil => rfl
  | cons h1 h2 ih =>
    obtain ⟨d, hd, rfl⟩ := h1
    rw [ih]
    congr 1
    refine List.map_id'' (fun x => ?_) _
    cases hk : d.kind with
    | stripperXml s => exact absurd ⟨d, hd, s, hk⟩ hx
    | _ => rfl

/-- Events without particles get the default weights. -/
theorem no_particles_default {p : Program N64 V D} (hg : GoodComponents p) (hun : p.unweight = .ok) {m : Nat}
    {ds : List (EventFile N64 V)} {events : List (Event N64 V)} (he : EventsRead p m ds events) {ws : List (Weights N64)}
    {s : State D N64}
    (hrun : runWeights p.cfg p.infoLog (fun _ => (.ok (withWeights (identified events) s.mem) : Outcome IOError _)) p.unweight
      events = .ok ws) {i : Nat} {ev0 : Event N64 V} (hi : (allEvents ds)[i]? = some ev0) (hp : HasParticles p ev0 = false) :
    ws[i]? = some (defaultWeights p.cfg) := by
  have hids : (events.map Event.id).Perm (List.range events.length) := by rw [he.length_eq]; exact he.ids
  obtain ⟨resampled, final, h1, h2, h3, h4, h5⟩ := runWeights_entries hids hrun
  simp only [Outcome.ok.injEq] at h1
  rw [hun] at h2
  simp only [Outcome.ok.injEq] at h2
  subst h1
  subst h2
  have hlt : i < events.length := by rw [he.length_eq]; exact (List.getElem?_eq_some_iff.1 hi).1
  refine h5 i hlt fun e' he' hee => ?_
  have hm : i ∈ (identified events).map Event.id := by
    rw [← hee]
    exact (withWeights_subCollection (identified events) s.mem).subset (List.mem_map_of_mem he')
  obtain ⟨e2, he2, rfl⟩ := List.mem_map.1 hm
  have hmem := List.mem_filter.1 he2
  obtain ⟨e0, e1, g1, g2, g3, -⟩ := he.from_file e2 hmem.1
  rw [g1, Option.some.injEq] at hi
  subst hi
  rw [HasParticles, g2] at hp
  have := hmem.2
  rw [g3] at this
  exact absurd (this.symm.trans hp) (by decide)

end

end Cres

import Verif.Proofs.Scaled
import Verif.Props.Layout
import Verif.Proofs.Rounding

/-!
**C90**: results do not depend on the units of weights.
-/

namespace Cres

open Spec CombinedIO Program Cres.Path

section
variable {K V D : Type*} [Zero D] [LinearOrder D] [Zero K] [One K] [Add K] [Mul K] [Div K] [NatCast K] [Neg K] [LinearOrder K]
  [LinearOrder V] {φ : K → K}

/-- **C90**: any run with any components, for files with the same events and weights in other units. There is a run with these files
that passes the same weights, converted, to the files, or ends with the same error or panic. -/
theorem C90_same_weights {P P' : Type*} [DecidableEq P] [DecidableEq P'] (hφ : IsScaling φ) {p q : Program K V D}
    (hpq : ConvertedComponents φ p q) {fs fs1 : FS P} {files : List (P × P)}
    {ds : List (EventFile K V)} (hin : EventFiles p.io fs (files.map Prod.fst) ds) (hf : GoodFiles files)
    {fs' : FS P'} {files' : List (P' × P')} {ds' : List (EventFile K V)}
    (hin' : EventFiles q.io fs' (files'.map Prod.fst) ds') (hf' : GoodFiles files')
    (hsame : allEvents ds' = (allEvents ds).map (scaledBy φ))
    {events : List (Event K V)} {ws : Option (List (Weights K))} {res : Outcome (CresError IOError) Unit}
    (h : p.Run files fs (some events) ws res fs1) :
    ∃ res' fs1', q.Run files' fs' (some (events.map (scaledBy φ))) (ws.map (List.map (List.map φ))) res' fs1' ∧
      (ws = none → res' = res) := by
  obtain ⟨s, fs0, s', fs0', h1, h2, h3⟩ := reads_scale hpq hin hf hin' hf' hsame
  have hs : ∀ {r : Outcome IOError Unit} {t fs2}, CombinedIO.new p.io files fs = (r, t, fs2) → r = .ok () ∧ t = s ∧ fs2 = fs0 := by
    intro r t fs2 hn
    rw [h1] at hn
    simp only [Prod.mk.injEq] at hn
    exact ⟨hn.1.symm, hn.2.1.symm, hn.2.2.symm⟩
  generalize hev : some events = oevents at h
  cases h with
  | createErr _ | createPanic _ | readErr _ _ | readPanic _ _ => simp at hev
  | weightsErr g1 g2 g3 =>
    obtain ⟨-, rfl, rfl⟩ := hs g1
    cases hev
    obtain ⟨x', k⟩ := h3 _ _ g2
    exact ⟨_, _, .weightsErr h2 k (computes_scale hφ hpq g3), fun _ => rfl⟩
  | weightsPanic g1 g2 g3 =>
    obtain ⟨-, rfl, rfl⟩ := hs g1
    cases hev
    obtain ⟨x', k⟩ := h3 _ _ g2
    exact ⟨_, _, .weightsPanic h2 k (computes_scale hφ hpq g3), fun _ => rfl⟩
  | update g1 g2 g3 =>
    obtain ⟨-, rfl, rfl⟩ := hs g1
    cases hev
    obtain ⟨x', k⟩ := h3 _ _ g2
    exact ⟨_, _, .update h2 k (computes_scale hφ hpq g3), by simp⟩

variable [DistNum D] [ExactComparison D]

/-- **C90** for the command line program: if all weights in the input files and the minimum weight are converted to other units, there is
a run such that the events in the output files are the same with weights converted. -/
theorem C90_main (hφ : IsScaling φ) {s : CresSettings K V D} (hc : GoodChoices s) (hd : IgnoresWeights s.distance)
    (hsort : SortsByComparison s.sortSeeds)
    {cwd : List Bytes} {outdir : Bytes} {ins : List (Bytes × Bytes)} {tags : List (Option (Stripper.XmlTag K))}
    {fs fs1 : FS (List Bytes)} (hg : GoodInputs s.io cwd outdir ins tags fs)
    {io : IOConfig K V} (hio : io = { s.io with scaling := channelScales tags }) {ds : List (EventFile K V)}
    (hin : EventFiles io fs ((eventInputs ins tags).map fun x => locate cwd x.1 ++ [x.2]) ds) (hsup : WeightsSupported io ds)
    {cwd' : List Bytes} {outdir' : Bytes} {ins' : List (Bytes × Bytes)} {tags' : List (Option (Stripper.XmlTag K))}
    {fs' : FS (List Bytes)} (hg' : GoodInputs s.io cwd' outdir' ins' tags' fs')
    {io' : IOConfig K V} (hio' : io' = { s.io with scaling := channelScales tags' }) {ds' : List (EventFile K V)}
    (hin' : EventFiles io' fs' ((eventInputs ins' tags').map fun x => locate cwd' x.1 ++ [x.2]) ds') (hsup' : WeightsSupported io' ds')
    (hsame : allEvents ds' = (allEvents ds).map (scaledBy φ)) {ws : List (Weights K)} {res : Outcome MainError Unit}
    (h : MainRun s cwd outdir (ins.map fun x => x.1 ++ x.2) fs (some ws) res fs1)
    (hw : ∀ w ∈ ws, ∀ x ∈ w, ∀ d ∈ ds, Writable io d.kind x)
    (hw' : ∀ w ∈ ws, ∀ x ∈ w, ∀ d ∈ ds', Writable io' d.kind (φ x)) :
    res = .ok () ∧ ∃ fs1', MainRun (CresSettings.scaledBy φ s) cwd' outdir' (ins'.map fun x => x.1 ++ x.2) fs'
        (some (ws.map (List.map φ))) (.ok ()) fs1' ∧
      ∃ out out', EventFiles io fs1 ((eventInputs ins tags).map fun x => locate cwd outdir ++ [x.2]) out ∧
        EventFiles io' fs1' ((eventInputs ins' tags').map fun x => locate cwd' outdir' ++ [x.2]) out' ∧
        List.Forall₂ SameExceptWeights ds out ∧ List.Forall₂ SameExceptWeights ds' out' ∧
        allEvents out' = (allEvents out).map (scaledBy φ) := by
  obtain ⟨h1, h2, h3⟩ := hg.files
  obtain ⟨h1', h2', h3'⟩ := hg'.files
  generalize hws : some ws = ows at h
  cases h with
  | scalingErr _ | scalingPanic _ => simp at hws
  | @run files io'' events ws' res fs1 g1 g2 =>
    subst hws
    rw [h1] at g1
    simp only [Outcome.ok.injEq, Prod.mk.injEq] at g1
    obtain ⟨rfl, rfl⟩ := g1
    have hc1 : GoodChoices { s with io := { s.io with scaling := channelScales tags } } := ⟨hc.search, hc.seeds, hc.rng⟩
    have hc2 : GoodChoices { CresSettings.scaledBy φ s with io := { s.io with scaling := channelScales tags' } } := by
      refine ⟨hc.search, hc.seeds, fun i => ?_⟩
      obtain ⟨r1, r2⟩ := hc.rng i
      exact ⟨(hφ.zero_le _).2 r1, r2.imp (hφ.eq_zero _).2 (hφ.lt _ _).2⟩
    subst hio hio'
    rw [← h3] at hin
    rw [← h3'] at hin'
    have hconv := cres_converted hφ hd hsort (channelScales tags) (channelScales tags')
    obtain ⟨events, rfl⟩ : ∃ evs, events = some evs := by
      generalize hws : some ws = ows at g2
      cases g2 <;> first | exact ⟨_, rfl⟩ | simp at hws
    obtain ⟨res', fs1', g3, -⟩ := C90_same_weights (p := CresSettings.program { s with io := { s.io with scaling := channelScales tags } })
      (q := CresSettings.program { CresSettings.scaledBy φ s with io := { s.io with scaling := channelScales tags' } }) hφ hconv
      hin h2 hin' h2' hsame g2
    obtain ⟨rfl, k0, out, k1, k2, k3⟩ := supported_can_write (cres_goodComponents hc1) (unweight_survivors _ _ _) hin h2 hsup g2 hw
    obtain ⟨rfl, -, out', l1, l2, l3⟩ := supported_can_write (cres_goodComponents hc2) (unweight_survivors _ _ _) hin' h2' hsup' g3
      (by
        intro w hwm x hx d hdm
        obtain ⟨w0, hw0, rfl⟩ := List.mem_map.1 hwm
        obtain ⟨x0, hx0, rfl⟩ := List.mem_map.1 hx
        exact hw' w0 hw0 x0 hx0 d hdm)
    rw [List.map_map] at k1 l1
    refine ⟨rfl, fs1', .run (s := CresSettings.scaledBy φ s) h1' g3, out, out', k1, l1, k2, l2, ?_⟩
    rw [k3, l3, hsame, List.map_zipWith, List.zipWith_map]
    congr 1
    funext w e
    exact reweighted_scale w e

end

/-- **C90**: the distance of the command line program does not depend on weights. -/
theorem C90_default_distance {W : Type*} (km : SquareMatrix ℝ → ℝ) (ptWeight : ℝ) :
    IgnoresWeights (euclDistance km ptWeight : Event W FourVector → Event W FourVector → ℝ) := fun _ _ _ _ => rfl

/-- **C90**: in exact arithmetic, multiplication with any positive number is a change of units. -/
theorem C90_exact {K : Type*} [Field K] [LinearOrder K] [IsStrictOrderedRing K] {c : K} (hc : 0 < c) : IsScaling fun x : K => c * x where
  zero := mul_zero c
  add := mul_add c
  neg a := by ring
  mul a b := by ring
  div a b := by ring
  ratio a b := mul_div_mul_left a b hc.ne'
  le a b := mul_le_mul_iff_right₀ hc

/-- **C90**: with rounding, multiplication with a number that commutes with rounding is a change of units. For floating point numbers
these are the powers of two, as long as numbers do not become too small or too large. -/
theorem C90_rounded {K : Type*} [Field K] [LinearOrder K] [IsStrictOrderedRing K] {fl : K → K} {c : K} (hc : 0 < c)
    (hfl : ∀ x, fl (c * x) = c * fl x) : IsScaling fun x : Rounded fl => (⟨c * x.val⟩ : Rounded fl) where
  zero := Rounded.val_injective (mul_zero c)
  add a b := Rounded.val_injective (by show c * fl (a.val + b.val) = fl (c * a.val + c * b.val); rw [← mul_add, hfl])
  neg a := Rounded.val_injective (by show c * -a.val = -(c * a.val); ring)
  mul a b := Rounded.val_injective (by show c * fl (a.val * b.val) = fl (c * a.val * b.val); rw [mul_assoc, hfl])
  div a b := Rounded.val_injective (by show c * fl (a.val / b.val) = fl (c * a.val / b.val); rw [mul_div_assoc, hfl])
  ratio a b := Rounded.val_injective (by show fl (c * a.val / (c * b.val)) = fl (a.val / b.val); rw [mul_div_mul_left _ _ hc.ne'])
  le a b := mul_le_mul_iff_right₀ hc

/-! ### examples -/

/-- Rounding to 53 significant bits for any exponent. -/
def fl53 (x : ℚ) : ℚ := roundEven (x / 2 ^ (Int.log 2 |x| - 52)) * 2 ^ (Int.log 2 |x| - 52)

theorem fl53_two (x : ℚ) : fl53 (2 * x) = 2 * fl53 x := by
  by_cases hx : x = 0
  · subst hx
    have : roundEven 0 = 0 := by decide +kernel
    simp [fl53, this]
  have h : Int.log 2 |2 * x| = Int.log 2 |x| + 1 := by
    have hpos : 0 < |x| := abs_pos.2 hx
    have h2 : |2 * x| = 2 * |x| := by rw [abs_mul]; norm_num
    rw [h2]
    refine le_antisymm ?_ ?_
    · by_contra hlt
      have := (Int.zpow_le_iff_le_log (b := 2) (x := Int.log 2 |x| + 2) (by norm_num) (show 0 < 2 * |x| by linarith)).2 (by omega)
      have h3 := Int.lt_zpow_succ_log_self (b := 2) (by norm_num) |x|
      push_cast at this h3
      rw [show Int.log 2 |x| + 2 = (Int.log 2 |x| + 1) + 1 by ring, zpow_add_one₀ (by norm_num)] at this
      linarith
    · rw [← Int.zpow_le_iff_le_log (by norm_num) (by linarith)]
      have := Int.zpow_log_le_self (b := 2) (by norm_num) hpos
      push_cast at this ⊢
      rw [zpow_add_one₀ (by norm_num)]
      linarith
  unfold fl53
  rw [h, show Int.log 2 |x| + 1 - 52 = (Int.log 2 |x| - 52) + 1 by ring, zpow_add_one₀ (by norm_num),
    show 2 * x / (2 ^ (Int.log 2 |x| - 52) * 2) = x / 2 ^ (Int.log 2 |x| - 52) by
      rw [mul_comm (2 : ℚ) x, mul_div_mul_right _ _ (by norm_num)]]
  ring

/-- With floating point numbers, weights can be multiplied by two. -/
example : IsScaling fun x : Rounded fl53 => (⟨2 * x.val⟩ : Rounded fl53) := C90_rounded (by norm_num) fl53_two

/-- The events of the example for C74 with twice the weights. -/
def exScaled : EventFile ℚ ℚ :=
  ⟨⟨.hepmc2, ascii "H\n", [ascii "E 1 2 3 4 5 6 7 8 9 0 0 1 -4\nP 1 21 0 0 0 7 0 1 0 0 0\n",
    ascii "E 1 2 3 4 5 6 7 8 9 0 0 1 12\nP 1 21 0 0 0 9 0 1 0 0 0\n", ascii "E 1 2 3 4 5 6 7 8 9 0 0 1 12\nP 1 21 0 0 0 8 0 1 0 0 0\n"]⟩,
   [⟨0, [-4], [(21, [7])]⟩, ⟨0, [12], [(21, [9])]⟩, ⟨0, [12], [(21, [8])]⟩]⟩

theorem exScaled_ok (multi : Bool) :
    IsEventFile (exSettings multi).io (exScaled.header ++ exScaled.records.flatten) exScaled := by
  refine ⟨⟨by decide +kernel, ?_, ⟨rfl, by simp [exScaled], by decide +kernel, ?_, ?_, ?_, ?_⟩, ?_⟩, ?_⟩
  · exact fun rest => detectFormat_append _ (b := 72) (h := [10]) (by decide) (Or.inr (by decide)) rest
  · unfold Contains; decide +kernel
  · decide +kernel
  · unfold Contains; decide +kernel
  · decide +kernel
  · decide +kernel
  · refine .cons ?_ (.cons ?_ (.cons ?_ .nil)) <;>
    · show HepMC.parse _ _ = _
      cases multi <;> decide +kernel

def exScaledIns : List (Bytes × Bytes) := [(ascii "/data/", ascii "a")]

def exScaledFS : FS (List Bytes) := fun p =>
  if p = [ascii "data", ascii "a"] then some (exScaled.header ++ exScaled.records.flatten) else none

theorem exScaled_inputs (multi : Bool) :
    GoodInputs (exMain multi fun _ => none).io [] (ascii "/out") exScaledIns [none] exScaledFS := by
  refine ⟨?_, ?_, by decide +kernel, .cons ⟨_, rfl, ?_⟩ .nil, Or.inl rfl⟩
  · unfold IsFilePath IsName
    decide +kernel
  · decide +kernel
  · show ¬ _
    cases multi <;> decide +kernel

theorem exScaled_files (multi : Bool) : EventFiles (exMain multi (channelScales [none])).io exScaledFS
    ((eventInputs exScaledIns ([none] : List (Option (Stripper.XmlTag ℚ)))).map fun x => locate [] x.1 ++ [x.2]) [exScaled] := by
  rw [show eventInputs exScaledIns ([none] : List (Option (Stripper.XmlTag ℚ))) = exScaledIns by decide +kernel]
  exact .cons ⟨_, by decide +kernel, exScaled_ok multi⟩ .nil

/-- For the file with twice the weights there is a run that leads to twice the weights of the run in the example for C74. -/
example (multi : Bool) : ∃ fs1 fs1' out out',
    MainRun (exMain multi fun _ => none) [ascii "home"] (ascii "out") (exMainIns.map fun x => x.1 ++ x.2) exMainFS
      (some [[2], [6], [2]]) (.ok ()) fs1 ∧
    MainRun (CresSettings.scaledBy (fun x => 2 * x) (exMain multi fun _ => none)) [] (ascii "/out") (exScaledIns.map fun x => x.1 ++ x.2) exScaledFS
      (some [[4], [12], [4]]) (.ok ()) fs1' ∧
    EventFiles (exMain multi (channelScales exMainTags)).io fs1
      ((eventInputs exMainIns exMainTags).map fun x => locate [ascii "home"] (ascii "out") ++ [x.2]) out ∧
    EventFiles (exMain multi (channelScales [none])).io fs1'
      ((eventInputs exScaledIns ([none] : List (Option (Stripper.XmlTag ℚ)))).map fun x => locate [] (ascii "/out") ++ [x.2]) out' ∧
    allEvents out' = (allEvents out).map (scaledBy fun x => 2 * x) := by
  obtain ⟨res, fs1, h⟩ := exMain_run multi
  obtain ⟨rfl, fs1', h1, out, out', h2, h3, h4, h5, h6⟩ := C90_main (C90_exact (c := (2 : ℚ)) (by norm_num)) (s := exMain multi fun _ => none)
    (ds' := [exScaled]) ⟨(exSettings_good multi).search, (exSettings_good multi).seeds, (exSettings_good multi).rng⟩ (fun _ _ _ _ => rfl)
    (fun key key' l hk => by
      show l.insertionSort (fun a b => key a ≤ key b) = l.insertionSort (fun a b => key' a ≤ key' b)
      congr 1
      funext a b
      exact propext (hk a b))
    (exMain_inputs multi) rfl (exMain_files multi) (.inl fun _ => rfl) (exScaled_inputs multi) rfl
    (exScaled_files multi) (.inl fun _ => rfl) (by decide +kernel) h (exMain_writable multi) (by
      intro w hw x hx d hd
      have h2 : (exSettings multi).io.ctx.float.finite (2 * x) = true := by
        simp only [List.mem_cons, List.not_mem_nil, or_false] at hw
        rcases hw with rfl | rfl | rfl <;> simp only [List.mem_cons, List.not_mem_nil, or_false] at hx <;> subst hx <;>
          cases multi <;> decide +kernel
      simp only [List.mem_cons, List.not_mem_nil, or_false] at hd
      subst hd
      exact ⟨h2, trivial⟩)
  refine ⟨fs1, fs1', out, out', h, ?_, h2, h3, h6⟩
  have : ([[2], [6], [2]] : List (List ℚ)).map (List.map fun x => 2 * x) = [[4], [12], [4]] := by norm_num
  rw [← this]
  exact h1

end Cres

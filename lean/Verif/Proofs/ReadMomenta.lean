import Verif.Proofs.MovedRun

/-!
Properties of momenta in events that are read from files.
-/

set_option linter.unusedSectionVars false

namespace Cres

open Spec

section

variable {K V : Type*} (c : ParseCtx K V) (Q : V → Prop)

/-- All momenta have the property `Q`. -/
def BuilderAll (b : EventBuilder K V) : Prop := ∀ x ∈ b.outgoingByPid, Q x.2

variable {c Q}

theorem builderAll_add {b : EventBuilder K V} (hb : BuilderAll Q b) (id : ℤ) {p : V} (hp : Q p) : BuilderAll Q (b.addOutgoing id p) := by
  intro x hx
  rcases List.mem_append.1 hx with hx | hx
  · exact hb x hx
  · rw [List.mem_singleton.1 hx]; exact hp

theorem builderAll_new [Zero K] (multi : Bool) (w : K) : BuilderAll Q ((EventBuilder.new multi : EventBuilder K V).addWeight multi w) := by
  intro x hx
  cases hx

theorem HepMC.namesLoop_all : ∀ (ws : List K) {record b seen r}, HepMC.namesLoop c ws record b seen = .ok r → BuilderAll Q b → BuilderAll Q r.2.1 := by
  intro ws
  induction ws with
  | nil =>
    intro record b seen r h hb
    cases h
    exact hb
  | cons w ws ih =>
    intro record b seen r h hb
    unfold HepMC.namesLoop at h
    obtain ⟨a, -, h⟩ := Outcome.bind_eq_ok.1 h
    simp only at h
    split_ifs at h
    · obtain ⟨w', -, h⟩ := Outcome.bind_eq_ok.1 h
      exact ih h hb
    · exact ih h hb

theorem HepMC.parseLine_all (hq : ∀ e x y z, Q (c.momentum e x y z)) {ws : List K} {b : EventBuilder K V} {unit record r}
    (h : HepMC.parseLine c ws b unit record = .ok r) (hb : BuilderAll Q b) : BuilderAll Q r.2.1 := by
  unfold HepMC.parseLine at h
  split at h
  · cases h; exact hb
  · cases h; exact hb
  · cases h; exact hb
  · cases h; exact hb
  · split_ifs at h
    · cases hn : HepMC.parseNamesLine c record ws b with
      | err _ => rw [hn] at h; cases h
      | panic => rw [hn] at h; cases h
      | ok y =>
        rw [hn] at h
        cases h
        unfold HepMC.parseNamesLine at hn
        split_ifs at hn
        · cases hn; exact hb
        · obtain ⟨a, -, hn⟩ := Outcome.bind_eq_ok.1 hn
          obtain ⟨a', ha', hn⟩ := Outcome.bind_eq_ok.1 hn
          have hb' := HepMC.namesLoop_all _ ha' hb
          simp only at hn
          split at hn
          · cases hn
          · cases hn; exact hb'
    · cases h; exact hb
  · cases hn : HepMC.parseParticleLine c record b with
    | err _ => rw [hn] at h; cases h
    | panic => rw [hn] at h; cases h
    | ok y =>
      rw [hn] at h
      cases h
      unfold HepMC.parseParticleLine at hn
      obtain ⟨_, -, hn⟩ := Outcome.bind_eq_ok.1 hn
      obtain ⟨_, -, hn⟩ := Outcome.bind_eq_ok.1 hn
      obtain ⟨_, -, hn⟩ := Outcome.bind_eq_ok.1 hn
      obtain ⟨_, -, hn⟩ := Outcome.bind_eq_ok.1 hn
      obtain ⟨_, -, hn⟩ := Outcome.bind_eq_ok.1 hn
      obtain ⟨_, -, hn⟩ := Outcome.bind_eq_ok.1 hn
      obtain ⟨_, -, hn⟩ := Outcome.bind_eq_ok.1 hn
      obtain ⟨_, -, hn⟩ := Outcome.bind_eq_ok.1 hn
      simp only at hn
      split_ifs at hn
      · cases hn; exact hb
      · obtain ⟨_, -, hn⟩ := Outcome.bind_eq_ok.1 hn
        obtain ⟨_, -, hn⟩ := Outcome.bind_eq_ok.1 hn
        obtain ⟨_, -, hn⟩ := Outcome.bind_eq_ok.1 hn
        obtain ⟨_, -, hn⟩ := Outcome.bind_eq_ok.1 hn
        cases hn
        exact builderAll_add hb _ (hq _ _ _ _)
  · cases hn : HepMC.parseUnitsLine record with
    | err _ => rw [hn] at h; cases h
    | panic => rw [hn] at h; cases h
    | ok y => rw [hn] at h; cases h; exact hb
  · split_ifs at h
    cases h
    exact hb

theorem HepMC.parseLoop_all (hq : ∀ e x y z, Q (c.momentum e x y z)) {ws : List K} : ∀ (fuel : Nat) {b : EventBuilder K V} {unit record r},
    HepMC.parseLoop c ws fuel b unit record = .ok r → BuilderAll Q b → BuilderAll Q r.1 := by
  intro fuel
  induction fuel with
  | zero => intro b unit record r h hb; cases h; exact hb
  | succ n ih =>
    intro b unit record r h hb
    unfold HepMC.parseLoop at h
    split at h
    · cases h; exact hb
    · obtain ⟨a, ha, h⟩ := Outcome.bind_eq_ok.1 h
      exact ih h (HepMC.parseLine_all hq ha hb)

theorem Lhef.parseParticles_all (hq : ∀ e x y z, Q (c.momentum e x y z)) : ∀ (ls : List Bytes) {b r : EventBuilder K V},
    Lhef.parseParticles c ls b = .ok r → BuilderAll Q b → BuilderAll Q r := by
  intro ls
  induction ls with
  | nil => intro b r h hb; cases h; exact hb
  | cons l ls ih =>
    intro b r h hb
    unfold Lhef.parseParticles at h
    obtain ⟨a, ha, h⟩ := Outcome.bind_eq_ok.1 h
    refine ih h ?_
    unfold Lhef.parseParticle at ha
    obtain ⟨_, -, ha⟩ := Outcome.bind_eq_ok.1 ha
    obtain ⟨_, -, ha⟩ := Outcome.bind_eq_ok.1 ha
    simp only at ha
    split_ifs at ha
    · cases ha; exact hb
    · obtain ⟨_, -, ha⟩ := Outcome.bind_eq_ok.1 ha
      obtain ⟨_, -, ha⟩ := Outcome.bind_eq_ok.1 ha
      obtain ⟨_, -, ha⟩ := Outcome.bind_eq_ok.1 ha
      obtain ⟨_, -, ha⟩ := Outcome.bind_eq_ok.1 ha
      obtain ⟨_, -, ha⟩ := Outcome.bind_eq_ok.1 ha
      obtain ⟨_, -, ha⟩ := Outcome.bind_eq_ok.1 ha
      obtain ⟨_, -, ha⟩ := Outcome.bind_eq_ok.1 ha
      obtain ⟨_, -, ha⟩ := Outcome.bind_eq_ok.1 ha
      obtain ⟨_, -, ha⟩ := Outcome.bind_eq_ok.1 ha
      cases ha
      exact builderAll_add hb _ (hq _ _ _ _)

theorem Stripper.parseLoop_all (hq : ∀ e x y z, Q (c.momentum e x y z)) : ∀ (fuel : Nat) {b r : EventBuilder K V} {rest : Bytes},
    Stripper.parseLoop c fuel b rest = .ok r → BuilderAll Q b → BuilderAll Q r := by
  intro fuel
  induction fuel with
  | zero => intro b r rest h hb; cases h; exact hb
  | succ n ih =>
    intro b r rest h hb
    unfold Stripper.parseLoop at h
    split at h
    · cases h; exact hb
    · obtain ⟨a, ha, h⟩ := Outcome.bind_eq_ok.1 h
      refine ih h ?_
      unfold Stripper.parseParticle at ha
      obtain ⟨_, -, ha⟩ := Outcome.bind_eq_ok.1 ha
      simp only at ha
      split_ifs at ha
      · split at ha
        · cases ha
        · cases ha; exact hb
      · obtain ⟨_, -, ha⟩ := Outcome.bind_eq_ok.1 ha
        split at ha
        · cases ha
        · obtain ⟨_, -, ha⟩ := Outcome.bind_eq_ok.1 ha
          obtain ⟨_, -, ha⟩ := Outcome.bind_eq_ok.1 ha
          obtain ⟨_, -, ha⟩ := Outcome.bind_eq_ok.1 ha
          obtain ⟨_, -, ha⟩ := Outcome.bind_eq_ok.1 ha
          obtain ⟨_, -, ha⟩ := Outcome.bind_eq_ok.1 ha
          obtain ⟨_, -, ha⟩ := Outcome.bind_eq_ok.1 ha
          split at ha
          · cases ha
          · cases ha
            exact builderAll_add hb _ (hq _ _ _ _)

/-- If all momenta that are made from components have a property, and if it is kept by a conversion of units, then all momenta in events have it. -/
theorem tryConvert_all [Zero K] [LinearOrder V] (hq : ∀ e x y z, Q (c.momentum e x y z)) (hm : ∀ p, Q p → Q (c.milli p)) {r : EventRecord}
    {e : Event K V} (h : tryConvert c r = .ok e) : ∃ parts, HasOutgoing e parts ∧ ∀ x ∈ parts, Q x.2 := by
  obtain ⟨f, r⟩ := r
  cases f with
  | hepmc2 =>
    have h := Outcome.mapErr_eq_ok.1 (show (HepMC.parse c r).mapErr IOError.read = .ok e from h)
    unfold HepMC.parse at h
    obtain ⟨_, -, h⟩ := Outcome.bind_eq_ok.1 h
    obtain ⟨_, -, h⟩ := Outcome.bind_eq_ok.1 h
    obtain ⟨a, ha, h⟩ := Outcome.bind_eq_ok.1 h
    have hb := HepMC.parseLoop_all hq _ ha (builderAll_new _ _)
    simp only at h
    split_ifs at h
    · cases h
      refine ⟨_, rfl, fun x hx => ?_⟩
      obtain ⟨y, hy, rfl⟩ := List.mem_map.1 hx
      exact hm _ (hb y hy)
    · cases h
      exact ⟨_, rfl, hb⟩
  | lhef =>
    have h := Outcome.mapErr_eq_ok.1 (show (Lhef.parse c r).mapErr IOError.read = .ok e from h)
    unfold Lhef.parse at h
    split at h
    · cases h
    · obtain ⟨_, -, h⟩ := Outcome.bind_eq_ok.1 h
      simp only at h
      split_ifs at h
      obtain ⟨_, -, h⟩ := Outcome.bind_eq_ok.1 h
      obtain ⟨_, -, h⟩ := Outcome.bind_eq_ok.1 h
      obtain ⟨_, -, h⟩ := Outcome.bind_eq_ok.1 h
      obtain ⟨a, ha, h⟩ := Outcome.bind_eq_ok.1 h
      cases h
      exact ⟨_, rfl, Lhef.parseParticles_all hq _ ha (builderAll_new _ _)⟩
  | stripperXml =>
    have h := Outcome.mapErr_eq_ok.1 (show (Stripper.parse c r).mapErr IOError.read = .ok e from h)
    unfold Stripper.parse at h
    split at h
    · cases h
    · obtain ⟨_, -, h⟩ := Outcome.bind_eq_ok.1 h
      obtain ⟨_, -, h⟩ := Outcome.bind_eq_ok.1 h
      split at h
      · cases h
      · obtain ⟨a, ha, h⟩ := Outcome.bind_eq_ok.1 h
        cases h
        exact ⟨_, rfl, Stripper.parseLoop_all hq _ ha (builderAll_new _ _)⟩
  | ntuple => cases h

end

end Cres

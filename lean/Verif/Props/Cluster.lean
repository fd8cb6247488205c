import Mathlib.Tactic.Abel
import Verif.Model.Cluster
import Verif.Spec.Cluster
import Verif.Proofs.Event
import Verif.Proofs.NaiveSearch

/-!
Property C59: clustering.
-/

namespace Cres

open Cluster Spec

set_option linter.unusedSectionVars false

variable {K V : Type*}

/-- What a particle contributes to the event without clustering. -/
def emit (f : ℤ × V → Role) (x : ℤ × V) : Option (ℤ × V) :=
  match f x with
  | .isolatedPhoton => some (83, x.2)
  | .kept => some x
  | _ => none

theorem emit_perm (f : ℤ × V → Role) (parts : List (ℤ × V)) :
    (parts.filterMap (emit f)).Perm ((withRole f .isolatedPhoton parts).map (fun p => ((83 : ℤ), p)) ++ parts.filter (fun x => f x = .kept)) := by
  induction parts with
  | nil => exact List.Perm.nil
  | cons x parts ih =>
    rw [List.filterMap_cons]
    unfold withRole at ih ⊢
    cases h : f x with
    | isolatedPhoton => simpa [emit, h] using ih
    | kept =>
      simp only [emit, h, List.filter_cons, decide_true, if_true]
      refine (ih.cons x).trans ?_
      simp only [reduceCtorEq, decide_false, Bool.false_eq_true, if_false]
      exact List.perm_middle.symm
    | leptonInput => simpa [emit, h] using ih
    | jetInput => simpa [emit, h] using ih
    | dropped => simpa [emit, h] using ih

/-- The state after particles have been treated. -/
structure Treated (f : ℤ × V → Role) (parts : List (ℤ × V)) (st st' : State K V) : Prop where
  out : st'.ev.outgoingByPid = st.ev.outgoingByPid ++ parts.filterMap (emit f)
  leptons : st'.leptons = st.leptons ++ withRole f .leptonInput parts
  jets : st'.jets = st.jets ++ withRole f .jetInput parts

theorem Treated.nil (f : ℤ × V → Role) (st : State K V) : Treated f [] st st := ⟨by simp, by simp [withRole], by simp [withRole]⟩

theorem Treated.append {f : ℤ × V → Role} {p p' : List (ℤ × V)} {a b c : State K V} (h : Treated f p a b) (h' : Treated f p' b c) :
    Treated f (p ++ p') a c :=
  ⟨by rw [h'.out, h.out]; simp, by rw [h'.leptons, h.leptons]; simp [withRole], by rw [h'.jets, h.jets]; simp [withRole]⟩

section

variable [LinearOrder V] (P : Particles) (s : Settings V) (outgoing : List (ℤ × List V))

/-- The roles for given settings. -/
abbrev roleOf : ℤ × V → Role := role P.hadron P.neutrino s.leptons.isSome s.includeNeutrinos (fun p => s.isolated p outgoing)

theorem treated_photons (ps : List V) : ∀ st : State K V,
    Treated (roleOf P s outgoing) (ps.map fun p => (22, p)) st (ps.foldl (photonStep s outgoing) st) := by
  induction ps with
  | nil => intro st; exact Treated.nil _ _
  | cons p ps ih =>
    intro st
    rw [List.foldl_cons, List.map_cons]
    refine Treated.append (p := [(22, p)]) ?_ (ih _)
    unfold photonStep
    by_cases h1 : s.isolated p outgoing = true
    · have hr : roleOf P s outgoing (22, p) = .isolatedPhoton := by simp [role, h1]
      rw [if_pos h1]
      exact ⟨by simp [emit, hr, EventBuilder.addOutgoing, pidIsolatedPhoton], by simp [withRole, hr], by simp [withRole, hr]⟩
    · rw [if_neg h1]
      by_cases h2 : s.leptons.isSome = true
      · have hr : roleOf P s outgoing (22, p) = .leptonInput := by simp [role, h1, h2]
        rw [if_pos h2]
        exact ⟨by simp [emit, hr], by simp [withRole, hr], by simp [withRole, hr]⟩
      · have hr : roleOf P s outgoing (22, p) = .kept := by
          simp only [roleOf, role, if_pos, h1, h2]; rfl
        rw [if_neg h2]
        exact ⟨by simp [emit, hr, EventBuilder.addOutgoing], by simp [withRole, hr], by simp [withRole, hr]⟩

theorem withRole_const {f : ℤ × V → Role} {t : ℤ} {r : Role} (h : ∀ p, f (t, p) = r) (r' : Role) (ps : List V) :
    withRole f r' (ps.map fun p => (t, p)) = if r = r' then ps else [] := by
  unfold withRole
  induction ps with
  | nil => simp
  | cons p ps ih =>
    rw [List.map_cons, List.filter_cons, h]
    by_cases hr : r = r'
    · simp only [hr, decide_true, if_true] at ih ⊢
      rw [List.map_cons, ih]
    · simp only [hr, decide_false, if_false] at ih ⊢
      exact ih

theorem emit_const {f : ℤ × V → Role} {t : ℤ} {r : Role} (h : ∀ p, f (t, p) = r) (hr : r ≠ .isolatedPhoton) (ps : List V) :
    (ps.map fun p => (t, p)).filterMap (emit f) = if r = .kept then ps.map (fun p => (t, p)) else [] := by
  induction ps with
  | nil => simp
  | cons p ps ih =>
    rw [List.map_cons, List.filterMap_cons, ih]
    unfold emit
    rw [h]
    cases r <;> simp at hr ⊢

theorem treated_group (g : ℤ × List V) (hg : g.1 ≠ 22) (st : State K V) :
    Treated (roleOf P s outgoing) (g.2.map fun p => (g.1, p)) st (otherStep P s st g) := by
  obtain ⟨t, ps⟩ := g
  simp only at hg ⊢
  have key : ∀ r, r ≠ Role.isolatedPhoton → (∀ p, roleOf P s outgoing (t, p) = r) → ∀ st' : State K V,
      st'.ev.outgoingByPid = st.ev.outgoingByPid ++ (if r = .kept then ps.map (fun p => (t, p)) else []) →
      st'.leptons = st.leptons ++ (if r = .leptonInput then ps else []) →
      st'.jets = st.jets ++ (if r = .jetInput then ps else []) →
      Treated (roleOf P s outgoing) (ps.map fun p => (t, p)) st st' := by
    intro r hr h st' h1 h2 h3
    exact ⟨by rw [h1, emit_const h hr], by rw [h2, withRole_const h], by rw [h3, withRole_const h]⟩
  unfold otherStep
  by_cases h1 : (isParton t || isHadron P |t|) = true
  · rw [if_pos h1]
    apply key .jetInput (by simp)
    · intro p
      have : |t| ≤ 5 ∨ t = 21 ∨ P.hadron |t| = true := by
        simpa [isParton, isHadron, or_assoc] using h1
      simp only [roleOf, role, if_neg hg, if_pos this]
    all_goals simp
  · have h1' : ¬ (|t| ≤ 5 ∨ t = 21 ∨ P.hadron |t| = true) := by
      simpa [isParton, isHadron, or_assoc] using h1
    rw [if_neg h1]
    by_cases h2 : isClusteredToLepton s t = true
    · rw [if_pos h2]
      have h2' : s.leptons.isSome = true ∧ (|t| = 11 ∨ |t| = 13) := by
        simpa [isClusteredToLepton, isLightLepton, isPhoton, hg] using h2
      apply key .leptonInput (by simp)
      · intro p
        simp only [roleOf, role, if_neg hg, if_neg h1', if_pos h2']
      all_goals simp
    · rw [if_neg h2]
      have h2' : ¬ (s.leptons.isSome = true ∧ (|t| = 11 ∨ |t| = 13)) := by
        simpa [isClusteredToLepton, isLightLepton, isPhoton, hg] using h2
      by_cases h3 : (s.includeNeutrinos || !P.neutrino |t|) = true
      · rw [if_pos h3]
        have h3' : ¬ (P.neutrino |t| = true ∧ s.includeNeutrinos = false) := by
          revert h3
          cases P.neutrino |t| <;> cases s.includeNeutrinos <;> simp
        apply key .kept (by simp)
        · intro p
          simp only [roleOf, role, if_neg hg, if_neg h1', if_neg h2', if_neg h3']
        · have := foldl_addOutgoing (K := K) (ps.map fun p => (t, p)) st.ev
          rw [List.foldl_map] at this
          simp only at this
          simp [this]
        all_goals simp
      · rw [if_neg h3]
        have h3' : P.neutrino |t| = true ∧ s.includeNeutrinos = false := by
          revert h3
          cases P.neutrino |t| <;> cases s.includeNeutrinos <;> simp
        apply key .dropped (by simp)
        · intro p
          simp only [roleOf, role, if_neg hg, if_neg h1', if_neg h2', if_pos h3']
        all_goals simp

theorem treated_groups : ∀ (gs : List (ℤ × List V)), (∀ g ∈ gs, g.1 ≠ 22) → ∀ st : State K V,
    Treated (roleOf P s outgoing) (flatGroups gs) st (gs.foldl (otherStep P s) st)
  | [], _, st => Treated.nil _ _
  | g :: gs, h, st => by
    rw [List.foldl_cons]
    have : flatGroups (g :: gs) = g.2.map (fun p => (g.1, p)) ++ flatGroups gs := rfl
    rw [this]
    exact (treated_group P s outgoing g (h g (by simp)) st).append (treated_groups gs (fun g hg => h g (by simp [hg])) _)

theorem flatGroups_perm {a b : List (ℤ × List V)} (h : a.Perm b) : (flatGroups a).Perm (flatGroups b) := h.flatMap_right _

/-- **C59**: clustering keeps the id and the weights, and uses every outgoing particle according to its role. With jet and lepton
algorithms that are applied to the particles for jets and leptons (in some order), the outgoing particles afterwards are the
isolated photons (83), the kept particles, jets (81), and dressed leptons (82). -/
theorem C59_cluster [Zero K] (multi : Bool) (e : Event K V) (parts : List (ℤ × V)) (he : e.outgoingByPid = compressOutgoing parts) :
    (cluster multi P s e).id = e.id ∧ (cluster multi P s e).weights = e.weights ∧
    ∃ js ls, js.Perm (withRole (roleOf P s e.outgoingByPid) .jetInput parts) ∧
      ls.Perm (withRole (roleOf P s e.outgoingByPid) .leptonInput parts) ∧ (s.leptons = none → ls = []) ∧
      (cluster multi P s e).outgoingByPid = compressOutgoing (
        (withRole (roleOf P s e.outgoingByPid) .isolatedPhoton parts).map (fun p => (83, p)) ++
        parts.filter (fun x => roleOf P s e.outgoingByPid x = .kept) ++
        (s.jets js).map (fun p => (81, p)) ++
        (match s.leptons with | none => [] | some alg => alg ls).map (fun p => (82, p))) := by
  refine ⟨rfl, rfl, ?_⟩
  have hkeys : (e.outgoingByPid.map Prod.fst).Pairwise (fun a b => b < a) := by rw [he]; exact compress_keys parts
  have hflat : (flatGroups e.outgoingByPid).Perm parts := by
    rw [he, (groupInv_compress parts).flat]
    exact List.perm_insertionSort _ _
  -- the state after the loops
  have hst : ∃ (st : State K V) (all : List (ℤ × V)), all.Perm parts ∧
      Treated (roleOf P s e.outgoingByPid) all ⟨EventBuilder.new multi, [], []⟩ st ∧
      cluster multi P s e =
        { (match s.leptons with
            | some alg => (alg st.leptons).foldl (fun ev l => ev.addOutgoing pidDressedLepton l)
                ((s.jets st.jets).foldl (fun ev j => ev.addOutgoing pidJet j) st.ev)
            | none => (s.jets st.jets).foldl (fun ev j => ev.addOutgoing pidJet j) st.ev : EventBuilder K V).build with
          weights := e.weights, id := e.id } := by
    have hb := binarySearchBy_keys e.outgoingByPid hkeys 22
    dsimp only [cluster]
    revert hb
    cases hb : binarySearchBy (fun p : ℤ × List V => compare 22 p.1) e.outgoingByPid with
    | none =>
      intro h
      exact ⟨_, flatGroups e.outgoingByPid, hflat, treated_groups P s e.outgoingByPid _ h _, rfl⟩
    | some pos =>
      rintro ⟨x, hx, hx22⟩
      obtain ⟨hpos, hx'⟩ := List.getElem?_eq_some_iff.1 hx
      have hperm := swapRemove_perm e.outgoingByPid pos hpos
      rw [hx'] at hperm
      refine ⟨_, x.2.map (fun p => (22, p)) ++ flatGroups (swapRemove e.outgoingByPid pos), ?_, ?_, rfl⟩
      · refine List.Perm.trans ?_ ((flatGroups_perm hperm).symm.trans hflat)
        rw [← hx22]
        exact List.Perm.refl _
      · dsimp only
        rw [hx]
        refine (treated_photons P s e.outgoingByPid x.2 _).append (treated_groups P s e.outgoingByPid _ ?_ _)
        intro g hg h22
        have hnd : ((x :: swapRemove e.outgoingByPid pos).map Prod.fst).Nodup := by
          rw [← (hperm.map Prod.fst).nodup_iff]
          exact hkeys.imp fun h => (ne_of_lt h).symm
        rw [List.map_cons, List.nodup_cons, hx22] at hnd
        exact hnd.1 (List.mem_map.2 ⟨g, hg, h22⟩)
  obtain ⟨st, all, hall, htr, hcl⟩ := hst
  have hjets : ∀ (l : List V) (t : ℤ) (ev : EventBuilder K V), l.foldl (fun ev j => ev.addOutgoing t j) ev =
      { ev with outgoingByPid := ev.outgoingByPid ++ l.map fun p => (t, p) } := by
    intro l t ev
    have := foldl_addOutgoing (l.map fun p => (t, p)) ev
    rw [List.foldl_map] at this
    exact this
  have hwr : ∀ r, (withRole (roleOf P s e.outgoingByPid) r all).Perm (withRole (roleOf P s e.outgoingByPid) r parts) :=
    fun r => (hall.filter _).map _
  refine ⟨st.jets, st.leptons, ?_, ?_, ?_, ?_⟩
  · rw [htr.jets]; exact hwr _
  · rw [htr.leptons]; exact hwr _
  · intro hl
    rw [htr.leptons]
    simp only [List.nil_append, withRole, List.map_eq_nil_iff, List.filter_eq_nil_iff, decide_eq_true_eq]
    intro x _ hx
    simp only [roleOf, role, hl] at hx
    split_ifs at hx <;> simp_all
  · rw [hcl]
    have hev : (st.ev.outgoingByPid).Perm ((withRole (roleOf P s e.outgoingByPid) .isolatedPhoton parts).map (fun p => (83, p)) ++
        parts.filter (fun x => roleOf P s e.outgoingByPid x = .kept)) := by
      rw [htr.out]
      exact (hall.filterMap _).trans (emit_perm _ _)
    cases hl : s.leptons with
    | none =>
      simp only [EventBuilder.build, hjets]
      apply compress_perm
      simpa [pidJet] using hev.append_right _
    | some alg =>
      simp only [EventBuilder.build, hjets]
      apply compress_perm
      exact (hev.append_right _).append_right _

theorem count_filter_ite {α : Type*} [BEq α] [LawfulBEq α] (p : α → Bool) (a : α) (l : List α) :
    (l.filter p).count a = if p a then l.count a else 0 := by
  by_cases h : p a = true
  · rw [if_pos h, List.count_filter h]
  · rw [if_neg h, List.count_eq_zero]
    intro hm
    exact h (List.mem_filter.1 hm).2

/-- **C59**: the roles are exhaustive and disjoint, every particle is counted exactly once. -/
theorem C59_once (e : Event K V) (parts : List (ℤ × V)) :
    let f := roleOf P s e.outgoingByPid
    parts.Perm (parts.filter (fun x => f x = .isolatedPhoton) ++ parts.filter (fun x => f x = .kept) ++
      parts.filter (fun x => f x = .leptonInput) ++ parts.filter (fun x => f x = .jetInput) ++ parts.filter (fun x => f x = .dropped)) ∧
    ∀ x ∈ parts, f x = .dropped → P.neutrino |x.1| = true ∧ s.includeNeutrinos = false := by
  intro f
  constructor
  · rw [List.perm_iff_count]
    intro a
    simp only [List.count_append, count_filter_ite]
    cases f a <;> simp
  · intro x _ hx
    simp only [f, roleOf, role] at hx
    split_ifs at hx
    assumption

/-- **C59**: the result does not depend on the order in which the particles have been added to the event. -/
theorem C59_order [Zero K] (multi : Bool) (id : Nat) (w : List K) (parts parts' : List (ℤ × V)) (h : parts.Perm parts') :
    cluster multi P s ⟨id, w, compressOutgoing parts⟩ = cluster multi P s ⟨id, w, compressOutgoing parts'⟩ := by
  rw [compress_perm h]

end

/-! ### Isolation of photons -/

section

variable [LinearOrder K] [Mul K] [AddCommGroup V]

/-- Momenta in the cone around a photon. -/
def inCone (P : Particles) (kin : Kinematics K V) (radius : K) (p : V) (x : ℤ × V) : Bool :=
  !P.neutrino |x.1| && !isMuon |x.1| && decide (kin.deltaR x.2 p < radius)

theorem cone_group (P : Particles) (kin : Kinematics K V) (radius : K) (p : V) (t : ℤ) (ps : List V) : ∀ c : V,
    (if !P.neutrino |t| && !isMuon |t| then ps.foldl (fun c ep => if kin.deltaR ep p < radius then c + ep else c) c else c) =
      c + (((ps.map fun q => (t, q)).filter (inCone P kin radius p)).map Prod.snd).sum := by
  cases ht : (!P.neutrino |t| && !isMuon |t|) with
  | false =>
    intro c
    have : (ps.map fun q => (t, q)).filter (inCone P kin radius p) = [] := by
      rw [List.filter_eq_nil_iff]
      intro x hx
      obtain ⟨q, _, rfl⟩ := List.mem_map.1 hx
      simp [inCone, ht]
    rw [this]
    simp
  | true =>
    simp only [if_true]
    induction ps with
    | nil => intro c; simp
    | cons q ps ih =>
      intro c
      rw [List.foldl_cons, ih, List.map_cons, List.filter_cons]
      have : inCone P kin radius p (t, q) = decide (kin.deltaR q p < radius) := by simp [inCone, ht]
      rw [this]
      by_cases h : kin.deltaR q p < radius
      · simp [h, add_assoc]
      · simp [h]

theorem cone_sum (P : Particles) (kin : Kinematics K V) (radius : K) (p : V) : ∀ (gs : List (ℤ × List V)) (c : V),
    gs.foldl (fun cone g =>
        if !P.neutrino |g.1| && !isMuon |g.1| then
          g.2.foldl (fun cone ep => if kin.deltaR ep p < radius then cone + ep else cone) cone
        else cone) c = c + (((flatGroups gs).filter (inCone P kin radius p)).map Prod.snd).sum
  | [], c => by simp [flatGroups]
  | g :: gs, c => by
    rw [List.foldl_cons, cone_sum P kin radius p gs, cone_group]
    have : flatGroups (g :: gs) = g.2.map (fun p => (g.1, p)) ++ flatGroups gs := rfl
    rw [this, List.filter_append, List.map_append, List.sum_append, add_assoc]

variable [LinearOrder V]

/-- **C59**: a photon of the event counts as isolated exactly if it is isolated from all other particles, whatever the order of the
particles. The radius is positive, so that the cone contains the photon itself. -/
theorem C59_isolated (P : Particles) (kin : Kinematics K V) (d : PhotonDef K) (p : V) (parts : List (ℤ × V)) (hp : (22, p) ∈ parts)
    (hself : kin.deltaR p p < d.radius) (hn : P.neutrino 22 = false) :
    isIsolated P kin (some d) p (compressOutgoing parts) = true ↔
      IsolatedFrom kin.pt kin.deltaR kin.et P.neutrino d.minPt d.radius d.minEFraction p (parts.erase (22, p)) := by
  have hsum : (((flatGroups (compressOutgoing parts)).filter (inCone P kin d.radius p)).map Prod.snd).sum =
      p + (((parts.erase (22, p)).filter (inCone P kin d.radius p)).map Prod.snd).sum := by
    have h1 : (flatGroups (compressOutgoing parts)).Perm ((22, p) :: parts.erase (22, p)) := by
      rw [(groupInv_compress parts).flat]
      exact (List.perm_insertionSort _ _).trans (List.perm_cons_erase hp)
    rw [((h1.filter (inCone P kin d.radius p)).map Prod.snd).sum_eq, List.filter_cons]
    have : inCone P kin d.radius p (22, p) = true := by simp [inCone, hn, isMuon, hself]
    rw [if_pos this, List.map_cons, List.sum_cons]
  unfold isIsolated IsolatedFrom
  simp only [cone_sum, zero_add, hsum, add_sub_cancel_left]
  have hfil : (parts.erase (22, p)).filter (inCone P kin d.radius p) =
      (parts.erase (22, p)).filter (fun x => ¬ P.neutrino |x.1| ∧ |x.1| ≠ 13 ∧ kin.deltaR x.2 p < d.radius) := by
    apply List.filter_congr
    intro x _
    simp [inCone, isMuon, Bool.and_assoc, beq_eq_decide]
  rw [hfil]
  by_cases h : kin.pt p < d.minPt
  · simp [h]
  · rw [if_neg h, decide_eq_true_eq]
    exact ⟨fun h' => ⟨not_lt.1 h, h'⟩, fun h' => h'.2⟩

/-- **C59**: without a photon definition no photon is isolated. -/
theorem C59_no_photon_def (P : Particles) (kin : Kinematics K V) (p : V) (ev : List (ℤ × List V)) :
    isIsolated P kin none p ev = false := rfl

/-- **C59**: without clustering weights, id and all particles with their types and momenta stay. -/
theorem C59_no_clustering (e : Event K V) (parts : List (ℤ × V)) (he : e.outgoingByPid = compressOutgoing parts) :
    (noClustering e).weights = e.weights ∧ (noClustering e).id = e.id ∧ (flatGroups (noClustering e).outgoingByPid).Perm parts := by
  refine ⟨rfl, rfl, ?_⟩
  change (flatGroups e.outgoingByPid).Perm parts
  rw [he, (groupInv_compress parts).flat]
  exact List.perm_insertionSort _ _

end

/-- Particle properties for the examples: protons are hadrons. -/
def exampleParticles : Particles := ⟨fun t => t == 2212, fun t => t == 12 || t == 14 || t == 16⟩

/-- Settings for the examples: jets and dressed leptons are sums of momenta, photons with more than 50 are isolated. -/
def exampleSettings : Settings Nat :=
  ⟨fun l => if l = [] then [] else [l.sum], some fun l => if l = [] then [] else [l.sum], fun p _ => decide (50 < p), false⟩

/-- Two quarks and a proton form a jet, an electron and a soft photon a dressed lepton, a hard photon is isolated, a neutrino is
dropped, a Higgs boson is kept. -/
example : cluster true exampleParticles exampleSettings
    ⟨4, [3, 5], compressOutgoing [(1, 10), (22, 60), (-12, 7), (11, 20), (2212, 1), (22, 2), (25, 8), (-1, 30)]⟩ =
    (⟨4, [3, 5], [(83, [60]), (82, [22]), (81, [41]), (25, [8])]⟩ : Event ℤ Nat) := by
  decide +kernel

/-- A photon with transverse momentum 6 in a cone with energy 5 of another particle. -/
example : isIsolated exampleParticles (⟨fun p => |p|, fun p q => |p - q|, fun p => |p|⟩ : Kinematics ℤ ℤ) (some ⟨1, 3, 2⟩) 6
      (compressOutgoing [(22, 6), (11, 5), (13, 6), (1, 100)]) = true ∧
    isIsolated exampleParticles (⟨fun p => |p|, fun p q => |p - q|, fun p => |p|⟩ : Kinematics ℤ ℤ) (some ⟨2, 3, 2⟩) 6
      (compressOutgoing [(22, 6), (11, 5), (13, 6), (1, 100)]) = false := by
  decide +kernel

end Cres

import Verif.Props.NTuple
import Verif.Proofs.RecordText

/-!
Property C67: what is read from an ntuple record.
-/

namespace Cres

open Spec NTuple

variable {K V : Type*}

theorem prefix_get {α β : Type*} {f : α → β} {ps : List α} {l : List β} (hl : ps.map f <+: l) {i : Nat} (hi : i < ps.length) :
    l[i]? = some (f ps[i]) := by
  obtain ⟨t, rfl⟩ := hl
  rw [List.getElem?_append_left (by simpa using hi), List.getElem?_map, List.getElem?_eq_getElem hi]
  rfl

theorem addParticles_all {c : ParseCtx K V} {r : NTuple.Record K} {ps : List (NTupleParticle K)}
    (h : NTupleParticles ps r) (hps : ∀ p ∈ ps, HepMC.Accepts c p.e ∧ HepMC.Accepts c p.px ∧ HepMC.Accepts c p.py ∧
      HepMC.Accepts c p.pz) : ∀ (n i : Nat) (b : EventBuilder K V), i + n = ps.length →
    addParticles c r n i b = .ok ⟨b.weights, b.outgoingByPid ++ (ps.drop i).map fun p => (p.id, c.momentum p.e p.px p.py p.pz)⟩ := by
  intro n
  induction n with
  | zero =>
    intro i b hi
    simp [addParticles, List.drop_eq_nil_of_le (show ps.length ≤ i by omega)]
  | succ n ih =>
    intro i b hi
    have hlt : i < ps.length := by omega
    obtain ⟨h1, h2, h3, h4⟩ := hps ps[i] (List.getElem_mem hlt)
    have n1 := HepMC.n64_eq_ok.2 ⟨h1, rfl⟩
    have n2 := HepMC.n64_eq_ok.2 ⟨h2, rfl⟩
    have n3 := HepMC.n64_eq_ok.2 ⟨h3, rfl⟩
    have n4 := HepMC.n64_eq_ok.2 ⟨h4, rfl⟩
    have e : addParticle c r i b = .ok (b.addOutgoing ps[i].id (c.momentum ps[i].e ps[i].px ps[i].py ps[i].pz)) := by
      unfold addParticle
      rw [prefix_get h.id hlt, prefix_get h.e hlt, prefix_get h.px hlt, prefix_get h.py hlt, prefix_get h.pz hlt]
      simp only [Outcome.ofOption_some, Outcome.bind_ok]
      rw [n1, Outcome.bind_ok, n2, Outcome.bind_ok, n3, Outcome.bind_ok, n4, Outcome.bind_ok]
    rw [addParticles, e, Outcome.bind_ok, ih (i + 1) _ (by omega), List.drop_eq_getElem_cons hlt]
    simp only [EventBuilder.addOutgoing, List.map_cons, List.append_assoc, List.singleton_append]

/-- **C67**: converting an ntuple record yields the event it describes: the central weight and the selected weights in the
order "2", "ME", "ME2", and all particles with their energies and momenta. `hw` and `hps` say that the numbers are not NaN. -/
theorem C67_convert [Zero K] [LinearOrder V] (c : ParseCtx K V) (r : NTuple.Record K) (ps : List (NTupleParticle K))
    (h : NTupleParticles ps r) (hw : ∀ w ∈ ntupleWeights c.multi c.names r, c.float.isNaN w = false)
    (hps : ∀ p ∈ ps, c.float.isNaN p.e = false ∧ c.float.isNaN p.px = false ∧ c.float.isNaN p.py = false ∧
      c.float.isNaN p.pz = false) :
    ∃ ev, convert c r = .ok ev ∧
      Describes (ntupleWeights c.multi c.names r) (ps.map fun p => (p.id, c.momentum p.e p.px p.py p.pz)) ev := by
  have acc : ∀ {w : K}, c.float.isNaN w = false → HepMC.Accepts c w := fun h => by simp [HepMC.Accepts, h]
  refine ⟨_, (convert_eq c r).2 ⟨fun w h => acc (hw w h), ?_⟩,
    describes_build (⟨ntupleWeights c.multi c.names r, ps.map fun p => (p.id, c.momentum p.e p.px p.py p.pz)⟩ : EventBuilder K V)⟩
  rw [addParticles_all h (fun p hp => ⟨acc (hps p hp).1, acc (hps p hp).2.1, acc (hps p hp).2.2.1, acc (hps p hp).2.2.2⟩) _ _ _
    (by rw [h.count]; omega)]
  rfl

/-- The hypotheses are met by a record with two particles. -/
example : NTupleParticles [⟨11, 5, 0, 3, 4⟩, ⟨-11, 5, 0, -3, -4⟩] exRecord ∧
    ∀ w, (ratCtx true true [ascii "ME"]).float.isNaN w = false :=
  ⟨⟨rfl, ⟨[], rfl⟩, ⟨[], rfl⟩, ⟨[], rfl⟩, ⟨[], rfl⟩, ⟨[], rfl⟩⟩, fun _ => rfl⟩

end Cres

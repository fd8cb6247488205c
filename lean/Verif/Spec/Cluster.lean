import Mathlib.Algebra.Order.Group.Abs
import Mathlib.Algebra.Order.Group.Int
import Mathlib.Algebra.BigOperators.Group.List.Basic

/-!
Specification of clustering: what happens to each of the outgoing particles.
-/

namespace Cres.Spec

/-- What a particle is used for. -/
inductive Role
  | isolatedPhoton
  | kept
  | leptonInput
  | jetInput
  | dropped
deriving DecidableEq, Repr

/-- The role of a particle. Photons (22) are isolated or dress leptons, if leptons are clustered. Quarks up to bottom, gluons (21)
and hadrons form jets, electrons (11) and muons (13) form dressed leptons. -/
def role {V : Type*} (hadron neutrino : ℤ → Bool) (clusterLeptons includeNeutrinos : Bool) (isolated : V → Bool) (x : ℤ × V) : Role :=
  if x.1 = 22 then
    if isolated x.2 then .isolatedPhoton else if clusterLeptons then .leptonInput else .kept
  else if |x.1| ≤ 5 ∨ x.1 = 21 ∨ hadron |x.1| then .jetInput
  else if clusterLeptons ∧ (|x.1| = 11 ∨ |x.1| = 13) then .leptonInput
  else if neutrino |x.1| ∧ includeNeutrinos = false then .dropped
  else .kept

/-- The momenta of the particles with the given role. -/
def withRole {V : Type*} (f : ℤ × V → Role) (r : Role) (parts : List (ℤ × V)) : List V := (parts.filter fun x => f x = r).map Prod.snd

/-- A photon with momentum `p` is isolated from the other particles: its transverse momentum is large enough, and exceeds a given
fraction of the transverse energy of the other visible particles (not neutrinos or muons) within a cone. -/
def IsolatedFrom {K V : Type*} [LinearOrder K] [Mul K] [AddCommMonoid V] (pt : V → K) (deltaR : V → V → K) (et : V → K)
    (neutrino : ℤ → Bool) (minPt radius fraction : K) (p : V) (others : List (ℤ × V)) : Prop :=
  minPt ≤ pt p ∧
    fraction * et ((others.filter fun x => ¬ neutrino |x.1| ∧ |x.1| ≠ 13 ∧ deltaR x.2 p < radius).map Prod.snd).sum < pt p

end Cres.Spec

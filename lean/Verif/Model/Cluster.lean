import Mathlib.Algebra.Order.Ring.Defs
import Mathlib.Algebra.Order.Group.Abs
import Verif.Model.Basic
import Verif.Model.Event

/-!
Model of `src/cluster.rs`: clustering of particles into jets, dressed leptons and isolated photons. The jet algorithms of the
`jetty` library, the lists of hadrons and neutrinos of the `particle_id` library are parameters.
-/

namespace Cres.Cluster

/-- Particle properties that are defined in the `particle_id` library: `HADRONS` and `is_neutrino`. -/
structure Particles where
  hadron : ℤ → Bool
  neutrino : ℤ → Bool

/-- `is_parton` (`src/cluster.rs:240-242`); the number of the bottom quark is 5, that of the gluon 21. -/
def isParton (id : ℤ) : Bool := decide (|id| ≤ 5) || id == 21

/-- `is_hadron` (`src/cluster.rs:244-246`). -/
def isHadron (P : Particles) (id : ℤ) : Bool := P.hadron |id|

/-- `is_light_lepton` (`src/cluster.rs:248-250`): electron 11, muon 13. -/
def isLightLepton (id : ℤ) : Bool := id == 11 || id == 13

/-- `is_photon` (`src/cluster.rs:252-254`). -/
def isPhoton (id : ℤ) : Bool := id == 22

/-- `is_muon` (`src/cluster.rs:256-258`). -/
def isMuon (id : ℤ) : Bool := id == 13

/-- `PID_JET`, `PID_DRESSED_LEPTON`, `PID_ISOLATED_PHOTON` (`src/cluster.rs:260-262`). -/
def pidJet : ℤ := 81
@[inherit_doc pidJet] def pidDressedLepton : ℤ := 82
@[inherit_doc pidJet] def pidIsolatedPhoton : ℤ := 83

/-- `struct PhotonDefinition` (`src/cluster.rs:229-238`). -/
structure PhotonDef (K : Type*) where
  minEFraction : K
  radius : K
  minPt : K

/-- Kinematic quantities: `FourVector::pt`, `delta_r` of `PseudoJet`s and `(e² - pz²).sqrt()`. -/
structure Kinematics (K V : Type*) where
  pt : V → K
  deltaR : V → V → K
  et : V → K

/-- `is_isolated` (`src/cluster.rs:64-99`). Sums are exact. -/
def isIsolated {K V : Type*} [LinearOrder K] [Mul K] [AddCommGroup V] (P : Particles) (kin : Kinematics K V)
    (photonDef : Option (PhotonDef K)) (p : V) (event : List (ℤ × List V)) : Bool :=
  match photonDef with
  | none => false
  | some d =>
    if kin.pt p < d.minPt then false
    else
      let cone : V := event.foldl (fun cone g =>
        if !P.neutrino |g.1| && !isMuon |g.1| then
          g.2.foldl (fun cone ep => if kin.deltaR ep p < d.radius then cone + ep else cone) cone
        else cone) 0
      let cone := cone - p
      decide (kin.pt p > d.minEFraction * kin.et cone)

/-- `struct DefaultClustering` (`src/cluster.rs:22-28`). Jet and lepton definitions are represented by the clustering
algorithm, `cluster(_, &jet_def)` (`src/cluster.rs:264-279`), photon isolation by the predicate `is_isolated`. -/
structure Settings (V : Type*) where
  jets : List V → List V
  leptons : Option (List V → List V)
  isolated : V → List (ℤ × List V) → Bool
  includeNeutrinos : Bool

/-- `is_clustered_to_lepton` (`src/cluster.rs:59-62`). -/
def isClusteredToLepton {V : Type*} (s : Settings V) (id : ℤ) : Bool :=
  s.leptons.isSome && (isLightLepton |id| || isPhoton id)

/-- The local variables of `cluster`: the event builder and the input for the clustering of leptons and jets. -/
structure State (K V : Type*) where
  ev : EventBuilder K V
  leptons : List V
  jets : List V

/-- The loop over photons (`src/cluster.rs:118-126`). -/
def photonStep {K V : Type*} (s : Settings V) (outgoing : List (ℤ × List V)) (st : State K V) (p : V) : State K V :=
  if s.isolated p outgoing then { st with ev := st.ev.addOutgoing pidIsolatedPhoton p }
  else if s.leptons.isSome then { st with leptons := st.leptons ++ [p] }
  else { st with ev := st.ev.addOutgoing 22 p }

/-- The loop over all other particles (`src/cluster.rs:131-145`). -/
def otherStep {K V : Type*} (P : Particles) (s : Settings V) (st : State K V) (g : ℤ × List V) : State K V :=
  if isParton g.1 || isHadron P |g.1| then { st with jets := st.jets ++ g.2 }
  else if isClusteredToLepton s g.1 then { st with leptons := st.leptons ++ g.2 }
  else if s.includeNeutrinos || !P.neutrino |g.1| then
    { st with ev := g.2.foldl (fun ev p => ev.addOutgoing g.1 p) st.ev }
  else st

/-- `DefaultClustering::cluster` (`src/cluster.rs:105-163`). -/
def cluster {K V : Type*} [Zero K] [LinearOrder V] (multi : Bool) (P : Particles) (s : Settings V) (orig : Event K V) : Event K V :=
  let outgoing := orig.outgoingByPid
  let st : State K V := ⟨EventBuilder.new multi, [], []⟩
  let r : State K V × List (ℤ × List V) :=
    match binarySearchBy (fun p => compare 22 p.1) outgoing with
    | some pos =>
      (((outgoing[pos]?.map Prod.snd).getD []).foldl (photonStep s outgoing) st, swapRemove outgoing pos)
    | none => (st, outgoing)
  let st := r.2.foldl (otherStep P s) r.1
  let ev := (s.jets st.jets).foldl (fun ev j => ev.addOutgoing pidJet j) st.ev
  let ev : EventBuilder K V := match s.leptons with
    | some alg => (alg st.leptons).foldl (fun ev l => ev.addOutgoing pidDressedLepton l) ev
    | none => ev
  { ev.build with weights := orig.weights, id := orig.id }

/-- `NoClustering::cluster` (`src/cluster.rs:176-178`). -/
def noClustering {K V : Type*} (ev : Event K V) : Event K V := ev

end Cres.Cluster

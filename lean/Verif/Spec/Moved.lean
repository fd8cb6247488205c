import Verif.Spec.Layout

/-!
Specification for C92: momenta in another frame or in other units.
-/

namespace Cres.Spec

variable {K V D : Type*}

/-- The outgoing particles of an event. -/
def outgoingParticles (e : Event K V) : List (ℤ × V) := e.outgoingByPid.flatMap fun g => g.2.map fun p => (g.1, p)

/-- Particles with changed momenta. -/
def moveParticles (h : V → V) (parts : List (ℤ × V)) : List (ℤ × V) := parts.map fun x => (x.1, h x.2)

/-- The event with all momenta changed by `h`. The particles are in the order in which they are kept in events. -/
def moved [LinearOrder V] (h : V → V) (e : Event K V) : Event K V :=
  { e with outgoingByPid := compressOutgoing (moveParticles h (outgoingParticles e)) }

/-- An event with the outgoing particles `parts`. -/
def HasOutgoing [LinearOrder V] (e : Event K V) (parts : List (ℤ × V)) : Prop := e.outgoingByPid = compressOutgoing parts

/-- A conversion of distances to other units. -/
structure IsDistanceUnit [Zero D] [LinearOrder D] [DistNum D] (ψ : D ≃o D) : Prop where
  zero : ψ 0 = 0
  absDiff : ∀ a b, DistNum.absDiff (ψ a) (ψ b) = ψ (DistNum.absDiff a b)

/-- A point in the construction of the search tree, with distances converted. -/
def convertPoint {P : Type*} (ψ : D → D) (x : D × Node P D) : D × Node P D :=
  (ψ x.1, ⟨x.2.vantagePt, x.2.children.map fun c => ⟨ψ c.radius, c.outsideOffset⟩⟩)

/-- The same choices between elements with the same distance, for distances in other units. -/
def SearchAlgo.converted [LE D] (ψ : D ≃o D) : SearchAlgo D → SearchAlgo D
  | .naive minPos => .naive fun candidates keys => minPos candidates (keys.map ψ.symm)
  | .tree psort sort cornerPt f64Max =>
    .tree (fun call l => (psort call (l.map (convertPoint ψ.symm))).map (convertPoint ψ))
      (fun call l => (sort call (l.map (convertPoint ψ.symm))).map (convertPoint ψ)) cornerPt f64Max

/-- The algorithm `alg'` finds the same jets in the changed momenta that `alg` finds in the original ones. -/
def SameJets (h : V → V) (alg alg' : List V → List V) : Prop :=
  ∀ l l', l'.Perm (l.map h) → (alg' l').Perm ((alg l).map h)

/-- The settings `s'` treat events with momenta changed by `h` like the settings `s` treat the original events: the same particles are
clustered, the distances are the same in units that differ by `ψ`, and so is the cell size limit. All other settings are the same. -/
structure MovedSettings [Zero D] [LinearOrder D] [DistNum D] [LinearOrder V] (h : V → V) (ψ : D ≃o D) (s s' : CresSettings K V D) : Prop where
  unit : IsDistanceUnit ψ
  multi : s'.io.ctx.multi = s.io.ctx.multi
  debug : s'.io.ctx.debug = s.io.ctx.debug
  particles : s'.particles = s.particles
  jets : SameJets h s.clustering.jets s'.clustering.jets
  leptons : Option.Rel (SameJets h) s.clustering.leptons s'.clustering.leptons
  isolated : ∀ p parts, s'.clustering.isolated (h p) (compressOutgoing (moveParticles h parts)) = s.clustering.isolated p (compressOutgoing parts)
  includeNeutrinos : s'.clustering.includeNeutrinos = s.clustering.includeNeutrinos
  search : s'.search = SearchAlgo.converted ψ s.search
  distance : ∀ e e' parts parts', HasOutgoing e parts → HasOutgoing e' parts' → s'.distance (moved h e) (moved h e') = ψ (s.distance e e')
  maxCellSize : s'.maxCellSize = ψ s.maxCellSize
  strategy : s'.strategy = s.strategy
  sortSeeds : s'.sortSeeds = s.sortSeeds
  minWeight : s'.minWeight = s.minWeight
  rng : s'.rng = s.rng
  infoLog : s'.infoLog = s.infoLog

end Cres.Spec

import Mathlib.Data.Nat.Digits.Defs
import Verif.Model.Event
import Verif.Spec.Records

/-!
What event records say: the text of HepMC2, LHEF and STRIPPER XML records with given entries, and the events they describe.
-/

namespace Cres.Spec

variable {K V : Type*}

/-! ### Entries -/

/-- Decimal digits. -/
def Digits (s : Bytes) : Prop := ∀ b ∈ s, 48 ≤ b ∧ b ≤ 57

/-- Nothing, plus or minus. -/
def Sign (s : Bytes) : Prop := s = [] ∨ s = [43] ∨ s = [45]

/-- The value of decimal digits. -/
def decimalValue (ds : Bytes) : Nat := Nat.ofDigits 10 (ds.reverse.map (fun d => d.toNat - 48))

/-- An unsigned 32-bit integer. -/
def NatText (s : Bytes) (n : Nat) : Prop := Digits s ∧ s ≠ [] ∧ decimalValue s = n ∧ n < 2 ^ 32

/-- A signed 32-bit integer. -/
def IntText (s : Bytes) (i : ℤ) : Prop :=
  ∃ sign ds, s = sign ++ ds ∧ Sign sign ∧ Digits ds ∧ ds ≠ [] ∧
    i = (if sign = [45] then -(decimalValue ds : ℤ) else decimalValue ds) ∧ -(2 ^ 31) ≤ i ∧ i < 2 ^ 31

/-- A decimal number, for example `-12`, `0.5`, `1.`, `.5` or `+1.5e-07`. -/
def Decimal (s : Bytes) : Prop :=
  ∃ sign d f exp, Sign sign ∧ Digits d ∧ Digits f ∧ d ++ f ≠ [] ∧
    (exp = [] ∨ ∃ c es ds, exp = c :: es ++ ds ∧ (c = 101 ∨ c = 69) ∧ Sign es ∧ Digits ds ∧ ds ≠ []) ∧
    (s = sign ++ d ++ [46] ++ f ++ exp ∨ (f = [] ∧ s = sign ++ d ++ exp))

/-- One or more spaces or tabs. -/
def Blanks (s : Bytes) : Prop := s ≠ [] ∧ ∀ b ∈ s, b = 32 ∨ b = 9

instance (s : Bytes) : Decidable (Digits s) := by unfold Digits; infer_instance

instance (s : Bytes) (n : Nat) : Decidable (NatText s n) := by unfold NatText; infer_instance

instance (s : Bytes) : Decidable (Blanks s) := by unfold Blanks; infer_instance

/-- A text without white space. -/
def Word (s : Bytes) : Prop := s ≠ [] ∧ ∀ b ∈ s, isAsciiWs b = false

instance (s : Bytes) : Decidable (Word s) := by unfold Word; infer_instance

/-- A text consisting of the given words, each of them after blanks. -/
inductive Fields : List Bytes → Bytes → Prop
  | nil : Fields [] []
  | cons {bl w text : Bytes} {ws : List Bytes} : Blanks bl → Word w → Fields ws text → Fields (w :: ws) (bl ++ w ++ text)

/-- The rest of a line: empty, or white space and any other text. -/
def LineRest (s : Bytes) : Prop := (10 : UInt8) ∉ s ∧ ∀ b, s.head? = some b → isAsciiWs b = true

instance (s : Bytes) : Decidable (LineRest s) :=
  decidable_of_iff ((10 : UInt8) ∉ s ∧ (s.head?.all isAsciiWs) = true) (by
    unfold LineRest
    cases s <;> simp)

/-- The given digits, and what an optional sign and an optional exponent look like. -/
theorem decimal_of_digits {d : Bytes} (h : Digits d) (hne : d ≠ []) : Decimal d :=
  ⟨[], d, [], [], Or.inl rfl, h, by simp [Digits], by simpa using hne, Or.inl rfl, Or.inr ⟨rfl, by simp⟩⟩

theorem intText_of_digits {d : Bytes} {n : Nat} (h : Digits d) (hne : d ≠ []) (hv : decimalValue d = n) (hn : n < 2 ^ 31) :
    IntText d n :=
  ⟨[], d, rfl, Or.inl rfl, h, hne, by simp [hv], by omega, by exact_mod_cast hn⟩

/-- A line break does not occur, white space does at the beginning. -/
theorem lineRest_nil : LineRest [] := ⟨by simp, by simp⟩

/-! ### Events -/

/-- The event has the given weights and outgoing particles: each of the particle types is listed once, in descending order,
with the momenta of the particles of this type. -/
structure Describes (weights : List K) (particles : List (ℤ × V)) (ev : Event K V) : Prop where
  weights_eq : ev.weights = weights
  types_descending : (ev.outgoingByPid.map Prod.fst).Pairwise (fun a b => a > b)
  types : ∀ t, (∃ p, (t, p) ∈ particles) ↔ ∃ v, (t, v) ∈ ev.outgoingByPid
  momenta : ∀ t v, (t, v) ∈ ev.outgoingByPid → v.Perm ((particles.filter (fun x => x.1 = t)).map Prod.snd)

/-- The texts of a particle's momentum components. -/
structure MomentumText where
  (px py pz e : Bytes)

/-- They are numbers. -/
def MomentumText.Ok (p : MomentumText) : Prop := Decimal p.px ∧ Decimal p.py ∧ Decimal p.pz ∧ Decimal p.e

/-- The momentum, where `value` reads a number and `momentum` takes the energy, x, y and z components. -/
def MomentumText.vector (value : Bytes → K) (momentum : K → K → K → K → V) (p : MomentumText) : V :=
  momentum (value p.e) (value p.px) (value p.py) (value p.pz)

/-- A particle in an event record. -/
structure ParticleEntry where
  (id status : ℤ)
  p : MomentumText

/-- The particles with the given status. -/
def withStatus (status : ℤ) (value : Bytes → K) (momentum : K → K → K → K → V) (ps : List ParticleEntry) : List (ℤ × V) :=
  (ps.filter (fun x => x.status = status)).map (fun x => (x.id, x.p.vector value momentum))

/-! ### HepMC2 -/

/-- The lines of a HepMC2 record after the first. -/
inductive HepMCLine
  /-- Vertices (`V`), PDF information (`F`), heavy ions (`H`), cross sections (`C`) and the end of the event listing. -/
  | other
  /-- Weight names (`N`). -/
  | names (names : List Bytes)
  /-- Units (`U`), true for GeV, false for MeV. -/
  | units (gev : Bool)
  /-- A particle (`P`). -/
  | particle (p : ParticleEntry)

/-- Names in quotation marks, each of them after blanks. -/
inductive QuotedNames : List Bytes → Bytes → Prop
  | nil : QuotedNames [] []
  | cons {bl name text : Bytes} {names : List Bytes} : Blanks bl → (34 : UInt8) ∉ name → (10 : UInt8) ∉ name →
      QuotedNames names text → QuotedNames (name :: names) (bl ++ [34] ++ name ++ [34] ++ text)

/-- `text` is the given line. -/
def HepMCLine.IsText : HepMCLine → Bytes → Prop
  | .other, text => (10 : UInt8) ∉ text ∧ ∃ b, text.head? = some b ∧ b ∈ ascii "VFHC"
  | .names ns, text => ∃ bl n quoted rest, text = ascii "N" ++ bl ++ n ++ quoted ++ rest ∧ Blanks bl ∧
      NatText n ns.length ∧ QuotedNames ns quoted ∧ LineRest rest
  | .units gev, text => ∃ bl rest, text = ascii "U" ++ bl ++ (if gev then ascii "GEV" else ascii "MEV") ++ rest ∧ Blanks bl ∧
      LineRest rest
  | .particle p, text => ∃ barcode id mass status fields rest, text = ascii "P" ++ fields ++ rest ∧
      Fields [barcode, id, p.p.px, p.p.py, p.p.pz, p.p.e, mass, status] fields ∧
      IntText id p.id ∧ IntText status p.status ∧ p.p.Ok ∧ LineRest rest

/-- A HepMC2 record: the texts of the weights, and the lines after the first. -/
structure HepMCRecord where
  weights : List Bytes
  lines : List HepMCLine

/-- Each of the lines after a line break. -/
inductive HepMCLines : List HepMCLine → Bytes → Prop
  | nil : HepMCLines [] []
  | cons {l : HepMCLine} {ls : List HepMCLine} {line text : Bytes} : l.IsText line → HepMCLines ls text →
      HepMCLines (l :: ls) ([10] ++ line ++ text)

/-- `text` is the given record: `E` with ten entries, the number of random states, the random states, the number of weights
and the weights; then the other lines. There may be a line break at the end. -/
def HepMCRecord.IsText (r : HepMCRecord) (text : Bytes) : Prop :=
  ∃ entries nstates states nweights fields rest lines eol,
    text = ascii "E" ++ fields ++ rest ++ lines ++ eol ∧
    Fields (entries ++ [nstates] ++ states ++ [nweights] ++ r.weights) fields ∧
    entries.length = 10 ∧ NatText nstates states.length ∧ NatText nweights r.weights.length ∧
    (∀ w ∈ r.weights, Decimal w) ∧ LineRest rest ∧ HepMCLines r.lines lines ∧ (eol = [] ∨ eol = [10])

/-- The particles in a record. -/
def HepMCRecord.particles (r : HepMCRecord) : List ParticleEntry :=
  r.lines.filterMap (fun l => match l with | .particle p => some p | _ => none)

/-- The weight names, usually on one line. -/
def HepMCRecord.names (r : HepMCRecord) : List (List Bytes) :=
  r.lines.filterMap (fun l => match l with | .names ns => some ns | _ => none)

/-- Whether energies are in GeV: what the last line with units says, otherwise yes. -/
def HepMCRecord.gev (r : HepMCRecord) : Bool :=
  (r.lines.filterMap (fun l => match l with | .units gev => some gev | _ => none)).getLast?.getD true

/-! ### LHEF -/

/-- `text` is a particle line of an LHEF record, without the line break. -/
def LhefParticle (p : ParticleEntry) (text : Bytes) : Prop :=
  ∃ bl id status mother1 mother2 colour1 colour2 fields rest, text = bl ++ id ++ fields ++ rest ∧ (∀ b ∈ bl, b = 32 ∨ b = 9) ∧
    IntText id p.id ∧ IntText status p.status ∧ p.p.Ok ∧
    Fields [status, mother1, mother2, colour1, colour2, p.p.px, p.p.py, p.p.pz, p.p.e] fields ∧ LineRest rest

/-- Particle lines, each of them with a line break. -/
inductive LhefLines : List ParticleEntry → Bytes → Prop
  | nil : LhefLines [] []
  | cons {p : ParticleEntry} {ps : List ParticleEntry} {line text : Bytes} : LhefParticle p line → LhefLines ps text →
      LhefLines (p :: ps) (line ++ [10] ++ text)

/-- `text` is the LHEF record with the given weight and particles: a line with the opening tag; the number of particles, the
process, the weight and other entries; the particles; any other text, for example the closing tag. -/
def LhefRecord (weight : Bytes) (ps : List ParticleEntry) (text : Bytes) : Prop :=
  ∃ ws attributes bl n process fields rest lines more,
    text = ws ++ ascii "<event" ++ attributes ++ [10] ++ bl ++ n ++ fields ++ rest ++ [10] ++ lines ++ more ∧
    (∀ b ∈ ws, isAsciiWs b = true) ∧ (10 : UInt8) ∉ attributes ∧ (∀ b ∈ bl, b = 32 ∨ b = 9) ∧ NatText n ps.length ∧
    Fields [process, weight] fields ∧ Decimal weight ∧ LineRest rest ∧ LhefLines ps lines

/-! ### STRIPPER XML -/

/-- `text` is a particle in a STRIPPER XML record, where `pre` is between the tag and the energy. -/
def StripperParticle (pre : Bytes) (p : ParticleEntry) (text : Bytes) : Prop :=
  ∃ ws bl status id bl',
    text = ws ++ ascii "<p" ++ bl ++ ascii "id=\"" ++ status ++ ascii "," ++ id ++ ascii "\">" ++ pre ++
      p.p.e ++ ascii "," ++ p.p.px ++ ascii "," ++ p.p.py ++ ascii "," ++ p.p.pz ++ bl' ++ ascii "</p>" ∧
    (∀ b ∈ ws, b = 32 ∨ b = 9 ∨ b = 13 ∨ b = 10) ∧ (∀ b ∈ bl, b = 32 ∨ b = 9) ∧ (∀ b ∈ bl', b = 32 ∨ b = 9) ∧
    IntText status p.status ∧ IntText id p.id ∧ p.p.Ok

/-- Particles, where `Pre` is satisfied by what is between tag and energy. -/
inductive StripperParticles (Pre : Bytes → Prop) : List ParticleEntry → Bytes → Prop
  | nil : StripperParticles Pre [] []
  | cons {p : ParticleEntry} {ps : List ParticleEntry} {pre t text : Bytes} : Pre pre → StripperParticle pre p t →
      StripperParticles Pre ps text → StripperParticles Pre (p :: ps) (t ++ text)

/-- `text` is the STRIPPER XML record with the given weight and particles: `<se w="weight" ...> particles </se>`. -/
def StripperRecord (Pre : Bytes → Prop) (weight : Bytes) (ps : List ParticleEntry) (text : Bytes) : Prop :=
  ∃ bl attributes particles ws more,
    text = ascii "<se" ++ bl ++ ascii "w=\"" ++ weight ++ ascii "\"" ++ attributes ++ ascii ">" ++ particles ++ ws ++
      ascii "</se>" ++ more ∧
    Blanks bl ∧ (62 : UInt8) ∉ attributes ∧ Decimal weight ∧ StripperParticles Pre ps particles ∧
    (∀ b ∈ ws, b = 32 ∨ b = 9 ∨ b = 13 ∨ b = 10)

end Cres.Spec

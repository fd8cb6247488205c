import Verif.Proofs.CombinedIO
import Verif.Proofs.FileReader

/-!
From the records in a file to the state of a reader.
-/

namespace Cres

open Spec

variable {K V P : Type*}

/-- Whether a result is `Ok`. -/
def Outcome.isOk {E A : Type*} : Outcome E A → Bool
  | .ok _ => true
  | _ => false

theorem Outcome.isOk_iff {E A : Type*} {x : Outcome E A} : x.isOk = true ↔ ∃ a, x = .ok a := by
  cases x <;> simp [Outcome.isOk]

/-- Each record takes something from the source. -/
theorem HepMC.readRaw_lt {src rest : Bytes} {x : Outcome ReadError Bytes} (h : HepMC.readRaw src = (some x, rest)) :
    rest.length < src.length := by
  have hs := readTo_spec markE_last (ascii "E") src
  unfold HepMC.readRaw at h
  generalize readTo 69 markE (ascii "E") src = l at hs h
  have hE : (ascii "E").length = 1 := by decide
  have ha := congrArg List.length hs.append
  simp only [List.length_append, hE] at ha
  cases he : l.eof with
  | true =>
    simp only [he, if_true] at h
    split at h
    · next h1 =>
      simp only [Prod.mk.injEq] at h
      rw [← h.2]
      omega
    · simp at h
  | false =>
    simp only [he, Bool.false_eq_true, if_false, Prod.mk.injEq] at h
    have := (hs.found he).length_le
    have hm : markE.length = 2 := by decide
    rw [← h.2]
    omega

theorem Lhef.readRaw_lt {src rest : Bytes} {x : Outcome ReadError Bytes} (h : Lhef.readRaw src = (some x, rest)) :
    rest.length < src.length := by
  have hs := readTo_spec markEvent_last [] src
  unfold Lhef.readRaw at h
  generalize readTo 62 markEvent [] src = l at hs h
  have ha := congrArg List.length hs.append
  simp only [List.length_append, List.length_nil] at ha
  cases he : l.eof with
  | true => simp [he] at h
  | false =>
    simp only [he, Bool.false_eq_true, if_false, Prod.mk.injEq] at h
    have := (hs.found he).length_le
    have hm : markEvent.length = 8 := by decide
    rw [← h.2]
    omega

theorem Stripper.readRawLoop_rest_le : ∀ (fuel : Nat) (buf src : Bytes),
    (Stripper.readRawLoop fuel buf src).rest.length ≤ src.length := by
  intro fuel
  induction fuel with
  | zero => intro buf src; simp [Stripper.readRawLoop]
  | succ fuel ih =>
    intro buf src
    rw [Stripper.readRawLoop]
    split
    · simp
    · next hne =>
      have := readUntil_length_lt (d := 101) hne
      simp only
      split
      · simp only; omega
      · exact (ih _ _).trans (by omega)

theorem Stripper.readRaw_lt {src rest : Bytes} {x : Outcome ReadError Bytes} (h : Stripper.readRaw src = (some x, rest)) :
    rest.length < src.length := by
  have hne : src ≠ [] := by
    rintro rfl
    have : Stripper.readRaw [] = (none, []) := by decide
    rw [this] at h
    simp at h
  have hlt := readUntil_length_lt (d := 101) hne
  have hle : (Stripper.readRawLoop (src.length + 1) markSe src).rest.length < src.length := by
    rw [Stripper.readRawLoop, if_neg hne]
    simp only
    split
    · exact hlt
    · exact lt_of_le_of_lt (Stripper.readRawLoop_rest_le _ _ _) hlt
  unfold Stripper.readRaw at h
  simp only at h
  split at h
  · simp at h
  · simp only [Prod.mk.injEq] at h
    rw [← h.2]
    exact hle

/-- If everything can be read by repeated calls, `Reads` holds. -/
theorem reads_of_readAll {debug : Bool} {format : FileFormat} {readRaw : Bytes → Option (Outcome ReadError Bytes) × Bytes}
    (hlt : ∀ {src rest x}, readRaw src = (some x, rest) → rest.length < src.length) (header : Bytes) (rem : Option Nat)
    (hr : ∀ src, Reader.readRaw debug format ⟨src, header, rem⟩ = ((readRaw src).1, ⟨(readRaw src).2, header, rem⟩)) :
    ∀ (n : Nat) (src : Bytes) (records : List Bytes), src.length < n → readAllLoop readRaw n src = .ok records →
    Reads debug format ⟨src, header, rem⟩ records := by
  intro n
  induction n with
  | zero => intro src records h; omega
  | succ n ih =>
    intro src records hlen h
    have hrs := hr src
    rw [readAllLoop_succ] at h
    cases hx : readRaw src with
    | mk a rest =>
      rw [hx] at h hrs
      cases a with
      | none =>
        simp only [Outcome.ok.injEq] at h
        subst h
        exact .done (by rw [hrs])
      | some a =>
        cases a with
        | err e => simp at h
        | panic => simp at h
        | ok r =>
          simp only [Outcome.map_eq_ok] at h
          obtain ⟨records', h1, rfl⟩ := h
          exact .more hrs (ih rest records' (by have := hlt hx; omega) h1)

/-- The same for STRIPPER XML, where the number of remaining records is counted. -/
theorem reads_of_readAll_stripper {debug : Bool} (header : Bytes) :
    ∀ (n : Nat) (src : Bytes) (records : List Bytes) (m : Nat), src.length < n →
    readAllLoop Stripper.readRaw n src = .ok records → (debug = true → records.length ≤ m) →
    Reads debug .stripperXml ⟨src, header, some m⟩ records := by
  intro n
  induction n with
  | zero => intro src records m h; omega
  | succ n ih =>
    intro src records m hlen h hm
    rw [readAllLoop_succ] at h
    cases hx : Stripper.readRaw src with
    | mk a rest =>
      rw [hx] at h
      cases a with
      | none =>
        simp only [Outcome.ok.injEq] at h
        subst h
        exact .done (by simp [Reader.readRaw, hx])
      | some a =>
        cases a with
        | err e => simp at h
        | panic => simp at h
        | ok r =>
          simp only [Outcome.map_eq_ok] at h
          obtain ⟨records', h1, rfl⟩ := h
          obtain ⟨m', hm', hm''⟩ : ∃ m', Stripper.decRemaining debug m = some m' ∧ (debug = true → records'.length ≤ m') := by
            unfold Stripper.decRemaining
            simp only [List.length_cons] at hm
            cases debug with
            | true =>
              simp only [forall_const] at hm
              exact ⟨m - 1, by rw [if_neg (by omega)], fun _ => by omega⟩
            | false => by_cases h0 : m = 0 <;> simp [h0]
          refine .more (r' := ⟨rest, header, some m'⟩) ?_ (ih rest records' m' (by have := Stripper.readRaw_lt hx; omega) h1 hm'')
          simp [Reader.readRaw, hx, hm']

theorem reads_hepmc {debug : Bool} {header src : Bytes} {records : List Bytes}
    (h : readAllLoop HepMC.readRaw (src.length + 1) src = .ok records) :
    Reads debug .hepmc2 ⟨src, header, none⟩ records :=
  reads_of_readAll HepMC.readRaw_lt header none (fun _ => rfl) _ _ _ (by omega) h

theorem reads_lhef {debug : Bool} {header src : Bytes} {records : List Bytes}
    (h : readAllLoop Lhef.readRaw (src.length + 1) src = .ok records) :
    Reads debug .lhef ⟨src, header, none⟩ records :=
  reads_of_readAll Lhef.readRaw_lt header none (fun _ => rfl) _ _ _ (by omega) h

/-- A HepMC2 file that can be read. -/
theorem readable_hepmc {cfg : IOConfig K V} {content header : Bytes} {records : List Bytes}
    (hd : detectFormat cfg.feat (some (cfg.firstBuffer content)) = .ok .hepmc2)
    (h : HepMC.readFile content = (header, .ok records)) : Readable cfg content ⟨.hepmc2, header, records⟩ := by
  simp only [HepMC.readFile, Prod.mk.injEq] at h
  exact ⟨hd, _, rfl, h.1, rfl, reads_hepmc h.2⟩

/-- A Les Houches Event File that can be read. -/
theorem readable_lhef {cfg : IOConfig K V} {content header : Bytes} {records : List Bytes}
    (hd : detectFormat cfg.feat (some (cfg.firstBuffer content)) = .ok .lhef)
    (h : Lhef.readFile content = (header, .ok records)) : Readable cfg content ⟨.lhef, header, records⟩ := by
  simp only [Lhef.readFile, Prod.mk.injEq] at h
  exact ⟨hd, _, rfl, h.1, rfl, reads_lhef h.2⟩

/-- A STRIPPER XML file that can be read. -/
theorem readable_stripper {cfg : IOConfig K V} {content header : Bytes} {records : List Bytes} {name : Bytes} {n m : Nat} {s : K}
    (hd : detectFormat cfg.feat (some (cfg.firstBuffer content)) = .ok .stripperXml)
    (h : Stripper.readFile cfg.ctx.debug content = some (header, .ok records))
    (hx : cfg.xmlInfo header = .ok (.eventrecord name n m)) (hs : cfg.scaling name = some s)
    (hm : cfg.ctx.debug = true → records.length ≤ m) : Readable cfg content ⟨.stripperXml s, header, records⟩ := by
  simp only [Stripper.readFile, Option.map_eq_some_iff, Prod.mk.injEq] at h
  obtain ⟨⟨header', src⟩, h1, h2, h3⟩ := h
  simp only at h2 h3
  subst h2
  refine ⟨hd, ⟨src, header', some m⟩, ?_, rfl, ?_, reads_of_readAll_stripper header' _ _ _ m (by omega) h3 hm⟩
  · simp [Reader.new, Kind.format, h1, Outcome.ofOption, hx]
  · simp [Kind.find, Kind.format, hx, hs]

end Cres

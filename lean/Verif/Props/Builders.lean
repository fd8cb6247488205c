import Verif.Spec.Builders
import Verif.Props.CommandLine

/-!
# C116: options of resamplers in the library
-/

namespace Cres

open Spec Builders Options

variable {F C Dist : Type*}

theorem lastValue_append {α β : Type*} (default : α) (set : β → Option α) (calls : List β) (c : β) :
    lastValue default set (calls ++ [c]) = (set c).getD (lastValue default set calls) := by
  unfold lastValue
  rw [List.filterMap_append]
  cases h : set c <;> simp [h]

/-- **C116**: whatever methods of `DefaultResamplerBuilder` are called, in any order and any number of times, the resampler uses the last value for each
option, or the default if there is none: the distance with `ptweight` 0, the most negative event first, no limit on the size of
cells, no collector, and the tree search. -/
theorem C116_default [Zero F] (eucl : F → Dist) (calls : List (DefaultCall F C)) :
    let r := (calls.foldl (fun b c => c.apply b) DefaultResamplerBuilder.default).build.resampler eucl
    r.distance = eucl (lastValue 0 DefaultCall.asPtweight calls) ∧
    r.seeds = lastValue .mostNegative DefaultCall.asStrategy calls ∧
    r.maxCellSize = lastValue none DefaultCall.asMaxCellSize calls ∧
    r.observer = some (lastValue none DefaultCall.asCollector calls) ∧
    r.search = lastValue .tree DefaultCall.asSearch calls := by
  induction calls using List.reverseRecOn with
  | nil => exact ⟨rfl, rfl, rfl, rfl, rfl⟩
  | append_singleton calls c ih =>
    rw [List.foldl_append, List.foldl_cons, List.foldl_nil]
    simp only [lastValue_append]
    obtain ⟨h1, h2, h3, h4, h5⟩ := ih
    generalize calls.foldl (fun b c => c.apply b) DefaultResamplerBuilder.default = b at *
    cases c with
    | ptweight v => exact ⟨rfl, h2, h3, h4, h5⟩
    | strategy v => exact ⟨h1, rfl, h3, h4, h5⟩
    | maxCellSize v => exact ⟨h1, h2, rfl, h4, h5⟩
    | collector v => exact ⟨h1, h2, h3, rfl, h5⟩
    | search v => exact ⟨h1, h2, h3, h4, rfl⟩

/-- **C116** for `ResamplerBuilder`. -/
theorem C116_builder [Zero F] (eucl : F → Dist) (calls : List (BuilderCall F C Dist)) :
    let r := (calls.foldl (fun b c => c.apply b) (ResamplerBuilder.default eucl)).build
    r.distance = lastValue (eucl 0) BuilderCall.asDistance calls ∧
    r.seeds = lastValue .mostNegative BuilderCall.asSeeds calls ∧
    r.maxCellSize = lastValue none BuilderCall.asMaxCellSize calls ∧
    r.observer = lastValue none BuilderCall.asObserver calls ∧
    r.search = lastValue .tree BuilderCall.asSearch calls := by
  induction calls using List.reverseRecOn with
  | nil => exact ⟨rfl, rfl, rfl, rfl, rfl⟩
  | append_singleton calls c ih =>
    rw [List.foldl_append, List.foldl_cons, List.foldl_nil]
    simp only [lastValue_append]
    obtain ⟨h1, h2, h3, h4, h5⟩ := ih
    generalize calls.foldl (fun b c => c.apply b) (ResamplerBuilder.default eucl) = b at *
    cases c with
    | distance v => exact ⟨rfl, h2, h3, h4, h5⟩
    | seeds v => exact ⟨h1, rfl, h3, h4, h5⟩
    | maxCellSize v => exact ⟨h1, h2, rfl, h4, h5⟩
    | observer v => exact ⟨h1, h2, h3, rfl, h5⟩
    | search v => exact ⟨h1, h2, h3, h4, rfl⟩

theorem filterMap_eq_of_perm {α β : Type*} {calls calls' : List β} (hp : calls.Perm calls') (set : β → Option α)
    (h : (calls.filterMap set).length ≤ 1) : calls.filterMap set = calls'.filterMap set := by
  have hq := hp.filterMap set
  match hl : calls.filterMap set, h with
  | [], _ => rw [hl] at hq; exact hq.nil_eq
  | [a], _ => rw [hl] at hq; exact hq.singleton_eq

/-- **C116**: if each option is set at most once the order of the calls does not matter. -/
theorem C116_order [Zero F] (eucl : F → Dist) {calls calls' : List (DefaultCall F C)} (hp : calls.Perm calls')
    (h1 : (calls.filterMap DefaultCall.asPtweight).length ≤ 1) (h2 : (calls.filterMap DefaultCall.asStrategy).length ≤ 1)
    (h3 : (calls.filterMap DefaultCall.asMaxCellSize).length ≤ 1) (h4 : (calls.filterMap DefaultCall.asCollector).length ≤ 1)
    (h5 : (calls.filterMap DefaultCall.asSearch).length ≤ 1) :
    (calls.foldl (fun b c => c.apply b) DefaultResamplerBuilder.default).build.resampler eucl =
      (calls'.foldl (fun b c => c.apply b) DefaultResamplerBuilder.default).build.resampler eucl := by
  obtain ⟨a1, a2, a3, a4, a5⟩ := C116_default eucl calls
  obtain ⟨b1, b2, b3, b4, b5⟩ := C116_default eucl calls'
  unfold lastValue at *
  rw [← filterMap_eq_of_perm hp _ h1] at b1
  rw [← filterMap_eq_of_perm hp _ h2] at b2
  rw [← filterMap_eq_of_perm hp _ h3] at b3
  rw [← filterMap_eq_of_perm hp _ h4] at b4
  rw [← filterMap_eq_of_perm hp _ h5] at b5
  generalize (calls.foldl (fun b c => c.apply b) DefaultResamplerBuilder.default).build.resampler eucl = r at *
  generalize (calls'.foldl (fun b c => c.apply b) DefaultResamplerBuilder.default).build.resampler eucl = r' at *
  obtain ⟨x1, x2, x3, x4, x5⟩ := r
  obtain ⟨y1, y2, y3, y4, y5⟩ := r'
  simp only at a1 a2 a3 a4 a5 b1 b2 b3 b4 b5
  rw [a1, a2, a3, a4, a5, b1, b2, b3, b4, b5]

/-- **C116**: the command line program resamples with the options that were given. -/
theorem C116_programs {F : Type} {K V D : Type*} [Zero F] [Zero K] {l : Libraries F K V D} {o : CresOpt F K} {s : CresSettings K V D}
    (h : o.settings l = some s) :
    let r := (cliResampler (C := C) o).resampler l.distance
    s.distance = r.distance ∧ s.strategy = r.seeds ∧ s.search = l.searchAlgo r.search ∧ s.maxCellSize = r.limit l.size l.f64Max := by
  unfold CresOpt.settings at h
  rw [Option.map_eq_some_iff] at h
  obtain ⟨_, -, rfl⟩ := h
  exact ⟨rfl, rfl, rfl, rfl⟩

/-- **C116**: a program that uses the C interface resamples with the options that were given, and the defaults for the others. -/
theorem C116_c {F : Type} {K V D : Type*} [Zero F] [Zero K] (l : Libraries F K V D) (o : COpt F K V D) (infoLog : Bool)
    (dist : Event K V → Event K V → D) :
    let s := (o.opt l infoLog).settings dist
    let r := cResampler (C := C) l.distance o.maxCellSize dist o.neighbourSearch
    s.distance = r.distance ∧ s.strategy = r.seeds ∧ s.search = l.searchAlgo r.search ∧ s.maxCellSize = r.limit l.size l.f64Max ∧
      r.seeds = .mostNegative ∧ r.observer = none :=
  ⟨rfl, rfl, rfl, rfl, rfl, rfl⟩

/-- Options that are set twice, in an order that differs from the one of the fields. -/
example :
    let calls : List (DefaultCall Nat Unit) := [.search .naive, .ptweight 3, .maxCellSize (some 7), .ptweight 5]
    let r := (calls.foldl (fun b c => c.apply b) DefaultResamplerBuilder.default).build.resampler (fun w => w + 100)
    r = ⟨.mostNegative, 105, .naive, some none, some 7⟩ := rfl

/-- Options in different orders. -/
example :
    let calls : List (DefaultCall Nat Unit) := [.search .naive, .ptweight 3, .maxCellSize (some 7)]
    let calls' : List (DefaultCall Nat Unit) := [.maxCellSize (some 7), .ptweight 3, .search .naive]
    calls.Perm calls' ∧ (calls.filterMap DefaultCall.asPtweight).length ≤ 1 ∧ (calls.filterMap DefaultCall.asStrategy).length ≤ 1 ∧
      (calls.filterMap DefaultCall.asMaxCellSize).length ≤ 1 ∧ (calls.filterMap DefaultCall.asCollector).length ≤ 1 ∧
      (calls.filterMap DefaultCall.asSearch).length ≤ 1 :=
  ⟨(List.reverse_perm _).symm, by decide, by decide, by decide, by decide, by decide⟩

/-- The order matters if an option is set twice. -/
example :
    let run := fun (calls : List (DefaultCall Nat Unit)) =>
      (calls.foldl (fun b c => c.apply b) DefaultResamplerBuilder.default).build.resampler (fun w => w + 100)
    (run [.ptweight 3, .ptweight 5]).distance ≠ (run [.ptweight 5, .ptweight 3]).distance := by decide

end Cres

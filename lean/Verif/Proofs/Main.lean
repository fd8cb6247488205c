import Verif.Proofs.Paths
import Verif.Proofs.Program

/-!
Lemmas about complete runs.
-/

namespace Cres

open Spec CombinedIO Program

variable {K V D P : Type*}

/-- A run changes no other files than the output files, whatever happens. -/
theorem programRun_other [Zero D] [Zero K] [One K] [Add K] [Mul K] [Div K] [NatCast K] [LinearOrder K] [LinearOrder V] [DecidableEq P] {p : Program K V D}
    {files : List (P × P)} {fs fs' : FS P} {events : Option (List (Event K V))} {ws : Option (List (Weights K))}
    {res : Outcome (CresError IOError) Unit} (h : p.Run files fs events ws res fs') :
    ∀ q, q ∉ files.map Prod.snd → fs' q = fs q := by
  have hnew := new_inv p.io files fs
  have hread : ∀ {s fs1 r x}, p.ReadsEvents s fs1 r x → CombinedIO.Inv files fs s fs1 → CombinedIO.Inv files fs x.1 x.2 := by
    intro s fs1 r x hr hi
    have key : ∀ {n o}, s.recordItems p.io n fs1 = (o, x) → CombinedIO.Inv files fs x.1 x.2 := by
      intro n o hno
      obtain ⟨k, hk⟩ := recordItems_state p.io n s fs1
      rw [hno] at hk
      simp only at hk
      rw [hk]
      exact history_inv p.io _ hi
    cases hr with
    | panic h1 => exact key h1
    | done h1 _ _ => exact key h1
  cases h with
  | createErr h1 | createPanic h1 => rw [h1] at hnew; exact hnew.other
  | readErr h1 h2 | readPanic h1 h2 => rw [h1] at hnew; exact (hread h2 hnew).other
  | weightsErr h1 h2 _ | weightsPanic h1 h2 _ => rw [h1] at hnew; exact (hread h2 hnew).other
  | update h1 h2 _ => rw [h1] at hnew; exact (updateAll_inv p.io _ (hread h2 hnew)).other

theorem scanFiles_files (cfg : IOConfig K V) (fs : FS P) : ∀ {l : List (Option (P × P))}
    {r : List ((P × P) × Option (Stripper.XmlTag K))}, scanFiles cfg fs l = .ok r → l = r.map (fun x => some x.1)
  | [], r, h => by
    simp only [scanFiles, Outcome.ok.injEq] at h
    subst h
    rfl
  | none :: l, r, h => by simp [scanFiles] at h
  | some f :: l, r, h => by
    rw [scanFiles] at h
    cases hc : fs f.1 with
    | none => rw [hc] at h; simp at h
    | some content =>
      rw [hc] at h
      simp only [Outcome.bind_eq_ok] at h
      obtain ⟨tag, -, h⟩ := h
      cases hs : scanFiles cfg fs l with
      | ok r' =>
        rw [hs] at h
        simp only [Outcome.map_ok, Outcome.ok.injEq] at h
        subst h
        rw [scanFiles_files cfg fs hs]
        rfl
      | err e => rw [hs] at h; simp at h
      | panic => rw [hs] at h; simp at h

theorem prepareFiles_mem [Zero K] [One K] [Neg K] [Div K] [NatCast K] {cfg io : IOConfig K V} {fs : FS P} {l : List (Option (P × P))} {files : List (P × P)}
    (h : prepareFiles cfg fs l = .ok (files, io)) : ∀ f ∈ files, some f ∈ l := by
  unfold prepareFiles at h
  split_ifs at h with h1 h2
  · cases hs : scanFiles cfg fs l with
    | ok r =>
      rw [hs] at h
      simp only [Outcome.map_ok, Outcome.ok.injEq, Prod.mk.injEq] at h
      obtain ⟨rfl, -⟩ := h
      intro f hf
      simp only [Stripper.extractScaling, List.mem_map, List.mem_filter] at hf
      obtain ⟨x, ⟨hx, -⟩, rfl⟩ := hf
      rw [scanFiles_files cfg fs hs]
      exact List.mem_map.2 ⟨x, hx, rfl⟩
    | err e => rw [hs] at h; simp at h
    | panic => rw [hs] at h; simp at h
  · simp only [Outcome.ok.injEq, Prod.mk.injEq] at h
    obtain ⟨rfl, -⟩ := h
    intro f hf
    simpa using hf

theorem scanFiles_tags (cfg : IOConfig K V) (fs : FS P) : ∀ {l : List (P × P)} {tags : List (Option (Stripper.XmlTag K))},
    List.Forall₂ (fun f t => ∃ c, fs f.1 = some c ∧ HasTag cfg c t) l tags →
    scanFiles cfg fs (l.map some) = .ok (l.zip tags)
  | _, _, .nil => rfl
  | f :: l, t :: tags, .cons ⟨c, hc, ht⟩ h => by
    rw [List.map_cons, scanFiles, hc]
    simp only [scanFiles_tags cfg fs h]
    cases t with
    | none =>
      rw [if_neg ht]
      rfl
    | some t =>
      rw [if_pos ht.1, ht.2]
      rfl

theorem extractScaling_snd [Zero K] [One K] [Neg K] [Div K] [NatCast K] {α β : Type*} {l : List (α × Option (Stripper.XmlTag K))}
    {l' : List (β × Option (Stripper.XmlTag K))} (h : l.map Prod.snd = l'.map Prod.snd) :
    (Stripper.extractScaling l).2 = (Stripper.extractScaling l').2 := by
  unfold Stripper.extractScaling
  simp only [h]

theorem eventInputs_none {α : Type*} : ∀ {l : List α} {tags : List (Option (Stripper.XmlTag K))},
    l.length = tags.length → (∀ t ∈ tags, t = none) → eventInputs l tags = l
  | [], _, _, _ => by simp [eventInputs]
  | a :: l, [], h, _ => by simp at h
  | a :: l, t :: tags, h, hn => by
    have ih := eventInputs_none (l := l) (tags := tags) (by simpa using h) (fun t ht => hn t (by simp [ht]))
    have := hn t (by simp)
    subst this
    unfold eventInputs at ih ⊢
    rw [List.zip_cons_cons, List.filter_cons, 
      if_pos (show (!IsNormalization ((a, none) : α × Option (Stripper.XmlTag K)).2) = true from rfl), List.map_cons, ih]

theorem prepareFiles_tags [Zero K] [One K] [Neg K] [Div K] [NatCast K] {cfg : IOConfig K V} {fs : FS P} {l : List (P × P)}
    {tags : List (Option (Stripper.XmlTag K))}
    (h : List.Forall₂ (fun f t => ∃ c, fs f.1 = some c ∧ HasTag cfg c t) l tags)
    (hx : cfg.feat.stripperXml = true ∨ ∀ t ∈ tags, t = none) :
    prepareFiles cfg fs (l.map some) = .ok (eventInputs l tags, { cfg with scaling := channelScales tags }) := by
  unfold prepareFiles
  have hl := h.length_eq
  have hsnd : (l.zip tags).map Prod.snd = (tags.map fun t => ((), t)).map Prod.snd := by
    rw [List.map_snd_zip (by omega)]
    simp [Function.comp_def]
  split_ifs with h1 h2
  · rw [scanFiles_tags cfg fs h, Outcome.map_ok, extractScaling_snd hsnd]
    congr 2
    simp only [Stripper.extractScaling, eventInputs]
    congr 2
    funext x
    rcases x with ⟨a, _ | _ | _⟩ <;> rfl
  · have hx := hx.resolve_left h1
    rw [eventInputs_none hl hx]
    congr 2
    · simp
    · congr 1
      funext name
      have : ∀ (ts : List (Option (Stripper.XmlTag K))) (m : Stripper.ScalingMap K), (∀ t ∈ ts, t = none) →
          ts.foldl Stripper.scalingStep m = m := by
        intro ts
        induction ts with
        | nil => intros; rfl
        | cons t ts ih =>
          intro m ht
          have h0 := ht t (by simp)
          subst h0
          exact ih m fun t ht' => ht t (by simp [ht'])
      simp only [channelScales, Stripper.extractScaling, List.map_map, Function.comp_def, List.map_id', this tags [] hx]
      rfl
  · simp at h2

theorem eventInputs_map {α β : Type*} (g : α → β) : ∀ (l : List α) (tags : List (Option (Stripper.XmlTag K))),
    eventInputs (l.map g) tags = (eventInputs l tags).map g
  | [], _ => by simp [eventInputs]
  | a :: l, [] => by simp [eventInputs]
  | a :: l, t :: tags => by
    have ih := eventInputs_map g l tags
    unfold eventInputs at ih ⊢
    simp only [List.map_cons, List.zip_cons_cons, List.filter_cons]
    split_ifs
    · simp [ih]
    · exact ih

theorem eventInputs_sublist {α : Type*} : ∀ (l : List α) (tags : List (Option (Stripper.XmlTag K))),
    (eventInputs l tags).Sublist l
  | [], _ => by simp [eventInputs]
  | a :: l, [] => by simp [eventInputs]
  | a :: l, t :: tags => by
    have ih := eventInputs_sublist l tags
    unfold eventInputs at ih ⊢
    simp only [List.zip_cons_cons, List.filter_cons]
    split_ifs
    · simpa using ih
    · exact ih.cons _

end Cres

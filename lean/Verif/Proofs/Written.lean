import Verif.Proofs.Negative
import Verif.Props.Negative
import Verif.Spec.Written

/-!
The weights of single events in the output files.
-/

set_option linter.unusedSectionVars false

namespace Cres

open Spec CombinedIO Program

section

variable {K V D P : Type*} [Zero D] [LinearOrder D] [Zero K] [One K] [Add K] [Mul K] [Div K] [NatCast K] [LinearOrder K]
  [LinearOrder V] [DecidableEq P]

/-- The weights that are written for an event are those after resampling for the same event. -/
theorem event_written {p : Program K V D} (hg : GoodComponents p) (hun : p.unweight = .ok) {m : Nat} (hm0 : 0 < m)
    (hm1 : p.io.ctx.multi = false → m = 1) {ds : List (EventFile K V)}
    {events : List (Event K V)} (he : EventsRead p m ds events) {ws : List (Weights K)} {s : State D K}
    (hr : Reachable p.cfg (identified events).length (p.nearest (identified events)) (p.seeds (identified events))
      (memOf (identified events)) s) (hfin : s.Finished (p.seeds (identified events)))
    (hrun : runWeights p.cfg p.infoLog (fun _ => (.ok (withWeights (identified events) s.mem) : Outcome IOError _)) p.unweight
      events = .ok ws) (i : Nat) {ev : Event K V} (hev : (allEvents ds)[i]? = some ev) :
    (HasParticles p ev = true → ∃ j e, (identified events)[j]? = some e ∧ AsRead p i ev e ∧
      memOf (identified events) j = ev.weights ∧ ws[i]? = some (s.mem j) ∧ (s.mem j).length = m) ∧
    (HasParticles p ev = false → ws[i]? = some (defaultWeights p.cfg)) := by
  have hids : (events.map Event.id).Perm (List.range events.length) := by rw [he.length_eq]; exact he.ids
  have hu := read_weights hg hm0 hm1 he
  obtain ⟨resampled, final, h1, h2, h3, h4, h5⟩ := runWeights_entries hids hrun
  simp only [Outcome.ok.injEq] at h1
  rw [hun] at h2
  simp only [Outcome.ok.injEq] at h2
  subst h1
  subst h2
  have h4 := (h4 (withWeights_subCollection _ _) (List.Subperm.refl _)).2.2
  obtain ⟨A, hA⟩ := inv_reachable (hg.valid (identified events)) hu hr
  have hlt : i < events.length := by rw [he.length_eq]; exact (List.getElem?_eq_some_iff.1 hev).1
  obtain ⟨e, hem, rfl⟩ := List.mem_map.1 (hids.mem_iff.2 (List.mem_range.2 hlt))
  obtain ⟨e0, e1, g1, g2, g3, -⟩ := he.from_file e hem
  rw [g1, Option.some.injEq] at hev
  subst hev
  have hp : HasParticles p e0 = !e.outgoingByPid.isEmpty := by rw [HasParticles, g2, g3]
  rw [hp]
  constructor
  · intro hpart
    obtain ⟨j, hj⟩ := List.getElem?_of_mem (show e ∈ identified events from List.mem_filter.2 ⟨hem, hpart⟩)
    refine ⟨j, e, hj, ⟨e1, g2, g3⟩, ?_, ?_, ?_⟩
    · simp only [memOf, hj]
      rw [g3, ← hg.cluster _ _ g2]
      rfl
    · refine h4 { e with weights := s.mem j } (List.mem_of_getElem? (i := j) ?_)
      unfold withWeights
      rw [List.getElem?_mapIdx, hj]
      rfl
    · rw [finished_mem hA hfin]
      exact hA.uniform.length j (List.getElem?_eq_some_iff.1 hj).1
  · intro hpart
    refine h5 e.id hlt fun e' he' hee => ?_
    have hm : e.id ∈ (identified events).map Event.id := by
      rw [← hee]
      exact (withWeights_subCollection (identified events) s.mem).subset (List.mem_map_of_mem he')
    obtain ⟨e2, he2, hid2⟩ := List.mem_map.1 hm
    have hnd : (events.map Event.id).Nodup := hids.nodup_iff.2 List.nodup_range
    have hmem := List.mem_filter.1 he2
    have : e2 = e := List.inj_on_of_nodup_map hnd hmem.1 hem hid2
    subst this
    rw [hmem.2] at hpart
    simp at hpart

/-- Weights that change are those of events in cells of seeds. -/
theorem unchanged_outside {cfg : Cfg} {n L : Nat} {nearest : Nat → List (Nat × D)} {seeds : List Nat}
    (hv : ValidInput n nearest seeds) {mem : Mem K} (hu : Uniform cfg n L mem) {s : State D K}
    (h : Reachable cfg n nearest seeds mem s) (hf : s.Finished seeds) (i : Nat) (hi : i ∉ seeds)
    (hn : ∀ seed ∈ seeds, i ∉ (nearest seed).map Prod.fst) : s.mem i = mem i := by
  obtain ⟨A, hA⟩ := inv_reachable hv hu h
  have h1 := (C09_serialisable_any hv hu h hf).1
  have h2 : ∀ c ∈ s.log, i ∉ c.members := by
    intro c hc hic
    obtain ⟨t, seed, g1, -, ⟨m, hm⟩, -⟩ := inv_log_cells hA c hc
    have hse := List.mem_of_getElem? g1
    rcases List.mem_cons.1 (hm.mem_iff.1 hic) with g | g
    · exact hi (g ▸ hse)
    · exact hn seed hse (((List.take_sublist m _).map Prod.fst).subset g)
  generalize s.mem = mem' at h1
  generalize s.log = log at h1 h2
  clear hA hu h hf
  induction log generalizing mem with
  | nil =>
    simp only [List.foldlM_nil, Option.pure_def, Option.some.injEq] at h1
    rw [h1]
  | cons c cs ih =>
    simp only [List.foldlM_cons] at h1
    obtain ⟨mem1, h3, h4⟩ := Option.bind_eq_some_iff.1 h1
    rw [ih h4 fun c hc => h2 c (List.mem_cons_of_mem _ hc)]
    unfold Cell.resample at h3
    obtain ⟨avg, -, rfl⟩ := Option.map_eq_some_iff.1 h3
    simp only
    rw [if_neg]
    intro hm
    refine h2 c List.mem_cons_self ?_
    have : (c.sortMembers).members.Perm c.members := by
      unfold Cell.sortMembers
      exact List.perm_insertionSort _ _
    exact this.mem_iff.1 hm

end

end Cres

import Verif.Spec.CellInfo
import Verif.Props.CollectorRun
import Mathlib.Algebra.BigOperators.Group.Finset.Basic

/-!
# C115: messages on collected cells
-/

namespace Cres

open Spec

variable {X D K : Type*} [LinearOrder D] [LinearOrder K]

theorem holds_desc [LinearOrder X] {size : Cell D K → X} {known : KnownCells D K} {m : CellMap X} (h : CellMap.Holds size known m) :
    m.reverse.Pairwise fun a b => (ofLex b.1).1 ≤ (ofLex a.1).1 := by
  rw [List.pairwise_reverse]
  refine h.sorted.imp ?_
  intro a b hab
  rcases Prod.Lex.lt_iff.1 hab with h1 | ⟨h1, -⟩
  · exact h1.le
  · exact h1.le

/-- What is known about messages for a collector with known cells. -/
theorem knows_true {known : KnownCells D K} {s : CellCollector D K} (h : s.Knows known)
    (hlen : ∀ c ∈ known, c.2.length = c.1.members.length) :
    (∀ m ∈ s.dumpInfo, CellInfoTrue (known.map Prod.fst) m) ∧ s.dumpInfo.Pairwise InOrder := by
  have key : ∀ {i : Nat} {c : Cell D K} {evs : List Nat}, known[i]? = some (c, evs) →
      (known.map Prod.fst)[i]? = some c ∧ c.members.length = evs.length := by
    intro i c evs hi
    refine ⟨by rw [List.getElem?_map, hi]; rfl, (hlen _ (List.mem_of_getElem? hi)).symm⟩
  constructor
  · intro m hm
    simp only [CellCollector.dumpInfo, List.mem_append, List.mem_map, List.mem_reverse] at hm
    rcases hm with (((⟨e, he, rfl⟩ | ⟨e, he, rfl⟩) | ⟨e, he, rfl⟩) | ⟨e, he, rfl⟩) | ⟨e, he, rfl⟩
    · obtain ⟨c, hc⟩ := h.first e he
      exact ⟨c, key hc⟩
    · obtain ⟨c, hc, hr⟩ := h.radius.entry e he
      exact ⟨c, (key hc).1, (key hc).2, hr⟩
    · obtain ⟨c, hc, hr⟩ := h.members.entry e he
      exact ⟨c, key hc⟩
    · obtain ⟨c, hc, hr⟩ := h.weight.entry e he
      exact ⟨c, (key hc).1, (key hc).2, hr⟩
    · obtain ⟨c, hc⟩ := h.random e he
      exact ⟨c, key hc⟩
  · unfold CellCollector.dumpInfo
    refine List.pairwise_append.2 ⟨List.pairwise_append.2 ⟨List.pairwise_append.2 ⟨List.pairwise_append.2 ⟨?_, ?_, ?_⟩, ?_, ?_⟩, ?_, ?_⟩, ?_, ?_⟩
    · exact List.pairwise_map.2 (List.pairwise_of_forall fun _ _ => Nat.le_refl 0)
    · exact List.pairwise_map.2 (holds_desc h.radius)
    · intro a ha b hb
      simp only [List.mem_map] at ha hb
      obtain ⟨_, -, rfl⟩ := ha
      obtain ⟨_, -, rfl⟩ := hb
      exact Nat.zero_le 1
    · refine List.pairwise_map.2 ((holds_desc h.members).imp_of_mem ?_)
      intro a b ha hb hab
      obtain ⟨c, hc, hr⟩ := h.members.entry a (List.mem_reverse.1 ha)
      obtain ⟨c', hc', hr'⟩ := h.members.entry b (List.mem_reverse.1 hb)
      change b.2.length ≤ a.2.length
      rw [← (key hc).2, ← (key hc').2, hr, hr']
      exact hab
    · intro a ha b hb
      simp only [List.mem_map, List.mem_append] at ha hb
      obtain ⟨_, -, rfl⟩ := hb
      rcases ha with ⟨_, -, rfl⟩ | ⟨_, -, rfl⟩
      · exact Nat.zero_le 2
      · exact Nat.le_succ 1
    · exact List.pairwise_map.2 (holds_desc h.weight)
    · intro a ha b hb
      simp only [List.mem_map, List.mem_append] at ha hb
      obtain ⟨_, -, rfl⟩ := hb
      rcases ha with (⟨_, -, rfl⟩ | ⟨_, -, rfl⟩) | ⟨_, -, rfl⟩
      · exact (by decide : 0 ≤ 3)
      · exact (by decide : 1 ≤ 3)
      · exact (by decide : 2 ≤ 3)
    · exact List.pairwise_map.2 (List.pairwise_of_forall fun _ _ => Nat.le_refl 4)
    · intro a ha b hb
      simp only [List.mem_map, List.mem_append] at ha hb
      obtain ⟨_, -, rfl⟩ := hb
      rcases ha with ((⟨_, -, rfl⟩ | ⟨_, -, rfl⟩) | ⟨_, -, rfl⟩) | ⟨_, -, rfl⟩
      · exact (by decide : 0 ≤ 4)
      · exact (by decide : 1 ≤ 4)
      · exact (by decide : 2 ≤ 4)
      · exact (by decide : 3 ≤ 4)

theorem knownAfter_length (eventId : Nat → Nat) {known : KnownCells D K} (ts : List (CollectingThread D K))
    (h : ∀ c ∈ known, c.2.length = c.1.members.length) : ∀ c ∈ knownAfter eventId known ts, c.2.length = c.1.members.length := by
  cases ts with
  | nil => exact h
  | cons t ts =>
    intro c hc
    rw [knownAfter, List.mem_flatMap] at hc
    obtain ⟨t', -, hc⟩ := hc
    rcases List.mem_append.1 hc with hc | hc
    · exact h c hc
    · obtain ⟨x, -, rfl⟩ := List.mem_map.1 hc
      exact List.length_map _

theorem knownAfter_new (eventId : Nat → Nat) (ts : List (CollectingThread D K)) :
    (knownAfter eventId [] ts).map Prod.fst = (ts.flatMap fun t => t.cells).map Prod.fst := by
  cases ts with
  | nil => rfl
  | cons t ts => simp only [knownAfter, List.nil_append, withEvents, List.map_flatMap, List.map_map, Function.comp_def]

theorem filter_heading {α : Type*} (l : List α) (g : α → CellInfo D K) (i j : Nat) (hg : ∀ a, heading (g a) = j) :
    (l.map g).filter (fun m => heading m = i) = if i = j then l.map g else [] := by
  split_ifs with hij
  · rw [List.filter_eq_self]
    intro m hm
    obtain ⟨a, -, rfl⟩ := List.mem_map.1 hm
    rw [hg, hij]
    simp
  · rw [List.filter_eq_nil_iff]
    intro m hm
    obtain ⟨a, -, rfl⟩ := List.mem_map.1 hm
    rw [hg]
    simpa [eq_comm] using hij

theorem numbers_desc [LinearOrder X] {size : Cell D K → X} {known : KnownCells D K} {m : CellMap X} (hm : CellMap.Holds size known m)
    (g : (X ×ₗ ℕ) × List Nat → CellInfo D K) (hg : ∀ e, cellNumber (g e) = (ofLex e.1).2) :
    ((m.reverse.map g).map cellNumber).Nodup ∧ (m.reverse.map g).length = min 10 known.length := by
  refine ⟨?_, ?_⟩
  · have : (m.reverse.map g).map cellNumber = (CellMap.numbers m).reverse := by
      rw [CellMap.numbers, ← List.map_reverse, List.map_map]
      exact List.map_congr_left fun e _ => hg e
    rw [this, List.nodup_reverse]
    exact hm.nodup
  · rw [List.length_map, List.length_reverse, hm.number]
    rfl

/-- The messages under the headings. -/
theorem dumpInfo_heading (s : CellCollector D K) :
    s.dumpInfo.filter (fun m => heading m = 1) = s.byRadius.reverse.map (fun e => .radius (ofLex e.1).2 e.2.length (ofLex e.1).1) ∧
    s.dumpInfo.filter (fun m => heading m = 2) = s.byMembers.reverse.map (fun e => .members (ofLex e.1).2 e.2.length) ∧
    s.dumpInfo.filter (fun m => heading m = 3) = s.byWeight.reverse.map (fun e => .weight (ofLex e.1).2 e.2.length (ofLex e.1).1) ∧
    s.dumpInfo.filter (fun m => heading m = 4) = s.random.map (fun e => .random e.1 e.2.length) := by
  simp only [CellCollector.dumpInfo, List.filter_append]
  refine ⟨?_, ?_, ?_, ?_⟩ <;>
    rw [filter_heading s.first _ _ 0 (fun _ => rfl), filter_heading s.byRadius.reverse _ _ 1 (fun _ => rfl),
      filter_heading s.byMembers.reverse _ _ 2 (fun _ => rfl), filter_heading s.byWeight.reverse _ _ 3 (fun _ => rfl),
      filter_heading s.random _ _ 4 (fun _ => rfl)] <;>
    simp

/-- **C115**: after resampling with a new collector, on any number of threads, every message is true: the cell with the given number, counted
from the cells of the first thread on, has the given number of events and the given radius or weight. Under each heading, cells are
mentioned at most once, and as many as there are, up to ten. -/
theorem C115_true (eventId : Nat → Nat) (ts : List (CollectingThread D K)) {s : CellCollector D K}
    (hs : CellCollector.new.afterResample eventId ts = some s) :
    (∀ m ∈ s.dumpInfo, CellInfoTrue ((ts.flatMap fun t => t.cells).map Prod.fst) m) ∧ s.dumpInfo.Pairwise InOrder ∧
    ∀ h ∈ [1, 2, 3, 4], ((s.dumpInfo.filter fun m => heading m = h).map cellNumber).Nodup ∧
      (s.dumpInfo.filter fun m => heading m = h).length = min 10 (ts.flatMap fun t => t.cells).length := by
  have hk := (afterResample_knows eventId new_knows ts).2 s hs
  have hlen : (knownAfter eventId [] ts).length = (ts.flatMap fun t => t.cells).length := by
    rw [← List.length_map (f := Prod.fst), knownAfter_new, List.length_map]
  obtain ⟨h1, h2⟩ := knows_true hk (knownAfter_length eventId ts (by simp))
  rw [knownAfter_new] at h1
  refine ⟨h1, h2, ?_⟩
  obtain ⟨g1, g2, g3, g4⟩ := dumpInfo_heading s
  intro h hh
  simp only [List.mem_cons, List.not_mem_nil, or_false] at hh
  rcases hh with rfl | rfl | rfl | rfl
  · rw [g1]; exact hlen ▸ numbers_desc hk.radius _ fun _ => rfl
  · rw [g2]; exact hlen ▸ numbers_desc hk.members _ fun _ => rfl
  · rw [g3]; exact hlen ▸ numbers_desc hk.weight _ fun _ => rfl
  · rw [g4]
    refine ⟨?_, ?_⟩
    · rw [List.map_map]
      exact hk.randomNodup
    · rw [List.length_map, hk.randomLength, hlen]
      rfl

/-- **C115** for a collector that is used for several resamplings: every message is about a cell from one of them, with the right number of events, radius
and weight, and the messages are in order. -/
theorem C115_reused (rs : List ((Nat → Nat) × List (CollectingThread D K))) {s : CellCollector D K}
    (hs : CellCollector.new.afterResamplings rs = some s) :
    (∀ m ∈ s.dumpInfo, ∃ r ∈ rs, ∃ t ∈ r.2, ∃ c ∈ t.cells, CellInfoTrue (List.replicate (cellNumber m + 1) c.1) m) ∧
    s.dumpInfo.Pairwise InOrder := by
  have hk := afterResamplings_knows rs new_knows hs
  have inv : ∀ (rs' : List ((Nat → Nat) × List (CollectingThread D K))) (known : KnownCells D K), (∀ r ∈ rs', r ∈ rs) →
      (∀ c ∈ known, c.2.length = c.1.members.length ∧ ∃ r ∈ rs, ∃ t ∈ r.2, ∃ x ∈ t.cells, x.1 = c.1) →
      ∀ c ∈ rs'.foldl (fun known r => knownAfter r.1 known r.2) known,
        c.2.length = c.1.members.length ∧ ∃ r ∈ rs, ∃ t ∈ r.2, ∃ x ∈ t.cells, x.1 = c.1 := by
    intro rs'
    induction rs' with
    | nil => intro known _ h; exact h
    | cons r rs' ih =>
      intro known hr h
      rw [List.foldl_cons]
      refine ih _ (fun r hr' => hr r (List.mem_cons_of_mem _ hr')) ?_
      intro c hc
      refine ⟨knownAfter_length r.1 r.2 (fun c hc => (h c hc).1) c hc, ?_⟩
      cases hts : r.2 with
      | nil => rw [hts] at hc; exact (h c hc).2
      | cons t ts =>
        rw [hts, knownAfter, ← hts, List.mem_flatMap] at hc
        obtain ⟨t', ht', hc⟩ := hc
        rcases List.mem_append.1 hc with hc | hc
        · exact (h c hc).2
        · obtain ⟨x, hx, rfl⟩ := List.mem_map.1 hc
          exact ⟨r, hr r (List.mem_cons_self ..), t', ht', x, hx, rfl⟩
  have hinv := inv rs [] (fun _ h => h) (by simp)
  obtain ⟨h1, h2⟩ := knows_true hk fun c hc => (hinv c hc).1
  refine ⟨?_, h2⟩
  intro m hm
  have h3 := h1 m hm
  have key : ∀ {i : Nat} {c : Cell D K},
      ((rs.foldl (fun known r => knownAfter r.1 known r.2) []).map Prod.fst)[i]? = some c →
      ∃ r ∈ rs, ∃ t ∈ r.2, ∃ x ∈ t.cells, x.1 = c := by
    intro i c hi
    obtain ⟨y, hy, rfl⟩ := List.mem_map.1 (List.mem_of_getElem? hi)
    exact (hinv y hy).2
  have rep : ∀ (n : Nat) (c : Cell D K), (List.replicate (n + 1) c)[n]? = some c := by
    intro n c
    rw [List.getElem?_replicate, if_pos (Nat.lt_succ_self n)]
  cases m with
  | order n k | members n k | random n k =>
    obtain ⟨c, hc, hl⟩ := h3
    obtain ⟨r, hr, t, ht, x, hx, rfl⟩ := key hc
    exact ⟨r, hr, t, ht, x, hx, x.1, rep _ _, hl⟩
  | radius n k v | weight n k v =>
    obtain ⟨c, hc, hl, hv⟩ := h3
    obtain ⟨r, hr, t, ht, x, hx, rfl⟩ := key hc
    exact ⟨r, hr, t, ht, x, hx, x.1, rep _ _, hl, hv⟩

theorem sum_count_eq (E : Finset Nat) (l : List Nat) (h : ∀ x ∈ l, x ∈ E) : ∑ x ∈ E, l.count x = l.length := by
  induction l with
  | nil => simp
  | cons a l ih =>
    have ha : a ∈ E := h a (List.mem_cons_self ..)
    simp only [List.count_cons, Finset.sum_add_distrib, List.length_cons]
    rw [ih fun x hx => h x (List.mem_cons_of_mem _ hx)]
    congr 1
    rw [Finset.sum_eq_single a]
    · simp
    · intro b _ hb
      simp [hb.symm]
    · exact fun h => absurd ha h

/-- **C115**: the messages and the map from events to cells agree for every collector: a cell is in the lists of the map as often as the
numbers of events in its messages say in total. -/
theorem C115_event_cells (s : CellCollector D K) (E : Finset Nat) (hE : ∀ event, s.eventCells event ≠ [] → event ∈ E) (number : Nat) :
    ∑ event ∈ E, (s.eventCells event).count number = ((s.dumpInfo.filter fun m => cellNumber m = number).map eventNumber).sum := by
  have hE' : ∀ c ∈ s.allCells, ∀ event ∈ c.2, event ∈ E := by
    intro c hc event he
    exact hE event ((C53_event_cells_partial s event).2.2.2 ⟨c, hc, he⟩)
  have h1 : ∀ event, (s.eventCells event).count number = (s.allCells.map fun c => if c.1 = number then c.2.count event else 0).sum := by
    intro event
    rw [(C53_event_cells_partial s event).1, List.count_flatMap]
    congr 1
    refine List.map_congr_left fun c _ => ?_
    simp only [Function.comp_apply, List.count_replicate, beq_iff_eq]
  have h2 : ∀ l : List (Nat × List Nat), (∀ c ∈ l, ∀ event ∈ c.2, event ∈ E) →
      ∑ event ∈ E, (l.map fun c => if c.1 = number then c.2.count event else 0).sum =
        (l.map fun c => if c.1 = number then c.2.length else 0).sum := by
    intro l
    induction l with
    | nil => intro _; simp
    | cons c l ih =>
      intro hl
      simp only [List.map_cons, List.sum_cons, Finset.sum_add_distrib]
      rw [ih fun c hc => hl c (List.mem_cons_of_mem _ hc)]
      congr 1
      split_ifs
      · exact sum_count_eq E c.2 (hl c (List.mem_cons_self ..))
      · simp
  have h3 : ∀ l : List (CellInfo D K), ((l.filter fun m => cellNumber m = number).map eventNumber).sum =
      (l.map fun m => if cellNumber m = number then eventNumber m else 0).sum := by
    intro l
    induction l with
    | nil => rfl
    | cons m l ih =>
      by_cases hm : cellNumber m = number <;> simp [hm, ih]
  rw [Finset.sum_congr rfl fun event _ => h1 event, h2 _ hE', h3]
  simp only [CellCollector.allCells, CellCollector.dumpInfo, List.map_append, List.sum_append, List.map_map, Function.comp_def,
    cellNumber, eventNumber, List.map_reverse, List.sum_reverse]
  have comm : ∀ a b c d e : Nat, a + e + b + c + d = a + b + c + d + e := by intros; omega
  exact comm _ _ _ _ _

/-- **C115**: the cells by creation order are the first ten of one thread. -/
theorem C115_order (eventId : Nat → Nat) (t : CollectingThread D K) (ts : List (CollectingThread D K)) {s : CellCollector D K}
    (hs : CellCollector.new.afterResample eventId (t :: ts) = some s) :
    (s.dumpInfo.filter fun m => heading m = 0).map cellNumber = List.range (min 10 t.cells.length) := by
  have h := (C105_contents_partial eventId t ts hs).2.1.1
  have h0 : s.dumpInfo.filter (fun m => heading m = 0) = s.first.map fun e => .order e.1 e.2.length := by
    simp only [CellCollector.dumpInfo, List.filter_append]
    rw [filter_heading s.first _ _ 0 (fun _ => rfl), filter_heading s.byRadius.reverse _ _ 1 (fun _ => rfl),
      filter_heading s.byMembers.reverse _ _ 2 (fun _ => rfl), filter_heading s.byWeight.reverse _ _ 3 (fun _ => rfl),
      filter_heading s.random _ _ 4 (fun _ => rfl)]
    simp
  rw [h0, List.map_map]
  refine (show _ = s.first.map Prod.fst from rfl).trans (h.trans ?_)
  simp [cellIds]

/-- Two threads with two cells each. -/
example : ((CellCollector.new : CellCollector Nat Int).afterResample id
    [⟨[(smallCell 1, 0), (largeCell 2, 0)], []⟩, ⟨[(largeCell 5, 0), (smallCell 9, 0)], []⟩]).map CellCollector.dumpInfo =
    some [.order 0 1, .order 1 2,
      .radius 2 2 2, .radius 1 2 2, .radius 3 1 1, .radius 0 1 1,
      .members 2 2, .members 1 2, .members 3 1, .members 0 1,
      .weight 2 2 2, .weight 1 2 2, .weight 3 1 1, .weight 0 1 1,
      .random 0 1, .random 1 2, .random 2 2, .random 3 1] := by
  decide +kernel

/-- A collector that is used twice, and the events with lists in the map. -/
example : ∃ s : CellCollector Nat Int, CellCollector.new.afterResamplings
    [(id, [⟨[(smallCell 0, 0), (largeCell 3, 0)], []⟩]), ((· + 7), [⟨[(largeCell 1, 0)], []⟩])] = some s ∧
      s.dumpInfo.take 3 = [.order 0 1, .order 1 2, .order 2 2] ∧ s.eventCells 8 = [2, 2, 2, 2, 2] := by
  decide +kernel

end Cres

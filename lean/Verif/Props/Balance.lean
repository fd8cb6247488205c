import Verif.Props.Partition
import Mathlib.Data.Finset.Card
import Mathlib.Data.Finset.Basic

/-!
Property C125: regions contain similar numbers of events.
-/

set_option linter.unusedSectionVars false

namespace Cres

open Spec

section

variable {K : Type*} [AddCommGroup K] [LinearOrder K]

theorem regionBelow_lt {P : Type*} (vp : List (VPBisection P K)) (dist : P → P → K) (x : P) : ∀ k i, regionBelow vp dist x k i < 2 ^ k := by
  intro k
  induction k with
  | zero => intro i; simp [regionBelow]
  | succ k ih =>
    intro i
    have h1 := ih (2 * i + 1)
    have h2 := ih (2 * i + 2)
    unfold regionBelow
    rw [pow_succ]
    split
    · omega
    · split_ifs <;> omega

/-- The points of a part of the tree. -/
def pointsOf (sub : List (Node Nat K)) : Finset Nat := (sub.map (·.vantagePt)).toFinset

theorem mem_pointsOf {sub : List (Node Nat K)} {x : Nat} : x ∈ pointsOf sub ↔ ∃ n ∈ sub, n.vantagePt = x := by
  unfold pointsOf; simp

theorem card_pointsOf {sub : List (Node Nat K)} (h : (sub.map (·.vantagePt)).Nodup) : (pointsOf sub).card = sub.length := by
  unfold pointsOf; rw [List.toFinset_card_of_nodup h, List.length_map]

/-- At most `m` points are at the same distance. -/
def TiesAtMost (dist : Nat → Nat → K) (S : Finset Nat) (m : Nat) : Prop :=
  ∀ a ∈ S, ∀ v, (S.filter fun x => dist a x = v).card ≤ m

/-- Numbers of points in regions, in terms of the points in a part of the tree. -/
theorem region_counts {dist : Nat → Nat → K} {vp : List (VPBisection Nat K)} {nodes : List (Node Nat K)} {pos : List Nat}
    (hheap : ∀ (i q : Nat), pos[i]? = some q → ∃ b offset, vp[i]? = some b ∧ nodes[q]? = some ⟨b.pt, some ⟨b.r, offset⟩⟩ ∧
      (i = 0 → q = 0) ∧ (2 * i + 1 < vp.length → pos[2 * i + 1]? = some (q + 1)) ∧
      (2 * i + 2 < vp.length → pos[2 * i + 2]? = some (q + 1 + offset)))
    {A : Finset Nat} {m : Nat} (hties : TiesAtMost dist A m) (hself : ∀ a ∈ A, ∀ x ∈ A, dist a a ≤ dist a x) :
    ∀ (k j i : Nat) (pre sub post : List (Node Nat K)), nodes = pre ++ sub ++ post → (k ≠ 0 → pos[i]? = some pre.length) →
      IsVPTree dist k sub → Full k sub.length → i + 1 < 2 ^ (j + 1) → vp.length + 1 = 2 ^ (j + k) →
      (sub.map (·.vantagePt)).Nodup → pointsOf sub ⊆ A → ∀ (C : Finset Nat) (r e d : Nat), r < 2 ^ k → (C \ pointsOf sub).card ≤ e →
      (pointsOf sub \ C).card ≤ d →
      (C.filter fun x => regionBelow vp dist x k i = r).card ≤ sub.length / 2 ^ k + e + (m + 1) * k ∧
        (sub.length + 1) / 2 ^ k ≤ (C.filter fun x => regionBelow vp dist x k i = r).card + 1 + d + m * k := by
  intro k
  induction k with
  | zero =>
    intro j i pre sub post _ _ _ _ _ _ hnd _ C r e d hr he hd
    have h0 : r = 0 := by simpa using hr
    have hc : (C.filter fun x => regionBelow vp dist x 0 i = r) = C := by
      rw [Finset.filter_eq_self]; intro x _; rw [h0]; rfl
    rw [hc, pow_zero, Nat.div_one, Nat.div_one]
    have h1 := card_pointsOf hnd
    have h2 := Finset.card_sdiff_add_card_inter C (pointsOf sub)
    have h3 := Finset.card_sdiff_add_card_inter (pointsOf sub) C
    rw [Finset.inter_comm] at h3
    have h4 : (C ∩ pointsOf sub).card ≤ C.card := Finset.card_le_card Finset.inter_subset_left
    omega
  | succ k ih =>
    intro j i pre sub post hnodes hpos htree hfull hi hlen hnd hA C r e d hr he hd
    obtain ⟨b, off, b1, b2, -, b4, b5⟩ := hheap i _ (hpos (by omega))
    cases htree with
    | leaf _ _ h hc => exact absurd (h.resolve_left (by omega)) (by have := hfull.1; omega)
    | node _ p rad inside outside hin hout hrad hsize h1 h2 =>
      have hq : nodes[pre.length]? = some ⟨p, some ⟨rad, inside.length⟩⟩ := by
        rw [hnodes]; simp
      rw [hq] at b2
      simp only [Option.some.injEq, Node.mk.injEq, Children.mk.injEq] at b2
      obtain ⟨rfl, rfl, rfl⟩ := b2
      obtain ⟨o, ho, hor⟩ := hrad
      have hmem : ∀ x, x ∈ pointsOf (⟨b.pt, some ⟨b.r, inside.length⟩⟩ :: (inside ++ outside)) ↔
          x = b.pt ∨ x ∈ pointsOf inside ∨ x ∈ pointsOf outside := by
        intro x
        unfold pointsOf
        simp [eq_comm]
      simp only [List.map_cons, List.map_append, List.nodup_cons, List.nodup_append, List.mem_append, not_or] at hnd
      obtain ⟨⟨n1, n2⟩, n3, n4, n5⟩ := hnd
      have hslen : (⟨b.pt, some ⟨b.r, inside.length⟩⟩ :: (inside ++ outside) : List (Node Nat K)).length =
          inside.length + outside.length + 1 := by simp
      rw [hslen] at hfull ⊢
      obtain ⟨-, f1, f2⟩ := hfull
      have hI : (inside.length + outside.length + 1 - 1) / 2 = inside.length := by omega
      have hO : inside.length + outside.length + 1 - 1 - inside.length = outside.length := by omega
      rw [hI] at f1 f2
      rw [hO] at f2
      have hIn : ∀ x ∈ pointsOf inside, dist b.pt x ≤ b.r := by
        intro x hx
        obtain ⟨n, hn, rfl⟩ := mem_pointsOf.1 hx
        exact hin n hn
      have hOut : ∀ x ∈ pointsOf outside, b.r ≤ dist b.pt x := by
        intro x hx
        obtain ⟨n, hn, rfl⟩ := mem_pointsOf.1 hx
        exact hout n hn
      have hoS : o.vantagePt ∈ pointsOf outside := mem_pointsOf.2 ⟨o, ho, rfl⟩
      have hpA : b.pt ∈ A := hA ((hmem _).2 (.inl rfl))
      have hOA : ∀ x ∈ pointsOf outside, x ∈ A ∧ x ≠ b.pt := by
        intro x hx
        refine ⟨hA ((hmem _).2 (.inr (.inr hx))), ?_⟩
        rintro rfl
        exact n2 (by simpa [pointsOf] using hx)
      have hpr : dist b.pt b.pt ≤ b.r := hor ▸ hself _ hpA _ (hOA _ hoS).1
      have hm : (A.filter fun x => dist b.pt x = b.r).card ≤ m := hties _ hpA _
      -- the points on both sides
      have c1 : ((C.filter fun x => dist b.pt x ≤ b.r) \ pointsOf inside).card ≤ e + (m + 1) := by
        have hsub : (C.filter fun x => dist b.pt x ≤ b.r) \ pointsOf inside ⊆
            (C \ pointsOf (⟨b.pt, some ⟨b.r, inside.length⟩⟩ :: (inside ++ outside))) ∪ insert b.pt (A.filter fun x => dist b.pt x = b.r) := by
          intro x hx
          rw [Finset.mem_sdiff, Finset.mem_filter] at hx
          rw [Finset.mem_union, Finset.mem_sdiff, Finset.mem_insert, Finset.mem_filter, hmem]
          by_cases hxp : x = b.pt
          · exact .inr (.inl hxp)
          by_cases hxo : x ∈ pointsOf outside
          · exact .inr (.inr ⟨(hOA x hxo).1, le_antisymm hx.1.2 (hOut x hxo)⟩)
          · exact .inl ⟨hx.1.1, by rintro (h | h | h) <;> [exact hxp h; exact hx.2 h; exact hxo h]⟩
        refine (Finset.card_le_card hsub).trans ((Finset.card_union_le _ _).trans ?_)
        have := Finset.card_insert_le b.pt (A.filter fun x => dist b.pt x = b.r)
        omega
      have c2 : (pointsOf inside \ (C.filter fun x => dist b.pt x ≤ b.r)).card ≤ d := by
        refine (Finset.card_le_card fun x hx => ?_).trans hd
        rw [Finset.mem_sdiff, Finset.mem_filter] at hx
        rw [Finset.mem_sdiff, hmem]
        exact ⟨.inr (.inl hx.1), fun hc => hx.2 ⟨hc, hIn x hx.1⟩⟩
      have c3 : ((C.filter fun x => ¬ dist b.pt x ≤ b.r) \ pointsOf outside).card ≤ e := by
        refine (Finset.card_le_card fun x hx => ?_).trans he
        rw [Finset.mem_sdiff, Finset.mem_filter] at hx
        rw [Finset.mem_sdiff, hmem]
        refine ⟨hx.1.1, ?_⟩
        rintro (h | h | h)
        · exact hx.1.2 (h ▸ hpr)
        · exact hx.1.2 (hIn x h)
        · exact hx.2 h
      have c4 : (pointsOf outside \ (C.filter fun x => ¬ dist b.pt x ≤ b.r)).card ≤ d + m := by
        have hsub : pointsOf outside \ (C.filter fun x => ¬ dist b.pt x ≤ b.r) ⊆
            (pointsOf (⟨b.pt, some ⟨b.r, inside.length⟩⟩ :: (inside ++ outside)) \ C) ∪ (A.filter fun x => dist b.pt x = b.r) := by
          intro x hx
          rw [Finset.mem_sdiff, Finset.mem_filter] at hx
          rw [Finset.mem_union, Finset.mem_sdiff, Finset.mem_filter, hmem]
          by_cases hxr : dist b.pt x ≤ b.r
          · exact .inr ⟨(hOA x hx.1).1, le_antisymm hxr (hOut x hx.1)⟩
          · exact .inl ⟨.inr (.inr hx.1), fun hc => hx.2 ⟨hc, hxr⟩⟩
        refine (Finset.card_le_card hsub).trans ((Finset.card_union_le _ _).trans ?_)
        omega
      -- the two halves of the regions
      have hstep : ∀ x, regionBelow vp dist x (k + 1) i =
          if dist b.pt x ≤ b.r then regionBelow vp dist x k (2 * i + 1) else 2 ^ k + regionBelow vp dist x k (2 * i + 2) := by
        intro x
        rw [regionBelow, b1]
      have hp2 : 2 ^ (j + 1 + 1) = 2 * 2 ^ (j + 1) := by rw [pow_succ]; ring
      have hlen' : vp.length + 1 = 2 ^ (j + 1 + k) := by rw [hlen]; congr 1; omega
      have hlt : k ≠ 0 → 2 * i + 2 < vp.length := by
        intro hk
        obtain ⟨k', rfl⟩ := Nat.exists_eq_succ_of_ne_zero hk
        have : 2 ^ (j + 1 + 1) ≤ vp.length + 1 := by
          rw [hlen']; exact Nat.pow_le_pow_right (by norm_num) (by omega)
        omega
      have hs1 : (inside.length + outside.length + 1) / 2 ^ (k + 1) = (inside.length + outside.length + 1) / 2 / 2 ^ k := by
        rw [pow_succ, mul_comm, Nat.div_div_eq_div_mul]
      have hs2 : (inside.length + outside.length + 1 + 1) / 2 ^ (k + 1) = (inside.length + outside.length + 1 + 1) / 2 / 2 ^ k := by
        rw [pow_succ, mul_comm, Nat.div_div_eq_div_mul]
      rw [hs1, hs2, Nat.mul_succ, Nat.mul_succ]
      by_cases hr2 : r < 2 ^ k
      · have hfil : (C.filter fun x => regionBelow vp dist x (k + 1) i = r) =
            (C.filter fun x => dist b.pt x ≤ b.r).filter fun x => regionBelow vp dist x k (2 * i + 1) = r := by
          rw [Finset.filter_filter]
          refine Finset.filter_congr fun x _ => ?_
          rw [hstep]
          split_ifs with h
          · simp [h]
          · simp only [h, false_and, iff_false]; omega
        obtain ⟨g1, g2⟩ := ih (j + 1) (2 * i + 1) (pre ++ [⟨b.pt, some ⟨b.r, inside.length⟩⟩]) inside (outside ++ post)
          (by rw [hnodes]; simp) (fun hk => by rw [b4 (by have := hlt hk; omega)]; simp) h1 f1 (by omega) hlen' n3
          (fun x hx => hA ((hmem x).2 (.inr (.inl hx)))) (C.filter fun x => dist b.pt x ≤ b.r) r (e + (m + 1)) d hr2 c1 c2
        rw [hfil]
        have m1 : inside.length / 2 ^ k ≤ (inside.length + outside.length + 1) / 2 / 2 ^ k := Nat.div_le_div_right (by omega)
        have m2 : (inside.length + outside.length + 1 + 1) / 2 / 2 ^ k ≤ (inside.length + 1) / 2 ^ k := Nat.div_le_div_right (by omega)
        omega
      · have hfil : (C.filter fun x => regionBelow vp dist x (k + 1) i = r) =
            (C.filter fun x => ¬ dist b.pt x ≤ b.r).filter fun x => regionBelow vp dist x k (2 * i + 2) = r - 2 ^ k := by
          rw [Finset.filter_filter]
          refine Finset.filter_congr fun x _ => ?_
          rw [hstep]
          split_ifs with h
          · have := regionBelow_lt vp dist x k (2 * i + 1)
            simp only [h, not_true_eq_false, false_and, iff_false]; omega
          · simp only [h, not_false_eq_true, true_and]; omega
        obtain ⟨g1, g2⟩ := ih (j + 1) (2 * i + 2) (pre ++ [⟨b.pt, some ⟨b.r, inside.length⟩⟩] ++ inside) outside post
          (by rw [hnodes]; simp) (fun hk => by rw [b5 (hlt hk)]; simp; omega) h2 f2 (by omega) hlen' n4
          (fun x hx => hA ((hmem x).2 (.inr (.inr hx)))) (C.filter fun x => ¬ dist b.pt x ≤ b.r) (r - 2 ^ k) e (d + m)
          (by rw [pow_succ] at hr; omega) c3 c4
        rw [hfil]
        have m1 : outside.length / 2 ^ k ≤ (inside.length + outside.length + 1) / 2 / 2 ^ k := Nat.div_le_div_right (by omega)
        have m2 : (inside.length + outside.length + 1 + 1) / 2 / 2 ^ k ≤ (outside.length + 1) / 2 ^ k := Nat.div_le_div_right (by omega)
        omega

end

section

variable {E K : Type*} [Inhabited E] [AddCommGroup K] [LinearOrder K]

theorem regionBelow_events (events : List E) (distance : E → E → K) (vp : List (VPBisection Nat K)) (x : Nat) : ∀ k i,
    regionBelow (vp.map fun b => (⟨events.getD b.pt default, b.r⟩ : VPBisection E K)) distance (events.getD x default) k i =
      regionBelow vp (fun i j => distance (events.getD i default) (events.getD j default)) x k i := by
  intro k
  induction k with
  | zero => intro i; rfl
  | succ k ih =>
    intro i
    unfold regionBelow
    rw [List.getElem?_map]
    cases vp[i]? with
    | none => rfl
    | some b => simp only [Option.map_some, ih]

theorem filter_positions (events : List E) (q : E → Prop) [DecidablePred q] :
    (events.filter fun e => decide (q e)).length = ((Finset.range events.length).filter fun x => q (events.getD x default)).card := by
  have h : events = (List.range events.length).map fun i => events.getD i default := by
    apply List.ext_getElem
    · simp
    · intro i h1 h2
      simp [List.getD_eq_getElem?_getD, h1]
  conv_lhs => rw [h]
  rw [List.filter_map, List.length_map]
  rfl

/-- **C125** with few ties: if, seen from each event, at most `m` events are at the same distance, then each of the `2 ^ k` regions
contains at most `(m + 1) k` of the events from which the partition was made more than the average, and at most about `m k + 1` less.
Missing: many events at the same distance, for which it is false (`C125_violated`). -/
theorem C125_balanced_partial {psort sort : SortOracle Nat K} (h1 : SortsByDistance psort) (h2 : SortsByDistance sort) (cornerPt : Nat)
    (f64Max : K) (distance : E → E → K) (k : Nat) (events : List E) (hk : 0 < k) (hn : 3 * 2 ^ (k - 1) ≤ events.length + 1)
    (hself : ∀ a ∈ events, ∀ b ∈ events, distance a a ≤ distance a b)
    {m : Nat} (hties : ∀ a ∈ events, ∀ v, (events.filter fun e => decide (distance a e = v)).length ≤ m) :
    ∃ p, makePartition psort sort cornerPt f64Max distance (2 ^ k) events = .ok p ∧ p.len = 2 ^ k ∧ ∀ r < 2 ^ k,
      (events.filter fun e => decide (p.region e = r)).length ≤ events.length / 2 ^ k + (m + 1) * k ∧
        (events.length + 1) / 2 ^ k ≤ (events.filter fun e => decide (p.region e = r)).length + 1 + m * k := by
  obtain ⟨k, rfl⟩ := Nat.exists_eq_succ_of_ne_zero hk.ne'
  simp only [Nat.succ_eq_add_one, Nat.add_sub_cancel] at hn ⊢
  have h2k : 1 ≤ 2 ^ k := Nat.one_le_two_pow
  unfold makePartition
  rw [if_neg (by rw [pow_succ]; omega)]
  simp only [log2_pow]
  set dist := fun i j => distance (events.getD i default) (events.getD j default) with hdist
  obtain ⟨t1, t2, t3⟩ := toolTree_spec h1 h2 cornerPt f64Max events.length dist (k + 1)
  have t4 : (VPTree.fromParIterWithDistAndDepth psort sort cornerPt f64Max (List.range events.length) dist (k + 1)).dist = dist :=
    (C15_par_construction h1 h2 cornerPt f64Max (List.range events.length) dist (k + 1)).2.2
  generalize VPTree.fromParIterWithDistAndDepth psort sort cornerPt f64Max (List.range events.length) dist (k + 1) = t
    at t1 t2 t3 t4
  obtain ⟨p, e1, e2, -, e4⟩ := C23_heap_of_tree t1 (by rw [t2]; exact hn)
  have hndt := t3.nodup_iff.2 List.nodup_range
  have hnd := isHeapOf_nodup e4 hndt
  obtain ⟨pos, g1, g2, g3⟩ := e4
  have hlt : ∀ b ∈ p.intoTree, b.pt < events.length := by
    intro b hb
    obtain ⟨i, hi⟩ := List.mem_iff_getElem?.1 hb
    have hil : i < pos.length := by rw [g2]; exact (List.getElem?_eq_some_iff.1 hi).1
    obtain ⟨b', off, f1, f2, -⟩ := g3 i _ (List.getElem?_eq_getElem hil)
    rw [hi] at f1
    simp only [Option.some.injEq] at f1
    subst f1
    simpa using t3.mem_iff.1 (List.mem_map.2 ⟨_, List.mem_of_getElem? f2, rfl⟩)
  rw [e1]
  simp only
  rw [takeEvents_eq _ _ hnd hlt]
  simp only
  have hl : ((p.intoTree.map (fun b => (⟨events.getD b.pt default, b.r⟩ : VPBisection E K))).length + 1) = 2 ^ (k + 1) := by
    rw [List.length_map]; exact e2
  rw [VPTreePartition.fromVp, if_pos ((isPowerOfTwo_iff _).2 ⟨k + 1, hl⟩)]
  refine ⟨_, rfl, hl, fun r hr => ?_⟩
  have hpts : pointsOf t.nodes = Finset.range events.length := by
    unfold pointsOf
    ext x
    rw [List.mem_toFinset, t3.mem_iff, List.mem_range, Finset.mem_range]
  have hget : ∀ x ∈ Finset.range events.length, events[x]? = some (events.getD x default) := by
    intro x hx
    have := Finset.mem_range.1 hx
    simp [List.getD_eq_getElem?_getD, this]
  have hroot : pos[0]? = some 0 := by
    have h0 : 0 < pos.length := by
      rw [g2]
      have : p.intoTree.length + 1 = 2 ^ (k + 1) := e2
      rw [pow_succ] at this
      omega
    obtain ⟨b, off, -, -, f3, -⟩ := g3 0 _ (List.getElem?_eq_getElem h0)
    rw [List.getElem?_eq_getElem h0, f3 rfl]
  have key := region_counts (dist := dist) (vp := p.intoTree) (nodes := t.nodes) (pos := pos) g3 (A := Finset.range events.length)
    (by
      intro a ha v
      have := hties _ (List.mem_of_getElem? (hget a ha)) v
      rwa [filter_positions] at this)
    (by
      intro a ha x hx
      exact hself _ (List.mem_of_getElem? (hget a ha)) _ (List.mem_of_getElem? (hget x hx)))
    (k + 1) 0 0 [] t.nodes [] (by simp) (fun _ => hroot) (by rw [← t4]; exact t1) (full_of_le k _ (by rw [t2]; exact hn)) (by simp)
    (by rw [Nat.zero_add]; exact e2) hndt (by rw [hpts]) (Finset.range events.length) r 0 0 hr (by simp [hpts]) (by simp [hpts])
  have hcount : (events.filter fun e => decide ((⟨p.intoTree.map (fun b => (⟨events.getD b.pt default, b.r⟩ : VPBisection E K)), distance⟩ :
      VPTreePartition E K).region e = r)).length =
      ((Finset.range events.length).filter fun x => regionBelow p.intoTree dist x (k + 1) 0 = r).card := by
    rw [filter_positions]
    congr 1
    refine Finset.filter_congr fun x _ => ?_
    rw [C21_region_meaning (⟨p.intoTree.map (fun b => (⟨events.getD b.pt default, b.r⟩ : VPBisection E K)), distance⟩ :
      VPTreePartition E K) _ (k + 1) hl, regionBelow_events]
  rw [hcount]
  rw [t2] at key
  omega

end

/-- **C125** as stated: for each distance, up to a number depending only on the number of regions, each region contains the same number of
the events from which the partition was made. -/
def C125_claim : Prop :=
  ∀ k, ∃ bound : Nat, ∀ (distance : ℤ → ℤ → ℤ), IsMetricLike distance → ∀ (psort sort : SortOracle Nat ℤ), SortsByDistance psort →
    SortsByDistance sort → ∀ (cornerPt : Nat) (f64Max : ℤ) (events : List ℤ) (p : VPTreePartition ℤ ℤ), events.Nodup →
      makePartition psort sort cornerPt f64Max distance (2 ^ k) events = .ok p → ∀ r < 2 ^ k,
        (events.filter fun e => decide (p.region e = r)).length ≤ events.length / 2 ^ k + bound

/-- Different events at equal distances. -/
def equalDist (x y : ℤ) : ℤ := if x = y then 0 else 1

theorem equalDist_metric : IsMetricLike equalDist := by
  constructor
  · intro a b; simp [equalDist, eq_comm]
  · intro a b c
    unfold equalDist
    split_ifs <;> simp_all

/-- **C125** (false because of ties): if all events are at the same distance from each other, then one of two regions contains all events,
however many there are. -/
theorem C125_violated : ¬ C125_claim := by
  intro h
  obtain ⟨bound, h⟩ := h 1
  set events : List ℤ := (List.range (2 * bound + 4)).map fun (i : Nat) => (i : ℤ) with hev
  have hlen : events.length = 2 * bound + 4 := by simp [hev]
  have hnd : events.Nodup := List.Nodup.map (fun a b h => by simpa using h) List.nodup_range
  have hall : ∃ p, makePartition stableSort stableSort 0 1000 equalDist (2 ^ 1) events = .ok p ∧ ∀ e, p.region e = 0 := by
    unfold makePartition
    rw [if_neg (by omega)]
    simp only [log2_pow]
    set dist := fun i j => equalDist (events.getD i default) (events.getD j default) with hdist
    obtain ⟨t1, t2, t3⟩ := toolTree_spec (K := ℤ) stableSort_sorts stableSort_sorts 0 1000 events.length dist 1
    have t4 : (VPTree.fromParIterWithDistAndDepth stableSort stableSort 0 1000 (List.range events.length) dist 1).dist = dist :=
      (C15_par_construction stableSort_sorts stableSort_sorts 0 1000 (List.range events.length) dist 1).2.2
    generalize VPTree.fromParIterWithDistAndDepth stableSort stableSort 0 1000 (List.range events.length) dist 1 = t
      at t1 t2 t3 t4
    obtain ⟨p, e1, e2, -, e4⟩ := C23_heap_of_tree (k := 0) t1 (by rw [t2]; omega)
    have hndt := t3.nodup_iff.2 List.nodup_range
    have hnd' := isHeapOf_nodup e4 hndt
    obtain ⟨pos, g1, g2, g3⟩ := e4
    have hlt : ∀ b ∈ p.intoTree, b.pt < events.length := by
      intro b hb
      obtain ⟨i, hi⟩ := List.mem_iff_getElem?.1 hb
      have hil : i < pos.length := by rw [g2]; exact (List.getElem?_eq_some_iff.1 hi).1
      obtain ⟨b', off, f1, f2, -⟩ := g3 i _ (List.getElem?_eq_getElem hil)
      rw [hi] at f1
      simp only [Option.some.injEq] at f1
      subst f1
      simpa using t3.mem_iff.1 (List.mem_map.2 ⟨_, List.mem_of_getElem? f2, rfl⟩)
    rw [e1]
    simp only
    rw [takeEvents_eq _ _ hnd' hlt]
    simp only
    have hl : ((p.intoTree.map (fun b => (⟨events.getD b.pt default, b.r⟩ : VPBisection ℤ ℤ))).length + 1) = 2 ^ 1 := by
      rw [List.length_map]; exact e2
    rw [VPTreePartition.fromVp, if_pos ((isPowerOfTwo_iff _).2 ⟨1, hl⟩)]
    refine ⟨_, rfl, fun e => ?_⟩
    have h0 : 0 < pos.length := by
      rw [g2]
      have : p.intoTree.length + 1 = 2 := e2
      omega
    obtain ⟨b, off, b1, b2, f3, -⟩ := g3 0 _ (List.getElem?_eq_getElem h0)
    rw [f3 rfl] at b2
    have hr : b.r = 1 := by
      rw [t4] at t1
      generalize t.nodes = nodes at t1 b2 t2 t3 hndt
      cases t1 with
      | leaf _ _ h hc => exact absurd (h.resolve_left (by omega)) (by omega)
      | node _ q rad inside outside hin hout hrad hsize h1 h2 =>
        simp only [List.getElem?_cons_zero, Option.some.injEq, Node.mk.injEq, Children.mk.injEq] at b2
        obtain ⟨rfl, rfl, rfl⟩ := b2
        obtain ⟨o, ho, hor⟩ := hrad
        rw [← hor, hdist]
        have ho' : o.vantagePt < events.length := by
          simpa using t3.mem_iff.1 (List.mem_map.2 ⟨o, by simp [ho], rfl⟩)
        have hb' : b.pt < events.length := by
          simpa using t3.mem_iff.1 (List.mem_map.2 ⟨_, List.mem_cons_self, rfl⟩)
        have hne : b.pt ≠ o.vantagePt := by
          intro heq
          simp only [List.map_cons, List.nodup_cons, List.mem_map] at hndt
          exact hndt.1 ⟨o, by simp [ho], heq.symm⟩
        have hval : ∀ i < events.length, events.getD i default = (i : ℤ) := by
          intro i hi
          rw [hlen] at hi
          rw [hev, List.getD_eq_getElem?_getD, List.getElem?_map, List.getElem?_range hi]
          rfl
        simp only [hval _ ho', hval _ hb', equalDist]
        rw [if_neg (by exact_mod_cast hne)]
    rw [C21_region_meaning (⟨p.intoTree.map (fun (b : VPBisection Nat ℤ) => (⟨events.getD b.pt default, b.r⟩ : VPBisection ℤ ℤ)),
      equalDist⟩ : VPTreePartition ℤ ℤ) _ 1 hl]
    simp only [regionBelow, List.getElem?_map, b1, Option.map_some]
    rw [if_pos]
    rw [hr]
    unfold equalDist
    split_ifs <;> norm_num
  obtain ⟨p, p1, p2⟩ := hall
  have := h equalDist equalDist_metric stableSort stableSort stableSort_sorts stableSort_sorts 0 1000 events p hnd p1 0 (by norm_num)
  simp only [p2, decide_true, List.filter_true] at this
  omega

-- events to which the theorem applies
example : ∃ p, makePartition stableSort stableSort 0 1000 lineDist (2 ^ 1) [0, 1, 3, 7, 15, 31, 63, 127] = .ok p ∧
    ∀ r < 2, 0 < ([0, 1, 3, 7, 15, 31, 63, 127].filter fun e => decide (p.region e = r)).length := by
  obtain ⟨p, h1, -, h3⟩ := C125_balanced_partial stableSort_sorts stableSort_sorts 0 1000 lineDist 1 [0, 1, 3, 7, 15, 31, 63, 127] (by decide) (by decide)
    (by decide) (m := 1) (by
      have h : ∀ a ∈ [0, 1, 3, 7, 15, 31, 63, 127], ∀ v ∈ [0, 1, 3, 7, 15, 31, 63, 127].map (lineDist a),
          ([0, 1, 3, 7, 15, 31, 63, 127].filter fun e => decide (lineDist a e = v)).length ≤ 1 := by decide +kernel
      intro a ha v
      by_cases hv : v ∈ [0, 1, 3, 7, 15, 31, 63, 127].map (lineDist a)
      · exact h a ha v hv
      · rw [List.filter_eq_nil_iff.2]
        · simp
        · intro e he
          simp only [decide_eq_true_eq]
          rintro rfl
          exact hv (List.mem_map.2 ⟨e, he, rfl⟩))
  refine ⟨p, h1, fun r hr => ?_⟩
  have := h3 r hr
  simp only [List.length_cons, List.length_nil] at this
  omega

end Cres

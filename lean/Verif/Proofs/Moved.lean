import Verif.Spec.Moved
import Verif.Proofs.Scaled
import Verif.Props.Cluster

/-!
Runs with momenta in another frame or in other units.
-/

set_option linter.unusedSectionVars false

namespace Cres

open Spec CombinedIO Program

/-! ### resampling with distances in other units -/

section
variable {D K V : Type*}

def Cell.convert (ψ : D → D) (c : Cell D K) : Cell D K := { c with radius := ψ c.radius }

/-- Neighbours with distances in other units. -/
def convertNear (ψ : D → D) (l : List (Nat × D)) : List (Nat × D) := l.map fun x => (x.1, ψ x.2)

def Task.convert (ψ : D → D) : Task D K → Task D K
  | .waiting => .waiting
  | .checked => .checked
  | .growing c rest => .growing (c.convert ψ) (convertNear ψ rest)
  | .locking c held todo => .locking (c.convert ψ) held todo
  | .reading c acc todo => .reading (c.convert ψ) acc todo
  | .writing c avg todo => .writing (c.convert ψ) avg todo
  | .releasing c todo => .releasing (c.convert ψ) todo
  | .done c => .done (c.map (Cell.convert ψ))
  | .panicked => .panicked

def State.convert (ψ : D → D) (s : State D K) : State D K :=
  ⟨s.mem, s.owner, fun t => (s.tasks t).convert ψ, s.log.map (Cell.convert ψ)⟩

variable [Zero D] [Zero K] [One K] [Add K] [Mul K] [Div K] [NatCast K] [Neg K] [LinearOrder K] {ψ : D → D}

theorem step_convert (hψ : ψ 0 = 0) (cfg : Cfg) (n : Nat) (nearest : Nat → List (Nat × D)) (seed : Nat) (s : State D K) (tid : Nat) :
    step cfg n (fun i => convertNear ψ (nearest i)) seed (s.convert ψ) tid = (step cfg n nearest seed s tid).map (State.convert ψ) := by
  have hupd : ∀ t : Task D K, ({ s.convert ψ with tasks := Function.update (s.convert ψ).tasks tid (t.convert ψ) } : State D K) =
      State.convert ψ { s with tasks := Function.update s.tasks tid t } := by
    intro t
    simp only [State.convert, State.mk.injEq, true_and, and_true]
    exact (update_scale (Task.convert ψ) s.tasks tid t).symm
  have hm : (s.convert ψ).mem = s.mem := rfl
  have ho : (s.convert ψ).owner = s.owner := rfl
  unfold step
  rw [show (s.convert ψ).tasks tid = (s.tasks tid).convert ψ from rfl]
  cases ht : s.tasks tid with
  | waiting =>
    simp only [Task.convert, ho, hm]
    split_ifs
    · rfl
    · cases weightAt n s.mem seed with
      | none => exact congrArg some (hupd .panicked)
      | some w =>
        simp only
        split_ifs
        · exact congrArg some (hupd (.done none))
        · exact congrArg some (hupd .checked)
  | checked =>
    simp only [Task.convert, ho, hm]
    split_ifs
    · rfl
    · cases weightAt n s.mem seed with
      | none => exact congrArg some (hupd .panicked)
      | some w =>
        simp only
        split_ifs
        · exact congrArg some (hupd .panicked)
        · refine (congrArg some ?_).trans (congrArg some (hupd (.growing ⟨[seed], 0, w⟩ (nearest seed))))
          simp only [Task.convert, Cell.convert, hψ]
          rfl
  | growing c rest =>
    cases rest with
    | nil => exact congrArg some (hupd (startResample c))
    | cons x rest =>
      obtain ⟨i, d⟩ := x
      simp only [Task.convert, ho, hm, convertNear, List.map_cons]
      split_ifs
      · rfl
      · cases weightAt n s.mem i with
        | none => exact congrArg some (hupd .panicked)
        | some w =>
          simp only [Cell.convert]
          by_cases hc : 0 ≤ c.weightSum + w
          · simp only [hc, if_true]
            exact congrArg some (hupd (startResample ⟨c.members ++ [i], d, c.weightSum + w⟩))
          · simp only [hc, if_false]
            exact congrArg some (hupd (.growing ⟨c.members ++ [i], d, c.weightSum + w⟩ rest))
  | locking c held todo =>
    cases todo with
    | nil => exact congrArg some (hupd .panicked)
    | cons e todo =>
      simp only [Task.convert, ho]
      split_ifs
      · rfl
      · simp only [Option.map_some, Option.some.injEq, State.convert, State.mk.injEq, true_and]
        refine ⟨?_, by simp⟩
        rw [update_scale]
        rfl
      · simp only [Option.map_some, Option.some.injEq, State.convert, State.mk.injEq, true_and, and_true]
        rw [update_scale]
        rfl
  | reading c acc todo =>
    cases todo with
    | nil => exact congrArg some (hupd .panicked)
    | cons e todo =>
      simp only [Task.convert, hm]
      cases accumulate cfg acc (s.mem e) with
      | none => exact congrArg some (hupd .panicked)
      | some a =>
        simp only [Option.map_some, Option.some.injEq, State.convert, State.mk.injEq, true_and, and_true]
        rw [update_scale]
        congr 1
        split_ifs <;> rfl
  | writing c avg todo =>
    cases todo with
    | nil => exact congrArg some (hupd .panicked)
    | cons e todo =>
      simp only [Task.convert]
      rw [hm, show (c.convert ψ).members = c.members from rfl]
      split_ifs
      · exact congrArg some (hupd .panicked)
      all_goals
        simp only [Option.map_some, Option.some.injEq, State.convert, State.mk.injEq, true_and, and_true]
        rw [update_scale]
        rfl
  | releasing c todo =>
    cases todo with
    | nil => exact congrArg some (hupd (.done (some c)))
    | cons e todo =>
      rw [show (Task.releasing c (e :: todo)).convert ψ = .releasing (c.convert ψ) (e :: todo) from rfl]
      simp only [Option.map_some, Option.some.injEq, State.convert, State.mk.injEq, true_and, and_true]
      rw [update_scale]
      congr 1
      split_ifs <;> rfl
  | done c => rfl
  | panicked => rfl

theorem reachable_convert (hψ : ψ 0 = 0) {cfg : Cfg} {n : Nat} {nearest : Nat → List (Nat × D)} {seeds : List Nat} {mem : Mem K}
    {s : State D K} (h : Reachable cfg n nearest seeds mem s) :
    Reachable cfg n (fun i => convertNear ψ (nearest i)) seeds mem (s.convert ψ) := by
  induction h with
  | init => exact .init
  | @step s s' tid _ hs ih =>
    refine .step (tid := tid) ih ?_
    unfold stepAll at hs ⊢
    cases hseed : seeds[tid]? with
    | none => rw [hseed] at hs; cases hs
    | some seed =>
      rw [hseed] at hs
      simp only at hs ⊢
      rw [step_convert hψ, hs]
      rfl

theorem finished_convert {seeds : List Nat} {s : State D K} (h : s.Finished seeds) : (s.convert ψ).Finished seeds := by
  intro tid ht
  obtain ⟨c, hc⟩ := h tid ht
  exact ⟨c.map (Cell.convert ψ), by simp [State.convert, hc, Task.convert]⟩

end

/-! ### the neighbour search -/

section
variable {D : Type*} [Zero D] [LinearOrder D] [DistNum D] [ExactComparison D] {ψ : D ≃o D}

theorem le_convert (ψ : D ≃o D) (a b : D) : DistNum.le (ψ a) (ψ b) = DistNum.le a b := by
  rw [ExactComparison.le_eq, ExactComparison.le_eq, decide_eq_decide]
  exact ψ.le_iff_le

theorem lt_convert (ψ : D ≃o D) (a b : D) : DistNum.lt (ψ a) (ψ b) = DistNum.lt a b := by
  rw [ExactComparison.lt_eq, ExactComparison.lt_eq, decide_eq_decide]
  exact ψ.lt_iff_lt

def NaiveIter.convert (ψ : D → D) (it : NaiveIter D) : NaiveIter D :=
  ⟨convertNear ψ it.dist, it.candidates, ψ it.maxDist⟩

theorem naive_distOf_convert (hψ : IsDistanceUnit ψ) (it : NaiveIter D) (i : Nat) : (it.convert ψ).distOf i = ψ (it.distOf i) := by
  unfold NaiveIter.distOf NaiveIter.convert convertNear
  simp only [List.getD_eq_getElem?_getD, List.getElem?_map]
  cases it.dist[i]? with
  | none => exact hψ.zero.symm
  | some x => rfl

theorem naive_next_convert (hψ : IsDistanceUnit ψ) (minPos : MinOracle D) (it : NaiveIter D) :
    (it.convert ψ).next (fun c keys => minPos c (keys.map ψ.symm)) =
      ((it.next minPos).1.map fun x => (x.1, ψ x.2), (it.next minPos).2.convert ψ) := by
  have hk : (it.candidates.map (it.convert ψ).distOf).map ψ.symm = it.candidates.map it.distOf := by
    rw [List.map_map]
    apply List.map_congr_left
    intro i _
    simp [naive_distOf_convert hψ]
  unfold NaiveIter.next
  beta_reduce
  rw [show (it.convert ψ).candidates = it.candidates from rfl, hk]
  cases minPos it.candidates (it.candidates.map it.distOf) with
  | none => rfl
  | some pos =>
    simp only
    cases it.candidates[pos]? with
    | none => rfl
    | some idx =>
      simp only [naive_distOf_convert hψ]
      rw [show (it.convert ψ).maxDist = ψ it.maxDist from rfl, le_convert]
      split_ifs <;> rfl

theorem naive_take_convert (hψ : IsDistanceUnit ψ) (minPos : MinOracle D) : ∀ (n : Nat) (it : NaiveIter D),
    NaiveIter.take (fun c keys => minPos c (keys.map ψ.symm)) n (it.convert ψ) = convertNear ψ (NaiveIter.take minPos n it) := by
  intro n
  induction n with
  | zero => intro it; rfl
  | succ n ih =>
    intro it
    simp only [NaiveIter.take]
    rw [naive_next_convert hψ]
    cases h : it.next minPos with
    | mk r it' =>
      cases r with
      | none => rfl
      | some x =>
        simp only [Option.map_some, ih]
        rfl

theorem naiveNearest_convert (hψ : IsDistanceUnit ψ) (minPos : MinOracle D) (n : Nat) {dist dist' : Nat → Nat → D}
    (hd : ∀ i j, dist' i j = ψ (dist i j)) (maxDist : D) (point : Nat) :
    naiveNearest (fun c keys => minPos c (keys.map ψ.symm)) n dist' (ψ maxDist) point =
      convertNear ψ (naiveNearest minPos n dist maxDist point) := by
  unfold naiveNearest
  rw [← naive_take_convert hψ]
  simp only [NaiveIter.new, NaiveIter.convert, convertNear, List.map_map, List.length_map]
  have : ((fun x : Nat × D => (x.1, dist' x.1 point)) ∘ fun id => (id, (0 : D))) =
      (fun x : Nat × D => (x.1, ψ x.2)) ∘ (fun x : Nat × D => (x.1, dist x.1 point)) ∘ fun id => (id, (0 : D)) := by
    funext i
    simp [hd]
  rw [this]

/-! trees -/

variable {P : Type*}

theorem convertPoint_inverse (ψ : D ≃o D) (x : D × Node P D) : convertPoint ψ.symm (convertPoint ψ x) = x := by
  obtain ⟨d, p, ch⟩ := x
  cases ch <;> simp [convertPoint]

theorem map_convertPoint_inverse (ψ : D ≃o D) (l : List (D × Node P D)) : (l.map (convertPoint ψ)).map (convertPoint ψ.symm) = l := by
  rw [List.map_map]
  conv_rhs => rw [← List.map_id l]
  apply List.map_congr_left
  intro x _
  exact convertPoint_inverse ψ x

/-- A sort algorithm for distances in other units. -/
def convertSort (ψ : D ≃o D) (sort : SortOracle P D) : SortOracle P D :=
  fun call l => (sort call (l.map (convertPoint ψ.symm))).map (convertPoint ψ)

theorem swap_map {α β : Type*} (f : α → β) (l : List α) (i j : Nat) : swap (l.map f) i j = (swap l i j).map f := by
  unfold swap
  rw [List.getElem?_map, List.getElem?_map]
  cases l[i]? with
  | none => rfl
  | some a => cases l[j]? with
    | none => rfl
    | some b => simp [List.map_set]

theorem buildTree_convert (ψ : D ≃o D) (sort : SortOracle P D) {dist dist' : P → P → D} (hd : ∀ i j, dist' i j = ψ (dist i j)) :
    ∀ (depth call : Nat) (pts : List (D × Node P D)),
      buildTree (convertSort ψ sort) dist' depth call (pts.map (convertPoint ψ)) =
        (buildTree sort dist depth call pts).map (convertPoint ψ) := by
  intro depth
  induction depth with
  | zero => intro call pts; rfl
  | succ depth ih =>
    intro call pts
    simp only [buildTree, List.length_map, swap_map]
    split_ifs
    · rfl
    · cases hs : swap pts 0 (pts.length - 1) with
      | nil => rfl
      | cons vp rest =>
        simp only [List.map_cons]
        have hrest : (rest.map (convertPoint ψ)).map (fun x => (dist' (convertPoint ψ vp).2.vantagePt x.2.vantagePt, x.2)) =
            (rest.map fun x => (dist vp.2.vantagePt x.2.vantagePt, x.2)).map (convertPoint ψ) := by
          rw [List.map_map, List.map_map]
          apply List.map_congr_left
          intro x _
          simp [convertPoint, hd]
        rw [hrest]
        have hsort : convertSort ψ sort call ((rest.map fun x => (dist vp.2.vantagePt x.2.vantagePt, x.2)).map (convertPoint ψ)) =
            (sort call (rest.map fun x => (dist vp.2.vantagePt x.2.vantagePt, x.2))).map (convertPoint ψ) := by
          unfold convertSort
          rw [map_convertPoint_inverse]
        rw [hsort]
        generalize sort call (rest.map fun x => (dist vp.2.vantagePt x.2.vantagePt, x.2)) = sorted
        rw [List.length_map, ← List.map_take, ← List.map_drop]
        cases ho : sorted.drop (sorted.length / 2) with
        | nil => rfl
        | cons first o =>
          simp only [List.map_cons]
          rw [ih, ← List.map_cons, ih, List.map_append]
          rfl

theorem parBuildTree_convert (ψ : D ≃o D) (psort sort : SortOracle P D) {dist dist' : P → P → D} (hd : ∀ i j, dist' i j = ψ (dist i j)) :
    ∀ (depth call : Nat) (pts : List (D × Node P D)),
      parBuildTree (convertSort ψ psort) (convertSort ψ sort) dist' depth call (pts.map (convertPoint ψ)) =
        (parBuildTree psort sort dist depth call pts).map (convertPoint ψ) := by
  intro depth
  induction depth with
  | zero => intro call pts; rfl
  | succ depth ih =>
    intro call pts
    simp only [parBuildTree, List.length_map, swap_map]
    split_ifs
    · exact buildTree_convert ψ sort hd (depth + 1) call pts
    · cases hs : swap pts 0 (pts.length - 1) with
      | nil => rfl
      | cons vp rest =>
        simp only [List.map_cons]
        have hrest : (rest.map (convertPoint ψ)).map (fun x => (dist' (convertPoint ψ vp).2.vantagePt x.2.vantagePt, x.2)) =
            (rest.map fun x => (dist vp.2.vantagePt x.2.vantagePt, x.2)).map (convertPoint ψ) := by
          rw [List.map_map, List.map_map]
          apply List.map_congr_left
          intro x _
          simp [convertPoint, hd]
        rw [hrest]
        have hsort : convertSort ψ psort call ((rest.map fun x => (dist vp.2.vantagePt x.2.vantagePt, x.2)).map (convertPoint ψ)) =
            (psort call (rest.map fun x => (dist vp.2.vantagePt x.2.vantagePt, x.2))).map (convertPoint ψ) := by
          unfold convertSort
          rw [map_convertPoint_inverse]
        rw [hsort]
        generalize psort call (rest.map fun x => (dist vp.2.vantagePt x.2.vantagePt, x.2)) = sorted
        rw [List.length_map, ← List.map_take, ← List.map_drop]
        cases ho : sorted.drop (sorted.length / 2) with
        | nil => rfl
        | cons first o =>
          simp only [List.map_cons]
          rw [ih, ← List.map_cons, ih, List.map_append]
          rfl


def Node.convert (ψ : D → D) (n : Node P D) : Node P D := ⟨n.vantagePt, n.children.map fun c => ⟨ψ c.radius, c.outsideOffset⟩⟩

def VPTree.convert (ψ : D → D) (t : VPTree P D) : VPTree P D := ⟨t.nodes.map (Node.convert ψ), fun i j => ψ (t.dist i j), ψ t.maxDist⟩

/-- A cache with distances in other units. -/
def convertCache (ψ : D → D) (l : List (P × D)) : List (P × D) := l.map fun x => (x.1, ψ x.2)

/-- The result of a search with distances in other units. -/
def convertFound {T : Type*} (ψ : D → D) (r : Option (T × D)) : Option (T × D) := r.map fun x => (x.1, ψ x.2)

theorem parNew_convert (hψ : IsDistanceUnit ψ) (psort sort : SortOracle P D) (cornerPt : Nat) (f64Max : D) (pts : List P)
    (dist : P → P → D) (maxDist : D) :
    (VPTree.parNew (convertSort ψ psort) (convertSort ψ sort) cornerPt f64Max pts fun i j => ψ (dist i j)).withMaxDist (ψ maxDist) =
      ((VPTree.parNew psort sort cornerPt f64Max pts dist).withMaxDist maxDist).convert ψ := by
  unfold VPTree.parNew VPTree.fromParIterWithDistAndDepth VPTree.withMaxDist VPTree.convert
  simp only [VPTree.mk.injEq, and_true]
  have hinit : (initNodes pts : List (D × Node P D)) = (initNodes pts).map (convertPoint ψ) := by
    unfold initNodes
    rw [List.map_map]
    apply List.map_congr_left
    intro p _
    simp [convertPoint, hψ.zero]
  have h := parBuildTree_convert ψ psort sort (dist := dist) (dist' := fun i j => ψ (dist i j)) (fun _ _ => rfl) usizeMax 0
    (swap (initNodes pts) cornerPt ((initNodes pts : List (D × Node P D)).length - 1))
  rw [← swap_map, ← hinit] at h
  rw [h, List.map_map, List.map_map]
  rfl

variable [DecidableEq P]

theorem nearer_convert {T : Type*} (a b : Option (T × D)) : nearer (convertFound ψ a) (convertFound ψ b) = convertFound ψ (nearer a b) := by
  cases a with
  | none => cases b <;> rfl
  | some a =>
    cases b with
    | none => rfl
    | some b =>
      simp only [convertFound, Option.map_some, nearer, le_convert]
      split_ifs <;> rfl

theorem cachedDist_convert (dist : P → P → D) (pt p : P) (cache : List (P × D)) :
    cachedDist (fun i j => ψ (dist i j)) pt p (convertCache ψ cache) =
      (ψ (cachedDist dist pt p cache).1, convertCache ψ (cachedDist dist pt p cache).2) := by
  have : (convertCache ψ cache).lookup p = (cache.lookup p).map ψ := by
    induction cache with
    | nil => rfl
    | cons x cache ih =>
      obtain ⟨q, d⟩ := x
      simp only [convertCache, List.map_cons, List.lookup_cons] at ih ⊢
      cases p == q
      · exact ih
      · rfl
  unfold cachedDist
  rw [this]
  cases cache.lookup p <;> rfl

theorem nearestInSubtree_convert (hψ : IsDistanceUnit ψ) (dist : P → P → D) (maxDist : D) (pt : P) (exclude : List P) :
    ∀ (fuel : Nat) (tree : List (Node P D)) (idx : Nat) (cache : List (P × D)),
      nearestInSubtree (fun i j => ψ (dist i j)) (ψ maxDist) pt exclude fuel (tree.map (Node.convert ψ)) idx (convertCache ψ cache) =
        (convertFound ψ (nearestInSubtree dist maxDist pt exclude fuel tree idx cache).1,
          convertCache ψ (nearestInSubtree dist maxDist pt exclude fuel tree idx cache).2) := by
  intro fuel
  induction fuel with
  | zero => intro tree idx cache; rfl
  | succ fuel ih =>
    intro tree idx cache
    cases tree with
    | nil => rfl
    | cons node tree =>
      simp only [List.map_cons, nearestInSubtree]
      rw [show (Node.convert ψ node).vantagePt = node.vantagePt from rfl, cachedDist_convert]
      generalize cachedDist dist pt node.vantagePt cache = dc
      obtain ⟨d, cache1⟩ := dc
      simp only
      have hn : (if pt = node.vantagePt ∨ node.vantagePt ∈ exclude then none else some (idx, ψ d)) =
          convertFound ψ (if pt = node.vantagePt ∨ node.vantagePt ∈ exclude then none else some (idx, d)) := by
        split_ifs <;> rfl
      rw [hn]
      generalize (if pt = node.vantagePt ∨ node.vantagePt ∈ exclude then none else some (idx, d)) = near
      cases hch : node.children with
      | none =>
        rw [show (Node.convert ψ node).children = none by simp [Node.convert, hch]]
      | some ch =>
        rw [show (Node.convert ψ node).children = some ⟨ψ ch.radius, ch.outsideOffset⟩ by simp [Node.convert, hch]]
        simp only [lt_convert, hψ.absDiff, le_convert, ← List.map_take, ← List.map_drop]
        have hsub : ∀ (b : Bool) (x y : List (Node P D)), (if b = true then x.map (Node.convert ψ) else y.map (Node.convert ψ)) =
            (if b = true then x else y).map (Node.convert ψ) := by
          intro b x y
          cases b <;> rfl
        rw [hsub, hsub, ih]
        generalize nearestInSubtree dist maxDist pt exclude fuel
          (if DistNum.lt ch.radius d = true then tree.drop ch.outsideOffset else tree.take ch.outsideOffset)
          (idx + if DistNum.lt ch.radius d = true then ch.outsideOffset + 1 else 1) cache1 = r1
        obtain ⟨f1, cache2⟩ := r1
        simp only [nearer_convert]
        generalize nearer near f1 = near2
        have hfinal : ∀ b : Bool, (if DistNum.le (DistNum.absDiff d ch.radius) maxDist = false then
              (convertFound ψ near2, convertCache ψ cache2)
            else if b = true then (convertFound ψ near2, convertCache ψ cache2)
            else
              (nearer (convertFound ψ near2)
                (nearestInSubtree (fun i j => ψ (dist i j)) (ψ maxDist) pt exclude fuel
                    ((if DistNum.lt ch.radius d = true then tree.take ch.outsideOffset else tree.drop ch.outsideOffset).map (Node.convert ψ))
                    (idx + if DistNum.lt ch.radius d = true then 1 else ch.outsideOffset + 1) (convertCache ψ cache2)).1,
                (nearestInSubtree (fun i j => ψ (dist i j)) (ψ maxDist) pt exclude fuel
                    ((if DistNum.lt ch.radius d = true then tree.take ch.outsideOffset else tree.drop ch.outsideOffset).map (Node.convert ψ))
                    (idx + if DistNum.lt ch.radius d = true then 1 else ch.outsideOffset + 1) (convertCache ψ cache2)).2)) =
            (convertFound ψ (if DistNum.le (DistNum.absDiff d ch.radius) maxDist = false then (near2, cache2)
              else if b = true then (near2, cache2)
              else
                (nearer near2 (nearestInSubtree dist maxDist pt exclude fuel
                    (if DistNum.lt ch.radius d = true then tree.take ch.outsideOffset else tree.drop ch.outsideOffset)
                    (idx + if DistNum.lt ch.radius d = true then 1 else ch.outsideOffset + 1) cache2).1,
                  (nearestInSubtree dist maxDist pt exclude fuel
                    (if DistNum.lt ch.radius d = true then tree.take ch.outsideOffset else tree.drop ch.outsideOffset)
                    (idx + if DistNum.lt ch.radius d = true then 1 else ch.outsideOffset + 1) cache2).2)).1,
            convertCache ψ (if DistNum.le (DistNum.absDiff d ch.radius) maxDist = false then (near2, cache2)
              else if b = true then (near2, cache2)
              else
                (nearer near2 (nearestInSubtree dist maxDist pt exclude fuel
                    (if DistNum.lt ch.radius d = true then tree.take ch.outsideOffset else tree.drop ch.outsideOffset)
                    (idx + if DistNum.lt ch.radius d = true then 1 else ch.outsideOffset + 1) cache2).1,
                  (nearestInSubtree dist maxDist pt exclude fuel
                    (if DistNum.lt ch.radius d = true then tree.take ch.outsideOffset else tree.drop ch.outsideOffset)
                    (idx + if DistNum.lt ch.radius d = true then 1 else ch.outsideOffset + 1) cache2).2)).2) := by
          intro b
          rw [ih, nearer_convert]
          by_cases h1 : DistNum.le (DistNum.absDiff d ch.radius) maxDist = false
          · simp only [h1, if_true]
          · simp only [h1]
            cases b <;> rfl
        cases near2 with
        | none => exact hfinal false
        | some x =>
          have := hfinal (DistNum.lt x.2 (DistNum.absDiff ch.radius d))
          simpa only [convertFound, Option.map_some, lt_convert] using this

theorem nearestInImpl_convert (hψ : IsDistanceUnit ψ) (t : VPTree P D) (pt : P) (exclude : List P) (cache : List (P × D)) :
    (t.convert ψ).nearestInImpl pt exclude (convertCache ψ cache) =
      (convertFound ψ (t.nearestInImpl pt exclude cache).1, convertCache ψ (t.nearestInImpl pt exclude cache).2) := by
  unfold VPTree.nearestInImpl
  rw [show (t.convert ψ).nodes = t.nodes.map (Node.convert ψ) from rfl, List.length_map]
  rw [show (t.convert ψ).dist = fun i j => ψ (t.dist i j) from rfl, show (t.convert ψ).maxDist = ψ t.maxDist from rfl,
    nearestInSubtree_convert hψ]
  generalize nearestInSubtree t.dist t.maxDist pt exclude t.nodes.length t.nodes 0 cache = r
  obtain ⟨f, cache1⟩ := r
  cases f with
  | none => rfl
  | some x =>
    simp only [convertFound, Option.map_some, le_convert]
    split_ifs
    · simp only [List.getElem?_map, Option.map_map]
      rfl
    · rfl

def NNIter.convert (ψ : D → D) (it : NNIter P D) : NNIter P D := ⟨it.pt, it.exclude, convertCache ψ it.cache⟩

theorem nn_next_convert (hψ : IsDistanceUnit ψ) (t : VPTree P D) (it : NNIter P D) :
    (it.convert ψ).next (t.convert ψ) = (convertFound ψ (it.next t).1, (it.next t).2.convert ψ) := by
  unfold NNIter.next
  rw [show (it.convert ψ).pt = it.pt from rfl, show (it.convert ψ).exclude = it.exclude from rfl,
    show (it.convert ψ).cache = convertCache ψ it.cache from rfl, nearestInImpl_convert hψ]
  generalize t.nearestInImpl it.pt it.exclude it.cache = r
  obtain ⟨f, cache1⟩ := r
  cases f <;> rfl

theorem nn_take_convert (hψ : IsDistanceUnit ψ) (t : VPTree P D) : ∀ (n : Nat) (it : NNIter P D),
    NNIter.take (t.convert ψ) n (it.convert ψ) = convertCache ψ (NNIter.take t n it) := by
  intro n
  induction n with
  | zero => intro it; rfl
  | succ n ih =>
    intro it
    simp only [NNIter.take]
    rw [nn_next_convert hψ]
    cases h : it.next t with
    | mk r it' =>
      cases r with
      | none => rfl
      | some x =>
        simp only [convertFound, Option.map_some, ih]
        rfl

theorem treeNearest_convert (hψ : IsDistanceUnit ψ) (psort sort : SortOracle Nat D) (cornerPt : Nat) (f64Max : D) (n : Nat)
    {dist dist' : Nat → Nat → D} (hd : ∀ i j, dist' i j = ψ (dist i j)) (maxDist : D) (point : Nat) :
    treeNearest (convertSort ψ psort) (convertSort ψ sort) cornerPt f64Max n dist' (ψ maxDist) point =
      convertNear ψ (treeNearest psort sort cornerPt f64Max n dist maxDist point) := by
  obtain rfl : dist' = fun i j => ψ (dist i j) := by
    funext i j
    exact hd i j
  unfold treeNearest
  rw [parNew_convert hψ]
  unfold VPTree.nearest
  rw [show (VPTree.convert ψ ((VPTree.parNew psort sort cornerPt f64Max (List.range n) dist).withMaxDist maxDist)).nodes.length =
    ((VPTree.parNew psort sort cornerPt f64Max (List.range n) dist).withMaxDist maxDist).nodes.length from List.length_map _]
  exact nn_take_convert hψ _ _ (nearestIn point)

end

/-! ### events with changed momenta -/

section
variable {D K V : Type*} [LinearOrder V] {h : V → V}

theorem compress_flat_perm (parts : List (ℤ × V)) : (flatGroups (compressOutgoing parts)).Perm parts := by
  rw [(groupInv_compress parts).flat]
  exact List.perm_insertionSort _ _

theorem moved_outgoing {e : Event K V} {parts : List (ℤ × V)} (he : HasOutgoing e parts) :
    HasOutgoing (moved h e) (moveParticles h parts) := by
  unfold HasOutgoing at he ⊢
  show compressOutgoing (moveParticles h (flatGroups e.outgoingByPid)) = _
  rw [he]
  exact compress_perm ((compress_flat_perm parts).map _)

theorem compress_isEmpty (parts : List (ℤ × V)) : (compressOutgoing parts).isEmpty = parts.isEmpty := by
  have h1 := compress_flat_perm parts
  have h2 := (groupInv_compress parts).ne_nil
  cases hc : compressOutgoing parts with
  | nil =>
    rw [hc] at h1
    have : parts = [] := List.Perm.eq_nil h1.symm
    rw [this]
    rfl
  | cons g gs =>
    rw [hc] at h1 h2
    cases parts with
    | nil =>
      have h3 := List.Perm.eq_nil h1
      have h4 := h2 g (by simp)
      simp only [flatGroups, List.flatMap_cons, List.append_eq_nil_iff, List.map_eq_nil_iff] at h3
      exact absurd h3.1 h4
    | cons _ _ => rfl

theorem moved_isEmpty {e : Event K V} {parts : List (ℤ × V)} (he : HasOutgoing e parts) :
    (moved h e).outgoingByPid.isEmpty = e.outgoingByPid.isEmpty := by
  have h1 := moved_outgoing (h := h) he
  unfold HasOutgoing at h1 he
  rw [h1, he, compress_isEmpty, compress_isEmpty]
  simp [moveParticles]

theorem withRole_map {f f' : ℤ × V → Role} {parts : List (ℤ × V)} (hf : ∀ x ∈ parts, f' (x.1, h x.2) = f x) (r : Role) :
    withRole f' r (moveParticles h parts) = (withRole f r parts).map h := by
  unfold withRole moveParticles
  rw [List.filter_map, List.map_map, List.map_map]
  have : parts.filter ((fun x => decide (f' x = r)) ∘ fun x => (x.1, h x.2)) = parts.filter fun x => decide (f x = r) := by
    apply List.filter_congr
    intro x hx
    simp [hf x hx]
  rw [this]
  rfl

variable [Zero D] [LinearOrder D] [DistNum D] [Zero K]

/-- Clustering of events with changed momenta. -/
theorem cluster_moved {ψ : D ≃o D} {s s' : CresSettings K V D} (hs : MovedSettings h ψ s s') {e : Event K V} {parts : List (ℤ × V)}
    (he : HasOutgoing e parts) :
    Cluster.cluster s'.io.ctx.multi s'.particles s'.clustering (moved h e) =
      moved h (Cluster.cluster s.io.ctx.multi s.particles s.clustering e) := by
  have he' := moved_outgoing (h := h) he
  obtain ⟨a1, a2, js, ls, a3, a4, a5, a6⟩ := C59_cluster s.particles s.clustering s.io.ctx.multi e parts he
  obtain ⟨b1, b2, js', ls', b3, b4, b5, b6⟩ := C59_cluster s'.particles s'.clustering s'.io.ctx.multi (moved h e) (moveParticles h parts) he'
  have hsome : s'.clustering.leptons.isSome = s.clustering.leptons.isSome := by
    have := hs.leptons
    cases h1 : s.clustering.leptons <;> cases h2 : s'.clustering.leptons <;> rw [h1, h2] at this <;> first | rfl | cases this
  have hrole : ∀ x : ℤ × V, roleOf s'.particles s'.clustering (moved h e).outgoingByPid (x.1, h x.2) =
      roleOf s.particles s.clustering e.outgoingByPid x := by
    intro x
    unfold HasOutgoing at he he'
    simp only [roleOf, role, hs.particles, hsome, hs.includeNeutrinos, he, he', hs.isolated]
  have hwr : ∀ r, withRole (roleOf s'.particles s'.clustering (moved h e).outgoingByPid) r (moveParticles h parts) =
      (withRole (roleOf s.particles s.clustering e.outgoingByPid) r parts).map h := fun r => withRole_map (fun x _ => hrole x) r
  have hj : (s'.clustering.jets js').Perm ((s.clustering.jets js).map h) := by
    apply hs.jets
    refine b3.trans ?_
    rw [hwr]
    exact (a3.map h).symm
  have hl : ls'.Perm (ls.map h) := by
    refine b4.trans ?_
    rw [hwr]
    exact (a4.map h).symm
  have hkept : (moveParticles h parts).filter (fun x => roleOf s'.particles s'.clustering (moved h e).outgoingByPid x = .kept) =
      moveParticles h (parts.filter fun x => roleOf s.particles s.clustering e.outgoingByPid x = .kept) := by
    unfold moveParticles
    rw [List.filter_map]
    congr 1
    apply List.filter_congr
    intro x _
    simp only [Function.comp_apply]
    rw [hrole]
  have hout : (Cluster.cluster s'.io.ctx.multi s'.particles s'.clustering (moved h e)).outgoingByPid =
      (moved h (Cluster.cluster s.io.ctx.multi s.particles s.clustering e)).outgoingByPid := by
    rw [b6, moved_outgoing (h := h) a6, hwr, hkept]
    apply compress_perm
    unfold moveParticles
    simp only [List.map_append, List.map_map]
    refine List.Perm.append (List.Perm.append_left _ ?_) ?_
    · have := hj.map fun p => ((81 : ℤ), p)
      rw [List.map_map] at this
      exact this
    · have hlep := hs.leptons
      cases h1 : s.clustering.leptons with
      | none => cases h2 : s'.clustering.leptons with
        | none => exact List.Perm.refl _
        | some alg' => rw [h1, h2] at hlep; cases hlep
      | some alg => cases h2 : s'.clustering.leptons with
        | none => rw [h1, h2] at hlep; cases hlep
        | some alg' =>
          rw [h1, h2] at hlep
          cases hlep with
          | some hlep =>
            have := (hlep _ _ hl).map fun p => ((82 : ℤ), p)
            rw [List.map_map] at this
            exact this
  show (⟨_, _, _⟩ : Event K V) = ⟨_, _, _⟩
  rw [Event.mk.injEq]
  exact ⟨b1.trans a1.symm, b2.trans a2.symm, hout⟩

end

end Cres

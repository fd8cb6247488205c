import Verif.Model.Partition

/-!
Meaning of a list of bisections as a binary tree in heap order: the children of bisection `n` are the bisections
`2 * n + 1` (inside) and `2 * n + 2` (outside). Uses only the data types.
-/

namespace Cres.Spec

variable {P K : Type*}

/-- The region of `point` below bisection `i`, with `k` levels of bisections left. Regions are numbered from left
(inside) to right (outside); each subtree with `k` levels has `2^k` regions. -/
def regionBelow [LE K] [DecidableLE K] (vp : List (VPBisection P K)) (dist : P → P → K) (point : P) : Nat → Nat → Nat
  | 0, _ => 0
  | k + 1, i =>
    match vp[i]? with
    | none => 0
    | some b =>
      if dist b.pt point ≤ b.r then regionBelow vp dist point k (2 * i + 1)
      else 2 ^ k + regionBelow vp dist point k (2 * i + 2)

/-- `vp` lists inner nodes of the tree `nodes` (stored in preorder) in heap order, without repetition: there are
pairwise different node positions such that bisection `i` carries vantage point and radius of the node at its
position, bisection `0` is the root, and bisections `2 * i + 1` and `2 * i + 2` are at the positions of the first
inside and the first outside node of bisection `i`. -/
def IsHeapOf (vp : List (VPBisection P K)) (nodes : List (Node P K)) : Prop :=
  ∃ pos : List Nat, pos.Nodup ∧ pos.length = vp.length ∧
    ∀ (i q : Nat), pos[i]? = some q → ∃ b offset, vp[i]? = some b ∧ nodes[q]? = some ⟨b.pt, some ⟨b.r, offset⟩⟩ ∧
      (i = 0 → q = 0) ∧
      (2 * i + 1 < vp.length → pos[2 * i + 1]? = some (q + 1)) ∧
      (2 * i + 2 < vp.length → pos[2 * i + 2]? = some (q + 1 + offset))

end Cres.Spec

import Verif.Model.NaiveSearch

/-!
What a (depth-limited) vantage-point tree stored in preorder looks like. Uses only the data types.
-/

namespace Cres.Spec

variable {P K : Type*}

/-- `IsVPTree dist depth nodes`: `nodes` is the preorder layout of the first `depth` levels of a
vantage-point tree for `dist`. A slice with fewer than two points, or at depth 0, has no inner node.
Otherwise the first node stores a vantage point, a radius and the size of the inside part; the inside
points follow directly, then the outside points. Inside points are within the radius, outside points are
not closer than the radius, the radius is the smallest distance of an outside point, and the two parts have
the same size, up to one more point outside. -/
inductive IsVPTree [LE K] (dist : P → P → K) : Nat → List (Node P K) → Prop
  | leaf (depth : Nat) (nodes : List (Node P K)) (h : depth = 0 ∨ nodes.length < 2)
      (hc : ∀ n ∈ nodes, n.children = none) : IsVPTree dist depth nodes
  | node (depth : Nat) (p : P) (r : K) (inside outside : List (Node P K))
      (hin : ∀ x ∈ inside, dist p x.vantagePt ≤ r)
      (hout : ∀ x ∈ outside, r ≤ dist p x.vantagePt)
      (hr : ∃ x ∈ outside, dist p x.vantagePt = r)
      (hsize : outside.length = inside.length ∨ outside.length = inside.length + 1)
      (h1 : IsVPTree dist depth inside) (h2 : IsVPTree dist depth outside) :
      IsVPTree dist (depth + 1) (⟨p, some ⟨r, inside.length⟩⟩ :: (inside ++ outside))

/-- The assumption on the sorts: they return a sorted permutation. Ties may be resolved in any way,
differently in each call. -/
def SortsByDistance [LE K] (sort : SortOracle P K) : Prop :=
  ∀ call l, (sort call l).Perm l ∧ (sort call l).Pairwise (fun a b => a.1 ≤ b.1)

/-- The assumption on `min_by_key`: it returns a position with a minimal key, and `None` only for no
candidates. -/
def IsMinOracle {K : Type*} [LE K] (minPos : MinOracle K) : Prop :=
  ∀ cands keys, (minPos cands keys = none → keys = []) ∧
    ∀ pos, minPos cands keys = some pos → ∃ h : pos < keys.length, ∀ k ∈ keys, keys[pos] ≤ k

end Cres.Spec

import Verif.Spec.Normalize
/-
Specification of Louvain clustering. Nothing here refers to the model of the C++ code. The
vertices are `0, …, n - 1`; `W i j` is the weight of the edge from `i` to `j`, if there is
one; a clustering `a` gives each vertex the number of its cluster.
-/
namespace Spec

/-- The sum of the weights of the edges that leave `i`. -/
def outWeight (n : Nat) (W : Mat Rat) (i : Nat) : Rat := sumOf n (W i)

/-- The sum of all weights. -/
def allWeight (n : Nat) (W : Mat Rat) : Rat := ((List.range n).map (outWeight n W)).sum

/-- What the pair `(i, j)` contributes to the modularity when it is in one cluster: its
weight less the weight expected from the sums of the weights. -/
def pairWeight (n : Nat) (W : Mat Rat) (i j : Nat) : Rat :=
  (W i j).getD 0 - outWeight n W i * outWeight n W j / allWeight n W

/-- The modularity of a clustering. -/
def modularity (n : Nat) (W : Mat Rat) (a : Nat → Nat) : Rat :=
  ((List.range n).map fun i => ((List.range n).map fun j =>
    if a i = a j then pairWeight n W i j else 0).sum).sum / allWeight n W

/-- The clustering with vertex `i` moved to cluster `c`. -/
def moveTo (a : Nat → Nat) (i c : Nat) : Nat → Nat := fun j => if j = i then c else a j

/-- Has `i` an edge that leaves it? -/
def HasOut (n : Nat) (W : Mat Rat) (i : Nat) : Prop := ∃ j, j < n ∧ W i j ≠ none

/-- The vertices whose clusters are considered for `i`: those that have an edge that leaves
them, or an edge from or to `i`; with `masked`, those such that the weights of the edges
between them and `i` do not sum to zero. -/
def Eligible (masked : Bool) (n : Nat) (W : Mat Rat) (i j : Nat) : Prop :=
  match masked with
  | false => HasOut n W j ∨ W i j ≠ none ∨ W j i ≠ none
  | true => (W i j).getD 0 + (W j i).getD 0 ≠ 0

/-- The clusters that are considered for vertex `i`: those of a linked other vertex. -/
def Considered (masked : Bool) (n : Nat) (W : Mat Rat) (a : Nat → Nat) (i c : Nat) : Prop :=
  ∃ j, j < n ∧ j ≠ i ∧ Eligible masked n W i j ∧ a j = c

/-- Vertex `i` moves to a considered cluster for which the modularity is not less than for
any other; a vertex without edges that leave it does not move. -/
def Move (masked : Bool) (n : Nat) (W : Mat Rat) (a : Nat → Nat) (i : Nat) (b : Nat → Nat) : Prop :=
  (¬ HasOut n W i ∧ b = a) ∨
  (HasOut n W i ∧ ∃ c, Considered masked n W a i c ∧ b = moveTo a i c ∧
    ∀ c', Considered masked n W a i c' → modularity n W (moveTo a i c') ≤ modularity n W (moveTo a i c))

/-- The vertices below `k` are moved in turn. -/
def Moves (masked : Bool) (n : Nat) (W : Mat Rat) : Nat → (Nat → Nat) → (Nat → Nat) → Prop
  | 0, a, b => b = a
  | k + 1, a, b => ∃ c, Moves masked n W k a c ∧ Move masked n W c k b

/-- `b` is the clustering after `k` sweeps over all vertices, each of which changed the
clustering, starting with every vertex in a cluster of its own. -/
def Sweeps (masked : Bool) (n : Nat) (W : Mat Rat) : Nat → (Nat → Nat) → Prop
  | 0, b => b = id
  | k + 1, b => ∃ a, Sweeps masked n W k a ∧ Moves masked n W n a b ∧ b ≠ a

end Spec

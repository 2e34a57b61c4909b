import Verif.Spec.Normalize
/-
Specification of page rank: the textbook iteration. Nothing here refers to the model of
the C++ code. A graph with the vertices `0, …, n - 1` is a matrix `W` of weights.
-/
namespace Spec

/-- The share of the weight of the edge from `u` to `v` in the weights of the edges from
`u`; zero without such an edge. -/
def share (n : Nat) (W : Mat Rat) (u v : Nat) : Rat := (W u v).getD 0 / sumOf n (W u)

/-- The page ranks after `k` rounds: at first equal; in a round, every vertex hands its
rank to the ends of its edges, damped by `d`, and all receive the same part of the
rest. -/
def rankAfter (n : Nat) (W : Mat Rat) (d : Rat) : Nat → Nat → Rat
  | 0, _ => 1 / n
  | k + 1, v => d * ((List.range n).map fun u => rankAfter n W d k u * share n W u v).sum + (1 - d) / n

/-- Is there an edge to `v`? -/
def hasIn (n : Nat) (W : Mat Rat) (v : Nat) : Bool := (List.range n).any fun u => (W u v).isSome

/-- The mean squared change of the ranks in round `k + 1`. In the first round a vertex
without an edge to it counts as if its rank became zero. -/
def rankError (n : Nat) (W : Mat Rat) (d : Rat) (k : Nat) : Rat :=
  ((List.range n).map fun v =>
    let x := if k = 0 ∧ hasIn n W v = false then rankAfter n W d k v else rankAfter n W d k v - rankAfter n W d (k + 1) v
    x * x).sum / n

/-! ### what is computed if a vertex has an edge from it but none to it -/

/-- Does an edge lead to `v` from a vertex to which an edge leads? -/
def fedIn (n : Nat) (W : Mat Rat) (v : Nat) : Bool := (List.range n).any fun u => (W u v).isSome && hasIn n W u

/-- The iteration in which, after the first round, the vertices without an edge to them
hand nothing on, and a vertex with edges from such vertices only keeps its rank and
receives its part of the rest again. -/
def heldAfter (n : Nat) (W : Mat Rat) (d : Rat) : Nat → Nat → Rat
  | 0, _ => 1 / n
  | k + 1, v =>
    if k = 0 then d * ((List.range n).map fun u => 1 / n * share n W u v).sum + (1 - d) / n
    else if fedIn n W v then
      d * ((List.range n).map fun u => if hasIn n W u then heldAfter n W d k u * share n W u v else 0).sum + (1 - d) / n
    else heldAfter n W d k v + (1 - d) / n

/-- The mean squared change in round `k + 1` of that iteration, over the vertices with an
edge to them. In the first round the others count as if their ranks became zero. -/
def heldError (n : Nat) (W : Mat Rat) (d : Rat) (k : Nat) : Rat :=
  ((List.range n).map fun v =>
    let x := if hasIn n W v then heldAfter n W d k v - heldAfter n W d (k + 1) v else if k = 0 then 1 / n else 0
    x * x).sum / n

end Spec

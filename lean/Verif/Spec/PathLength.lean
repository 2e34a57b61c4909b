import Verif.Spec.Betweenness
/-
The number of edges of shortest paths. Nothing here refers to the model of the C++ code.
-/
namespace Spec

/-- The number of edges of the shortest paths from `s` to `t`, which all have the same;
zero without a path. -/
def pathLength (n : Nat) (E : Nat → Nat → Bool) (s t : Nat) : Nat :=
  match shortestPaths n E s t with
  | [] => 0
  | p :: _ => p.length - 1

/-- The number of vertices between the ends of a shortest path from `s` to `t`. -/
def inner (n : Nat) (E : Nat → Nat → Bool) (s t : Nat) : Nat := pathLength n E s t - 1

/-- The same graph with all edges turned round. -/
def opposite (E : Nat → Nat → Bool) (u v : Nat) : Bool := E v u

end Spec

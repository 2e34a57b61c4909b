import Verif.Spec.Betweenness
/-
Edge betweenness, by counting the shortest paths that use an edge. Nothing here refers
to the model of the C++ code.
-/
namespace Spec

/-- Does the path, given as the list of the vertices it visits, go from `v` directly to
`w`? -/
def usesEdge (v w : Nat) : List Nat → Bool
  | a :: b :: l => (a == v && b == w) || usesEdge v w (b :: l)
  | _ => false

/-- The number of shortest paths from `s`, to all vertices together, that use the edge
from `v` to `w`. -/
def edgePaths (n : Nat) (E : Nat → Nat → Bool) (s v w : Nat) : Nat :=
  ((List.range n).map fun t => ((shortestPaths n E s t).filter (usesEdge v w)).length).sum

/-- The number of shortest paths, between all pairs of vertices, that use the edge from
`v` to `w`. -/
def edgeScore (n : Nat) (E : Nat → Nat → Bool) (v w : Nat) : Nat :=
  ((List.range n).map fun s => edgePaths n E s v w).sum

/-- Edge betweenness centrality as usually defined: every pair of vertices counts with
the fraction of its shortest paths that use the edge. -/
def edgeBetweenness (n : Nat) (E : Nat → Nat → Bool) (v w : Nat) : Rat :=
  ((List.range n).map fun s => ((List.range n).map fun t =>
    (((shortestPaths n E s t).filter (usesEdge v w)).length : Rat) / ((shortestPaths n E s t).length : Rat)).sum).sum

end Spec

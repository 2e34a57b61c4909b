import Verif.Model.Cluster
import Verif.Model.Utils
/-
Model of `/repo/src/demo/peer_pressure_demo.cpp`. Line numbers refer to this file. Real numbers stand for `float` and `double`.
-/
namespace GBTL

/-- Lines 55-68 and 78-91 for any number of nodes, any edges and any limit to the number of rounds (the program takes the greatest `unsigned int`):
the cluster matrix and the cluster assignments it prints. -/
def peerDemo (limit n : Nat) (edges : List (Nat × Nat)) : Prog (Lil Bool × List Nat) := do
  let G ← lift (method ((Lil.new n n : Lil Rat).build (fun _ b => b) (edges.map fun e => (e.1, e.2, 1))))
  let ans ← peerPressureId id G limit
  let clusters ← lift (clusterAssignments b2r ans)
  .ok (ans, clusters)

/-- The arrays in lines 47-54. -/
def peerEdges1 : List (Nat × Nat) :=
  [(0, 0), (0, 2), (0, 3), (0, 6), (1, 1), (1, 2), (1, 3), (1, 7),
   (2, 0), (2, 2), (2, 4), (2, 6), (3, 0), (3, 1), (3, 3), (3, 5),
   (4, 0), (4, 2), (4, 4), (4, 6), (5, 1), (5, 3), (5, 5), (5, 6), (5, 7),
   (6, 0), (6, 4), (6, 6), (7, 1), (7, 3), (7, 5), (7, 7)]

/-- The arrays in lines 76-77. -/
def peerEdges2 : List (Nat × Nat) :=
  [(0, 0), (0, 1), (0, 2), (0, 3), (1, 0), (1, 1), (1, 2), (2, 0), (2, 1), (2, 2), (3, 3), (3, 4), (4, 3), (4, 4)]

end GBTL

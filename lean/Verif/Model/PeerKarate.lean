import Verif.Model.Cluster
import Verif.Model.Utils
import Verif.Model.AppendixDemo
/-
Model of `/repo/src/demo/peer_pressure_karate_demo.cpp`. Line numbers refer to this file. Real numbers stand for `float` and `double`.
-/
namespace GBTL

/-- `Plus<uint32_t>` on a graph of `uint32_t` and a clustering of `bool`, lines 127-130. -/
def ewLoops : EW Nat Bool Nat :=
  ⟨fun x b => (x + if b then 1 else 0) % 2 ^ 32, id, fun b => if b then 1 else 0, fun b => if b then 1 else 0, fun x y => (x + y) % 2 ^ 32, id⟩

/-- Lines 111-130, with the arrays of equal length (lines 113-118): the graph with an edge from every node to itself. -/
def loopedGraph (n : Nat) (edges : List (Nat × Nat)) : Prog (Lil Nat × Lil Bool) := do
  let G ← lift (method ((Lil.new n n : Lil Nat).build (fun _ b => b) (edges.map fun e => (e.1, e.2, 1))))
  let clusters ← lift (scaledIdentity n true)
  let A ← exec (eWiseAddM (mPlain id (Lil.new n n)) ewLoops (.plain G) (.plain clusters))
  .ok (A, clusters)

/-- `main`, lines 109-153, for any number of nodes, any edges and any limit to the number of rounds: the two lists it prints, without and with
normalization. -/
def peerKarate (limit n : Nat) (edges : List (Nat × Nat)) : Prog (List Nat × List Nat) := do
  let (A, start) ← loopedGraph n edges
  let C ← peerPressureV2 (fun x : Nat => (x : Rat)) A start limit
  let r ← lift (clusterAssignments b2r C)
  let start2 ← lift (scaledIdentity n true)
  let C2 ← peerPressure (fun x : Nat => (x : Rat)) A start2 limit
  let r2 ← lift (clusterAssignments b2r C2)
  .ok (r, r2)

end GBTL

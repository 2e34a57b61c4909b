import Verif.Model.BfsBatch
import Verif.Model.SsspDemo
/-
Model of `/repo/src/demo/bfs_demo.cpp`. Line numbers refer to this file. `IndexType` is `ITy.u64`.
-/
namespace GBTL

/-- What the program prints. -/
structure BfsShown where
  graph : Lil Int
  parents : BVec Int
  batch : Lil Int
  deriving DecidableEq

/-- `main`, lines 34-90, for any number of nodes, any edges and any root: the containers it prints, in the order of printing. -/
def bfsDemo (fuel : Nat) (ov : Int → Int → Int) (n : Nat) (edges : List (Nat × Nat)) (r : Nat) : Prog BfsShown := do
  let G ← lift (method ((Lil.new n n : Lil Int).build (fun _ b => b) (edges.map fun e => (e.1, e.2, 1))))
  let parents ← lift (BVec.new n)
  let root ← lift (BVec.new n)
  let root ← lift (method (root.setElement r 1))
  let parents ← bfsWave fuel .u64 .u64 ov G root parents
  let roots ← lift (method ((Lil.new n n : Lil Int).build (fun _ b => b) ((List.range n).map fun i => (i, i, 1))))
  let batch ← bfsBatch fuel .u64 .u64 ov G roots (Lil.new n n)
  .ok ⟨G, parents, batch⟩

end GBTL

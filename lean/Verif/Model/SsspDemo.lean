import Verif.Model.Sssp
import Verif.Model.Utils
import Verif.Model.Homework
/-
Model of `/repo/src/demo/sssp_demo.cpp`. Line numbers refer to this file.
-/
namespace GBTL

/-- What the program prints. -/
structure SsspShown where
  graph : Lil Int
  source : BVec Int
  path : BVec Int
  sources : Lil Int
  paths : Lil Int
  deriving DecidableEq

/-- `run_demo<T>()`, lines 34-72, for any number of nodes, any edges and a whole-number type `t`: the containers it prints, in the order of
printing. (The program also runs it with `double`, line 79: not modelled.) -/
def ssspDemo (t : ITy) (ov : Int → Int → Int) (n : Nat) (edges : List (Nat × Nat)) : Prog SsspShown := do
  let G ← lift (method ((Lil.new n n : Lil Int).build (fun _ b => b) (edges.map fun e => (e.1, e.2, t.conv 1))))
  let path ← lift (BVec.new n)
  let source ← lift (method (path.setElement 0 (t.conv 0)))
  let path ← sssp t ov G source
  let sources ← lift (scaledIdentity n (t.conv 0))
  let paths ← batchSssp t ov G sources
  .ok ⟨G, source, path.2, sources, paths.2⟩

/-- The edges in lines 49-52. -/
def techNote : List (Nat × Nat) := [0, 1, 1, 2, 2, 2, 2, 3, 3, 3, 3, 4, 4, 4, 5, 6, 6, 6, 8, 8].zip
  [3, 3, 6, 4, 5, 6, 8, 0, 1, 4, 6, 2, 3, 8, 2, 1, 2, 3, 2, 4]

/-- `print_vector(ostr, vec, label)`, `/repo/src/graphblas/Vector.hpp` lines 279-287. -/
def printVector {α : Type} (ty : List Char) (sh : α → List Char) (v : BVec α) (label : List Char) : Except Err (List Char) := do
  let t ← v.printInfo ty sh
  .ok (label ++ ":\n".toList ++ t ++ "\n".toList)

end GBTL

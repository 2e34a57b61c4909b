import Verif.Model.BfsBatch
import Verif.Model.Homework
/-
Model of `/repo/src/demo/bfs_level_demo.cpp`. Line numbers refer to this file. `unsigned int` is a number below 2^32.
-/
namespace GBTL

/-- `unsigned int` as the scalar type of levels, lines 121-122. -/
def uLev : LevTy Nat := { toIx := id, ofIx := u32, toU := id, ofU := u32, truthy := fun x => decide (x ≠ 0) }

/-- `unsigned int` as the scalar type of wavefronts, line 117. -/
def uWave : WaveTy Nat := { toIx := id, ofIx := u32, truthy := fun x => decide (x ≠ 0) }

/-- What the program prints: `root`, the levels of the first search, `root` again and the levels of the second. -/
structure LevelShown where
  root : Lil Nat
  first : Lil Nat
  root2 : Lil Nat
  second : Lil Nat
  deriving DecidableEq

/-- `main`, lines 108-145, for any number of nodes, any edges and any root. (Both searches copy `root`: `bfs.hpp` lines 322, 444.) -/
def levelDemo (fuel n : Nat) (edges : List (Nat × Nat)) (r : Nat) : Prog LevelShown := do
  let G ← lift (method ((Lil.new n n : Lil Nat).build (fun _ b => b) (edges.map fun e => (e.1, e.2, 1))))
  let root ← lift (method ((Lil.new 1 n : Lil Nat).setElement 0 r 1))
  let levels1 ← bfsLevelM fuel id G uWave root uLev (Lil.new 1 n)
  let levels ← batchBfsLevel fuel id G uWave root uLev (Lil.new 1 n)
  .ok ⟨root, levels1, root, levels⟩

/-- The arrays in lines 33-104: the neighbours of node 0, of node 1 and so on. -/
def karateRows : List (List Nat) := [
  [1, 2, 3, 4, 5, 6, 7, 8, 10, 11, 12, 13, 19, 21, 23, 31], [0, 2, 3, 7, 13, 17, 19, 21, 30], [0, 1, 3, 7, 8, 9, 13, 27, 28, 32], [0, 1, 2, 7, 12, 13],
  [0, 6, 10], [0, 6, 10, 16], [0, 4, 5, 16], [0, 1, 2, 3],
  [0, 2, 30, 32, 33], [2, 33], [0, 4, 5], [0],
  [0, 3], [0, 1, 2, 3, 33], [32, 33], [32, 33],
  [5, 6], [0, 1], [32, 33], [0, 1, 33],
  [32, 33], [0, 1], [32, 33], [25, 27, 29, 32, 33],
  [25, 27, 31], [23, 24, 31], [29, 33], [2, 23, 24, 33],
  [2, 31, 33], [23, 26, 32, 33], [1, 8, 32, 33], [0, 24, 25, 28, 32, 33],
  [2, 8, 14, 15, 18, 20, 22, 23, 29, 30, 31, 33], [8, 9, 13, 14, 15, 18, 19, 20, 22, 23, 26, 27, 28, 29, 30, 31, 32]]

/-- The edges in lines 33-104. -/
def karateEdges : List (Nat × Nat) := karateRows.zipIdx.flatMap fun r => r.1.map fun j => (r.2, j)

end GBTL

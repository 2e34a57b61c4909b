import Verif.Model.BfsBatch
import Verif.Model.Print
/-
Model of `/repo/src/demo/masked_mxm_homework.cpp`. Line numbers refer to this file. `IndexType` is a number below 2^64.
-/
namespace GBTL
open Spec (Outp MaskKind Accum)

/-- `IndexType` as the scalar type of levels, lines 60, 135. -/
def ixLev : LevTy Nat := { toIx := id, ofIx := id, toU := u32, ofU := id, truthy := fun x => decide (x ≠ 0) }

/-- `IndexType` as the scalar type of wavefronts, lines 100, 126. -/
def ixWave : WaveTy Nat := { toIx := id, ofIx := id, truthy := fun x => decide (x ≠ 0) }

/-- The loop body, lines 77-93. (That the product wraps at 2^64 is left out: the accumulator converts it to `unsigned int`, of whose
value this makes no difference.) -/
def homeworkBody (G : Lil Nat) (s : BatchSt Nat Nat) : Prog (BatchSt Nat Nat) := do
  let depth := s.depth + 1
  let levels ← exec (applyM { levOutM ixLev s.levels with outp := .merge } (fun x => x * depth) (.plain s.waves))
  let waves ← exec (mxm (waveOutM id ixLev.truthy s.waves levels) (logicalIx ixWave id) id (.plain s.waves) (.plain G))
  .ok { depth := depth, waves := waves, levels := levels }

/-- `bfs_level_masked(graph, wavefront, levels)`, lines 57-94. -/
def homeworkBfs (fuel : Nat) (G waves levels : Lil Nat) : Prog (Lil Nat) :=
  if G.nrows ≠ G.ncols ∨ waves.ncols ≠ G.nrows then .error (.err .dimension)
  else do
    let s ← loop (fun s => decide (0 < s.waves.nvals)) (homeworkBody G) fuel { depth := 0, waves := waves, levels := levels }
    .ok s.levels

/-- `build` in an algorithm: an exception leaves it. Lines 109, 133. -/
def builtFrom (n : Nat) (ts : List (Nat × Nat × Nat)) : Prog (Lil Nat) :=
  match (Lil.new n n : Lil Nat).build (fun _ b => b) ts with
  | (.ok (), A) => .ok A
  | (.error e, _) => .error (.err e)

/-- `main`, lines 98-136, for any number of nodes and any edges: the graph and the levels it prints. -/
def homeworkMain (fuel n : Nat) (edges : List (Nat × Nat)) : Prog (Lil Nat × Lil Nat) := do
  let G ← builtFrom n (edges.map fun e => (e.1, e.2, 1))
  let roots ← builtFrom n ((List.range n).map fun i => (i, i, 1))
  let levels ← homeworkBfs fuel G roots (Lil.new n n)
  .ok (G, levels)

/-- The edges in lines 104-105. -/
def gilbert : List (Nat × Nat) := [0, 0, 1, 1, 2, 3, 3, 3, 4, 5, 6, 6, 6].zip [1, 3, 4, 6, 5, 0, 2, 6, 5, 2, 2, 3, 4]

/-- `print_matrix(ostr, mat, label)`, `/repo/src/graphblas/Matrix.hpp` lines 294-301. -/
def printMatrix {α : Type} (ty : List Char) (sh : α → List Char) (A : Lil α) (label : List Char) : Except Err (List Char) := do
  let t ← A.printInfo ty sh
  .ok (label ++ ":\n".toList ++ t ++ "\n".toList)

end GBTL

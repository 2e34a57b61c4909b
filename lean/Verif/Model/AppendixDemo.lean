import Verif.Model.AppendixBfs
import Verif.Model.BetweennessV
import Verif.Model.Homework
import Verif.Model.SsspDemo
/-
Model of `/repo/src/demo/appendix_examples.cpp`. Line numbers refer to this file. Real numbers stand for `double` and `float`.
-/
namespace GBTL

/-- B.1 on one graph, lines 126-129 and 139-145: the levels. -/
def exampleB1 (fuel n : Nat) (edges : List (Nat × Nat)) (s : Nat) : Prog (BVec Nat) := do
  let G ← builtFrom n (edges.map fun e => (e.1, e.2, 1))
  let levels ← lift (BVec.new n)
  bfsB1 fuel (fun x => decide (x ≠ 0)) G s ixLev levels

/-- B.2 on one graph, lines 165-168 and 178-184: the levels. -/
def exampleB2 (fuel n : Nat) (edges : List (Nat × Nat)) (s : Nat) : Prog (BVec Nat) := do
  let G ← builtFrom n (edges.map fun e => (e.1, e.2, 1))
  let levels ← lift (BVec.new n)
  bfsB2 fuel (fun x => decide (x ≠ 0)) G s ixLev levels

/-- B.3 on one graph, lines 204-207 and 217-223: the parents. -/
def exampleB3 (fuel n : Nat) (edges : List (Nat × Nat)) (s : Nat) : Prog (BVec Nat) := do
  let G ← builtFrom n (edges.map fun e => (e.1, e.2, 1))
  let parents ← lift (BVec.new n)
  bfsB3 fuel G s parents

/-- B.4 on one graph, lines 241-246 and 254-261: the contribution of one source. -/
def exampleB4 (fuel : Nat) (ov : Int → Int → Int) (n : Nat) (edges : List (Nat × Nat)) (s : Nat) : Prog (BVec Rat) := do
  let G ← builtFrom n (edges.map fun e => (e.1, e.2, 1))
  let delta ← lift (BVec.new n)
  bcB4 fuel ov (fun x : Nat => (x : Int)) (fun x : Nat => (x : Rat)) delta G s

/-- `Plus<double>` as the operator of `eWiseAdd`, line 262. -/
def ewPlusQ : EW Rat Rat Rat := ⟨(· + ·), id, id, id, (· + ·), id⟩

/-- The loop over the sources `0`, `step`, ..., lines 251-266, with `m` turns: the sum. -/
def exampleB4Sum (fuel : Nat) (ov : Int → Int → Int) (n : Nat) (edges : List (Nat × Nat)) (m step : Nat) : Prog (BVec Rat) := do
  let bc ← lift (BVec.new n)
  forP m bc fun k bc => do
    let delta ← exampleB4 fuel ov n edges (k * step)
    exec (eWiseAddV (vPlain id bc) ewPlusQ bc delta)

/-- B.5 on one graph, lines 285-290 and 299-308: the contribution of all sources. -/
def exampleB5 (fuel : Nat) (ov : Int → Int → Int) (n : Nat) (edges : List (Nat × Nat)) (src : List Nat) : Prog (BVec Rat) := do
  let G ← builtFrom n (edges.map fun e => (e.1, e.2, 1))
  let delta ← lift (BVec.new n)
  bcB5 fuel ov (fun x : Nat => (x : Int)) (fun x : Nat => (x : Rat)) delta G src

/-- A graph: the number of its nodes and its edges. -/
structure ExGraph where
  n : Nat
  edges : List (Nat × Nat)

/-- What the program prints before B.5. (The contributions of the single sources in the loop are left out.) -/
structure AppendixShown where
  b1 : BVec Nat × BVec Nat
  b2 : BVec Nat × BVec Nat
  b3 : BVec Nat × BVec Nat
  b4 : BVec Rat × BVec Rat

/-- B.1 to B.4, lines 400-403, for any two graphs, any start in each, and any number and distance of sources in the loop of B.4. -/
def appendixToB4 (fuel : Nat) (ov : Int → Int → Int) (g h : ExGraph) (s s' m step : Nat) : Prog AppendixShown := do
  let a ← exampleB1 fuel g.n g.edges s
  let a' ← exampleB1 fuel h.n h.edges s'
  let b ← exampleB2 fuel g.n g.edges s
  let b' ← exampleB2 fuel h.n h.edges s'
  let c ← exampleB3 fuel g.n g.edges s
  let c' ← exampleB3 fuel h.n h.edges s'
  let d ← exampleB4 fuel ov g.n g.edges s
  let d' ← exampleB4Sum fuel ov h.n h.edges m step
  .ok ⟨(a, a'), (b, b'), (c, c'), (d, d')⟩

/-- `main`, lines 391-408. `rest` is what follows the first call in B.5: lines 292, 297-310, B.6 and B.7. -/
def appendixMain (fuel : Nat) (ov : Int → Int → Int) (g h : ExGraph) (s s' m step : Nat) (rest : AppendixShown → BVec Rat → Prog Unit) :
    Prog Unit := do
  let o ← appendixToB4 fuel ov g h s s' m step
  let delta ← exampleB5 fuel ov g.n g.edges [s]
  rest o delta

/-- The arrays in lines 36-108: the neighbours of node 0, of node 1 and so on. -/
def clubRows : List (List Nat) := [
  [1, 2, 3, 4, 5, 6, 7, 8, 10, 11, 12, 13, 17, 19, 21, 31], [0, 2, 3, 7, 13, 17, 19, 21, 30], [0, 1, 3, 7, 8, 9, 13, 27, 28, 32], [0, 1, 2, 7, 12, 13],
  [0, 6, 10], [0, 6, 10, 16], [0, 4, 5, 16], [0, 1, 2, 3],
  [0, 2, 30, 32, 33], [2, 33], [0, 4, 5], [0],
  [0, 3], [0, 1, 2, 3, 33], [32, 33], [32, 33],
  [5, 6], [0, 1], [32, 33], [0, 1, 33],
  [32, 33], [0, 1], [32, 33], [25, 27, 29, 32, 33],
  [25, 27, 31], [23, 24, 31], [29, 33], [2, 23, 24, 33],
  [2, 31, 33], [23, 26, 32, 33], [1, 8, 32, 33], [0, 24, 25, 32, 33],
  [2, 8, 14, 15, 18, 20, 22, 23, 29, 30, 31, 33], [8, 9, 13, 14, 15, 18, 19, 20, 22, 23, 26, 27, 28, 29, 30, 31, 32]]

/-- The graph in lines 36-108. -/
def club : ExGraph := ⟨34, clubRows.zipIdx.flatMap fun r => r.1.map fun j => (r.2, j)⟩

end GBTL

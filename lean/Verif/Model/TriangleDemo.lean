import Verif.Model.Triangle
/-
Model of the program `/repo/src/demo/triangle_count_demo.cpp`. A file is the list of the
numbers in it, separated by white space; files with other text in them, and numbers that
do not fit `uint64_t`, are not modelled. Not modelled: the timings and the wrap around of
`max_id + 1` at `2 ^ 64`. The pairs of arrays `iA` and `jA`, `iL` and `jL`, `iU` and `jU`
are lists of pairs.
-/
namespace GBTL

/-- `while (infile) { infile >> src >> dst; … }`, lines 57 and 62-64, 107-109: the values
of `src` and `dst` in each execution of the body. `s` and `d` are their values before,
`none` if not initialised. The extraction that fails at the end of the file leaves the
variable as it was, and only the next test of `infile` ends the loop, so that the body is
executed once more; using a variable that was never set is undefined. -/
def readRows : Option Nat → Option Nat → List Nat → Except Err (List (Nat × Nat))
  | some s, some d, [] => .ok [(s, d)]
  | _, _, [] => .error .ub
  | _, some d, [a] => .ok [(a, d)]
  | _, none, [_] => .error .ub
  | _, _, a :: b :: l => do
    let rs ← readRows (some a) (some b) l
    .ok ((a, b) :: rs)

/-- `std::ifstream infile(pathname)` and the loop; `none`: the file cannot be opened, and
then `infile` is false at once; lines 61-64, 106-109. -/
def readFile (s d : Option Nat) : Option (List Nat) → Except Err (List (Nat × Nat))
  | none => .ok []
  | some l => readRows s d l

/-- `max_id`; lines 56, 66-67. -/
def maxId (rs : List (Nat × Nat)) : Nat :=
  rs.foldl (fun m r =>
    let m := if r.1 > m then r.1 else m
    if r.2 > m then r.2 else m) 0

/-- `(iA, jA)`; lines 69-85. -/
def edgesA (rs : List (Nat × Nat)) : List (Nat × Nat) :=
  rs.filter fun r => r.1 < r.2 || r.2 < r.1

/-- `(iU, jU)`; lines 69, 74-75. -/
def edgesU (rs : List (Nat × Nat)) : List (Nat × Nat) := rs.filter fun r => r.1 < r.2

/-- `(iL, jL)`; lines 77, 82-83. -/
def edgesL (rs : List (Nat × Nat)) : List (Nat × Nat) :=
  rs.filter fun r => !decide (r.1 < r.2) && decide (r.2 < r.1)

/-- The body of the second loop, lines 110-113. -/
def countDegree (deg : List (Nat × Nat)) (r : Nat × Nat) : Except Err (List (Nat × Nat)) :=
  if r.1 ≠ r.2 then do
    let e ← rd deg r.1
    wr deg r.1 (e.1 + 1, e.2)
  else .ok deg

/-- `degrees` before it is sorted, lines 99-115: pairs of a degree and a vertex. -/
def degreesOf (n : Nat) (rs : List (Nat × Nat)) : Except Err (List (Nat × Nat)) :=
  rs.foldlM countDegree ((List.range n).map fun i => (0, i))

/-- `idx = std::get<1>(degrees[idx])` for both ends of each edge; lines 121-126. -/
def relabelEdges (deg : List (Nat × Nat)) (es : List (Nat × Nat)) : Except Err (List (Nat × Nat)) :=
  es.mapM fun e => do
    let a ← rd deg e.1
    let b ← rd deg e.2
    .ok (a.2, b.2)

/-- `MatType A(NUM_NODES, NUM_NODES); A.build(iA.begin(), jA.begin(), v.begin(),
iA.size())` with `v` all ones and the default `dup`, `Second`; lines 141, 146-152. -/
def ones (n : Nat) (es : List (Nat × Nat)) : Except Err (Lil Int) :=
  method ((Lil.new n n : Lil Int).build (fun _ y => y) (es.map fun e => (e.1, e.2, 1)))

/-- What the program prints before it runs the algorithms: the number of rows (line 93), of
nodes (line 94) and the sorted degrees (lines 132-137); and the matrices `A`, `L` and `U`
(lines 146-152). -/
structure DemoInput where
  rows : Nat
  nodes : Nat
  degrees : List (Nat × Nat)
  A : Lil Int
  L : Lil Int
  U : Lil Int
  deriving DecidableEq

/-- Lines 61-152: everything before the algorithms. `sort`: `std::sort` with the order of
line 118, the result of which is not determined where degrees are equal. -/
def demoInput (sort : List (Nat × Nat) → List (Nat × Nat)) (file : Option (List Nat)) : Except Err DemoInput := do
  let rs ← readFile none none file
  let n := maxId rs + 1
  let rs' ← readFile (rs.getLast?.map (·.1)) (rs.getLast?.map (·.2)) file
  let deg ← degreesOf n rs'
  let deg := sort deg
  let eA ← relabelEdges deg (edgesA rs)
  let eL ← relabelEdges deg (edgesL rs)
  let eU ← relabelEdges deg (edgesU rs)
  let A ← ones n eA
  let L ← ones n eL
  let U ← ones n eU
  .ok ⟨rs.length, n, deg, A, L, U⟩

/-- `main` called with the name of a file, lines 39-199: the five counts printed in lines
163, 171, 179, 187 and 195; `T` is `int32_t`, line 140. -/
def triangleDemo (sort : List (Nat × Nat) → List (Nat × Nat)) (ov : Int → Int → Int)
    (file : Option (List Nat)) : Prog (List Int) := do
  let d ← lift (demoInput sort file)
  let c1 ← triangleCount .i32 ov d.A
  let c2 ← triangleCountMasked .i32 ov d.L d.U
  let c3 ← triangleCountMaskedT .i32 ov d.L
  let c4 ← triangleCountMaskedNoT .i32 ov d.L
  let c5 ← triangleCountNew .i32 ov d.L d.U
  .ok [c1, c2, c3, c4, c5]

end GBTL

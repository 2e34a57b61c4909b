import Verif.Model.Louvain
/-
Model of the program `/repo/src/demo/louvain_demo.cpp`. A file is the list of the numbers in
it, separated by white space; files with other text in them, and numbers that do not fit
`uint64_t`, are not modelled. Not modelled: the timings. The weights, converted to `double`
in line 68, are exact numbers. The arrays `iA`, `jA` and `weights` are one list of triples.
-/
namespace GBTL

/-- `x -= 1` for a `uint64_t`; lines 59-60. -/
def dec64 (x : Nat) : Nat := (x + (2 ^ 64 - 1)) % 2 ^ 64

/-- `while (infile) { infile >> src >> dst >> weight; src -= 1; dst -= 1; … }`, lines 55-60:
the values of the three variables in each execution of the body. `s`, `d` and `w` are
their values before, `none` if not initialised. An extraction that fails at the end of the
file leaves the variable as it was, and only the next test of `infile` ends the loop, so
that the body is executed once more; using a variable that was never set is undefined. -/
def readEdges : Option Nat → Option Nat → Option Nat → List Nat → Except Err (List (Nat × Nat × Nat))
  | some s, some d, some w, [] => .ok [(dec64 s, dec64 d, w)]
  | _, some d, some w, [a] => .ok [(dec64 a, dec64 d, w)]
  | _, _, some w, [a, b] => .ok [(dec64 a, dec64 b, w)]
  | _, _, _, a :: b :: c :: l => do
    let rs ← readEdges (some (dec64 a)) (some (dec64 b)) (some c) l
    .ok ((dec64 a, dec64 b, c) :: rs)
  | _, _, _, _ => .error .ub

/-- `std::ifstream infile(pathname)` and the loop; `none`: the file cannot be opened, and
then `infile` is false at once; lines 48-49, 56. -/
def readEdgeFile : Option (List Nat) → Except Err (List (Nat × Nat × Nat))
  | none => .ok []
  | some l => readEdges none none none l

/-- `max_id`; lines 54, 62-63. -/
def maxEdgeId (rs : List (Nat × Nat × Nat)) : Nat :=
  rs.foldl (fun m r =>
    let m := if r.1 > m then r.1 else m
    if r.2.1 > m then r.2.1 else m) 0

/-- What the program prints before it runs the algorithms, the number of rows (line 72) and
of nodes (line 73), and the matrix. -/
structure EdgeInput where
  rows : Nat
  nodes : Nat
  A : Lil Rat
  deriving DecidableEq

/-- Lines 47-80: everything before the algorithms. -/
def louvainInput (file : Option (List Nat)) : Except Err EdgeInput := do
  let rs ← readEdgeFile file
  let n := (maxEdgeId rs + 1) % 2 ^ 64
  let A ← method ((Lil.new n n : Lil Rat).build (fun _ y => y) (rs.map fun r => (r.1, r.2.1, (r.2.2 : Rat))))
  .ok ⟨rs.length, n, A⟩

/-- `louvain_cluster(A)` or `louvain_cluster_masked(A)` and `get_louvain_cluster_assignments`,
lines 89-94 and 99-104. `none`: the exception of the clustering, which nothing catches. -/
def louvainPrint (masked : Bool) (rnd : Nat → Rat) (fuel : Nat) (A : Lil Rat) : Prog (Option (BVec Nat)) := do
  let r ← louvain masked rnd fuel A (2 ^ 32 - 1)
  match r with
  | .thrown _ => .ok none
  | .returned S => do
    let w ← louvainAssignments S
    .ok (some w)

/-- `main` called with the name of a file, lines 39-108: the two vectors printed in lines 95
and 105. Both functions are called with the same seed. -/
def louvainDemo (rnd : Nat → Rat) (fuel : Nat) (file : Option (List Nat)) : Prog (Option (BVec Nat × BVec Nat)) := do
  let d ← lift (louvainInput file)
  let c1 ← louvainPrint false rnd fuel d.A
  match c1 with
  | none => .ok none
  | some w1 => do
    let c2 ← louvainPrint true rnd fuel d.A
    match c2 with
    | none => .ok none
    | some w2 => .ok (some (w1, w2))

end GBTL

import Verif.Model.Normalize
import Verif.Model.Betweenness
/-
Model of the peer-pressure clustering and of the cluster assignments in
`/repo/src/algorithms/cluster.hpp`. Line numbers refer to this file.

Simplifications: floating-point values are exact rational numbers; a number of a cluster
is converted to floating point exactly; `conv` converts the graph's scalars to floating
point.
-/
namespace GBTL
open Spec (Outp MaskKind Accum)

variable {α : Type}

/-- `Max<RealT>`; `algebra.hpp` lines 295-299. -/
def ratMax (x y : Rat) : Rat := if x < y then y else x

/-- The conversion of `bool` to the floating-point type; the operands `C` and `Cf` of the
products of lines 207-210 and 232-235. -/
def b2r (b : Bool) : Rat := if b then 1 else 0

/-- `PlusEqualSemiring<RealT, RealT, bool>`, lines 37-39. -/
def plusEqual : SR Rat Rat Bool := ⟨(· || ·), fun x y => decide (x = y), fun x y => decide (x = y)⟩

/-- `cluster_num_mat`, lines 182-187 and 350-355. -/
def clusterNum (n : Nat) : Prog (Lil Nat) :=
  forP n (Lil.new n n) fun ix N => lift (method (N.setElement ix ix (ix + 1)))

/-- `C`, `m`, `Cf`, `Tally`, and whether the loop was left with `break`; lines 156, 200-202
and 326, 367-369. -/
structure PpSt where
  C : Lil Bool
  m : BVec Rat
  Cf : Lil Bool
  Tally : Lil Rat
  stop : Bool
  deriving DecidableEq, Repr

/-- `Cf` is true where `Tally` is the maximum of its column: lines 214-226, 238-247,
379-389 and 399-408. The new `m` and `Cf`. -/
def ppColMax (m : BVec Rat) (Cf : Lil Bool) (Tally : Lil Rat) : Prog (BVec Rat × Lil Bool) := do
  let m ← exec (reduceMV (vPlain id m) (.of ratMax id) (.tr Tally))
  let D ← lift (diag id m)
  let Cf ← exec (mxm (mPlain id Cf) plusEqual id (.plain Tally) (.plain D))
  .ok (m, Cf)

/-- The body of the loop, lines 205-263 and 372-422; `conv` converts the elements of `A`
in the product. -/
def ppBody (conv : α → Rat) (A : Lil α) (N : Lil Nat) (q : PpSt) : Prog PpSt := do
  let Tally ← exec (mxm (mPlain id q.Tally) ⟨(· + ·), fun c a => b2r c * conv a, fun a c => conv a * b2r c⟩ id
    (.plain q.C) (.plain A))
  let (m, Cf) ← ppColMax q.m q.Cf Tally
  let Tally ← exec (mxm (mMasked Tally .plain id Cf)
    ⟨(· + ·), fun (k : Nat) c => (k : Rat) * b2r c, fun c (k : Nat) => b2r c * (k : Rat)⟩ id (.plain N) (.plain Cf))
  let (m, Cf) ← ppColMax m Cf Tally
  let Cf ← exec (applyM (mMasked Cf .plain id Cf) id (.plain Cf))
  if Cf.eq q.C then .ok { C := q.C, m := m, Cf := Cf, Tally := Tally, stop := true }
  else .ok { C := Cf, m := m, Cf := Cf, Tally := Tally, stop := false }

/-- The loop, lines 200-263 and 367-422: the new value of `C`. -/
def ppLoop (conv : α → Rat) (A : Lil α) (N : Lil Nat) (n : Nat) (C : Lil Bool) (maxIters : Nat) : Prog (Lil Bool) := do
  let m ← lift (BVec.new n)
  let q ← forP maxIters { C := C, m := m, Cf := Lil.new n n, Tally := Lil.new n n, stop := false } fun _ q =>
    if q.stop then .ok q else ppBody conv A N q
  .ok q.C

/-- `peer_pressure_cluster` with an initial clustering, lines 153-265. -/
def peerPressure (conv : α → Rat) (G : Lil α) (C : Lil Bool) (maxIters : Nat) : Prog (Lil Bool) := do
  if G.nrows ≠ G.ncols then .error (.err .dimension)
  else if G.nrows ≠ C.nrows ∨ G.ncols ≠ C.ncols then .error (.err .dimension)
  else do
    let n := G.ncols
    let N ← clusterNum n
    let A ← exec (applyM (mPlain id (Lil.new n n)) conv (.plain G))
    let A ← normalizeRows .rat A
    ppLoop id A N n C maxIters

/-- `peer_pressure_cluster` from the clustering in which every vertex is its own cluster,
lines 292-301. -/
def peerPressureId (conv : α → Rat) (G : Lil α) (maxIters : Nat) : Prog (Lil Bool) := do
  let C ← lift (scaledIdentity G.nrows true)
  peerPressure conv G C maxIters

/-- `peer_pressure_cluster_v2`, lines 323-425, which does not normalise. The conversion of
the graph's scalars to floating point and back, lines 358-362, is taken to change nothing. -/
def peerPressureV2 (conv : α → Rat) (G : Lil α) (C : Lil Bool) (maxIters : Nat) : Prog (Lil Bool) := do
  if G.nrows ≠ G.ncols then .error (.err .dimension)
  else if G.nrows ≠ C.nrows ∨ G.ncols ≠ C.ncols then .error (.err .dimension)
  else do
    let n := G.ncols
    let N ← clusterNum n
    let A ← exec (applyM (mPlain id (Lil.new n n)) id (.plain G))
    ppLoop conv A N n C maxIters

/-! ### cluster assignments -/

/-- `max_vals` and `cluster_assignments`, both arrays; lines 71-74. -/
structure AsgSt where
  best : List Rat
  asg : List Nat

/-- The body of the loop, lines 76-83; `x` is the value converted to `double`. Beyond the
end of an array, undefined behaviour. -/
def asgStep (s : AsgSt) (i j : Nat) (x : Rat) : Except Err AsgSt :=
  match s.best[j]? with
  | none => .error .ub
  | some b => if b < x then .ok { best := s.best.set j x, asg := s.asg.set j i } else .ok s

/-- `get_cluster_assignments`, lines 57-85. The greatest index stands for "no cluster". -/
def clusterAssignments [Inhabited α] (conv : α → Rat) (C : Lil α) : Except Err (List Nat) := do
  let ts ← matTuples C
  let s ← ts.foldlM (fun s t => asgStep s t.1 t.2.1 (conv t.2.2))
    { best := List.replicate C.nrows (-1), asg := List.replicate C.nrows (2 ^ 64 - 1) }
  .ok s.asg

/-- `get_cluster_assignments_v2`, lines 100-121. `MaxFirstSemiring` ignores the elements of
the matrix. -/
def clusterAssignmentsV2 (toIx : α → Nat) (C : Lil α) : Prog (BVec Nat) := do
  let w ← lift (BVec.new C.ncols)
  let ix ← lift (BVec.new C.nrows)
  let ix ← forP C.nrows ix fun i v => lift (method (v.setElement i i))
  exec (vxm (vPlain id w) ⟨fun x y => if x < y then y else x, fun i _ => i, fun a _ => toIx a⟩ ix (.plain C))

end GBTL

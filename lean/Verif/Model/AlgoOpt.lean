import Verif.Model.OptMxm
import Verif.Model.BfsBatch
import Verif.Model.Cluster
import Verif.Model.Markov
import Verif.Model.EdgeBetweenness
/-
The algorithms that call `mxm`, compiled for the `optimized_sequential` backend
(`/repo/src/graphblas/platforms/optimized_sequential`), which differs from the
`sequential` one in `mxm` only. Every definition is that of the same name in the file
named above it, with `mxm` replaced by the optimized one; `.same` marks an argument that
is the output object itself, which the optimized kernels test. An algorithm that does not
call `mxm` is the same on both backends.
-/
namespace GBTL.Opt
open Spec (Outp MaskKind Accum)

variable {α β γ τ ζ μ ω T : Type}

/-- An argument that is not the output; `sparse_mxm.hpp` lines 63-654 of the backend: the
arguments are references. -/
instance : Coe (Lil α) (Arg γ α) := ⟨.obj⟩

/-- The mask is not the output; as above. -/
def maskArg (M : MMask μ) : ArgMask γ μ := M.map fun p => (p.1, .obj p.2)

/-- `mxm` with `NoAccumulate()`. A product is converted to the output's type in the kernel:
the conversion is that of the other backend's last step, as `Z` has the semiring's type.
At most one operand is a transpose view in every algorithm, so that `multA` and `castBA`
are not used; `/repo/src/graphblas/operations.hpp` lines 72-105. -/
def mxm [Inhabited α] [Inhabited τ] [Inhabited ζ] (o : MOut γ τ ζ μ) (sr : SR α β τ) (_via : τ → τ)
    (A : ArgOperand γ α) (B : ArgOperand γ β) (M : ArgMask γ μ := maskArg o.M) : Outcome (Lil γ) :=
  optMxm
    { add := sr.add, mult := sr.mult, multA := default, castBA := default
      castT := match o.acc with
        | .none c => fun t => o.castZ (c t)
        | .some _ _ cT => fun t => o.castZ (cT t)
      castZ := o.castZ, accC := default, truthy := o.truthy }
    none o.outp o.C M A B

/-- `mxm` with an accumulator, everything having one scalar type; `/repo/src/graphblas/operations.hpp`
lines 72-105. -/
def mxmAcc [Inhabited T] (o : MOut T T T μ) (acc : T → T → T) (sr : SR T T T)
    (A B : ArgOperand T T) (M : ArgMask T μ := maskArg o.M) : Outcome (Lil T) :=
  optMxm
    { add := sr.add, mult := sr.mult, multA := sr.mult, castBA := id, castT := id, castZ := id, accC := acc
      truthy := o.truthy }
    (some ⟨acc, id, id⟩) o.outp o.C M A B

variable [Inhabited α] [Inhabited ω]

/-! ### `Model/Triangle.lean` -/

/-- `triangle_count`, lines 66-87;
`/repo/src/algorithms/triangle_count.hpp`. -/
def triangleCount (t : ITy) (ov : Int → Int → Int) (G : Lil Int) : Prog Int := do
  let (L, U) ← lift (split G (Lil.new G.nrows G.ncols) (Lil.new G.nrows G.ncols))
  let B ← exec (mxm (mPlain id (Lil.new G.nrows G.ncols)) (arithT t ov) id (.plain L) (.plain U))
  let C ← exec (eWiseMultM (mPlain id (Lil.new G.nrows G.ncols)) (ewTimes t ov) (.plain G) (.plain B))
  let sum ← sumInto t ov 0 C
  .ok (halfT t sum)

/-- `triangle_count_masked(L, U)`, lines 94-108;
`/repo/src/algorithms/triangle_count.hpp`. -/
def triangleCountMasked (t : ITy) (ov : Int → Int → Int) (L U : Lil Int) : Prog Int := do
  let B ← exec (mxm (byL (Lil.new L.nrows L.ncols) L) (arithT t ov) id (.plain L) (.plain U))
  sumInto t ov 0 B

/-- `triangle_count_masked(L)`, lines 115-129;
`/repo/src/algorithms/triangle_count.hpp`. -/
def triangleCountMaskedT (t : ITy) (ov : Int → Int → Int) (L : Lil Int) : Prog Int := do
  let B ← exec (mxm (byL (Lil.new L.nrows L.ncols) L) (arithT t ov) id (.plain L) (.tr L))
  sumInto t ov 0 B

/-- `triangle_count_masked_noT`, lines 136-149;
`/repo/src/algorithms/triangle_count.hpp`. -/
def triangleCountMaskedNoT (t : ITy) (ov : Int → Int → Int) (L : Lil Int) : Prog Int := do
  let B ← exec (mxm (byL (Lil.new L.nrows L.ncols) L) (arithT t ov) id (.plain L) (.plain L))
  sumInto t ov 0 B

/-- `triangle_count_newGBTL`, lines 160-190, for `L` and `U` of the same matrix
type;
`/repo/src/algorithms/triangle_count.hpp`. -/
def triangleCountNew (t : ITy) (ov : Int → Int → Int) (L U : Lil Int) : Prog Int := do
  let B ← exec (mxm (mPlain id (Lil.new L.nrows L.ncols)) (arithT t ov) id (.plain L) (.plain U))
  let C ← exec (eWiseMultM (plainReplace (Lil.new L.nrows L.ncols)) (ewTimes t ov) (.plain L) (.plain B))
  let sum ← sumInto t ov 0 C
  let C ← exec (eWiseMultM (plainReplace C) (ewTimes t ov) (.plain U) (.plain B))
  let sum ← exec (reduceMS id (.some (t.plusT ov) id id : Accum Int Int Int) (redPlus t ov) 0 sum (.plain C))
  .ok (halfT t sum)

/-- `triangle_count_appendixB7`, `appendix_algorithms.hpp` lines 424-437. The matrix
may have any integer scalar type. -/
def triangleCountB7 (ov : Int → Int → Int) (L : Lil Int) : Prog Int := do
  let C ← exec (mxm (byL (Lil.new L.nrows L.nrows) L) (arithConv .u64 ov) id (.plain L) (.tr L))
  sumInto .u64 ov 0 C

/-! ### `Model/Sssp.lean` -/

/-- The call at `sssp.hpp` lines 156-160 (and 169-172). -/
def relaxM (t : ITy) (ov : Int → Int → Int) (G : Lil Int) (dists : Lil Int) : Prog (Lil Int) :=
  exec (mxmAcc (minOutM t dists) t.minT (minPlusT t ov) (.plain .same) (.plain G))

/-- `batch_sssp`, `sssp.hpp` lines 138-191. -/
def batchSssp (t : ITy) (ov : Int → Int → Int) (G : Lil Int) (dists : Lil Int) :
    Prog (Bool × Lil Int) :=
  if G.nrows ≠ dists.ncols ∨ G.ncols ≠ dists.ncols then .error (.err .dimension)
  else do
    let dists ← forP (pred64 G.nrows) dists fun _ dists => relaxM t ov G dists
    let dist2 ← relaxM t ov G dists
    let flags ← exec (eWiseMultM (mPlain id (Lil.new dists.nrows dists.ncols : Lil Bool)) equalTest
      (.plain dists) (.plain dist2))
    let changed := flags.rows.any fun r => r.any fun p => !p.2
    .ok (!changed, dists)

/-- Loop body of `apsp`, `apsp.hpp` lines 72-95. -/
def apspBody (t : ITy) (ov : Int → Int → Int) (k : Nat) (s : ApspSt) : Prog ApspSt := do
  let row ← exec (extractM (mPlain id s.row) (.plain s.dist) (.list [k]) .all)
  let col ← exec (extractM (mPlain id s.col) (.plain s.dist) .all (.list [k]))
  let dist ← exec (mxmAcc (minOutM t s.dist) t.minT (minPlusT t ov) (.plain col) (.plain row))
  .ok { dist := dist, col := col, row := row }

/-- `apsp`, `apsp.hpp` lines 50-97. -/
def apsp (t : ITy) (ov : Int → Int → Int) (G : Lil Int) : Prog (Lil Int) :=
  if G.nrows ≠ G.ncols then .error (.err .dimension)
  else do
    let dist ← lift (scaledIdentity G.nrows (0 : Int))
    let dist ← exec (eWiseAddM (mPlain id dist) (ewPlus t ov) (.plain dist) (.plain G))
    let s ← forP G.nrows { dist := dist, col := Lil.new G.nrows 1, row := Lil.new 1 G.nrows }
      fun k s => apspBody t ov k s
    .ok s.dist

/-! ### `Model/BfsBatch.lean` -/

/-- Loop body of `batch_bfs_level_masked`, lines 458-480;
`/repo/src/algorithms/bfs.hpp`. -/
def batchBody (gIx : α → Nat) (G : Lil α) (W : WaveTy ω) (L : LevTy γ) (s : BatchSt γ ω) :
    Prog (BatchSt γ ω) := do
  let depth := s.depth + 1
  let levels ← exec (applyM (levOutM L s.levels) (fun x => depth * W.toIx x) (.plain s.waves))
  let waves ← exec (mxm (waveOutM W.ofIx L.truthy s.waves levels) (logicalIx W gIx) id
    (.plain .same) (.plain G))
  .ok { depth := depth, waves := waves, levels := levels }

/-- `batch_bfs_level_masked(graph, wavefronts, levels)`, lines 439-481;
`/repo/src/algorithms/bfs.hpp`. -/
def batchBfsLevel (fuel : Nat) (gIx : α → Nat) (G : Lil α) (W : WaveTy ω) (waves : Lil ω)
    (L : LevTy γ) (levels : Lil γ) : Prog (Lil γ) :=
  if G.nrows ≠ G.ncols ∨ waves.ncols ≠ G.nrows then .error (.err .dimension)
  else do
    let s ← loop (fun s => decide (0 < s.waves.nvals)) (batchBody gIx G W L) fuel
      { depth := 0, waves := waves, levels := levels }
    .ok s.levels

/-- Loop body of `bfs_level(graph, wavefront, levels)` on matrices, lines 330-360. The
semiring and the product with the depth are on `unsigned int` here: `gU` and `W` convert
an element of the graph and of the wavefront to and from `unsigned int`;
`/repo/src/algorithms/bfs.hpp`. -/
def cullBody (gU : α → Nat) (G : Lil α) (W : WaveTy ω) (L : LevTy γ) (s : BatchSt γ ω) :
    Prog (BatchSt γ ω) := do
  let depth := u32 (s.depth + 1)
  let levels ← exec (applyM (levOutM L s.levels) (fun x => u32 (depth * W.toIx x)) (.plain s.waves))
  let waves ← exec (mxm (waveOutAll W.ofIx s.waves) (logicalIx W gU) id (.plain .same) (.plain G))
  let waves ← exec (applyM (waveOutM id L.truthy waves levels) id (.plain waves))
  .ok { depth := depth, waves := waves, levels := levels }

/-- `bfs_level(graph, wavefront, levels)` on matrices, lines 318-361;
`/repo/src/algorithms/bfs.hpp`. -/
def bfsLevelM (fuel : Nat) (gU : α → Nat) (G : Lil α) (W : WaveTy ω) (waves : Lil ω)
    (L : LevTy γ) (levels : Lil γ) : Prog (Lil γ) := do
  let s ← loop (fun s => decide (0 < s.waves.nvals)) (cullBody gU G W L) fuel
    { depth := 0, waves := waves, levels := levels }
  .ok s.levels

/-- Loop body of `bfs_batch`, lines 227-253;
`/repo/src/algorithms/bfs.hpp`. -/
def bfsBatchBody (t w : ITy) (ov : Int → Int → Int) (G ramp : Lil Int) (s : ParStM) : Prog ParStM := do
  let waves ← exec (mxm (mPlain w.conv s.waves) (minSecondT t) id (.plain .same) (.plain ramp))
  let waves ← exec (mxm (waveOutPM w waves s.parents) (minFirstT t) id (.plain .same) (.plain G))
  let parents ← exec (applyM (parOutTM t ov s.parents) t.conv (.plain waves))
  .ok { waves := waves, parents := parents }

/-- `bfs_batch(graph, wavefronts, parent_list)`, lines 200-254;
`/repo/src/algorithms/bfs.hpp`. -/
def bfsBatch (fuel : Nat) (t w : ITy) (ov : Int → Int → Int) (G waves parents : Lil Int) : Prog (Lil Int) := do
  let ramp ← indexRampM G.nrows
  let parents ← exec (mxm (mPlain (ITy.conv .u64) parents) (minSecondT t) id (.plain waves) (.plain ramp))
  let s ← loop (fun s => decide (0 < s.waves.nvals)) (bfsBatchBody t w ov G ramp) fuel
    { waves := waves, parents := parents }
  .ok s.parents

/-! ### `Model/KTruss.lean` -/

/-- The body of the loop, lines 296-316;
`/repo/src/algorithms/k_truss.hpp`. -/
def trussBody (t : ITy) (ov : Int → Int → Int) (k : Nat) (s : TrussSt) : Prog TrussSt := do
  let S ← exec (mxm (supportOut s) (arithT t ov) id (.tr s.A) (.plain s.A))
  let M ← exec (applyM (maskOut s.mask) (supportMinTest t (sub2 k)) (.plain S))
  let A ← exec (applyM (keepEdges s.A M) id (.plain s.A))
  .ok { A := A, mask := M, support := S, numEdges := s.newNumEdges, newNumEdges := A.nvals }

/-- `k_truss2`, lines 277-320. `do … while` is one run of the body before the loop; `num_edges` is not initialized before it;
`/repo/src/algorithms/k_truss.hpp`. -/
def kTruss2 (t : ITy) (ov : Int → Int → Int) (fuel : Nat) (A : Lil Int) (k : Nat) : Prog (Lil Int) := do
  let s ← trussBody t ov k ⟨A, Lil.new A.ncols A.ncols, Lil.new A.ncols A.ncols, 0, A.nvals⟩
  let s ← loop (fun s => s.newNumEdges != s.numEdges) (trussBody t ov k) fuel s
  .ok s.A

/-! ### `Model/KTrussInc.lean` -/

/-- The body of the loop, lines 157-270;
`/repo/src/algorithms/k_truss.hpp`. -/
def trussIncBody (t : ITy) (ov : Int → Int → Int) (n k : Nat) (D : Lil Bool) (ones : BVec Int)
    (q : TrussInc) : Prog TrussInc := do
  let xs ← lift (vecTuples q.x)
  let xc ← findEdges t (supportTestGe t (sub2 k)) q.numEdges q.s
  let xcs ← lift (vecTuples xc)
  let Ex ← exec (extractM (plainReplace (Lil.new xs.length n)) (.plain q.E) (.list (xs.map (·.1))) .all)
  let m := xcs.length
  let E ← exec (extractM (plainReplace (Lil.new m n)) (.plain q.E) (.list (xcs.map (·.1))) .all)
  if m = 0 then .ok { q with E := E, numEdges := m, stop := true }
  else do
    let R ← exec (extractM (plainReplace (Lil.new m n)) (.plain q.R) (.list (xcs.map (·.1))) .all)
    let P ← exec (mxm (offDiag (Lil.new n n) D) (arithT t ov) id (.tr Ex) (.plain Ex))
    let R ← exec (mxmAcc (minusOut t ov R) (t.minusT ov) (arithT t ov) (.plain E) (.plain P))
    let s ← supports t ov m R ones
    let x ← findEdges t (supportTest t (sub2 k)) m s
    .ok { E := E, R := R, s := s, x := x, numEdges := m, stop := false }

/-- `k_truss`, lines 86-274;
`/repo/src/algorithms/k_truss.hpp`. -/
def kTruss (fuel : Nat) (t : ITy) (ov : Int → Int → Int) (Ein : Lil Int) (k : Nat) : Prog (Lil Int) := do
  let n := Ein.ncols
  let m := Ein.nrows
  let D ← diagMask n
  let A ← exec (mxm (offDiag (Lil.new n n) D) (arithT t ov) id (.tr Ein) (.plain Ein))
  let R ← exec (mxm (mPlain id (Lil.new m n)) (arithT t ov) id (.plain Ein) (.plain A))
  let ones ← lift (BVec.new n)
  let ones ← exec (assignConstV (vReplace ones) id (t.conv 1) (.list (List.range n)))
  let s ← supports t ov m R ones
  let x ← findEdges t (supportTest t (sub2 k)) m s
  let q ← loop (fun q => !q.stop && decide (0 < q.x.nvals)) (trussIncBody t ov n k D ones) fuel
    { E := Ein, R := R, s := s, x := x, numEdges := m, stop := false }
  .ok q.E

/-! ### `Model/Normalize.lean` -/

/-- `normalize_rows`, lines 137-166: the new value of `A`. `Adiag` is built from the
tuples of `w`, as in `diag`;
`/repo/src/graphblas/matrix_utils.hpp`. -/
def normalizeRows [Inhabited T] (o : NormOps T) (A : Lil T) : Prog (Lil T) := do
  let w ← lift (BVec.new A.nrows)
  let w ← exec (reduceMV (vPlain id w) (.of o.add id) (.plain A))
  let w ← exec (applyV (vPlain id w) o.inv w)
  let D ← lift (diag id w)
  exec (mxm (mPlain id A) ⟨o.add, o.times, o.times⟩ id (.plain D) (.plain .same))

/-- `normalize_cols`, lines 176-205: the new value of `A`. The vector has the number of
rows as its size;
`/repo/src/graphblas/matrix_utils.hpp`. -/
def normalizeCols [Inhabited T] (o : NormOps T) (A : Lil T) : Prog (Lil T) := do
  let w ← lift (BVec.new A.nrows)
  let w ← exec (reduceMV (vPlain id w) (.of o.add id) (.tr A))
  let w ← exec (applyV (vPlain id w) o.inv w)
  let D ← lift (diag id w)
  exec (mxm (mPlain id A) ⟨o.add, o.times, o.times⟩ id (.plain .same) (.plain D))

/-! ### `Model/Cluster.lean` -/

/-- `Cf` is true where `Tally` is the maximum of its column: lines 214-226, 238-247,
379-389 and 399-408. The new `m` and `Cf`;
`/repo/src/algorithms/cluster.hpp`. -/
def ppColMax (m : BVec Rat) (Cf : Lil Bool) (Tally : Lil Rat) : Prog (BVec Rat × Lil Bool) := do
  let m ← exec (reduceMV (vPlain id m) (.of ratMax id) (.tr Tally))
  let D ← lift (diag id m)
  let Cf ← exec (mxm (mPlain id Cf) plusEqual id (.plain Tally) (.plain D))
  .ok (m, Cf)

/-- The body of the loop, lines 205-263 and 372-422; `conv` converts the elements of `A`
in the product;
`/repo/src/algorithms/cluster.hpp`. -/
def ppBody (conv : α → Rat) (A : Lil α) (N : Lil Nat) (q : PpSt) : Prog PpSt := do
  let Tally ← exec (mxm (mPlain id q.Tally) ⟨(· + ·), fun c a => b2r c * conv a, fun a c => conv a * b2r c⟩ id
    (.plain q.C) (.plain A))
  let (m, Cf) ← ppColMax q.m q.Cf Tally
  let Tally ← exec (mxm (mMasked Tally .plain id Cf)
    ⟨(· + ·), fun (k : Nat) c => (k : Rat) * b2r c, fun c (k : Nat) => b2r c * (k : Rat)⟩ id (.plain N) (.plain Cf))
  let (m, Cf) ← ppColMax m Cf Tally
  let Cf ← exec (applyM (mMasked Cf .plain id Cf) id (.plain Cf))
  if Cf.eq q.C then .ok { C := q.C, m := m, Cf := Cf, Tally := Tally, stop := true }
  else .ok { C := Cf, m := m, Cf := Cf, Tally := Tally, stop := false }

/-- The loop, lines 200-263 and 367-422: the new value of `C`;
`/repo/src/algorithms/cluster.hpp`. -/
def ppLoop (conv : α → Rat) (A : Lil α) (N : Lil Nat) (n : Nat) (C : Lil Bool) (maxIters : Nat) : Prog (Lil Bool) := do
  let m ← lift (BVec.new n)
  let q ← forP maxIters { C := C, m := m, Cf := Lil.new n n, Tally := Lil.new n n, stop := false } fun _ q =>
    if q.stop then .ok q else ppBody conv A N q
  .ok q.C

/-- `peer_pressure_cluster` with an initial clustering, lines 153-265;
`/repo/src/algorithms/cluster.hpp`. -/
def peerPressure (conv : α → Rat) (G : Lil α) (C : Lil Bool) (maxIters : Nat) : Prog (Lil Bool) := do
  if G.nrows ≠ G.ncols then .error (.err .dimension)
  else if G.nrows ≠ C.nrows ∨ G.ncols ≠ C.ncols then .error (.err .dimension)
  else do
    let n := G.ncols
    let N ← clusterNum n
    let A ← exec (applyM (mPlain id (Lil.new n n)) conv (.plain G))
    let A ← normalizeRows .rat A
    ppLoop id A N n C maxIters

/-- `peer_pressure_cluster` from the clustering in which every vertex is its own cluster,
lines 292-301;
`/repo/src/algorithms/cluster.hpp`. -/
def peerPressureId (conv : α → Rat) (G : Lil α) (maxIters : Nat) : Prog (Lil Bool) := do
  let C ← lift (scaledIdentity G.nrows true)
  peerPressure conv G C maxIters

/-- `peer_pressure_cluster_v2`, lines 323-425, which does not normalise. The conversion of
the graph's scalars to floating point and back, lines 358-362, is taken to change nothing;
`/repo/src/algorithms/cluster.hpp`. -/
def peerPressureV2 (conv : α → Rat) (G : Lil α) (C : Lil Bool) (maxIters : Nat) : Prog (Lil Bool) := do
  if G.nrows ≠ G.ncols then .error (.err .dimension)
  else if G.nrows ≠ C.nrows ∨ G.ncols ≠ C.ncols then .error (.err .dimension)
  else do
    let n := G.ncols
    let N ← clusterNum n
    let A ← exec (applyM (mPlain id (Lil.new n n)) id (.plain G))
    ppLoop conv A N n C maxIters

/-! ### `Model/Markov.lean` -/

/-- Power expansion, lines 479-486;
`/repo/src/algorithms/cluster.hpp`. -/
def mclExpand (e : Nat) (A : Lil Rat) : Prog (Lil Rat) :=
  forP (ixPred e) A fun _ P =>
    exec (mxm (mMasked P .plain (fun x => x != 0) P) ⟨(· + ·), (· * ·), (· * ·)⟩ id (.plain .same) (.plain A) (some (.plain, .same)))

/-- Inflation, lines 491-501;
`/repo/src/algorithms/cluster.hpp`. -/
def mclInflate (r : Nat) (P : Lil Rat) : Prog (Lil Rat) := do
  let I ← forP (ixPred r) P fun _ I =>
    exec (eWiseMultM (mMasked I .plain (fun x => x != 0) I) ⟨(· * ·), id, id, id, (· * ·), id⟩ (.plain I) (.plain P))
  normalizeCols .rat I

/-- The body of the loop, lines 473-529;
`/repo/src/algorithms/cluster.hpp`. -/
def mclBody (n e r : Nat) (threshold : Rat) (q : MclSt) : Prog MclSt := do
  let P ← mclExpand e q.A
  let I ← mclInflate r P
  let E ← exec (eWiseAddM (mPlain id (Lil.new n n)) ⟨(· - ·), id, id, id, (· - ·), id⟩ (.plain q.A) (.plain I))
  let E ← exec (eWiseMultM (mPlain id E) ⟨(· * ·), id, id, id, (· * ·), id⟩ (.plain E) (.plain E))
  let se ← exec (reduceMS id (.none id) (.of (· + ·) id) 0 (0 : Rat) (.plain E))
  .ok { A := I, stop := decide (se / ((n : Rat) * (n : Rat)) < threshold) }

/-- `markov_cluster`, lines 446-533;
`/repo/src/algorithms/cluster.hpp`. -/
def markovCluster (conv : α → Rat) (G : Lil α) (e r : Nat) (threshold : Rat) (maxIters : Nat) : Prog (Lil Rat) := do
  if G.nrows ≠ G.ncols then .error (.err .dimension)
  else do
    let n := G.nrows
    let A ← exec (applyM (mPlain id (Lil.new n n)) conv (.plain G))
    let A ← normalizeCols .rat A
    let q ← forP maxIters { A := A, stop := false } fun _ q => if q.stop then .ok q else mclBody n e r threshold q
    .ok q.A

/-! ### `Model/Betweenness.lean` -/

/-- The body of the `while` loop of `vertex_betweenness_centrality_batch`, lines 699-726;
`/repo/src/algorithms/bc.hpp`. -/
def bcBatchBody (ov : Int → Int → Int) (gI : α → Int) (A : Lil α) (n nsver : Nat) (q : BcSt) : Prog BcSt := do
  let F ← exec (mxm (mMasked q.F .comp nonzero q.P) (pathsAF ov gI) id (.tr A) (.plain .same))
  let S ← bcSigma n nsver F
  let P ← bcCount ov q.P F
  .ok { F := F, P := P, S := q.S ++ [S] }

/-- `vertex_betweenness_centrality_batch`, lines 659-806;
`/repo/src/algorithms/bc.hpp`. -/
def bcBatch (fuel : Nat) (ov : Int → Int → Int) (gI : α → Int) (gF : α → Rat) (A : Lil α) (s : List Nat) :
    Prog (List Rat) := do
  let nsver := s.length
  if nsver = 0 then .error (.err .dimension)
  else if A.nrows ≠ A.ncols then .error (.err .dimension)
  else do
    let n := A.ncols
    let F ← bcBuild n nsver s (List.range nsver)
    let q ← loop (fun q => decide (0 < q.F.nvals)) (bcBatchBody ov gI A n nsver) fuel { F := F, P := F, S := [] }
    let inv ← bcInv n nsver .replace q.P
    let U ← bcOnes n nsver .replace
    let U ← bcBack (fun W S => exec (mxm (mMasked W .plain id S) (flowAW gF) id (.plain A) (.plain .same)))
      q.S inv q.P U (Lil.new n nsver)
    let r ← bcSum n nsver (.plain U)
    bcToStd n r

/-- The body of the `while` loop of `vertex_betweenness_centrality_batch_alt`, lines
528-552;
`/repo/src/algorithms/bc.hpp`. -/
def bcAltBody (ov : Int → Int → Int) (gI : α → Int) (A : Lil α) (n nsver : Nat) (q : BcSt) : Prog BcSt := do
  let S ← bcSigma n nsver q.F
  let P ← bcCount ov q.P q.F
  let F ← exec (mxm (mMasked q.F .comp nonzero P) (pathsAF ov gI) id (.tr A) (.plain .same))
  .ok { F := F, P := P, S := q.S ++ [S] }

/-- `vertex_betweenness_centrality_batch_alt`, lines 484-634;
`/repo/src/algorithms/bc.hpp`. -/
def bcAlt (fuel : Nat) (ov : Int → Int → Int) (gI : α → Int) (gF : α → Rat) (A : Lil α) (s : List Nat) :
    Prog (List Rat) := do
  let nsver := s.length
  if nsver = 0 then .error (.err .dimension)
  else if A.nrows ≠ A.ncols then .error (.err .dimension)
  else do
    let n := A.ncols
    let F ← exec (extractM (mWhole gI (Lil.new n nsver) .merge) (.tr A) .all (.list s))
    let P ← bcBuild n nsver s (List.range nsver)
    let q ← loop (fun q => decide (0 < q.F.nvals)) (bcAltBody ov gI A n nsver) fuel { F := F, P := P, S := [] }
    let inv ← bcInv n nsver .replace q.P
    let U ← bcOnes n nsver .replace
    let U ← bcBack (fun W S => exec (mxm (mMasked W .plain id S) (flowAW gF) id (.plain A) (.plain .same)))
      q.S inv q.P U (Lil.new n nsver)
    let r ← bcSum n nsver (.plain U)
    bcToStd n r

/-- The body of the `while` loops of `vertex_betweenness_centrality_batch_alt_trans`,
lines 360-383, and of its version 2, lines 129-162;
`/repo/src/algorithms/bc.hpp`. -/
def bcTransBody (ov : Int → Int → Int) (gI : α → Int) (A : Lil α) (n nsver : Nat) (q : BcSt) : Prog BcSt := do
  let S ← bcSigma nsver n q.F
  let P ← bcCount ov q.P q.F
  let F ← exec (mxm (mMasked q.F .comp nonzero P) (pathsFA ov gI) id (.plain .same) (.plain A))
  .ok { F := F, P := P, S := q.S ++ [S] }

/-- `vertex_betweenness_centrality_batch_alt_trans`, lines 315-459;
`/repo/src/algorithms/bc.hpp`. -/
def bcAltTrans (fuel : Nat) (ov : Int → Int → Int) (gI : α → Int) (gF : α → Rat) (A : Lil α) (s : List Nat) :
    Prog (List Rat) := do
  let nsver := s.length
  if nsver = 0 then .error (.err .dimension)
  else if A.nrows ≠ A.ncols then .error (.err .dimension)
  else do
    let n := A.ncols
    let F ← exec (extractM (mWhole gI (Lil.new nsver n) .merge) (.plain A) (.list s) .all)
    let P ← bcBuild nsver n (List.range nsver) s
    let q ← loop (fun q => decide (0 < q.F.nvals)) (bcTransBody ov gI A n nsver) fuel { F := F, P := P, S := [] }
    let inv ← bcInv nsver n .replace q.P
    let U ← bcOnes nsver n .merge
    let U ← bcBack (fun W S => exec (mxm (mMasked W .plain id S) (flowWA gF) id (.plain .same) (.tr A)))
      q.S inv q.P U (Lil.new nsver n)
    let r ← bcSum n nsver (.tr U)
    bcToStd n r

/-- `vertex_betweenness_centrality_batch_alt_trans_v2`, lines 72-289. The breadth-first
phase ends after 10 rounds;
`/repo/src/algorithms/bc.hpp`. -/
def bcAltTransV2 (fuel : Nat) (ov : Int → Int → Int) (gI : α → Int) (gF : α → Rat) (A : Lil α) (s : List Nat) :
    Prog (List Rat) := do
  let nsver := s.length
  if nsver = 0 then .error (.err .dimension)
  else if A.nrows ≠ A.ncols then .error (.err .dimension)
  else do
    let n := A.ncols
    let F ← exec (extractM (mWhole gI (Lil.new nsver n) .merge) (.plain A) (.list s) .all)
    let P ← bcBuild nsver n (List.range nsver) s
    let q ← loop (fun q => decide (0 < q.F.nvals) && decide (q.S.length < 10)) (bcTransBody ov gI A n nsver) fuel
      { F := F, P := P, S := [] }
    let inv ← bcInv nsver n .merge q.P
    let U ← bcOnes nsver n .merge
    let U ← bcBack (fun W S => exec (mxm (mMasked W .plain id S) (flowWA gF) id (.plain .same) (.tr A)))
      q.S inv q.P U (Lil.new nsver n)
    let r ← lift (BVec.new n)
    let r ← exec (reduceMV (vReplace r) (.of (· + ·) id) (.tr U))
    let r ← exec (applyV (vReplace r) (fun x => x - (nsver : Rat)) r)
    bcToStd n r

/-! ### `Model/BetweennessV.lean` -/

/-- The body of the first `while` loop, `bc.hpp` lines 882-903. -/
def bcOldBody (ov : Int → Int → Int) (gI : α → Int) (A : Lil α) (q : BcOldSt) : Prog BcOldSt := do
  let P ← exec (eWiseAddM (mWhole id q.P .merge) ⟨ITy.i32.plusT ov, id, id, id, ITy.i32.plusT ov, id⟩ (.plain q.F) (.plain q.P))
  let F ← exec (mxm (mMasked q.F .comp nonzero P) (pathsFA ov gI) id (.plain .same) (.plain A))
  .ok { F := F, P := P, S := q.S ++ [q.F] }

/-- The body of the second `while` loop with `d = i + 1`, `bc.hpp` lines 917-956. -/
def bcOldBackBody (gF : α → Rat) (A : Lil α) (S : List (Lil Int)) (P : Lil Int) (i : Nat) (q : Lil Rat × Lil Rat) :
    Prog (Lil Rat × Lil Rat) := do
  let S1 ← sigmaAt S i
  let W ← exec (eWiseMultM (mMasked q.2 .plain nonzero S1)
    ⟨fun u p => u / ((p : Int) : Rat), id, fun p : Int => (p : Rat), fun p : Int => (p : Rat), (· / ·), id⟩
    (.plain q.1) (.plain P))
  let W ← exec (mxm (mWhole id W .replace) (flowWA gF) id (.plain .same) (.tr A))
  let S0 ← sigmaAt S (i - 1)
  let W ← exec (eWiseMultM (mMasked W .plain nonzero S0)
    ⟨fun w p => w * ((p : Int) : Rat), id, fun p : Int => (p : Rat), fun p : Int => (p : Rat), (· * ·), id⟩
    (.plain W) (.plain P))
  let U ← exec (eWiseAddM (mWhole id q.1 .replace) ⟨(· + ·), id, id, id, (· + ·), id⟩ (.plain q.1) (.plain W))
  .ok (U, W)

/-- `vertex_betweenness_centrality_batch_old`, `bc.hpp` lines 834-984. -/
def bcOld (fuel : Nat) (ov : Int → Int → Int) (gI : α → Int) (gF : α → Rat) (A : Lil α) (s : List Nat) :
    Prog (List Rat) := do
  let p := s.length
  if p = 0 then .error (.err .dimension)
  else if A.nrows ≠ A.ncols then .error (.err .dimension)
  else do
    let n := A.ncols
    let P ← bcBuild p n (List.range p) s
    let F ← exec (extractM (mWhole gI (Lil.new p n) .merge) (.plain A) (.list s) .all)
    let q ← loop (fun q => decide (0 < q.F.nvals)) (bcOldBody ov gI A) fuel { F := F, P := P, S := [] }
    let U ← bcOnes p n .merge
    let r ← forP (q.S.length - 1) (U, (Lil.new p n : Lil Rat)) fun j r =>
      bcOldBackBody gF A q.S q.P (q.S.length - 1 - j) r
    let w ← bcSum n p (.tr r.1)
    bcToStd n w

/-- The body of the `while` loop, `appendix_algorithms.hpp` lines 284-295. The Sigmas are
allocated as `nsver × n`. -/
def b5Body (ov : Int → Int → Int) (gI : α → Int) (A : Lil α) (n nsver : Nat) (q : BcSt) : Prog BcSt := do
  let S ← bcSigma nsver n q.F
  let P ← bcCount ov q.P q.F
  let F ← exec (mxm (mMasked q.F .comp nonzero P) (pathsAF ov gI) id (.tr A) (.plain .same))
  .ok { F := F, P := P, S := q.S ++ [S] }

/-- The body of the backward loop, `appendix_algorithms.hpp` lines 309-317. -/
def b5BackBody (gF : α → Rat) (A : Lil α) (S : List (Lil Bool)) (inv : Lil Rat) (P : Lil Int) (i : Nat)
    (q : Lil Rat × Lil Rat) : Prog (Lil Rat × Lil Rat) := do
  let S1 ← sigmaAt S i
  let W ← bcScale q.2 S1 q.1 inv
  let S0 ← sigmaAt S (i - 1)
  let W ← exec (mxm (mMasked W .plain id S0) (flowAW gF) id (.plain A) (.plain .same))
  let U ← bcAdd q.1 W P
  .ok (U, W)

/-- `BC_update_appendixB5`, `appendix_algorithms.hpp` lines 244-324: the new `delta`. -/
def bcB5 (fuel : Nat) (ov : Int → Int → Int) (gI : α → Int) (gF : α → Rat) (delta : BVec Rat) (A : Lil α)
    (src : List Nat) : Prog (BVec Rat) := do
  let nsver := src.length
  let n := A.nrows
  let P ← bcBuild n nsver src (List.range nsver)
  let F ← exec (extractM
    { C := (Lil.new n nsver : Lil Int), M := some (.comp, P), truthy := nonzero, acc := .none id, castZ := gI, outp := .replace }
    (.tr A) .all (.list src))
  let q ← loop (fun q => decide (0 < q.F.nvals)) (b5Body ov gI A n nsver) fuel { F := F, P := P, S := [] }
  let inv ← bcInv n nsver .merge q.P
  let U ← bcOnes n nsver .merge
  let r ← forP (q.S.length - 1) (U, (Lil.new n nsver : Lil Rat)) fun j r =>
    b5BackBody gF A q.S inv q.P (q.S.length - 1 - j) r
  let d ← exec (assignConstV (vPlain id delta) id (-1 * (nsver : Rat)) .all)
  exec (reduceMV { w := d, m := (none : VMask Bool), truthy := id, acc := .some (· + ·) id id, castZ := id, outp := .merge }
    (.of (· + ·) id) (.plain r.1))

/-! ### `Model/EdgeBetweenness.lean` -/

/-- The body of the second `while` loop for `depth = d`, lines 1227-1294. The matrices
`wmat` are built from the tuples of `weights`, as in `diag`;
`/repo/src/algorithms/bc.hpp`. -/
def ebcBackBody [Inhabited T] (o : EbcOps T) (A : Lil T) (n : Nat) (S : List (BVec Bool)) (p : BVec T) (d : Nat)
    (q : EbcBack T) : Prog (EbcBack T) := do
  let w ← lift (BVec.new n)
  let S1 ← sigmaAt S d
  let w ← exec (eWiseMultV (vMasked id w .plain id S1 .merge) ⟨o.div, id, id, id, o.div, id⟩ q.flow p)
  let w ← exec (eWiseAddV (vPlain id w) ⟨fun x b => o.add x (o.ofBool b), id, o.ofBool, o.ofBool, o.add, id⟩ w S1)
  let D ← lift (diag id w)
  let up ← exec (mxm (mPlain id q.update) ⟨o.add, o.times, o.times⟩ id (.plain A) (.plain D))
  let S0 ← sigmaAt S (d - 1)
  let w ← exec (applyV (vMasked id w .plain id S0 .replace) id p)
  let D ← lift (diag id w)
  let up ← exec (mxm (mPlain id up) ⟨o.add, o.times, o.times⟩ id (.plain D) (.plain .same))
  let score ← exec (eWiseAddM (mPlain id q.score) ⟨o.add, id, id, id, o.add, id⟩ (.plain q.score) (.plain up))
  let flow ← exec (reduceMV (vPlain id q.flow) (.of o.add id) (.plain up))
  .ok { score := score, update := up, flow := flow }

/-- The body of the loop over the roots, lines 1174-1295;
`/repo/src/algorithms/bc.hpp`. -/
def ebcRoot [Inhabited T] (fuel : Nat) (o : EbcOps T) (A : Lil T) (n root : Nat) (score : Lil T) : Prog (Lil T) := do
  let f ← lift (BVec.new n)
  let f ← exec (extractC (vPlain id f) (.tr A) .all root)
  let p ← lift (BVec.new n)
  let p ← lift (method (p.setElement root o.one))
  let flow ← lift (BVec.new n)
  let S ← lift (BVec.new n)
  let S ← lift (method (S.setElement root true))
  let q ← loop (fun q => decide (0 < q.f.nvals)) (ebcBody o A n) fuel { f := f, p := p, S := [S] }
  let r ← forP (q.S.length - 1) { score := score, update := Lil.new n n, flow := flow } fun j r =>
    ebcBackBody o A n q.S q.p (q.S.length - 1 - j) r
  .ok r.score

/-- `edge_betweenness_centrality`, lines 1157-1297;
`/repo/src/algorithms/bc.hpp`. -/
def ebc [Inhabited T] (fuel : Nat) (o : EbcOps T) (A : Lil T) : Prog (Lil T) := do
  if A.nrows ≠ A.ncols then .error (.err .dimension)
  else do
    let n := A.nrows
    forP n (Lil.new n n) fun root score => ebcRoot fuel o A n root score

end GBTL.Opt

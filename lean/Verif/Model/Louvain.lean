import Verif.Model.Cluster
/-
Model of the Louvain clustering in `/repo/src/algorithms/cluster_louvain.hpp`. Line numbers
refer to this file; of two ranges the first is in `louvain_cluster`, the second in
`louvain_cluster_masked`, which is modelled with the flag `masked`.

Simplifications: the graph's scalars and the floating-point type are exact rational
numbers, with minus infinity, the identity of the maximum, as a further value `none` where a
maximum is computed; `-k_i / m` with `m = 0` is zero here; the numbers drawn from the random
generator are a sequence `rnd`, the same for a given seed.
-/
namespace GBTL
open Spec (Outp MaskKind Accum)

/-- `Max<RealT>` with minus infinity; `algebra.hpp` lines 295-299; the identity of
`MaxMonoid`. -/
def maxInf : Option Rat → Option Rat → Option Rat
  | none, y => y
  | some x, none => some x
  | some x, some y => some (ratMax x y)

/-- The maximum of a vector by `reduce` with `MaxMonoid<RealT>`, lines 199-201 and 440-442,
236-238 and 476-478. -/
def lvMax (q : BVec Rat) : Prog (Option Rat) :=
  exec (reduceVS id (.none id) (.of maxInf some) none (some 0) q)

/-- `t = (q == kappa)` without stored falses, lines 205-215 and 446-455, 241-251 and
481-490. -/
def lvEqual (t : BVec Bool) (q : BVec Rat) (kappa : Option Rat) : Prog (BVec Bool) := do
  let t ← exec (applyV (vPlain id t) (fun x => decide (some x = kappa)) q)
  exec (applyV (vMasked id t .plain id t .replace) id t)

/-- A random number for each element of `t`, lines 226-234 and 466-474: the vector and how
many numbers have been drawn. The operator has a state, so `apply` is written out: the
operator is called for the stored elements in the order of their indices. -/
def lvDraw (rnd : Nat → Rat) (n : Nat) (t : BVec Bool) (d : Nat) : Prog (BVec Rat × Nat) := do
  let p ← lift (BVec.new n)
  forP n (p, d) fun c pd => do
    let b ← lift (t.hasElement c)
    if b then do
      let x ← lift (t.extractElement c)
      let p ← lift (method (pd.1.setElement c (b2r x * rnd pd.2 + 1 / 10000)))
      .ok (p, pd.2 + 1)
    else .ok pd

/-- `t` and how many random numbers have been drawn; lines 205, 366. -/
structure LvTie where
  t : BVec Bool
  draws : Nat
  deriving DecidableEq, Repr

/-- One round of breaking ties, lines 220-255 and 460-494. -/
def lvTieBody (rnd : Nat → Rat) (n : Nat) (s : LvTie) : Prog LvTie := do
  let pd ← lvDraw rnd n s.t s.draws
  let mx ← lvMax pd.1
  let t ← lvEqual s.t pd.1 mx
  .ok { t := t, draws := pd.2 }

/-- Breaking ties, lines 220-255 and 460-494. -/
def lvTies (rnd : Nat → Rat) (n fuel : Nat) (s : LvTie) : Prog LvTie :=
  loop (fun s => s.t.nvals != 1) (lvTieBody rnd n) fuel s

/-- `S`, `S_row`, the vectors that `louvain_cluster_masked` allocates once, how many random
numbers have been drawn, and `vertices_changed`; lines 125-127, 139, 173, 190, 205 and
346-348, 360-366. -/
structure LvSt where
  S : Lil Bool
  row : BVec Bool
  v : BVec Rat
  qm : BVec Bool
  q : BVec Rat
  t : BVec Bool
  draws : Nat
  changed : Bool
  deriving DecidableEq, Repr

/-- `v`, lines 173-186 and 400-412; `v` is given as it was before. -/
def lvWeights (masked : Bool) (A : Lil Rat) (k : BVec Rat) (m : Rat) (i : Nat) (v : BVec Rat) : Prog (BVec Rat) := do
  let v ← exec (extractC (vPlain id v) (if masked then .tr A else .plain A) .all i)
  let ki ← lift (k.extractElement i)
  exec (applyV { w := v, m := (none : VMask Bool), truthy := id, acc := .some (· + ·) id id, castZ := id, outp := .merge }
    (fun x => x * (-ki / m)) k)

/-- `q`, lines 190-194 and 419-432, and `q_mask`; `qm` and `q` are given as they were before. -/
def lvScores (masked : Bool) (A : Lil Rat) (S : Lil Bool) (i : Nat) (v : BVec Rat) (qm : BVec Bool) (q : BVec Rat) :
    Prog (BVec Bool × BVec Rat) :=
  if masked then do
    let qm ← exec (extractC (vPlain (fun x : Rat => x != 0) qm) (.tr A) .all i)
    let qm ← exec (vxm (vPlain id qm) ⟨(· || ·), (· && ·), (· && ·)⟩ qm (.plain S))
    let q ← exec (vxm (vMasked id q .plain id qm .replace)
      ⟨(· + ·), fun x s => x * b2r s, fun s x => b2r s * x⟩ v (.plain S))
    .ok (qm, q)
  else do
    let q ← exec (vxm (vPlain id q) ⟨(· + ·), fun x s => x * b2r s, fun s x => b2r s * x⟩ v (.plain S))
    .ok (qm, q)

/-- A row of a matrix of `bool` assigned; lines 162-165, 258-260 and 389-392, 497-499. -/
def lvSetRow (C : Lil Bool) (u : BVec Bool) (i : Nat) : Prog (Lil Bool) :=
  exec (assignRow { C := C, m := (none : VMask Bool), truthy := id, acc := .none id, castZ := id, outp := .merge } id u i .all)

/-- The body of the loop over the vertices, lines 148-276 and 375-515. -/
def lvVertex (masked : Bool) (rnd : Nat → Rat) (fuel n : Nat) (A : Lil Rat) (k : BVec Rat) (m : Rat) (mask : BVec Bool)
    (i : Nat) (s : LvSt) : Prog LvSt := do
  let has ← lift (k.hasElement i)
  if has then do
    let row ← exec (extractC (vPlain id s.row) (.tr s.S) .all i)
    let Mask ← lvSetRow (Lil.new n n) mask i
    let S ← exec (applyM (mMasked s.S .comp id Mask) id (.plain s.S))
    let v ← lvWeights masked A k m i s.v
    let mq ← lvScores masked A S i v s.qm s.q
    let kappa ← lvMax mq.2
    let t ← lvEqual s.t mq.2 kappa
    let r ← lvTies rnd n fuel { t := t, draws := s.draws }
    let S ← lvSetRow S r.t i
    let same ← lift (r.t.eq row)
    .ok { S := S, row := row, v := v, qm := mq.1, q := mq.2, t := r.t, draws := r.draws, changed := s.changed || !same }
  else .ok s

/-- A state with the vectors that `louvain_cluster` allocates anew for each vertex; lines
173, 190, 205. -/
def LvSt.fresh (masked : Bool) (n : Nat) (s : LvSt) : Prog LvSt :=
  if masked then .ok s
  else do
    let v ← lift (BVec.new n)
    let q ← lift (BVec.new n)
    let t ← lift (BVec.new n)
    .ok { s with v := v, q := q, t := t }

/-- One iteration of the outer loop, lines 142-284 and 369-523. -/
def lvSweep (masked : Bool) (rnd : Nat → Rat) (fuel n : Nat) (A : Lil Rat) (k : BVec Rat) (m : Rat) (mask : BVec Bool)
    (s : LvSt) : Prog LvSt :=
  forP n { s with changed := false } fun i s => do
    let s ← s.fresh masked n
    lvVertex masked rnd fuel n A k m mask i s

/-- What the function returns: the matrix, or the number of iterations as an exception;
lines 286-291 and 525-530. -/
inductive LvResult where
  | thrown (iters : Nat)
  | returned (S : Lil Bool)
  deriving DecidableEq, Repr

/-- `louvain_cluster`, lines 88-292, and `louvain_cluster_masked`, lines 309-531. The outer
loop makes at least one iteration, and at most `maxIters` if this is not zero; `fuel` bounds
the inner loops. -/
def louvain (masked : Bool) (rnd : Nat → Rat) (fuel : Nat) (G : Lil Rat) (maxIters : Nat) : Prog LvResult := do
  if G.nrows ≠ G.ncols then .error (.err .dimension)
  else do
    let n := G.nrows
    let A ← exec (transposeM { C := G, M := (none : MMask Bool), truthy := id, acc := .some (· + ·) id id, castZ := id, outp := .merge }
      (.plain G))
    let k ← lift (BVec.new n)
    let k ← exec (reduceMV (vPlain id k) (.of (· + ·) id) (.plain G))
    let m ← exec (reduceVS id (.none id) (.of (· + ·) id) 0 (0 : Rat) k)
    let S ← lift (scaledIdentity n true)
    let e ← lift (BVec.new n)
    let mask ← lift (BVec.new n)
    let mask ← exec (assignConstV (vPlain id mask) id true .all)
    let v ← lift (BVec.new n)
    let q ← lift (BVec.new n)
    let s ← lvSweep masked rnd fuel n A k (m / 2) mask
      { S := S, row := e, v := v, qm := e, q := q, t := e, draws := 0, changed := true }
    let r ← forP (maxIters - 1) (1, s) fun _ r =>
      if r.2.changed then do
        let s ← lvSweep masked rnd fuel n A k (m / 2) mask r.2
        .ok (r.1 + 1, s)
      else .ok r
    if r.2.changed then .ok (.thrown r.1) else .ok (.returned r.2.S)

/-- `get_louvain_cluster_assignments`, lines 51-72; only whether an element is stored
matters to the operator `Second`. -/
def louvainAssignments (C : Lil Bool) : Prog (BVec Nat) := do
  let w ← lift (BVec.new C.ncols)
  let ix ← lift (BVec.new C.nrows)
  let ix ← forP C.nrows ix fun i ix => lift (method (ix.setElement i i))
  exec (mxv (vPlain id w) ⟨max, fun _ y => y, fun x _ => x⟩ (.plain C) ix)

end GBTL

import Verif.Model.Betweenness
import Verif.Model.Mis
/-
Model of the other versions of vertex betweenness centrality:
`vertex_betweenness_centrality_batch_old` and `vertex_betweenness_centrality` in
`/repo/src/algorithms/bc.hpp`, `BC_appendixB4` and `BC_update_appendixB5` in
`/repo/src/algorithms/appendix_algorithms.hpp`. The simplifications are those of
`Model/Betweenness.lean`.
-/
namespace GBTL
open Spec (Outp MaskKind Accum)

variable {α T : Type}

/-! ### `vertex_betweenness_centrality_batch_old` -/

/-- The variables of the breadth-first phase; the `Sigmas` are copies of the frontier;
`bc.hpp` lines 859-881. -/
structure BcOldSt where
  F : Lil Int
  P : Lil Int
  S : List (Lil Int)
  deriving DecidableEq, Repr

/-- The body of the first `while` loop, `bc.hpp` lines 882-903. -/
def bcOldBody (ov : Int → Int → Int) (gI : α → Int) (A : Lil α) (q : BcOldSt) : Prog BcOldSt := do
  let P ← exec (eWiseAddM (mWhole id q.P .merge) ⟨ITy.i32.plusT ov, id, id, id, ITy.i32.plusT ov, id⟩ (.plain q.F) (.plain q.P))
  let F ← exec (mxm (mMasked q.F .comp nonzero P) (pathsFA ov gI) id (.plain q.F) (.plain A))
  .ok { F := F, P := P, S := q.S ++ [q.F] }

/-- The body of the second `while` loop with `d = i + 1`, `bc.hpp` lines 917-956. -/
def bcOldBackBody (gF : α → Rat) (A : Lil α) (S : List (Lil Int)) (P : Lil Int) (i : Nat) (q : Lil Rat × Lil Rat) :
    Prog (Lil Rat × Lil Rat) := do
  let S1 ← sigmaAt S i
  let W ← exec (eWiseMultM (mMasked q.2 .plain nonzero S1)
    ⟨fun u p => u / ((p : Int) : Rat), id, fun p : Int => (p : Rat), fun p : Int => (p : Rat), (· / ·), id⟩
    (.plain q.1) (.plain P))
  let W ← exec (mxm (mWhole id W .replace) (flowWA gF) id (.plain W) (.tr A))
  let S0 ← sigmaAt S (i - 1)
  let W ← exec (eWiseMultM (mMasked W .plain nonzero S0)
    ⟨fun w p => w * ((p : Int) : Rat), id, fun p : Int => (p : Rat), fun p : Int => (p : Rat), (· * ·), id⟩
    (.plain W) (.plain P))
  let U ← exec (eWiseAddM (mWhole id q.1 .replace) ⟨(· + ·), id, id, id, (· + ·), id⟩ (.plain q.1) (.plain W))
  .ok (U, W)

/-- `vertex_betweenness_centrality_batch_old`, `bc.hpp` lines 834-984. -/
def bcOld (fuel : Nat) (ov : Int → Int → Int) (gI : α → Int) (gF : α → Rat) (A : Lil α) (s : List Nat) :
    Prog (List Rat) := do
  let p := s.length
  if p = 0 then .error (.err .dimension)
  else if A.nrows ≠ A.ncols then .error (.err .dimension)
  else do
    let n := A.ncols
    let P ← bcBuild p n (List.range p) s
    let F ← exec (extractM (mWhole gI (Lil.new p n) .merge) (.plain A) (.list s) .all)
    let q ← loop (fun q => decide (0 < q.F.nvals)) (bcOldBody ov gI A) fuel { F := F, P := P, S := [] }
    let U ← bcOnes p n .merge
    let r ← forP (q.S.length - 1) (U, (Lil.new p n : Lil Rat)) fun j r =>
      bcOldBackBody gF A q.S q.P (q.S.length - 1 - j) r
    let w ← bcSum n p (.tr r.1)
    bcToStd n w

/-! ### `vertex_betweenness_centrality` -/

/-- What the algorithm uses of the graph's scalar type `T`: `Plus`, `Times`, `Minus`,
`MultiplicativeInverse`, the constant 1, the conversion of a vertex count, and the
conversion to `bool`; `bc.hpp` lines 1035, 1051, 1058, 1070, 1077, 1088, 1096, 1103-1104,
1122, 1127. -/
structure BcOps (T : Type) where
  add : T → T → T
  times : T → T → T
  minus : T → T → T
  inv : T → T
  one : T
  ofNat : Nat → T
  truthy : T → Bool

/-- Exact arithmetic, for the floating-point types; `algebra.hpp`: `Plus`, `Times`, `Minus`,
`MultiplicativeInverse`. -/
def BcOps.rat : BcOps Rat :=
  { add := (· + ·), times := (· * ·), minus := (· - ·), inv := fun x => 1 / x, one := 1, ofNat := fun n => (n : Rat)
    truthy := fun x => x != 0 }

/-- An integer type: the division of `MultiplicativeInverse` truncates; `algebra.hpp`:
`Plus`, `Times`, `Minus`, `MultiplicativeInverse`; the division by 0, undefined in C++,
yields 0 here and no theorem uses it. -/
def BcOps.int (t : ITy) (ov : Int → Int → Int) : BcOps Int :=
  { add := t.plusT ov, times := t.timesT ov, minus := t.minusT ov, inv := fun x => Int.tdiv 1 x, one := 1
    ofNat := fun n => t.conv n, truthy := fun x => x != 0 }

/-- `frontier`, `n_shortest_paths` and `search`; `bc.hpp` lines 1022-1035. -/
structure VbcSt (T : Type) where
  f : BVec T
  p : BVec T
  S : List (BVec Bool)

/-- The body of the `while` loop, `bc.hpp` lines 1038-1064. -/
def vbcBody [Inhabited T] (o : BcOps T) (A : Lil T) (n : Nat) (q : VbcSt T) : Prog (VbcSt T) := do
  let S ← lift (BVec.new n)
  let S ← exec (applyV (vPlain id S) o.truthy q.f)
  let p ← exec (eWiseAddV (vPlain id q.p) ⟨o.add, id, id, id, o.add, id⟩ q.p q.f)
  let f ← exec (vxm (vMasked id q.f .comp o.truthy p .replace) ⟨o.add, o.times, o.times⟩ q.f (.plain A))
  .ok { f := f, p := p, S := q.S ++ [S] }

/-- The body of the backward loop for `idx = i`, `bc.hpp` lines 1081-1108: the new
`update` and `weights`. -/
def vbcBackBody (o : BcOps T) (A : Lil T) (S : List (BVec Bool)) (inv p : BVec T) (i : Nat) (q : BVec T × BVec T) :
    Prog (BVec T × BVec T) := do
  let S1 ← sigmaAt S i
  let w ← exec (eWiseMultV (vMasked id q.2 .plain id S1 .replace) ⟨o.times, id, id, id, o.times, id⟩ inv q.1)
  let S0 ← sigmaAt S (i - 1)
  let w ← exec (mxv (vMasked id w .plain id S0 .replace) ⟨o.add, o.times, o.times⟩ (.plain A) w)
  let u ← exec (eWiseMultV
    { w := q.1, m := (none : VMask Bool), truthy := id, acc := .some o.add id id, castZ := id, outp := .replace }
    ⟨o.times, id, id, id, o.times, id⟩ w p)
  .ok (u, w)

/-- The body of the loop over the vertices, up to `update`: `bc.hpp` lines 1022-1108. -/
def vbcSource [Inhabited T] (fuel : Nat) (o : BcOps T) (A : Lil T) (n i : Nat) : Prog (BVec T) := do
  let f ← lift (BVec.new n)
  let f ← exec (extractC (vReplace f) (.tr A) .all i)
  let p ← lift (BVec.new n)
  let p ← lift (method (p.setElement i o.one))
  let q ← loop (fun q => decide (0 < q.f.nvals)) (vbcBody o A n) fuel { f := f, p := p, S := [] }
  let inv ← lift (BVec.new n)
  let inv ← exec (applyV (vPlain id inv) o.inv q.p)
  let u ← lift (BVec.new n)
  let u ← exec (assignConstV (vPlain id u) id o.one .all)
  let w ← lift (BVec.new n)
  let r ← forP (q.S.length - 1) (u, w) fun j r => vbcBackBody o A q.S inv q.p (q.S.length - 1 - j) r
  .ok r.1

/-- The result as a `std::vector`, `bc.hpp` lines 1132-1139. -/
def vbcToStd (z : T) (n : Nat) (r : BVec T) : Prog (List T) :=
  forP n (List.replicate n z) fun k l => do
    let b ← lift (r.hasElement k)
    if b then do
      let x ← lift (r.extractElement k)
      .ok (l.set k x)
    else .ok l

/-- `vertex_betweenness_centrality`, `bc.hpp` lines 1002-1142; `default` is the 0 of the
result. -/
def vbc [Inhabited T] (fuel : Nat) (o : BcOps T) (A : Lil T) : Prog (List T) := do
  if A.nrows ≠ A.ncols then .error (.err .dimension)
  else do
    let n := A.nrows
    let b ← lift (BVec.new n)
    let b ← forP n b fun i b => do
      let u ← vbcSource fuel o A n i
      exec (eWiseAddV (vPlain id b) ⟨o.add, id, id, id, o.add, id⟩ b u)
    let bias ← lift (BVec.new n)
    let bias ← exec (assignConstV (vPlain id bias) id (o.ofNat n) .all)
    let b ← exec (eWiseAddV (vReplace b) ⟨o.minus, id, id, id, o.minus, id⟩ b bias)
    vbcToStd default n b

/-! ### `BC_appendixB4` -/

/-- `sigma`, `q`, `p` and `d`; `appendix_algorithms.hpp` lines 183-194. -/
structure B4St where
  S : Lil Int
  q : BVec Int
  p : BVec Int
  d : Nat

/-- `q<!p> = q +.* A`, `appendix_algorithms.hpp` lines 190-191 and 201-202. -/
def b4Step (ov : Int → Int → Int) (gI : α → Int) (A : Lil α) (q p : BVec Int) : Prog (BVec Int) :=
  exec (vxm (vMasked id q .comp nonzero p .replace) (pathsFA ov gI) q (.plain A))

/-- The body of the `do` loop, `appendix_algorithms.hpp` lines 196-206. -/
def b4Body (ov : Int → Int → Int) (gI : α → Int) (A : Lil α) (s : B4St) : Prog B4St := do
  let S ← exec (assignRow
    { C := s.S, m := (none : VMask Bool), truthy := id, acc := .none id, castZ := id, outp := .merge } id s.q s.d .all)
  let p ← exec (eWiseAddV (vPlain id s.p) ⟨ITy.i32.plusT ov, id, id, id, ITy.i32.plusT ov, id⟩ s.p s.q)
  let q ← b4Step ov gI A s.q p
  .ok { S := S, q := q, p := p, d := s.d + 1 }

/-- `delta` and the temporaries `t1` ... `t4`; `appendix_algorithms.hpp` lines 178, 209. -/
structure B4Back where
  delta : BVec Rat
  t1 : BVec Rat
  t2 : BVec Rat
  t3 : BVec Rat
  t4 : BVec Rat

/-- The body of the backward loop, `appendix_algorithms.hpp` lines 211-228. -/
def b4BackBody (gF : α → Rat) (A : Lil α) (S : Lil Int) (i : Nat) (b : B4Back) : Prog B4Back := do
  let t1 ← exec (assignConstV (vPlain id b.t1) id (1 : Rat) .all)
  let t1 ← exec (eWiseAddV (vPlain id t1) ⟨(· + ·), id, id, id, (· + ·), id⟩ t1 b.delta)
  let t2 ← exec (extractC (vPlain (fun x : Int => (x : Rat)) b.t2) (.tr S) .all i)
  let t2 ← exec (eWiseMultV (vPlain id t2) ⟨(· / ·), id, id, id, (· / ·), id⟩ t1 t2)
  let t3 ← exec (mxv (vPlain id b.t3) (flowAW gF) (.plain A) t2)
  let t4 ← exec (extractC (vPlain (fun x : Int => (x : Rat)) b.t4) (.tr S) .all (i - 1))
  let t4 ← exec (eWiseMultV (vPlain id t4) ⟨(· * ·), id, id, id, (· * ·), id⟩ t4 t3)
  let delta ← exec (eWiseAddV (vPlain id b.delta) ⟨(· + ·), id, id, id, (· + ·), id⟩ b.delta t4)
  .ok { delta := delta, t1 := t1, t2 := t2, t3 := t3, t4 := t4 }

/-- `BC_appendixB4`, `appendix_algorithms.hpp` lines 177-229: the new `delta`. -/
def bcB4 (fuel : Nat) (ov : Int → Int → Int) (gI : α → Int) (gF : α → Rat) (delta : BVec Rat) (A : Lil α) (src : Nat) :
    Prog (BVec Rat) := do
  let n := A.nrows
  let q ← lift (BVec.new n)
  let q ← lift (method (q.setElement src (1 : Int)))
  let p := q
  let q ← b4Step ov gI A q p
  let s ← b4Body ov gI A { S := Lil.new n n, q := q, p := p, d := 0 }
  let s ← loop (fun s => decide (0 < s.q.nvals)) (b4Body ov gI A) fuel s
  let t ← lift (BVec.new n)
  let b ← forP (s.d - 1) { delta := delta, t1 := t, t2 := t, t3 := t, t4 := t } fun j b =>
    b4BackBody gF A s.S (s.d - 1 - j) b
  .ok b.delta

/-! ### `BC_update_appendixB5` -/

/-- The body of the `while` loop, `appendix_algorithms.hpp` lines 284-295. The Sigmas are
allocated as `nsver × n`. -/
def b5Body (ov : Int → Int → Int) (gI : α → Int) (A : Lil α) (n nsver : Nat) (q : BcSt) : Prog BcSt := do
  let S ← bcSigma nsver n q.F
  let P ← bcCount ov q.P q.F
  let F ← exec (mxm (mMasked q.F .comp nonzero P) (pathsAF ov gI) id (.tr A) (.plain q.F))
  .ok { F := F, P := P, S := q.S ++ [S] }

/-- The body of the backward loop, `appendix_algorithms.hpp` lines 309-317. -/
def b5BackBody (gF : α → Rat) (A : Lil α) (S : List (Lil Bool)) (inv : Lil Rat) (P : Lil Int) (i : Nat)
    (q : Lil Rat × Lil Rat) : Prog (Lil Rat × Lil Rat) := do
  let S1 ← sigmaAt S i
  let W ← bcScale q.2 S1 q.1 inv
  let S0 ← sigmaAt S (i - 1)
  let W ← exec (mxm (mMasked W .plain id S0) (flowAW gF) id (.plain A) (.plain W))
  let U ← bcAdd q.1 W P
  .ok (U, W)

/-- `BC_update_appendixB5`, `appendix_algorithms.hpp` lines 244-324: the new `delta`. -/
def bcB5 (fuel : Nat) (ov : Int → Int → Int) (gI : α → Int) (gF : α → Rat) (delta : BVec Rat) (A : Lil α)
    (src : List Nat) : Prog (BVec Rat) := do
  let nsver := src.length
  let n := A.nrows
  let P ← bcBuild n nsver src (List.range nsver)
  let F ← exec (extractM
    { C := (Lil.new n nsver : Lil Int), M := some (.comp, P), truthy := nonzero, acc := .none id, castZ := gI, outp := .replace }
    (.tr A) .all (.list src))
  let q ← loop (fun q => decide (0 < q.F.nvals)) (b5Body ov gI A n nsver) fuel { F := F, P := P, S := [] }
  let inv ← bcInv n nsver .merge q.P
  let U ← bcOnes n nsver .merge
  let r ← forP (q.S.length - 1) (U, (Lil.new n nsver : Lil Rat)) fun j r =>
    b5BackBody gF A q.S inv q.P (q.S.length - 1 - j) r
  let d ← exec (assignConstV (vPlain id delta) id (-1 * (nsver : Rat)) .all)
  exec (reduceMV { w := d, m := (none : VMask Bool), truthy := id, acc := .some (· + ·) id id, castZ := id, outp := .merge }
    (.of (· + ·) id) (.plain r.1))

end GBTL

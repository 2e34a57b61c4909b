import Verif.Model.BetweennessV
import Verif.Model.Utils
/-
Model of `edge_betweenness_centrality` in `/repo/src/algorithms/bc.hpp`, lines 1157-1297.
Line numbers refer to this file. Simplifications: floating-point values are exact
rational numbers; what an overflowing integer addition or multiplication yields is the
parameter `ov`; `fuel` bounds the iterations of the first `while` loop; the depth is one
less than the length of the list `search`.
-/
namespace GBTL
open Spec (Outp MaskKind Accum)

variable {T : Type}

/-- What the algorithm uses of the graph's scalar type `T`: `Plus`, `Times`, `Div`, the
constant 1, the conversions from and to `bool`, and the conversion to `int32_t` followed
by the one to `bool` (`Identity<int32_t, bool>` on a value of type `T`); lines 1185, 1205,
1212, 1221, 1235-1242. -/
structure EbcOps (T : Type) where
  add : T → T → T
  times : T → T → T
  div : T → T → T
  one : T
  ofBool : Bool → T
  truthy : T → Bool
  toB : T → Bool

/-- Exact arithmetic, for the floating-point types. The conversion to `int32_t` drops the
fraction, so that the numbers between -1 and 1 become `false`; for numbers that do not
fit it is undefined, which is not modelled; `algebra.hpp`: `Plus`, `Times`, `Div`. -/
def EbcOps.rat : EbcOps Rat :=
  { add := (· + ·), times := (· * ·), div := (· / ·), one := 1, ofBool := fun b => if b then 1 else 0
    truthy := fun x => x != 0, toB := fun x => decide (1 ≤ x) || decide (x ≤ -1) }

/-- An integer type. Division truncates; division by zero is undefined, here it gives
zero; `algebra.hpp`: `Plus`, `Times`, `Div`. -/
def EbcOps.int (t : ITy) (ov : Int → Int → Int) : EbcOps Int :=
  { add := t.plusT ov, times := t.timesT ov, div := Int.tdiv, one := 1, ofBool := fun b => if b then 1 else 0
    truthy := fun x => x != 0, toB := fun x => ITy.i32.conv x != 0 }

/-- The body of the first `while` loop, lines 1196-1225: `search[depth]`, the counts and
the next frontier. -/
def ebcBody [Inhabited T] (o : EbcOps T) (A : Lil T) (n : Nat) (q : VbcSt T) : Prog (VbcSt T) := do
  let S ← lift (BVec.new n)
  let S ← exec (applyV (vPlain id S) o.toB q.f)
  let p ← exec (eWiseAddV (vReplace q.p) ⟨o.add, id, id, id, o.add, id⟩ q.p q.f)
  let f ← exec (vxm (vMasked id q.f .comp o.truthy p .replace) ⟨o.add, o.times, o.times⟩ q.f (.plain A))
  .ok { f := f, p := p, S := q.S ++ [S] }

/-- `score`, `update` and `flow`; lines 1171, 1187-1188. -/
structure EbcBack (T : Type) where
  score : Lil T
  update : Lil T
  flow : BVec T

/-- The body of the second `while` loop for `depth = d`, lines 1227-1294. The matrices
`wmat` are built from the tuples of `weights`, as in `diag`. -/
def ebcBackBody [Inhabited T] (o : EbcOps T) (A : Lil T) (n : Nat) (S : List (BVec Bool)) (p : BVec T) (d : Nat)
    (q : EbcBack T) : Prog (EbcBack T) := do
  let w ← lift (BVec.new n)
  let S1 ← sigmaAt S d
  let w ← exec (eWiseMultV (vMasked id w .plain id S1 .merge) ⟨o.div, id, id, id, o.div, id⟩ q.flow p)
  let w ← exec (eWiseAddV (vPlain id w) ⟨fun x b => o.add x (o.ofBool b), id, o.ofBool, o.ofBool, o.add, id⟩ w S1)
  let D ← lift (diag id w)
  let up ← exec (mxm (mPlain id q.update) ⟨o.add, o.times, o.times⟩ id (.plain A) (.plain D))
  let S0 ← sigmaAt S (d - 1)
  let w ← exec (applyV (vMasked id w .plain id S0 .replace) id p)
  let D ← lift (diag id w)
  let up ← exec (mxm (mPlain id up) ⟨o.add, o.times, o.times⟩ id (.plain D) (.plain up))
  let score ← exec (eWiseAddM (mPlain id q.score) ⟨o.add, id, id, id, o.add, id⟩ (.plain q.score) (.plain up))
  let flow ← exec (reduceMV (vPlain id q.flow) (.of o.add id) (.plain up))
  .ok { score := score, update := up, flow := flow }

/-- The body of the loop over the roots, lines 1174-1295. -/
def ebcRoot [Inhabited T] (fuel : Nat) (o : EbcOps T) (A : Lil T) (n root : Nat) (score : Lil T) : Prog (Lil T) := do
  let f ← lift (BVec.new n)
  let f ← exec (extractC (vPlain id f) (.tr A) .all root)
  let p ← lift (BVec.new n)
  let p ← lift (method (p.setElement root o.one))
  let flow ← lift (BVec.new n)
  let S ← lift (BVec.new n)
  let S ← lift (method (S.setElement root true))
  let q ← loop (fun q => decide (0 < q.f.nvals)) (ebcBody o A n) fuel { f := f, p := p, S := [S] }
  let r ← forP (q.S.length - 1) { score := score, update := Lil.new n n, flow := flow } fun j r =>
    ebcBackBody o A n q.S q.p (q.S.length - 1 - j) r
  .ok r.score

/-- `edge_betweenness_centrality`, lines 1157-1297. -/
def ebc [Inhabited T] (fuel : Nat) (o : EbcOps T) (A : Lil T) : Prog (Lil T) := do
  if A.nrows ≠ A.ncols then .error (.err .dimension)
  else do
    let n := A.nrows
    forP n (Lil.new n n) fun root score => ebcRoot fuel o A n root score

end GBTL

import Verif.Model.Sssp
import Verif.Model.Triangle
/-
Model of `maxflow_push_relabel` in `/repo/src/algorithms/maxflow.hpp` on the integer
scalar types. Line numbers refer to this file. Here an overflowing signed operation is
an outcome of its own, `Err.ub`; only `reduce`, whose operator is `ITy.plusT`, takes
what it yields as the parameter `ov`. An exception ends the function, whose variables
are local, so the helpers need not return a state together with an exception.
-/
namespace GBTL
open Spec (Outp MaskKind Accum)

/-- `at(v, idx)`, lines 41-46. -/
def BVec.at0 (v : BVec Int) (i : Nat) : Except Err Int := do
  let b ← v.hasElement i
  if b then v.extractElement i else .ok 0

/-- `at(A, idx, idy)`, lines 48-54. -/
def Lil.at0 (A : Lil Int) (i j : Nat) : Except Err Int := do
  let b ← A.hasElement i j
  if b then A.extractElement i j else .ok 0

/-- `at(C,u,v) - at(F,u,v)`, which has the promoted type of `T`; lines 67, 90, 116. -/
def leftover (t : ITy) (C F : Lil Int) (u v : Nat) : Except Err Int := do
  let c ← C.at0 u v
  let f ← F.at0 u v
  BOp.minus.run t t (ITy.common t t) c f

/-- `push`, lines 58-75: the new `F` and `excess`. -/
def pushFlow (t : ITy) (C F : Lil Int) (excess : BVec Int) (u v : Nat) :
    Except Err (Lil Int × BVec Int) := do
  let a ← excess.at0 u
  let b ← leftover t C F u v
  let send := if t.conv b < a then t.conv b else a
  let x ← F.at0 u v
  let x ← BOp.plus.run t t t x send
  let F ← method (F.setElement u v x)
  let x ← F.at0 v u
  let x ← BOp.minus.run t t t x send
  let F ← method (F.setElement v u x)
  let x ← excess.at0 u
  let x ← BOp.minus.run t t t x send
  let excess ← method (excess.setElement u x)
  let x ← excess.at0 v
  let x ← BOp.plus.run t t t x send
  let excess ← method (excess.setElement v x)
  .ok (F, excess)

/-- The loop body of `relabel`, lines 90-95, on `min_height` and `height`. The `1` is
an `int`. -/
def relabelStep (t : ITy) (C F : Lil Int) (u v : Nat) (s : Int × BVec Int) : Except Err (Int × BVec Int) := do
  let d ← leftover t C F u v
  if d > 0 then do
    let a ← s.2.at0 v
    let m := if a < s.1 then a else s.1
    let x ← BOp.plus.run t .i32 t m 1
    let height ← method (s.2.setElement u x)
    .ok (m, height)
  else .ok s

/-- `relabel`, lines 78-97: the new `height`. -/
def relabel (t : ITy) (C F : Lil Int) (height : BVec Int) (u : Nat) : Prog (BVec Int) := do
  let s ← forP C.nrows (t.maxVal, height) fun v s => lift (relabelStep t C F u v s)
  .ok s.2

/-- The variables of `maxflow_push_relabel` that `discharge` changes; lines 185-189. -/
structure PRSt where
  F : Lil Int
  excess : BVec Int
  height : BVec Int
  seen : BVec Int
  deriving DecidableEq, Repr

/-- `x < num_nodes`: the comparison of a `T` with an `IndexType`; line 113. -/
def belowIx (t : ITy) (x : Int) (n : Nat) : Bool :=
  decide ((ITy.common t .u64).conv x < (ITy.common t .u64).conv n)

/-- Line 123: `seen.setElement(u, at(seen,u) + 1)`. -/
def bumpSeen (t : ITy) (seen : BVec Int) (u : Nat) : Except Err (BVec Int) := do
  let x ← seen.at0 u
  let x ← BOp.plus.run t .i32 t x 1
  method (seen.setElement u x)

/-- The loop body of `discharge`, lines 113-130. Its first line is the loop condition,
which may throw. -/
def dischargeBody (t : ITy) (C : Lil Int) (u : Nat) (s : PRSt) : Prog PRSt := do
  let _ ← lift (s.excess.at0 u)
  let x ← lift (s.seen.at0 u)
  if belowIx t x C.nrows then do
    let v := (ITy.conv .u64 x).toNat
    let d ← lift (leftover t C s.F u v)
    let hu ← lift (s.height.at0 u)
    let hv ← lift (s.height.at0 v)
    if d > 0 ∧ hu > hv then do
      let r ← lift (pushFlow t C s.F s.excess u v)
      .ok ⟨r.1, r.2, s.height, s.seen⟩
    else do
      let seen ← lift (bumpSeen t s.seen u)
      .ok ⟨s.F, s.excess, s.height, seen⟩
  else do
    let height ← relabel t C s.F s.height u
    let seen ← lift (method (s.seen.setElement u 0))
    .ok ⟨s.F, s.excess, height, seen⟩

/-- `at(v, u) > 0`, the condition of a loop; when `at` throws, the body will; line 111. -/
def positiveAt (v : BVec Int) (u : Nat) : Bool :=
  match v.at0 u with
  | .ok x => decide (x > 0)
  | .error _ => true

/-- `discharge`, lines 101-132. -/
def discharge (fuel : Nat) (t : ITy) (C : Lil Int) (u : Nat) (s : PRSt) : Prog PRSt :=
  loop (fun s => positiveAt s.excess u) (dischargeBody t C u) fuel s

/-- All variables of the main loop; lines 185-191, 211. -/
structure FrontSt where
  st : PRSt
  list : List Nat
  p : Nat

/-- The body of the main loop, lines 214-231. -/
def frontBody (fuel : Nat) (t : ITy) (C : Lil Int) (s : FrontSt) : Prog FrontSt :=
  match s.list[s.p]? with
  | none => .error (.err .ub)
  | some u => do
    let old ← lift (s.st.height.at0 u)
    let st ← discharge fuel t C u s.st
    let new ← lift (st.height.at0 u)
    if new > old then .ok ⟨st, u :: s.list.eraseIdx s.p, 0⟩
    else .ok ⟨st, s.list, s.p + 1⟩

/-- `maxflow_push_relabel`, lines 174-247. -/
def maxflowPushRelabel (fuel : Nat) (t : ITy) (ov : Int → Int → Int) (C : Lil Int) (source sink : Nat) :
    Prog Int := do
  let n := C.nrows
  let flow : Lil Int := Lil.new C.nrows C.ncols
  let height ← lift (BVec.new n)
  let excess ← lift (BVec.new n)
  let seen ← lift (BVec.new n)
  let list := (List.range n).filter fun i => i ≠ source ∧ i ≠ sink
  let height ← lift (method (height.setElement source (t.conv n)))
  let excess ← lift (method (excess.setElement source t.maxVal))
  let r ← forP n (flow, excess) fun i r => lift (pushFlow t C r.1 r.2 source i)
  let s ← loop (fun s => decide (s.p < (n + 2 ^ 64 - 2) % 2 ^ 64)) (frontBody fuel t C) fuel
    ⟨⟨r.1, r.2, height, seen⟩, list, 0⟩
  let flows ← lift (BVec.new n)
  let flows ← exec (reduceMV (vPlain id flows) (redPlus t ov) (.plain s.st.F))
  lift (flows.at0 source)

end GBTL

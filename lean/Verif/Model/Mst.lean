import Verif.Model.Sssp
import Verif.Model.Mis
/-
Model of `/repo/src/algorithms/mst.hpp` on the integer scalar types. `ov` is what an
overflowing signed addition yields, see `Model/Sssp.lean`.
-/
namespace GBTL
open Spec (Outp MaskKind Accum)

/-- `MSTPlus<T>`, lines 51-58. `eWiseMult` uses nothing else of the record. -/
def mstPlus (t : ITy) (ov : Int → Int → Int) : EW Int (Nat × Int) Int :=
  { op := fun x y => t.plusT ov x y.2, c1 := id, c2 := Prod.snd, castBA := Prod.snd, opA := t.plusT ov,
    c2A := id }

/-- `MSTMin<T>`, lines 61-69. -/
def minPair (x y : Nat × Int) : Nat × Int := if y.2 > x.2 then x else y

/-- `MSTMin<T>` for an element-wise operation; lines 61-69, used at line 222. -/
def mstMin : EW (Nat × Int) (Nat × Int) (Nat × Int) := ⟨minPair, id, id, id, minPair, id⟩

/-- The loop of `argmin`, lines 90-97. -/
def argminLoop : Nat × Int → List (Nat × Int) → Nat
  | p, [] => p.1
  | p, q :: l => argminLoop (if q.2 < p.2 then q else p) l

/-- `argmin`, lines 76-99. -/
def argmin (v : BVec Int) : Except Err Nat :=
  if v.nvals = 0 then .error .panic
  else do
    let ts ← vecTuples v
    match ts with
    | [] => .error .ub
    | p :: l => .ok (argminLoop p l)

/-- `A`, lines 140-150: every element with its row. -/
def mstMatrix (G : Lil Int) : Except Err (Lil (Nat × Int)) := do
  let ts ← matTuples G
  method ((Lil.new G.nrows G.ncols : Lil (Nat × Int)).build (fun _ y => y)
    (ts.map fun p => (p.1, p.2.1, (p.1, p.2.2))))

/-- The variables of the loop; lines 156-164 and 171 (`mst_parents`). -/
structure MstSt where
  weight : Int
  d : BVec (Nat × Int)
  mask : BVec Bool
  s : BVec Int
  parents : BVec Nat

/-- The loop body, lines 181-225. -/
def mstBody (t : ITy) (ov : Int → Int → Int) (A : Lil (Nat × Int)) (s : MstSt) : Prog MstSt := do
  let temp ← lift (BVec.new A.nrows)
  let temp ← exec (eWiseMultV (vPlain id temp) (mstPlus t ov) s.s s.d)
  let u ← lift (argmin temp)
  let mask ← lift (method (s.mask.setElement u true))
  let sv ← exec (applyV (vMasked id s.s .comp id mask .replace) id s.s)
  let p ← lift (s.d.extractElement u)
  let parents ← lift (method (s.parents.setElement u p.1))
  let Arow ← lift (BVec.new A.ncols)
  let Arow ← exec (extractC (vPlain id Arow) (.tr A) .all u)
  let d ← exec (eWiseAddV (vPlain id s.d) mstMin s.d Arow)
  .ok ⟨t.plusT ov s.weight p.2, d, mask, sv, parents⟩

/-- The loop, lines 181-225. -/
def mstLoop (t : ITy) (ov : Int → Int → Int) (A : Lil (Nat × Int)) (fuel : Nat) (s : MstSt) : Prog MstSt :=
  loop (fun s => decide (s.mask.nvals < A.nrows)) (mstBody t ov A) fuel s

/-- `mst`, lines 122-228: the weight and the new `mst_parents`. -/
def mst (fuel : Nat) (t : ITy) (ov : Int → Int → Int) (G : Lil Int) (parents : BVec Nat) :
    Prog (Int × BVec Nat) :=
  if G.nrows ≠ G.ncols ∨ G.nrows ≠ parents.size then .error (.err .dimension)
  else do
    let A ← lift (mstMatrix G)
    let d ← lift (BVec.new G.nrows)
    let mask ← lift (BVec.new G.nrows)
    let mask ← lift (method (mask.setElement 0 true))
    let s ← lift (BVec.new G.nrows)
    let s ← exec (assignConstV (vMasked id s .comp id mask .replace) id 0 .all)
    let d ← exec (extractC (vPlain id d) (.tr A) .all 0)
    let r ← mstLoop t ov A fuel ⟨0, d, mask, s, parents.clear⟩
    .ok (r.weight, r.parents)

end GBTL

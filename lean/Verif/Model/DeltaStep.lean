import Verif.Model.Triangle
import Verif.Model.Mis
/-
Model of `sssp_delta_step`, `/repo/src/algorithms/sssp.hpp` lines 276-472, on the integer
scalar types; `T` is the type `t`. `ov` is what an overflowing signed operation, which is
undefined in C++, yields. The vector `tnew` is never used and left out.
-/
namespace GBTL
open Spec (Outp MaskKind Accum)

/-- `LessEqual<T>`, `GreaterThan<T>`, `GreaterEqual<T>`, `algebra.hpp` lines 248-270. -/
def ITy.leT (t : ITy) (x y : Int) : Bool := isTrue (valOf 0 (BOp.le.run t t .bool x y))
@[inherit_doc ITy.leT] def ITy.gtT (t : ITy) (x y : Int) : Bool := isTrue (valOf 0 (BOp.gt.run t t .bool x y))
@[inherit_doc ITy.leT] def ITy.geT (t : ITy) (x y : Int) : Bool := isTrue (valOf 0 (BOp.ge.run t t .bool x y))

/-- `SelectInRange<T>(low, high)`, lines 277-293. -/
def inRange (lo hi x : Int) : Bool := decide (lo ≤ x) && decide (x < hi)

/-- `static_cast<T>(i) * delta`, converted to `T`, lines 351, 367 and 462. -/
def bucketLo (t : ITy) (ov : Int → Int → Int) (delta : Int) (i : Nat) : Int :=
  t.timesT ov (t.conv i) delta

/-- Output `C` with mask `C`, `NoAccumulate()`, `REPLACE`; lines 329-330, 340-341. -/
def selfMaskM (C : Lil Int) : MOut Int Int Int Int :=
  { C := C, M := some (.plain, C), truthy := isTrue, acc := .none id, castZ := id, outp := .replace }

/-- Lines 323-330 and 334-341: the edges whose weight passes a test, through a matrix of
the results of the test used as mask on itself. -/
def edgesWhere (G : Lil Int) (test : Int → Bool) : Prog (Lil Int) := do
  let P ← exec (applyM (mPlain ofBool (Lil.new G.nrows G.nrows)) test (.plain G))
  exec (applyM (selfMaskM P) id (.plain G))

/-- The variables of the loops; lines 309-317, 345. -/
structure DeltaSt where
  t : BVec Int
  tm : BVec Int
  req : BVec Int
  bi : BVec Bool
  comp : BVec Bool
  less : BVec Bool
  s : BVec Bool
  i : Nat
  deriving DecidableEq, Repr

/-- The body of the inner loop, lines 380-432. -/
def deltaInner (t : ITy) (ov : Int → Int → Int) (AL : Lil Int) (lo hi : Int) (s : DeltaSt) :
    Prog DeltaSt := do
  let req ← exec (vxm (vPlain id s.req) (minPlusT t ov) s.tm (.plain AL))
  let ss ← exec (eWiseAddV (vPlain id s.s) ewOr s.s s.bi)
  let less ← exec (eWiseAddV (vMasked id s.less .plain isTrue req .replace) (ewLess t) req s.t)
  let bi ← exec (applyV (vMasked id s.bi .plain id less .replace) (inRange lo hi) req)
  let d ← exec (eWiseAddV (vPlain id s.t) (ewMin t) s.t req)
  let tm ← exec (applyV (vMasked id s.tm .plain id bi .replace) id d)
  .ok { s with t := d, tm := tm, req := req, bi := bi, less := less, s := ss }

/-- Lines 364-377: the start of an iteration of the outer loop. -/
def deltaStart (lo hi : Int) (s : DeltaSt) : Prog DeltaSt := do
  let bi ← exec (applyV (vPlain id s.bi) (inRange lo hi) s.t)
  let bi ← exec (applyV (vMasked isTrue bi .plain id bi .replace) ofBool bi)
  let tm ← exec (applyV (vMasked id s.tm .plain id bi .replace) id s.t)
  .ok { s with bi := bi, tm := tm, s := s.s.clear }

/-- Lines 436-451: the rest of an iteration of the outer loop, up to `++i`. -/
def deltaHeavy (t : ITy) (ov : Int → Int → Int) (AH : Lil Int) (s : DeltaSt) : Prog DeltaSt := do
  let tm ← exec (applyV (vMasked id s.tm .plain id s.s .replace) id s.t)
  let req ← exec (vxm (vPlain id s.req) (minPlusT t ov) tm (.plain AH))
  let d ← exec (eWiseAddV (vPlain id s.t) (ewMin t) s.t req)
  .ok { s with t := d, tm := tm, req := req }

/-- Lines 457-465: `tcomp` for the next iteration; with `.merge`, lines 348-354. -/
def deltaComp (t : ITy) (ov : Int → Int → Int) (delta : Int) (outp : Outp) (s : DeltaSt) :
    Prog DeltaSt := do
  let lo := bucketLo t ov delta s.i
  let c ← exec (applyV (vPlain id s.comp) (fun x => t.geT x lo) s.t)
  let c ← exec (applyV (vMasked id c .plain id c outp) id c)
  .ok { s with comp := c }

/-- The body of the outer loop, lines 360-467. -/
def deltaOuter (fuel : Nat) (t : ITy) (ov : Int → Int → Int) (AL AH : Lil Int) (delta : Int)
    (s : DeltaSt) : Prog DeltaSt := do
  let lo := bucketLo t ov delta s.i
  let hi := bucketLo t ov delta ((s.i + 1) % 2 ^ 64)
  let s ← deltaStart lo hi s
  let s ← loop (fun s => decide (0 < s.tm.nvals)) (deltaInner t ov AL lo hi) fuel s
  let s ← deltaHeavy t ov AH s
  deltaComp t ov delta .replace { s with i := (s.i + 1) % 2 ^ 64 }

/-- `sssp_delta_step(graph, delta, src, paths)`, lines 296-472. -/
def deltaStep (fuel : Nat) (t : ITy) (ov : Int → Int → Int) (G : Lil Int) (delta : Int) (src : Nat)
    (paths : BVec Int) : Prog (BVec Int) := do
  let n := G.nrows
  let paths := paths.clear
  let d0 ← lift (BVec.new (α := Int) n)
  let tm ← lift (BVec.new (α := Int) n)
  let req ← lift (BVec.new (α := Int) n)
  let bi ← lift (BVec.new (α := Bool) n)
  let comp ← lift (BVec.new (α := Bool) n)
  let less ← lift (BVec.new (α := Bool) n)
  let ss ← lift (BVec.new (α := Bool) n)
  let d ← lift (method (d0.setElement src 0))
  let AL ← edgesWhere G fun w => t.leT w delta
  let AH ← edgesWhere G fun w => t.gtT w delta
  let s ← deltaComp t ov delta .merge
    { t := d, tm := tm, req := req, bi := bi, comp := comp, less := less, s := ss, i := 0 }
  let s ← loop (fun s => decide (0 < s.comp.nvals)) (deltaOuter fuel t ov AL AH delta) fuel s
  exec (applyV (vPlain id paths) id s.t)

end GBTL

import Verif.Model.Algo
/-
Models of `/repo/src/algorithms/sssp.hpp` and `/repo/src/algorithms/apsp.hpp` on the
integer scalar types. The graph and the distances have the same scalar type `t`, as
the comment at `sssp.hpp` line 65 requires. `ov` tells what an overflowing signed
addition, which is undefined in C++, yields: it is a parameter, and the theorems,
which exclude overflow, hold for all `ov`.
-/
namespace GBTL
open Spec (Outp MaskKind Accum)

/-- The value of an operator that may be undefined; `algebra.hpp` lines 310-326 are such
operators. -/
def valOf (d : Int) : Except Err Int → Int
  | .ok z => z
  | .error _ => d

/-- `Plus<T>`; `algebra.hpp` lines 310-314. -/
def ITy.plusT (t : ITy) (ov : Int → Int → Int) (x y : Int) : Int :=
  valOf (ov x y) (BOp.plus.run t t t x y)

/-- `Min<T>`; `algebra.hpp` lines 289-293. -/
def ITy.minT (t : ITy) (x y : Int) : Int := valOf 0 (BOp.min.run t t t x y)

/-- `LessThan<T>`; `algebra.hpp` lines 254-258. -/
def ITy.lessT (t : ITy) (x y : Int) : Bool := isTrue (valOf 0 (BOp.lt.run t t .bool x y))

/-- `MinPlusSemiring<T>`; `algebra.hpp` line 529. -/
def minPlusT (t : ITy) (ov : Int → Int → Int) : SR Int Int Int :=
  ⟨t.minT, t.plusT ov, t.plusT ov⟩

/-- `IndexType` subtraction of one, `n - 1`; `sssp.hpp` lines 78, 154. -/
def pred64 (n : Nat) : Nat := (n + 2 ^ 64 - 1) % 2 ^ 64

/-- Output `dist` with `NoMask()` and accumulator `Min<T>()`; `sssp.hpp` lines 80-81. -/
def minOut (t : ITy) (dist : BVec Int) : VOut Int Int Int Bool :=
  { w := dist, m := none, truthy := id, acc := .some t.minT id id, castZ := id, outp := .merge }

/-- The call at `sssp.hpp` lines 80-83 (and 92-95). -/
def relax (t : ITy) (ov : Int → Int → Int) (G : Lil Int) (dist : BVec Int) : Prog (BVec Int) :=
  exec (vxm (minOut t dist) (minPlusT t ov) dist (.plain G))

/-- The functor at `sssp.hpp` lines 105-109 and 182-186, and its conversions of lone elements, which
`eWiseMult` never uses. -/
def equalTest : EW Int Int Bool :=
  { op := fun x y => x == y, c1 := isTrue, c2 := isTrue, castBA := id, opA := fun x y => x == y,
    c2A := isTrue }

/-- `sssp`, `sssp.hpp` lines 60-114. The functor sets `changed_flag` when called with different
values; every call's result is stored in `equal_flags`, which was empty, so the model
reads the flag off there. -/
def sssp (t : ITy) (ov : Int → Int → Int) (G : Lil Int) (dist : BVec Int) :
    Prog (Bool × BVec Int) :=
  if G.nrows ≠ dist.size ∨ G.ncols ≠ dist.size then .error (.err .dimension)
  else do
    let dist ← forP (pred64 G.nrows) dist fun _ dist => relax t ov G dist
    let dist2 ← relax t ov G dist
    let flags ← lift (BVec.new G.nrows)
    let flags ← exec (eWiseMultV (vPlain id flags) equalTest dist dist2)
    let changed := (flags.bitmap.zip flags.vals).any fun p => p.1 && !p.2
    .ok (!changed, dist)

/-- Output `dists` with `NoMask()` and accumulator `Min<T>()`; `sssp.hpp` lines 156-158,
`apsp.hpp` lines 86-88. -/
def minOutM (t : ITy) (dists : Lil Int) : MOut Int Int Int Bool :=
  { C := dists, M := none, truthy := id, acc := .some t.minT id id, castZ := id, outp := .merge }

/-- The call at `sssp.hpp` lines 156-160 (and 169-172). -/
def relaxM (t : ITy) (ov : Int → Int → Int) (G : Lil Int) (dists : Lil Int) : Prog (Lil Int) :=
  exec (mxm (minOutM t dists) (minPlusT t ov) id (.plain dists) (.plain G))

/-- `batch_sssp`, `sssp.hpp` lines 138-191. -/
def batchSssp (t : ITy) (ov : Int → Int → Int) (G : Lil Int) (dists : Lil Int) :
    Prog (Bool × Lil Int) :=
  if G.nrows ≠ dists.ncols ∨ G.ncols ≠ dists.ncols then .error (.err .dimension)
  else do
    let dists ← forP (pred64 G.nrows) dists fun _ dists => relaxM t ov G dists
    let dist2 ← relaxM t ov G dists
    let flags ← exec (eWiseMultM (mPlain id (Lil.new dists.nrows dists.ncols : Lil Bool)) equalTest
      (.plain dists) (.plain dist2))
    let changed := flags.rows.any fun r => r.any fun p => !p.2
    .ok (!changed, dists)

/-! ### filtered_sssp -/

/-- The variables of `filtered_sssp`; `sssp.hpp` lines 216, 226-229. -/
structure FiltSt where
  dist : BVec Int
  newDist : BVec Int
  flags : BVec Bool
  left : Nat
  deriving DecidableEq, Repr

/-- Output `new_dist_flags` with mask `structure(new_dist)`, `NoAccumulate()`,
`REPLACE`; `sssp.hpp` lines 241-245. -/
def flagOut (flags : BVec Bool) (newDist : BVec Int) : VOut Bool Bool Bool Int :=
  { w := flags, m := some (.struct, newDist), truthy := isTrue, acc := .none id, castZ := id,
    outp := .replace }

/-- Output `new_dist` with mask `new_dist_flags`, `NoAccumulate()`, `REPLACE`; `sssp.hpp`
lines 249-252. -/
def keepOut (newDist : BVec Int) (flags : BVec Bool) : VOut Int Int Int Bool :=
  { w := newDist, m := some (.plain, flags), truthy := id, acc := .none id, castZ := id,
    outp := .replace }

/-- `LessThan<T>` for `eWiseAdd`: a lone element is converted to `bool`; `sssp.hpp` line
244. -/
def ewLess (t : ITy) : EW Int Int Bool :=
  { op := t.lessT, c1 := isTrue, c2 := isTrue, castBA := id, opA := t.lessT, c2A := isTrue }

/-- `Min<T>` for `eWiseAdd`; `sssp.hpp` line 261. -/
def ewMin (t : ITy) : EW Int Int Int :=
  { op := t.minT, c1 := id, c2 := id, castBA := id, opA := t.minT, c2A := id }

/-- `sssp.hpp` lines 233-252 of the loop body: everything before the test for `break`. -/
def filtProbe (t : ITy) (ov : Int → Int → Int) (G : Lil Int) (s : FiltSt) : Prog FiltSt := do
  let nd ← exec (vxm (vPlain id s.newDist) (minPlusT t ov) s.newDist (.plain G))
  let flags ← exec (eWiseAddV (flagOut s.flags nd) (ewLess t) nd s.dist)
  let nd ← exec (applyV (keepOut nd flags) id nd)
  .ok { s with newDist := nd, flags := flags }

/-- `sssp.hpp` lines 258-266: the rest of the body. -/
def filtUpdate (t : ITy) (s : FiltSt) : Prog FiltSt := do
  let dist ← exec (eWiseAddV (vPlain id s.dist) (ewMin t) s.newDist s.dist)
  .ok { s with dist := dist, left := s.left - 1 }

/-- The loop, `sssp.hpp` lines 230-267. It ends after at most `iters_left` iterations, so it is a
recursion on that number. -/
def filtLoop (t : ITy) (ov : Int → Int → Int) (G : Lil Int) : Nat → FiltSt → Prog FiltSt
  | 0, s => .ok s
  | k + 1, s => do
    let s ← filtProbe t ov G s
    if s.newDist.nvals = 0 then .ok s
    else do
      let s ← filtUpdate t s
      filtLoop t ov G k s

/-- `filtered_sssp`, `sssp.hpp` lines 213-271. -/
def filteredSssp (t : ITy) (ov : Int → Int → Int) (G : Lil Int) (dist : BVec Int) :
    Prog (Bool × BVec Int) :=
  if G.nrows ≠ dist.size ∨ G.ncols ≠ dist.size then .error (.err .dimension)
  else do
    let flags ← lift (BVec.new dist.size)
    let s ← filtLoop t ov G G.nrows { dist := dist, newDist := dist, flags := flags, left := G.nrows }
    .ok (decide (0 < s.left), s.dist)

/-! ### apsp -/

/-- `Plus<T>` for `eWiseAdd`; `apsp.hpp` line 64. -/
def ewPlus (t : ITy) (ov : Int → Int → Int) : EW Int Int Int :=
  { op := t.plusT ov, c1 := id, c2 := id, castBA := id, opA := t.plusT ov, c2A := id }

/-- The variables of `apsp`; `apsp.hpp` lines 61-69. -/
structure ApspSt where
  dist : Lil Int
  col : Lil Int
  row : Lil Int
  deriving DecidableEq, Repr

/-- Loop body of `apsp`, `apsp.hpp` lines 72-95. -/
def apspBody (t : ITy) (ov : Int → Int → Int) (k : Nat) (s : ApspSt) : Prog ApspSt := do
  let row ← exec (extractM (mPlain id s.row) (.plain s.dist) (.list [k]) .all)
  let col ← exec (extractM (mPlain id s.col) (.plain s.dist) .all (.list [k]))
  let dist ← exec (mxm (minOutM t s.dist) (minPlusT t ov) id (.plain col) (.plain row))
  .ok { dist := dist, col := col, row := row }

/-- `apsp`, `apsp.hpp` lines 50-97. -/
def apsp (t : ITy) (ov : Int → Int → Int) (G : Lil Int) : Prog (Lil Int) :=
  if G.nrows ≠ G.ncols then .error (.err .dimension)
  else do
    let dist ← lift (scaledIdentity G.nrows (0 : Int))
    let dist ← exec (eWiseAddM (mPlain id dist) (ewPlus t ov) (.plain dist) (.plain G))
    let s ← forP G.nrows { dist := dist, col := Lil.new G.nrows 1, row := Lil.new 1 G.nrows }
      fun k s => apspBody t ov k s
    .ok s.dist

end GBTL

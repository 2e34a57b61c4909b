import Verif.Model.Sssp
/-
Models of `/repo/src/algorithms/triangle_count.hpp` and of `triangle_count_appendixB7`
in `/repo/src/algorithms/appendix_algorithms.hpp`, on the integer scalar types. `ov`:
the value of an overflowing signed operation, see `Sssp.lean`.
-/
namespace GBTL
open Spec (Outp MaskKind Accum)

/-- `Times<T>`; `algebra.hpp` lines 322-326. -/
def ITy.timesT (t : ITy) (ov : Int → Int → Int) (x y : Int) : Int :=
  valOf (ov x y) (BOp.times.run t t t x y)

/-- `ArithmeticSemiring<T>`; `algebra.hpp` line 523; `triangle_count.hpp` lines 78, 103,
124, 144, 170. -/
def arithT (t : ITy) (ov : Int → Int → Int) : SR Int Int Int :=
  ⟨t.plusT ov, t.timesT ov, t.timesT ov⟩

/-- `ArithmeticSemiring<T>` on elements of other integer types, which are converted;
`appendix_algorithms.hpp` line 431. -/
def arithConv (t : ITy) (ov : Int → Int → Int) : SR Int Int Int :=
  ⟨t.plusT ov, fun x y => t.timesT ov (t.conv x) (t.conv y), fun x y => t.timesT ov (t.conv x) (t.conv y)⟩

/-- `Times<T>` as an element-wise operator; `triangle_count.hpp` lines 82, 178, 185. -/
def ewTimes (t : ITy) (ov : Int → Int → Int) : EW Int Int Int :=
  ⟨t.timesT ov, id, id, id, t.timesT ov, id⟩

/-- `PlusMonoid<T>` as the operator of a reduction; `triangle_count.hpp` line 85. -/
def redPlus (t : ITy) (ov : Int → Int → Int) : RedOp Int Int :=
  ⟨t.plusT ov, t.plusT ov, t.plusT ov, id⟩

/-- `grb::reduce(sum, NoAccumulate(), PlusMonoid<T>(), C)`; `triangle_count.hpp` lines 85,
106, 127, 147, 180. -/
def sumInto (t : ITy) (ov : Int → Int → Int) (sum : Int) (C : Lil Int) : Prog Int :=
  exec (reduceMS id (.none id : Accum Int Int Int) (redPlus t ov) 0 sum (.plain C))

/-- `sum / static_cast<T>(2)`, converted to `T`: computed in the promoted type, which
rounds towards zero. (The divisor is 1 for `bool`, 2 for the others, so the division is
defined.); `triangle_count.hpp` lines 86, 189. -/
def halfT (t : ITy) (sum : Int) : Int := t.conv (sum.tdiv (t.conv 2))

/-- `triangle_count`, lines 66-87. -/
def triangleCount (t : ITy) (ov : Int → Int → Int) (G : Lil Int) : Prog Int := do
  let (L, U) ← lift (split G (Lil.new G.nrows G.ncols) (Lil.new G.nrows G.ncols))
  let B ← exec (mxm (mPlain id (Lil.new G.nrows G.ncols)) (arithT t ov) id (.plain L) (.plain U))
  let C ← exec (eWiseMultM (mPlain id (Lil.new G.nrows G.ncols)) (ewTimes t ov) (.plain G) (.plain B))
  let sum ← sumInto t ov 0 C
  .ok (halfT t sum)

/-- Output `B` with mask `L`, `NoAccumulate()`, merge; `triangle_count.hpp` lines 103, 123,
144. -/
def byL (B L : Lil Int) : MOut Int Int Int Int :=
  { C := B, M := some (.plain, L), truthy := isTrue, acc := .none id, castZ := id, outp := .merge }

/-- `triangle_count_masked(L, U)`, lines 94-108. -/
def triangleCountMasked (t : ITy) (ov : Int → Int → Int) (L U : Lil Int) : Prog Int := do
  let B ← exec (mxm (byL (Lil.new L.nrows L.ncols) L) (arithT t ov) id (.plain L) (.plain U))
  sumInto t ov 0 B

/-- `triangle_count_masked(L)`, lines 115-129. -/
def triangleCountMaskedT (t : ITy) (ov : Int → Int → Int) (L : Lil Int) : Prog Int := do
  let B ← exec (mxm (byL (Lil.new L.nrows L.ncols) L) (arithT t ov) id (.plain L) (.tr L))
  sumInto t ov 0 B

/-- `triangle_count_masked_noT`, lines 136-149. -/
def triangleCountMaskedNoT (t : ITy) (ov : Int → Int → Int) (L : Lil Int) : Prog Int := do
  let B ← exec (mxm (byL (Lil.new L.nrows L.ncols) L) (arithT t ov) id (.plain L) (.plain L))
  sumInto t ov 0 B

/-- Output `C` without mask and accumulator, `REPLACE`; `triangle_count.hpp` lines 177-178,
184-185. -/
def plainReplace (C : Lil Int) : MOut Int Int Int Bool :=
  { C := C, M := none, truthy := id, acc := .none id, castZ := id, outp := .replace }

/-- `triangle_count_newGBTL`, lines 160-190, for `L` and `U` of the same matrix
type. -/
def triangleCountNew (t : ITy) (ov : Int → Int → Int) (L U : Lil Int) : Prog Int := do
  let B ← exec (mxm (mPlain id (Lil.new L.nrows L.ncols)) (arithT t ov) id (.plain L) (.plain U))
  let C ← exec (eWiseMultM (plainReplace (Lil.new L.nrows L.ncols)) (ewTimes t ov) (.plain L) (.plain B))
  let sum ← sumInto t ov 0 C
  let C ← exec (eWiseMultM (plainReplace C) (ewTimes t ov) (.plain U) (.plain B))
  let sum ← exec (reduceMS id (.some (t.plusT ov) id id : Accum Int Int Int) (redPlus t ov) 0 sum (.plain C))
  .ok (halfT t sum)

/-- `triangle_count_appendixB7`, `appendix_algorithms.hpp` lines 424-437. The matrix
may have any integer scalar type. -/
def triangleCountB7 (ov : Int → Int → Int) (L : Lil Int) : Prog Int := do
  let C ← exec (mxm (byL (Lil.new L.nrows L.nrows) L) (arithConv .u64 ov) id (.plain L) (.tr L))
  sumInto .u64 ov 0 C

end GBTL

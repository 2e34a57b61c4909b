import Verif.Model.Triangle
/-
Model of `/repo/src/algorithms/k_truss.hpp` on the integer scalar types. `ov`: the
value of an overflowing signed operation, see `Sssp.lean`.
-/
namespace GBTL
open Spec (Outp MaskKind Accum)

/-- `k_size - 2` in `IndexType`, line 309. -/
def sub2 (k : Nat) : Nat := (k + 2 ^ 64 - 2) % 2 ^ 64

/-- `SupportMinTest<T>(threshold)(val)`, lines 68-79. The argument of the constructor
and that of the call are converted to `T`. -/
def supportMinTest (t : ITy) (threshold val : Int) : Bool :=
  !decide (t.conv val < t.conv threshold)

/-- The variables of the loop of `k_truss2`; lines 288-292. -/
structure TrussSt where
  A : Lil Int
  mask : Lil Bool
  support : Lil Int
  numEdges : Nat
  newNumEdges : Nat
  deriving DecidableEq, Repr

/-- Output `Support` (of `IndexType`) with mask `A`, `NoAccumulate()`, `REPLACE`; line 300. -/
def supportOut (s : TrussSt) : MOut Int Int Int Int :=
  { C := s.support, M := some (.plain, s.A), truthy := isTrue, acc := .none id, castZ := ITy.conv .u64,
    outp := .replace }

/-- Output `Mask` without mask and accumulator, `REPLACE`; lines 307-310. -/
def maskOut (M : Lil Bool) : MOut Bool Bool Bool Bool :=
  { C := M, M := none, truthy := id, acc := .none id, castZ := id, outp := .replace }

/-- Output `A` with mask `Mask`, `NoAccumulate()`, `REPLACE`; lines 313-314. -/
def keepEdges (A : Lil Int) (M : Lil Bool) : MOut Int Int Int Bool :=
  { C := A, M := some (.plain, M), truthy := id, acc := .none id, castZ := id, outp := .replace }

/-- The body of the loop, lines 296-316. -/
def trussBody (t : ITy) (ov : Int → Int → Int) (k : Nat) (s : TrussSt) : Prog TrussSt := do
  let S ← exec (mxm (supportOut s) (arithT t ov) id (.tr s.A) (.plain s.A))
  let M ← exec (applyM (maskOut s.mask) (supportMinTest t (sub2 k)) (.plain S))
  let A ← exec (applyM (keepEdges s.A M) id (.plain s.A))
  .ok { A := A, mask := M, support := S, numEdges := s.newNumEdges, newNumEdges := A.nvals }

/-- `k_truss2`, lines 277-320. `do … while` is one run of the body before the loop; `num_edges` is not initialized before it. -/
def kTruss2 (t : ITy) (ov : Int → Int → Int) (fuel : Nat) (A : Lil Int) (k : Nat) : Prog (Lil Int) := do
  let s ← trussBody t ov k ⟨A, Lil.new A.ncols A.ncols, Lil.new A.ncols A.ncols, 0, A.nvals⟩
  let s ← loop (fun s => s.newNumEdges != s.numEdges) (trussBody t ov k) fuel s
  .ok s.A

end GBTL

import Verif.Model.Normalize
import Verif.Model.Bfs
/-
Model of `/repo/src/algorithms/page_rank.hpp`. Line numbers refer to this file.

Simplification: floating-point values are exact rational numbers. `conv` converts the
graph's scalars to the floating-point type; `size` is the value of `static_cast<T>(rows)`,
`T` being the graph's scalar type.
-/
namespace GBTL
open Spec (Outp MaskKind Accum)

variable {α : Type}

/-- `page_rank`, `new_rank`, `delta`, and whether the loop was left with `break`; lines 61,
110-111, 160. -/
structure PrSt where
  rank : BVec Rat
  new : BVec Rat
  delta : BVec Rat
  stop : Bool
  deriving DecidableEq, Repr

/-- The body of the loop, lines 112-162. -/
def prBody (m : Lil Rat) (tele threshold : Rat) (n : Nat) (q : PrSt) : Prog PrSt := do
  let nr ← exec (vxm
    { w := q.new, m := (none : VMask Bool), truthy := id, acc := .some (fun _ y => y) id id, castZ := id, outp := .merge }
    ⟨(· + ·), (· * ·), (· * ·)⟩ q.rank (.plain m))
  let nr ← exec (applyV (vPlain id nr) (fun x => x + tele) nr)
  let dl ← exec (eWiseAddV (vPlain id q.delta) ⟨(· - ·), id, id, id, (· - ·), id⟩ q.rank nr)
  let dl ← exec (eWiseMultV (vPlain id dl) ⟨(· * ·), id, id, id, (· * ·), id⟩ dl dl)
  let se ← exec (reduceVS id (.none id) (.of (· + ·) id) 0 (0 : Rat) dl)
  .ok { rank := nr, new := nr, delta := dl, stop := decide (se / (n : Rat) < threshold) }

/-- The assignment of the missing ranks, lines 166-176. -/
def prFill (tele : Rat) (q : PrSt) : Prog (BVec Rat) := do
  let nr ← exec (assignConstV (vPlain id q.new) id tele .all)
  exec (eWiseAddV
    { w := q.rank, m := some (.comp, q.rank), truthy := fun x => x != 0, acc := .none id, castZ := id, outp := .merge }
    ⟨(· + ·), id, id, id, (· + ·), id⟩ q.rank nr)

/-- `page_rank`, lines 58-177: the new value of `page_rank`. -/
def pageRank (conv : α → Rat) (size : Rat) (G : Lil α) (rank : BVec Rat) (d threshold : Rat) (maxIters : Nat) :
    Prog (BVec Rat) := do
  if G.nrows ≠ G.ncols ∨ rank.size ≠ G.nrows then .error (.err .dimension)
  else do
    let n := G.nrows
    let m ← exec (applyM (mPlain id (Lil.new n n)) conv (.plain G))
    let m ← normalizeRows .rat m
    let m ← exec (applyM (mPlain id m) (fun x => x * d) (.plain m))
    let rank ← exec (assignConstV (vPlain id rank) id (1 / (n : Rat)) .all)
    let new ← lift (BVec.new n)
    let delta ← lift (BVec.new n)
    let q ← forP maxIters { rank := rank, new := new, delta := delta, stop := false } fun _ q =>
      if q.stop then .ok q else prBody m ((1 - d) / size) threshold n q
    prFill ((1 - d) / size) q

end GBTL

import Verif.Model.Bfs
/-
Models of the breadth-first searches of `/repo/src/algorithms/appendix_algorithms.hpp`.
Line numbers refer to this file. `IndexType` values are `Nat`, as in `Model/Bfs.lean`.
A `do … while` loop is its body followed by a `while` loop with the same body.
-/
namespace GBTL
open Spec (Outp MaskKind Accum)

variable {α γ : Type}

/-- `LogicalSemiring<bool>` on a wavefront of `bool` and a graph; lines 72 and 110. -/
def logicalWave (gtrue : α → Bool) : SR Bool α Bool :=
  ⟨fun x y => x || y, fun b a => b && gtrue a, fun a b => gtrue a && b⟩

/-- Output `v` with mask `q`, `NoAccumulate()`, `MERGE`; lines 69-70. -/
def b1Out (L : LevTy γ) (levels : BVec γ) (wave : BVec Bool) : VOut γ Nat γ Bool :=
  { w := levels, m := some (.plain, wave), truthy := id, acc := .none L.ofIx, castZ := id,
    outp := .merge }

/-- Loop body of `bfs_level_appendixB1`, lines 67-74. -/
def b1Body (gtrue : α → Bool) (G : Lil α) (L : LevTy γ) (s : BfsSt γ Bool) :
    Prog (BfsSt γ Bool) := do
  let depth := s.depth + 1
  let levels ← exec (assignConstV (b1Out L s.levels s.wave) id depth .all)
  let wave ← exec (vxm (waveOut id L.truthy s.wave levels) (logicalWave gtrue) s.wave (.plain G))
  .ok { depth := depth, wave := wave, levels := levels }

/-- `bfs_level_appendixB1(v, A, src)`, lines 51-75. -/
def bfsB1 (fuel : Nat) (gtrue : α → Bool) (G : Lil α) (source : Nat) (L : LevTy γ)
    (levels : BVec γ) : Prog (BVec γ) := do
  let wave ← lift (BVec.new G.nrows)
  let wave ← lift (method (wave.setElement source true))
  let s ← b1Body gtrue G L { depth := 0, wave := wave, levels := levels }
  let s ← loop (fun s => decide (0 < s.wave.nvals)) (b1Body gtrue G L) fuel s
  .ok s.levels

/-- Output `v` with `NoMask()`, accumulator `Plus<IndexType>()`, `REPLACE`; lines 107-108. -/
def b2Out (L : LevTy γ) (levels : BVec γ) : VOut γ Nat Nat Bool :=
  { w := levels, m := none, truthy := id, acc := .some (fun c t => L.toIx c + t) L.toIx id,
    castZ := L.ofIx, outp := .replace }

/-- Loop body of `bfs_level_appendixB2`, lines 105-113. `apply` with the second operand
of `Times<IndexType>` bound to the level. -/
def b2Body (gtrue : α → Bool) (G : Lil α) (L : LevTy γ) (s : BfsSt γ Bool) :
    Prog (BfsSt γ Bool) := do
  let depth := s.depth + 1
  let levels ← exec (applyV (b2Out L s.levels) (fun b => b.toNat * depth) s.wave)
  let wave ← exec (vxm (waveOut id L.truthy s.wave levels) (logicalWave gtrue) s.wave (.plain G))
  .ok { depth := depth, wave := wave, levels := levels }

/-- `bfs_level_appendixB2(v, A, src)`, lines 91-114. -/
def bfsB2 (fuel : Nat) (gtrue : α → Bool) (G : Lil α) (source : Nat) (L : LevTy γ)
    (levels : BVec γ) : Prog (BVec γ) := do
  let wave ← lift (BVec.new G.nrows)
  let wave ← lift (method (wave.setElement source true))
  let s ← b2Body gtrue G L { depth := 0, wave := wave, levels := levels }
  let s ← loop (fun s => decide (0 < s.wave.nvals)) (b2Body gtrue G L) fuel s
  .ok s.levels

/-- Loop body of `bfs_parent_appendixB3`, lines 151-162. -/
def b3Body (G : Lil α) (ramp : BVec Nat) (s : ParSt) : Prog ParSt := do
  let q ← exec (eWiseMultV (vPlain id s.wave) ewFirst ramp s.wave)
  let q ← exec (vxm (waveOutS q s.parents) minFirst q (.plain G))
  let parents ← exec (applyV (parOut s.parents) id q)
  .ok { wave := q, parents := parents }

/-- `bfs_parent_appendixB3(parents, A, src)`, lines 131-163, for a parent vector of
`IndexType`, as its documentation says. Lines 140-142 fill the index ramp. -/
def bfsB3 (fuel : Nat) (G : Lil α) (source : Nat) (parents : BVec Nat) : Prog (BVec Nat) := do
  let ramp ← indexRamp G.nrows
  let parents ← lift (method (parents.clear.setElement source source))
  let q ← lift (BVec.new G.nrows)
  let q ← lift (method (q.setElement source 1))
  let s ← loop (fun s => decide (0 < s.wave.nvals)) (b3Body G ramp) fuel
    { wave := q, parents := parents }
  .ok s.parents

end GBTL

import Verif.Model.Algo
/-
Models of `/repo/src/algorithms/bfs.hpp`. Line numbers refer to this file.
`IndexType` values are `Nat`: those that occur are at most the number of vertices.
Scalar conversions are parameters.
-/
namespace GBTL
open Spec (Outp MaskKind Accum)

variable {α γ ω : Type}

/-- The scalar type of a level vector: its conversions from and to `IndexType` and
`unsigned int`, and to `bool`; `bfs.hpp` lines 270, 381, 502. -/
structure LevTy (γ : Type) where
  toIx : γ → Nat
  ofIx : Nat → γ
  toU : γ → Nat
  ofU : Nat → γ
  truthy : γ → Bool

/-- The scalar type of a wavefront: conversions from and to `IndexType`, and to
`bool`; `bfs.hpp` lines 380, 501. -/
structure WaveTy (ω : Type) where
  toIx : ω → Nat
  ofIx : Nat → ω
  truthy : ω → Bool

/-- `LogicalOr<IndexType>`: `bool` converted to `IndexType`; `algebra.hpp` lines 162-166. -/
def orIx (x y : Nat) : Nat := if x ≠ 0 ∨ y ≠ 0 then 1 else 0

/-- `LogicalAnd<IndexType>`; `algebra.hpp` lines 168-172. -/
def andIx (x y : Nat) : Nat := if x ≠ 0 ∧ y ≠ 0 then 1 else 0

/-- The variables of a level BFS; `bfs.hpp` lines 273, 279, 282. -/
structure BfsSt (γ ω : Type) where
  depth : Nat
  wave : BVec ω
  levels : BVec γ
  deriving DecidableEq, Repr

/-- Output `levels` with `NoMask()` and accumulator `Plus<IndexType>()`; `bfs.hpp` lines
289-290. -/
def levOut (L : LevTy γ) (levels : BVec γ) : VOut γ Nat Nat Bool :=
  { w := levels, m := none, truthy := id, acc := .some (fun c t => L.toIx c + t) L.toIx id,
    castZ := L.ofIx, outp := .merge }

/-- Output `wavefront` with mask `complement(levels)`, `NoAccumulate()`, `REPLACE`;
`bfs.hpp` lines 297-300. -/
def waveOut {τ : Type} (c : τ → ω) (truthy : γ → Bool) (wave : BVec ω) (levels : BVec γ) :
    VOut ω τ τ γ :=
  { w := wave, m := some (.comp, levels), truthy := truthy, acc := .none id, castZ := c,
    outp := .replace }

/-- Loop body of `bfs_level`, lines 284-300. `gtrue` converts an element of the graph
to `bool`. -/
def bfsLevelBody (gtrue : α → Bool) (G : Lil α) (L : LevTy γ) (s : BfsSt γ Bool) :
    Prog (BfsSt γ Bool) := do
  let depth := s.depth + 1
  let levels ← exec (applyV (levOut L s.levels) (fun b => depth * b.toNat) s.wave)
  let wave ← exec (mxv (waveOut id L.truthy s.wave levels)
    ⟨fun x y => x || y, fun a b => gtrue a && b, fun b a => b && gtrue a⟩ (.tr G) s.wave)
  .ok { depth := depth, wave := wave, levels := levels }

/-- `bfs_level(graph, source, levels)`, lines 271-302. -/
def bfsLevel (fuel : Nat) (gtrue : α → Bool) (G : Lil α) (source : Nat) (L : LevTy γ)
    (levels : BVec γ) : Prog (BVec γ) := do
  let wave ← lift (BVec.new G.nrows)
  let wave ← lift (method (wave.setElement source true))
  let s ← loop (fun s => decide (0 < s.wave.nvals)) (bfsLevelBody gtrue G L) fuel
    { depth := 0, wave := wave, levels := levels }
  .ok s.levels

/-- Conversion of `IndexType` to `unsigned int`; as in `bfs.hpp` line 406. -/
def u32 (x : Nat) : Nat := x % 2 ^ 32

/-- Output `levels` with `NoMask()`, accumulator `Plus<unsigned int>()`, `REPLACE`;
`bfs.hpp` lines 404-406, 411. -/
def levOutU (L : LevTy γ) (levels : BVec γ) : VOut γ Nat Nat Bool :=
  { w := levels, m := none, truthy := id, acc := .some (fun c t => u32 (L.toU c + u32 t)) L.toU u32,
    castZ := L.ofU, outp := .replace }

/-- The semiring `LogicalSemiring<IndexType>` on a wavefront and a graph; `bfs.hpp` line
417. -/
def logicalIx (W : WaveTy ω) (gIx : α → Nat) : SR ω α Nat :=
  ⟨orIx, fun w a => andIx (W.toIx w) (gIx a), fun a w => andIx (gIx a) (W.toIx w)⟩

/-- Loop body of `bfs_level_masked`, lines 400-420. `gIx` converts an element of the
graph to `IndexType`. -/
def bfsMaskedBody (gIx : α → Nat) (G : Lil α) (W : WaveTy ω) (L : LevTy γ) (s : BfsSt γ ω) :
    Prog (BfsSt γ ω) := do
  let depth := s.depth + 1
  let levels ← exec (applyV (levOutU L s.levels) (fun x => depth * W.toIx x) s.wave)
  let wave ← exec (vxm (waveOut W.ofIx L.truthy s.wave levels) (logicalIx W gIx) s.wave (.plain G))
  .ok { depth := depth, wave := wave, levels := levels }

/-- `bfs_level_masked(graph, wavefront, levels)`, lines 382-421. -/
def bfsLevelMasked (fuel : Nat) (gIx : α → Nat) (G : Lil α) (W : WaveTy ω) (wave : BVec ω)
    (L : LevTy γ) (levels : BVec γ) : Prog (BVec γ) :=
  if G.nrows ≠ G.ncols ∨ wave.size ≠ G.nrows then .error (.err .dimension)
  else do
    let s ← loop (fun s => decide (0 < s.wave.nvals)) (bfsMaskedBody gIx G W L) fuel
      { depth := 0, wave := wave, levels := levels }
    .ok s.levels

/-- Output `levels` with mask `wavefront`, `NoAccumulate()`, `MERGE`; `bfs.hpp` lines
524-530. -/
def levOutV2 (L : LevTy γ) (W : WaveTy ω) (levels : BVec γ) (wave : BVec ω) : VOut γ Nat γ ω :=
  { w := levels, m := some (.plain, wave), truthy := W.truthy, acc := .none L.ofIx, castZ := id,
    outp := .merge }

/-- Loop body of `bfs_level_masked_v2`, lines 521-538. -/
def bfsMaskedV2Body (gIx : α → Nat) (G : Lil α) (W : WaveTy ω) (L : LevTy γ) (s : BfsSt γ ω) :
    Prog (BfsSt γ ω) := do
  let depth := s.depth + 1
  let levels ← exec (assignConstV (levOutV2 L W s.levels s.wave) id depth .all)
  let wave ← exec (vxm (waveOut W.ofIx L.truthy s.wave levels) (logicalIx W gIx) s.wave (.plain G))
  .ok { depth := depth, wave := wave, levels := levels }

/-- `bfs_level_masked_v2(graph, wavefront, levels)`, lines 503-539. -/
def bfsLevelMaskedV2 (fuel : Nat) (gIx : α → Nat) (G : Lil α) (W : WaveTy ω) (wave : BVec ω)
    (L : LevTy γ) (levels : BVec γ) : Prog (BVec γ) :=
  if G.nrows ≠ G.ncols ∨ wave.size ≠ G.nrows then .error (.err .dimension)
  else do
    let s ← loop (fun s => decide (0 < s.wave.nvals)) (bfsMaskedV2Body gIx G W L) fuel
      { depth := 0, wave := wave, levels := levels }
    .ok s.levels

/-! ### Parents -/

/-- The variables of a parent BFS; `bfs.hpp` lines 55, 71. -/
structure ParSt where
  wave : BVec Nat
  parents : BVec Nat
  deriving DecidableEq, Repr

/-- The loop that fills `index_ramp`, lines 64-68. -/
def indexRamp (N : Nat) : Prog (BVec Nat) := do
  let ramp ← lift (BVec.new N)
  forP N ramp fun i r => lift (method (r.setElement i i))

/-- `First<IndexType>` for an element-wise operation on vectors; `bfs.hpp` line 83. -/
def ewFirst : EW Nat Nat Nat :=
  { op := fun x _ => x, c1 := id, c2 := id, castBA := id, opA := fun x _ => x, c2A := id }

/-- Output `wavefront` with mask `complement(structure(parent_list))`,
`NoAccumulate()`, `REPLACE`; `bfs.hpp` lines 89-93. -/
def waveOutS (wave parents : BVec Nat) : VOut Nat Nat Nat Nat :=
  { w := wave, m := some (.structComp, parents), truthy := fun x => x != 0, acc := .none id,
    castZ := id, outp := .replace }

/-- Output `parent_list` with `NoMask()`, `Plus<IndexType>()`, `MERGE`; `bfs.hpp` lines
98-103. -/
def parOut (parents : BVec Nat) : VOut Nat Nat Nat Bool :=
  { w := parents, m := none, truthy := id, acc := .some (fun c t => c + t) id id, castZ := id,
    outp := .merge }

/-- `MinFirstSemiring<IndexType>` on a vector and a graph; `bfs.hpp` line 92. -/
def minFirst : SR Nat α Nat := ⟨fun x y => if x < y then x else y, fun a _ => a, fun _ a => a⟩

/-- Loop body of `bfs`, lines 79-104. -/
def bfsBody (G : Lil α) (ramp : BVec Nat) (s : ParSt) : Prog ParSt := do
  let wave ← exec (eWiseMultV (vPlain id s.wave) ewFirst ramp s.wave)
  let wave ← exec (vxm (waveOutS wave s.parents) minFirst wave (.plain G))
  let parents ← exec (applyV (parOut s.parents) id wave)
  .ok { wave := wave, parents := parents }

/-- `bfs(graph, source, parent_list)`, lines 53-105, for a parent list of
`IndexType`, as the comment at line 61 requires. -/
def bfsParents (fuel : Nat) (G : Lil α) (source : Nat) (parents : BVec Nat) : Prog (BVec Nat) := do
  let ramp ← indexRamp G.nrows
  let wave ← lift (BVec.new G.nrows)
  let wave ← lift (method (wave.setElement source 1))
  let parents ← lift (method (parents.clear.setElement source source))
  let s ← loop (fun s => decide (0 < s.wave.nvals)) (bfsBody G ramp) fuel
    { wave := wave, parents := parents }
  .ok s.parents

end GBTL

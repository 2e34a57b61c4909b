import Verif.Model.Bfs
import Verif.Model.Sssp
/-
Models of the matrix variants and of the remaining parent variant of
`/repo/src/algorithms/bfs.hpp`. Line numbers refer to this file.
-/
namespace GBTL
open Spec (Outp MaskKind Accum)

variable {α γ ω : Type}

/-! ### Levels -/

/-- The variables of a level BFS on matrices, one traversal per row; `bfs.hpp` lines
322-328, 443-457. -/
structure BatchSt (γ ω : Type) where
  depth : Nat
  waves : Lil ω
  levels : Lil γ
  deriving DecidableEq, Repr

/-- Output `levels` with `NoMask()`, accumulator `Plus<unsigned int>()`, `REPLACE`;
`bfs.hpp` lines 336-343, 464-471. -/
def levOutM (L : LevTy γ) (levels : Lil γ) : MOut γ Nat Nat Bool :=
  { C := levels, M := none, truthy := id, acc := .some (fun c t => u32 (L.toU c + u32 t)) L.toU u32,
    castZ := L.ofU, outp := .replace }

/-- Output `wavefronts` with mask `complement(levels)`, `NoAccumulate()`, `REPLACE`;
`bfs.hpp` lines 353-359, 474-479. -/
def waveOutM {τ : Type} (c : τ → ω) (truthy : γ → Bool) (waves : Lil ω) (levels : Lil γ) :
    MOut ω τ τ γ :=
  { C := waves, M := some (.comp, levels), truthy := truthy, acc := .none id, castZ := c,
    outp := .replace }

/-- Loop body of `batch_bfs_level_masked`, lines 458-480. -/
def batchBody (gIx : α → Nat) (G : Lil α) (W : WaveTy ω) (L : LevTy γ) (s : BatchSt γ ω) :
    Prog (BatchSt γ ω) := do
  let depth := s.depth + 1
  let levels ← exec (applyM (levOutM L s.levels) (fun x => depth * W.toIx x) (.plain s.waves))
  let waves ← exec (mxm (waveOutM W.ofIx L.truthy s.waves levels) (logicalIx W gIx) id
    (.plain s.waves) (.plain G))
  .ok { depth := depth, waves := waves, levels := levels }

/-- `batch_bfs_level_masked(graph, wavefronts, levels)`, lines 439-481. -/
def batchBfsLevel (fuel : Nat) (gIx : α → Nat) (G : Lil α) (W : WaveTy ω) (waves : Lil ω)
    (L : LevTy γ) (levels : Lil γ) : Prog (Lil γ) :=
  if G.nrows ≠ G.ncols ∨ waves.ncols ≠ G.nrows then .error (.err .dimension)
  else do
    let s ← loop (fun s => decide (0 < s.waves.nvals)) (batchBody gIx G W L) fuel
      { depth := 0, waves := waves, levels := levels }
    .ok s.levels

/-- Output `wavefront` with `NoMask()`, `NoAccumulate()`, `REPLACE`; `bfs.hpp` lines
345-350. -/
def waveOutAll {τ : Type} (c : τ → ω) (waves : Lil ω) : MOut ω τ τ Bool :=
  { C := waves, M := none, truthy := id, acc := .none id, castZ := c, outp := .replace }

/-- Loop body of `bfs_level(graph, wavefront, levels)` on matrices, lines 330-360. The
semiring and the product with the depth are on `unsigned int` here: `gU` and `W` convert
an element of the graph and of the wavefront to and from `unsigned int`. -/
def cullBody (gU : α → Nat) (G : Lil α) (W : WaveTy ω) (L : LevTy γ) (s : BatchSt γ ω) :
    Prog (BatchSt γ ω) := do
  let depth := u32 (s.depth + 1)
  let levels ← exec (applyM (levOutM L s.levels) (fun x => u32 (depth * W.toIx x)) (.plain s.waves))
  let waves ← exec (mxm (waveOutAll W.ofIx s.waves) (logicalIx W gU) id (.plain s.waves) (.plain G))
  let waves ← exec (applyM (waveOutM id L.truthy waves levels) id (.plain waves))
  .ok { depth := depth, waves := waves, levels := levels }

/-- `bfs_level(graph, wavefront, levels)` on matrices, lines 318-361. -/
def bfsLevelM (fuel : Nat) (gU : α → Nat) (G : Lil α) (W : WaveTy ω) (waves : Lil ω)
    (L : LevTy γ) (levels : Lil γ) : Prog (Lil γ) := do
  let s ← loop (fun s => decide (0 < s.waves.nvals)) (cullBody gU G W L) fuel
    { depth := 0, waves := waves, levels := levels }
  .ok s.levels

/-! ### Parents

The graph has the integer scalar type `t`, the wavefronts have the integer scalar type
`w`, the parent list has `IndexType`, as the comments at lines 133 and 209 require. -/

/-- `First<IndexType>` in an element-wise operation of vectors of `IndexType` and `w`;
`bfs.hpp` lines 144-147, 158-161. -/
def ewFirstI : EW Int Int Int :=
  { op := fun x _ => x, c1 := id, c2 := ITy.conv .u64, castBA := ITy.conv .u64,
    opA := fun x _ => x, c2A := id }

/-- `MinFirstSemiring<T>`. The operands are converted to `T` by the call; `bfs.hpp` lines
169, 241. -/
def minFirstT (t : ITy) : SR Int Int Int := ⟨t.minT, fun a _ => t.conv a, fun _ a => t.conv a⟩

/-- `MinSecondSemiring<T>`; `bfs.hpp` lines 224, 232. -/
def minSecondT (t : ITy) : SR Int Int Int := ⟨t.minT, fun _ b => t.conv b, fun b _ => t.conv b⟩

/-- The variables of `bfs(graph, wavefront, parent_list)`; `bfs.hpp` lines 126-127. -/
structure ParSt2 where
  wave : BVec Int
  parents : BVec Int
  deriving DecidableEq, Repr

/-- The loop that fills `index_ramp`, lines 137-141. -/
def indexRampI (N : Nat) : Prog (BVec Int) := do
  let ramp ← lift (BVec.new N)
  forP N ramp fun i r => lift (method (r.setElement i i))

/-- Output `wavefront` with mask `complement(structure(parent_list))`,
`NoAccumulate()`, `REPLACE`; `bfs.hpp` lines 166-170. -/
def waveOutP (w : ITy) (wave parents : BVec Int) : VOut Int Int Int Int :=
  { w := wave, m := some (.structComp, parents), truthy := isTrue, acc := .none id,
    castZ := w.conv, outp := .replace }

/-- Output `parent_list` with `NoMask()`, `Plus<T>()`, `MERGE`; `bfs.hpp` lines 175-180. -/
def parOutT (t : ITy) (ov : Int → Int → Int) (parents : BVec Int) : VOut Int Int Int Bool :=
  { w := parents, m := none, truthy := id,
    acc := .some (fun c x => t.plusT ov (t.conv c) x) t.conv id, castZ := ITy.conv .u64, outp := .merge }

/-- Loop body of `bfs(graph, wavefront, parent_list)`, lines 155-181. -/
def bfsWaveBody (t w : ITy) (ov : Int → Int → Int) (G : Lil Int) (ramp : BVec Int) (s : ParSt2) :
    Prog ParSt2 := do
  let wave ← exec (eWiseMultV (vPlain w.conv s.wave) ewFirstI ramp s.wave)
  let wave ← exec (vxm (waveOutP w wave s.parents) (minFirstT t) wave (.plain G))
  let parents ← exec (applyV (parOutT t ov s.parents) t.conv wave)
  .ok { wave := wave, parents := parents }

/-- `bfs(graph, wavefront, parent_list)`, lines 124-182. -/
def bfsWave (fuel : Nat) (t w : ITy) (ov : Int → Int → Int) (G : Lil Int) (wave parents : BVec Int) :
    Prog (BVec Int) := do
  let ramp ← indexRampI G.nrows
  let parents ← exec (eWiseMultV (vPlain (ITy.conv .u64) parents) ewFirstI ramp wave)
  let parents ← exec (eWiseMultV (vPlain (ITy.conv .u64) parents) ewFirstI ramp parents)
  let s ← loop (fun s => decide (0 < s.wave.nvals)) (bfsWaveBody t w ov G ramp) fuel
    { wave := wave, parents := parents }
  .ok s.parents

/-- The variables of `bfs_batch`; `bfs.hpp` lines 204-205. -/
structure ParStM where
  waves : Lil Int
  parents : Lil Int
  deriving DecidableEq, Repr

/-- The loop that fills the matrix `index_ramp`, lines 215-219. -/
def indexRampM (N : Nat) : Prog (Lil Int) :=
  forP N (Lil.new N N) fun i r => lift (method (r.setElement i i i))

/-- Output `wavefronts` with mask `complement(structure(parent_list))`,
`NoAccumulate()`, `REPLACE`; `bfs.hpp` lines 238-242. -/
def waveOutPM (w : ITy) (waves parents : Lil Int) : MOut Int Int Int Int :=
  { C := waves, M := some (.structComp, parents), truthy := isTrue, acc := .none id,
    castZ := w.conv, outp := .replace }

/-- Output `parent_list` with `NoMask()`, `Plus<T>()`, `MERGE`; `bfs.hpp` lines 247-252. -/
def parOutTM (t : ITy) (ov : Int → Int → Int) (parents : Lil Int) : MOut Int Int Int Bool :=
  { C := parents, M := none, truthy := id,
    acc := .some (fun c x => t.plusT ov (t.conv c) x) t.conv id, castZ := ITy.conv .u64, outp := .merge }

/-- Loop body of `bfs_batch`, lines 227-253. -/
def bfsBatchBody (t w : ITy) (ov : Int → Int → Int) (G ramp : Lil Int) (s : ParStM) : Prog ParStM := do
  let waves ← exec (mxm (mPlain w.conv s.waves) (minSecondT t) id (.plain s.waves) (.plain ramp))
  let waves ← exec (mxm (waveOutPM w waves s.parents) (minFirstT t) id (.plain waves) (.plain G))
  let parents ← exec (applyM (parOutTM t ov s.parents) t.conv (.plain waves))
  .ok { waves := waves, parents := parents }

/-- `bfs_batch(graph, wavefronts, parent_list)`, lines 200-254. -/
def bfsBatch (fuel : Nat) (t w : ITy) (ov : Int → Int → Int) (G waves parents : Lil Int) : Prog (Lil Int) := do
  let ramp ← indexRampM G.nrows
  let parents ← exec (mxm (mPlain (ITy.conv .u64) parents) (minSecondT t) id (.plain waves) (.plain ramp))
  let s ← loop (fun s => decide (0 < s.waves.nvals)) (bfsBatchBody t w ov G ramp) fuel
    { waves := waves, parents := parents }
  .ok s.parents

end GBTL

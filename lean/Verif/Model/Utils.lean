import Verif.Model.Frontend
import Verif.Model.Algebra
import Verif.Model.Tuples
/-
Models of `/repo/src/graphblas/matrix_utils.hpp` and of the degree functions of
`/repo/src/algorithms/metrics.hpp`, and what all algorithm models share: calling an
operation from a function body, and the most frequent arguments.
-/
namespace GBTL
open Spec (Outp MaskKind Accum)

variable {α β γ δ τ ζ μ σ ρ : Type}

/-- A call inside a function, e.g. `/repo/src/algorithms/metrics.hpp` lines 58-62: an exception
leaves the function. -/
def call : Outcome σ → Except Err σ
  | .done s => .ok s
  | .threw e _ => .error e
  | .midway e => .error e
  | .ub => .error .ub

/-- A call of a method that may throw, followed by the rest of the function, e.g. `build` in
`matrix_utils.hpp` line 55. -/
def method : Except Err Unit × σ → Except Err σ
  | (.ok _, s) => .ok s
  | (.error e, _) => .error e

/-- Output `w` with `NoMask()`, `NoAccumulate()`; `c` converts results to `w`'s type.
The arguments of e.g. `/repo/src/algorithms/metrics.hpp` lines 58-62. -/
def vPlain (c : τ → γ) (w : BVec γ) : VOut γ τ τ Bool :=
  { w := w, m := none, truthy := id, acc := .none id, castZ := c, outp := .merge }

/-- Output `C` with `NoMask()`, `NoAccumulate()`; the arguments of e.g.
`matrix_utils.hpp` lines 161-164. -/
def mPlain (c : τ → γ) (C : Lil γ) : MOut γ τ τ Bool :=
  { C := C, M := none, truthy := id, acc := .none id, castZ := c, outp := .merge }

/-! ### matrix_utils.hpp -/

/-- `indices(v.nvals()), vals(v.nvals()); v.extractTuples(...)`: two arrays of
length `nvals()`, value-initialised, filled by `extractTuples`; the caller then walks them
together. `matrix_utils.hpp` lines 49-51. -/
def vecTuples [Inhabited α] (v : BVec α) : Except Err (Row α) := do
  let (is, xs) ← v.tuplesInto id (List.replicate v.nvals 0) (List.replicate v.nvals default)
  .ok (is.zip xs)

/-- The same for a matrix, e.g. lines 104-108. -/
def matTuples [Inhabited α] (A : Lil α) : Except Err (List (Nat × Nat × α)) := do
  let (is, js, xs) ← A.tuplesInto id (List.replicate A.nvals 0) (List.replicate A.nvals 0)
    (List.replicate A.nvals default)
  .ok (is.zip (js.zip xs))

/-- `diag`, lines 46-57. `c` converts to the matrix's scalar type; `build` combines
duplicates with `Second`. -/
def diag [Inhabited α] (c : α → β) (v : BVec α) : Except Err (Lil β) := do
  let ts ← vecTuples v
  method ((Lil.new v.size v.size : Lil β).build (fun _ y => y) (ts.map fun p => (p.1, p.1, c p.2)))

/-- `scaled_identity`, lines 66-83. -/
def scaledIdentity (n : Nat) (x : α) : Except Err (Lil α) :=
  method ((Lil.new n n : Lil α).buildArrays (fun _ y => y) (List.range n) (List.range n)
    (List.replicate n x))

/-- The loop of `split`, lines 110-125: the tuples for `L` and those for `U`. -/
def splitLoop : List (Nat × Nat × α) → List (Nat × Nat × α) × List (Nat × Nat × α)
  | [] => ([], [])
  | t :: ts =>
    if t.1 < t.2.1 then ((splitLoop ts).1, t :: (splitLoop ts).2)
    else (t :: (splitLoop ts).1, (splitLoop ts).2)

/-- `split`, lines 95-128: the new `L` and `U`. -/
def split [Inhabited α] (A L U : Lil α) : Except Err (Lil α × Lil α) := do
  let ts ← matTuples A
  let L ← method (L.build (fun _ y => y) (splitLoop ts).1)
  let U ← method (U.build (fun _ y => y) (splitLoop ts).2)
  .ok (L, U)

/-! ### Degrees -/

/-- `vertex_in_degree`, `metrics.hpp` lines 46-65. The result type is the scalar type
`t` of the graph. -/
def vertexInDegree [Inhabited α] (t : ITy) (G : Lil α) (v : Nat) : Except Err Int :=
  if G.ncols ≤ v then .error .dimension
  else do
    let w ← BVec.new G.nrows
    let w ← call (extractC (vPlain id w) (.plain G) .all v)
    .ok (t.conv w.nvals)

/-- `vertex_out_degree`, `metrics.hpp` lines 76-96. -/
def vertexOutDegree [Inhabited α] (t : ITy) (G : Lil α) (v : Nat) : Except Err Int :=
  if G.nrows ≤ v then .error .dimension
  else do
    let w ← BVec.new G.nrows
    let w ← call (extractC (vPlain id w) (.tr G) .all v)
    .ok (t.conv w.nvals)

/-- `vertex_degree`, `metrics.hpp` lines 106-111: a sum of two values of type `t`,
converted to `t`. -/
def vertexDegree [Inhabited α] (t : ITy) (G : Lil α) (v : Nat) : Except Err Int := do
  let a ← vertexInDegree t G v
  let b ← vertexOutDegree t G v
  BOp.plus.run t t t a b

end GBTL

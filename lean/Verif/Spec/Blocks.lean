import Verif.Spec.Laws
import Verif.Model.Indices
import Verif.Model.Algo
import Verif.Props.Elementwise
/-
Programs of a user that compute by blocks. A list of lengths `l₀, l₁, …` stands for the blocks
`[0, l₀)`, `[l₀, l₀ + l₁)`, …, which are passed to the library as index ranges.
-/
namespace GBTL
open Spec (Outp Accum)
variable {α : Type}

/-- The block of length `l` that starts at `s`: `IndexSequenceRange(s, s + l)`. -/
def block (s l : Nat) : Idx := IxRange.idx ⟨s, s + l⟩

/-- `C += A[:, block] * B[block, :]` for each block. -/
def byInner (add mult : α → α → α) (A B : Operand α) : Nat → List Nat → Lil α → Prog (Lil α)
  | _, [], C => .ok C
  | s, l :: ls, C => do
    let P ← exec ((Lil.new A.nrows l).into .merge (.extract A .all (block s l)))
    let Q ← exec ((Lil.new l B.ncols).into .merge (.extract B (block s l) .all))
    let C ← exec ((MCall.mxm (SR.of add mult) id (.plain P) (.plain Q)).run (μ := Unit)
      ⟨C, none, fun _ => true, .some add id id, id, .merge⟩)
    byInner add mult A B (s + l) ls C

/-- `C[block, :] = A[block, :] * B` for each block. -/
def byRows (add mult : α → α → α) (A B : Operand α) : Nat → List Nat → Lil α → Prog (Lil α)
  | _, [], C => .ok C
  | s, l :: ls, C => do
    let P ← exec ((Lil.new l A.ncols).into .merge (.extract A (block s l) .all))
    let Q ← exec ((Lil.new l B.ncols).into .merge (.mxm (SR.of add mult) id (.plain P) B))
    let C ← exec (C.into .merge (.assign id (.plain Q) (block s l) .all))
    byRows add mult A B (s + l) ls C

/-- `C[:, block] = A * B[:, block]` for each block. -/
def byColumns (add mult : α → α → α) (A B : Operand α) : Nat → List Nat → Lil α → Prog (Lil α)
  | _, [], C => .ok C
  | s, l :: ls, C => do
    let P ← exec ((Lil.new B.nrows l).into .merge (.extract B .all (block s l)))
    let Q ← exec ((Lil.new A.nrows l).into .merge (.mxm (SR.of add mult) id A (.plain P)))
    let C ← exec (C.into .merge (.assign id (.plain Q) .all (block s l)))
    byColumns add mult A B (s + l) ls C

/-- `w[block] = A[block, :] * u` for each block. -/
def byRowsV [Inhabited α] (add mult : α → α → α) (A : Operand α) (u : BVec α) : Nat → List Nat → BVec α → Prog (BVec α)
  | _, [], w => .ok w
  | s, l :: ls, w => do
    let P ← exec ((Lil.new l A.ncols).into .merge (.extract A (block s l) .all))
    let q ← lift (BVec.new l)
    let q ← exec (q.into .merge (.mxv (SR.of add mult) (.plain P) u))
    let w ← exec (w.into .merge (.assign id q (block s l)))
    byRowsV add mult A u (s + l) ls w

/-- `val += reduce(u[block])` for each block; `e` is the identity of the monoid. -/
def reduceBy [Inhabited α] (add : α → α → α) (e : α) (u : BVec α) : Nat → List Nat → α → Prog α
  | _, [], val => .ok val
  | s, l :: ls, val => do
    let p ← lift (BVec.new l)
    let p ← exec (p.into .merge (.extract u (block s l)))
    let val ← exec (reduceVS id (.some add id id) (.of add id) e val p)
    reduceBy add e u (s + l) ls val

end GBTL

import Verif.Model.Vec
import Verif.Model.Lil
import Verif.Spec.Containers
/-
Dispatch of the element-wise calls of the frontend classes `grb::Vector`
(`/repo/src/graphblas/Vector.hpp` lines 195-233) and `grb::Matrix`
(`/repo/src/graphblas/Matrix.hpp` lines 199-239) to the backend containers.
-/
namespace GBTL
open Spec (VecCall MatCall Ans)

/-- `/repo/src/graphblas/Vector.hpp` lines 195-233: `clear` 195, `size` 197, `nvals` 198,
`resize` 206-212, `hasElement` 214-217, `setElement` 219-222, `removeElement` 224-227,
`extractElement` 230-233. -/
def BVec.call {α : Type} [Inhabited α] (v : BVec α) : VecCall α → Except Err (Ans α) × BVec α
  | .set i x =>
    match v.setElement i x with
    | (.ok _, w) => (.ok .unit, w)
    | (.error e, w) => (.error e, w)
  | .remove i =>
    match v.removeElement i with
    | (.ok _, w) => (.ok .unit, w)
    | (.error e, w) => (.error e, w)
  | .clear => (.ok .unit, v.clear)
  | .resize n =>
    match v.resize n with
    | (.ok _, w) => (.ok .unit, w)
    | (.error e, w) => (.error e, w)
  | .has i =>
    match v.hasElement i with
    | .ok b => (.ok (.bool b), v)
    | .error e => (.error e, v)
  | .extract i =>
    match v.extractElement i with
    | .ok x => (.ok (.val x), v)
    | .error e => (.error e, v)
  | .nvals => (.ok (.num v.nvals), v)
  | .size => (.ok (.num v.size), v)

/-- `/repo/src/graphblas/Matrix.hpp` lines 199-239: `clear` 199, `nrows`, `ncols`, `nvals`
201-203, `resize` 212-218, `hasElement` 220-223, `setElement` 225-228, `removeElement`
230-233, `extractElement` 236-239. `setMerge` is the backend's `setElement` with merge,
`LilSparseMatrix.hpp` lines 352-388, which `build` calls. -/
def Lil.call {α : Type} (A : Lil α) : MatCall α → Except Err (Ans α) × Lil α
  | .set i j x =>
    match A.setElement i j x with
    | (.ok _, B) => (.ok .unit, B)
    | (.error e, B) => (.error e, B)
  | .setMerge i j x merge =>
    match A.setElementMerge i j x merge with
    | (.ok _, B) => (.ok .unit, B)
    | (.error e, B) => (.error e, B)
  | .remove i j =>
    match A.removeElement i j with
    | (.ok _, B) => (.ok .unit, B)
    | (.error e, B) => (.error e, B)
  | .clear => (.ok .unit, A.clear)
  | .resize m n =>
    match A.resize m n with
    | (.ok _, B) => (.ok .unit, B)
    | (.error e, B) => (.error e, B)
  | .has i j =>
    match A.hasElement i j with
    | .ok b => (.ok (.bool b), A)
    | .error e => (.error e, A)
  | .extract i j =>
    match A.extractElement i j with
    | .ok x => (.ok (.val x), A)
    | .error e => (.error e, A)
  | .nvals => (.ok (.num A.nvals), A)
  | .shape => (.ok (.nums A.nrows A.ncols), A)

end GBTL

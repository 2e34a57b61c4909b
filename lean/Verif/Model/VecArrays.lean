import Verif.Model.Vec
/-
The constructor of `grb::backend::BitmapSparseVector` from arrays of indices and values
(`/repo/src/graphblas/platforms/sequential/BitmapSparseVector.hpp`), which the frontend does not use.
-/
namespace GBTL
namespace BVec
variable {α : Type}

/-- The loop, lines 153-164. `values[idx]` is undefined behaviour if there are fewer values than indices. -/
def ofArraysLoop : List Nat → List α → BVec α → Except Err (BVec α)
  | [], _, v => .ok v
  | i :: is, xs, v =>
    if v.size ≤ i then .error .dimension
    else match xs with
      | [] => .error .ub
      | x :: xs => do
        let vals ← wr v.vals i x
        let bitmap ← wr v.bitmap i true
        ofArraysLoop is xs { v with vals := vals, bitmap := bitmap, nvals := v.nvals + 1 }

/-- Constructor from arrays of indices and values, lines 143-165. -/
def ofArrays [Inhabited α] (n : Nat) (indices : List Nat) (values : List α) : Except Err (BVec α) :=
  ofArraysLoop indices values { size := n, nvals := 0, vals := List.replicate n default, bitmap := List.replicate n false }

end BVec
end GBTL

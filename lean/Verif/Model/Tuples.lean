import Verif.Model.Vec
import Verif.Model.Lil
/-
`extractTuples` writing into the caller's arrays, in
`/repo/src/graphblas/platforms/sequential/BitmapSparseVector.hpp` lines 435-454 and
`LilSparseMatrix.hpp` lines 704-720, reached from `/repo/src/graphblas/Vector.hpp` lines
235-247 and `/repo/src/graphblas/Matrix.hpp` lines 241-260. The arrays are the caller's
`std::vector`s; all iterators start at their beginnings and advance together, so one counter
stands for all of them. A write past the end of an array is undefined behaviour. `c` is the
conversion to the element type of the caller's array.
-/
namespace GBTL

variable {α β : Type}

namespace BVec

/-- Loop of `extractTuples`, `BitmapSparseVector.hpp` lines 440-447, over the remaining
positions; `k` is how far `i_it` and `v_it` have advanced. -/
def tuplesLoop (v : BVec α) (c : α → β) :
    List Nat → Nat → List Nat → List β → Except Err (List Nat × List β)
  | [], _, is, xs => .ok (is, xs)
  | idx :: l, k, is, xs => do
    let b ← rd v.bitmap idx
    if b then
      let is ← wr is k idx
      let x ← rd v.vals idx
      let xs ← wr xs k (c x)
      tuplesLoop v c l (k + 1) is xs
    else tuplesLoop v c l k is xs

/-- `extractTuples(indices, values)`, `BitmapSparseVector.hpp` lines 435-454. -/
def tuplesInto (v : BVec α) (c : α → β) (is : List Nat) (xs : List β) :
    Except Err (List Nat × List β) :=
  tuplesLoop v c (List.range v.size) 0 is xs

end BVec

namespace Lil

/-- Inner loop of `extractTuples`, `LilSparseMatrix.hpp` lines 713-718, over the rest of row
`i`; also returns how far the iterators have advanced. -/
def tuplesRow (c : α → β) (i : Nat) : Row α → Nat → List Nat → List Nat → List β →
    Except Err (Nat × List Nat × List Nat × List β)
  | [], k, is, js, xs => .ok (k, is, js, xs)
  | (j, x) :: r, k, is, js, xs => do
    let is ← wr is k i
    let js ← wr js k j
    let xs ← wr xs k (c x)
    tuplesRow c i r (k + 1) is js xs

/-- Outer loop of `extractTuples`, `LilSparseMatrix.hpp` lines 711-719, over the remaining
rows. -/
def tuplesRows (A : Lil α) (c : α → β) : List Nat → Nat → List Nat → List Nat → List β →
    Except Err (List Nat × List Nat × List β)
  | [], _, is, js, xs => .ok (is, js, xs)
  | i :: l, k, is, js, xs => do
    let r ← rd A.rows i
    let (k, is, js, xs) ← tuplesRow c i r k is js xs
    tuplesRows A c l k is js xs

/-- `extractTuples(row_indices, col_indices, values)`, `LilSparseMatrix.hpp` lines 704-720
and `Matrix.hpp` lines 251-260. -/
def tuplesInto (A : Lil α) (c : α → β) (is js : List Nat) (xs : List β) :
    Except Err (List Nat × List Nat × List β) :=
  tuplesRows A c (List.range A.rows.length) 0 is js xs

end Lil
end GBTL

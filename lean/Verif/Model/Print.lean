import Verif.Model.Vec
import Verif.Model.Lil
/-
Printing: `printInfo` of `/repo/src/graphblas/platforms/sequential/BitmapSparseVector.hpp` lines
456-469 and of `LilSparseMatrix.hpp` lines 722-788, with the prefixes that
`/repo/src/graphblas/platforms/sequential/Vector.hpp` line 82, `Matrix.hpp` line 91,
`/repo/src/graphblas/Vector.hpp` lines 250-260 and `/repo/src/graphblas/Matrix.hpp` lines 263-273
put in front. `ty` is the name of the scalar type (`typeid(ScalarT).name()`) and `sh` what
`os << x` writes for a value; the state of the stream (width, precision, failure) is not
modelled. The storage format behind `GRB_MATRIX_PRINT_RAW_STORAGE` is not modelled.
-/
namespace GBTL

variable {α : Type}

/-- `os << n` for an `IndexType`: decimal digits, as in `BitmapSparseVector.hpp` line 460. -/
def showIdx (n : Nat) : List Char := Nat.toDigits 10 n

namespace BVec

/-- The loop over the remaining positions, `BitmapSparseVector.hpp` lines 465-468; returns what
it writes. -/
def printLoop (sh : α → List Char) (v : BVec α) : List Nat → Except Err (List Char)
  | [] => .ok []
  | idx :: l => do
    let b ← rd v.bitmap idx
    if b then
      let x ← rd v.vals idx
      let rest ← printLoop sh v l
      .ok (", ".toList ++ sh x ++ rest)
    else do
      let rest ← printLoop sh v l
      .ok (", -".toList ++ rest)

/-- The element at position 0, `BitmapSparseVector.hpp` line 464. -/
def printFirst (sh : α → List Char) (v : BVec α) : Except Err (List Char) := do
  let b ← rd v.bitmap 0
  if b then
    let x ← rd v.vals 0
    .ok (sh x)
  else .ok "-".toList

/-- The first line without its end, `BitmapSparseVector.hpp` lines 459-461, with what
`/repo/src/graphblas/Vector.hpp` line 252 and `platforms/sequential/Vector.hpp` line 82 put in
front. -/
def printHead (ty : List Char) (v : BVec α) : List Char :=
  "grb::Vector: ".toList ++ ("Sequential Backend: ".toList ++
    ("backend::BitmapSparseVector<".toList ++ (ty ++ (">".toList ++
    (", size  = ".toList ++ (showIdx v.size ++
    (", nvals = ".toList ++ showIdx v.nvals)))))))

/-- `printInfo`, `BitmapSparseVector.hpp` lines 456-469, called through
`/repo/src/graphblas/Vector.hpp` line 253 and `platforms/sequential/Vector.hpp` line 83. -/
def printInfo (ty : List Char) (sh : α → List Char) (v : BVec α) : Except Err (List Char) := do
  let first ← printFirst sh v
  let rest ← printLoop sh v (List.range' 1 (v.size - 1))
  .ok (printHead ty v ++ ['\n'] ++ (['['] ++ first ++ rest ++ [']']))

end BVec

namespace Lil

/-- The loop that writes the empty places from `curr_idx` on, `LilSparseMatrix.hpp` lines
750-754 and 763-767. -/
def printPad : Nat → Nat → List Char
  | _, 0 => []
  | curr, k + 1 => (if curr = 0 then " " else ",  ").toList ++ printPad (curr + 1) k

/-- The loop that writes the empty places behind the last element, `LilSparseMatrix.hpp` lines
778-782. -/
def printFill : Nat → List Char
  | 0 => []
  | k + 1 => ",  ".toList ++ printFill k

/-- The loop over the elements of a row that is not empty, `LilSparseMatrix.hpp` lines 759-782;
the second argument is `curr_idx`. -/
def printRow (sh : α → List Char) (ncols : Nat) : Row α → Nat → List Char
  | [], curr => printFill (ncols - curr)
  | (j, x) :: r, curr =>
    printPad curr (j - curr) ++ ((if max curr j ≠ 0 then ", " else "").toList ++ sh x) ++
      printRow sh ncols r (max curr j + 1)

/-- The body of the loop over the rows, `LilSparseMatrix.hpp` lines 742-785. -/
def printLine (sh : α → List Char) (A : Lil α) (i : Nat) : Except Err (List Char) := do
  let r ← A.row i
  .ok ((if i = 0 then "  [[" else "   [").toList ++
    (if r.isEmpty then printPad 0 A.ncols else printRow sh A.ncols r 0) ++
    (if i = A.nrows - 1 then "]]" else "]\n").toList)

/-- The loop over the remaining rows, `LilSparseMatrix.hpp` lines 740-786. -/
def printLoop (sh : α → List Char) (A : Lil α) : List Nat → Except Err (List Char)
  | [] => .ok []
  | i :: l => do
    let s ← printLine sh A i
    let rest ← printLoop sh A l
    .ok (s ++ rest)

/-- The first line without its end, `LilSparseMatrix.hpp` lines 725-727, with what
`/repo/src/graphblas/Matrix.hpp` line 265 and `platforms/sequential/Matrix.hpp` line 91 put in
front. -/
def printHead (ty : List Char) (A : Lil α) : List Char :=
  "grb::Matrix: ".toList ++ ("Sequential Backend: ".toList ++
    ("backend::LilSparseMatrix<".toList ++ (ty ++ ("> ".toList ++
    ("(".toList ++ (showIdx A.nrows ++ (" x ".toList ++ (showIdx A.ncols ++
    ("), nvals = ".toList ++ showIdx A.nvals)))))))))

/-- `printInfo`, `LilSparseMatrix.hpp` lines 722-788, called through
`/repo/src/graphblas/Matrix.hpp` line 266 and `platforms/sequential/Matrix.hpp` line 92. -/
def printInfo (ty : List Char) (sh : α → List Char) (A : Lil α) : Except Err (List Char) := do
  let body ← printLoop sh A (List.range A.nrows)
  .ok (printHead ty A ++ ['\n'] ++ body)

end Lil
end GBTL

import Verif.Spec.Basic
/-
Specification of the normalisation of a matrix. Nothing here refers to the model of the
C++ code.
-/
namespace Spec

/-- The sum of the stored elements of a vector of length `n`. -/
def sumOf (n : Nat) (v : Vec Rat) : Rat := ((List.range n).map fun j => (v j).getD 0).sum

/-- Every element divided by the sum of its row; the matrix has `n` columns. -/
def rowsNormalized (n : Nat) (A : Mat Rat) : Mat Rat := fun i j => (A i j).map fun x => x / sumOf n (A i)

/-- Every element divided by the sum of its column; the matrix has `m` rows. -/
def colsNormalized (m : Nat) (A : Mat Rat) : Mat Rat := fun i j => (A i j).map fun x => x / sumOf m (fun k => A k j)

end Spec

import Verif.Spec.Basic
import Verif.Model.Vec
import Verif.Model.Lil
/-
Abstraction functions from the model's containers to the specification's
partial functions, and the consistency invariants of the containers.
-/
namespace GBTL

/-- The value stored at index `i` of a row. -/
def Row.get {α : Type} : Row α → Nat → Option α
  | [], _ => none
  | (k, x) :: r, i => if k = i then some x else Row.get r i

/-- Strictly ascending indices. -/
def Row.Sorted {α : Type} (r : Row α) : Prop := r.Pairwise fun p q => p.1 < q.1

/-- A row of a matrix with `n` columns: strictly ascending, in range. -/
structure Row.OK {α : Type} (n : Nat) (r : Row α) : Prop where
  sorted : r.Sorted
  bound : ∀ p ∈ r, p.1 < n

/-- The value stored in a bitmap vector at index `i`. -/
def BVec.get {α : Type} (v : BVec α) (i : Nat) : Option α :=
  if v.bitmap[i]? = some true then v.vals[i]? else none

/-- A consistent vector: the arrays have the vector's size and the counter is
the number of set bits. -/
structure BVec.WF {α : Type} (v : BVec α) : Prop where
  vlen : v.vals.length = v.size
  blen : v.bitmap.length = v.size
  count : v.nvals = BVec.countBits v.bitmap

/-- The row at index `i`, empty outside the matrix. -/
def Lil.rowD {α : Type} (A : Lil α) (i : Nat) : Row α := (A.rows[i]?).getD []

/-- The value stored in a matrix at `(i, j)`. -/
def Lil.get {α : Type} (A : Lil α) (i j : Nat) : Option α := (A.rowD i).get j

/-- Consistency of everything but the counter. -/
structure Lil.WFr {α : Type} (A : Lil α) : Prop where
  len : A.rows.length = A.nrows
  rowOK : ∀ r ∈ A.rows, Row.OK A.ncols r

/-- A consistent matrix: as many rows as the shape says, each strictly
ascending and in range, and the counter is the total number of elements. -/
structure Lil.WF {α : Type} (A : Lil α) : Prop extends Lil.WFr A where
  count : A.nvals = (A.rows.map List.length).sum

end GBTL

import Verif.Model.Basic
/-
Model of `grb::backend::LilSparseMatrix`
(`/repo/src/graphblas/platforms/sequential/LilSparseMatrix.hpp`) and of the
parts of the frontend `grb::Matrix` (`/repo/src/graphblas/Matrix.hpp`) that do
more than forward to it. Line numbers refer to the first file unless said
otherwise.
-/
namespace GBTL

/-- Data members `m_num_rows, m_num_cols, m_nvals, m_data`, lines 798-803. -/
structure Lil (α : Type) where
  nrows : Nat
  ncols : Nat
  nvals : Nat
  rows : List (Row α)
  deriving DecidableEq, Repr

namespace Row
variable {α β : Type}

/-- Casting copy of a row: `static_cast` each value, as in lines 457-460. -/
def cast (c : α → β) (r : Row α) : Row β := r.map fun p => (p.1, c p.2)

/-- The scan of `hasElement`, lines 274-281. -/
def has : Row α → Nat → Bool
  | [], _ => false
  | (idx, _) :: r, j => if idx = j then true else has r j

/-- The scan of `extractElement`, lines 301-308. -/
def extract : Row α → Nat → Except Err α
  | [], _ => .error .noValue
  | (idx, x) :: r, j => if idx = j then .ok x else extract r j

/-- The scan of `setElement` with merge, lines 367-386 (and, with `merge` =
second argument, lines 326-345): the new row and whether an element was added.
The separate case of an empty row (lines 361-365) does the same as the end of
the loop. -/
def insertMerge (merge : α → α → α) : Row α → Nat → α → Row α × Bool
  | [], j, x => ([(j, x)], true)
  | (idx, y) :: r, j, x =>
    if idx = j then ((idx, merge y x) :: r, false)
    else if idx > j then ((j, x) :: (idx, y) :: r, true)
    else
      let p := insertMerge merge r j x
      ((idx, y) :: p.1, p.2)

/-- `find_if` and `erase` of `removeElement`, lines 398-406. -/
def erase : Row α → Nat → Row α × Bool
  | [], _ => ([], false)
  | (idx, y) :: r, j =>
    if idx = j then (r, true)
    else
      let p := erase r j
      ((idx, y) :: p.1, p.2)

end Row

namespace Lil
variable {α β : Type}

/-- Constructor, lines 54-61. -/
def new (m n : Nat) : Lil α :=
  { nrows := m, ncols := n, nvals := 0, rows := List.replicate m [] }

/-- Loop of the dense constructors over the rows, lines 79-91 and 102-117;
`keep` is the test `!= zero` (always true in the first constructor). Returns the
rows and the count. -/
def denseLoop (ncols : Nat) (keep : α → Bool) : List (List α) → Except Err (List (Row α) × Nat)
  | [] => .ok ([], 0)
  | r :: rs =>
    if r.length ≠ ncols then .error .dimension
    else do
      let row : Row α := ((List.range r.length).zip r).filter fun p => keep p.2
      let (rows, k) ← denseLoop ncols keep rs
      .ok (row :: rows, row.length + k)

/-- Dense constructors, lines 73-92 and 95-118. `val[0]` on an empty outer
vector is undefined behaviour. -/
def ofDense (keep : α → Bool) (val : List (List α)) : Except Err (Lil α) :=
  match val with
  | [] => .error .ub
  | r0 :: _ => do
    let (rows, k) ← denseLoop r0.length keep val
    .ok { nrows := val.length, ncols := r0.length, nvals := k, rows := rows }

/-- Assignment, lines 125-140. -/
def assignFrom (A rhs : Lil α) : Except Err Unit × Lil α :=
  if A.nrows ≠ rhs.nrows ∨ A.ncols ≠ rhs.ncols then (.error .dimension, A)
  else (.ok (), { A with nvals := rhs.nvals, rows := rhs.rows })

/-- `operator==`, lines 148-154. -/
def eq [DecidableEq α] (A B : Lil α) : Bool :=
  A.nrows == B.nrows && A.ncols == B.ncols && A.nvals == B.nvals && A.rows == B.rows

/-- `clear`, lines 189-197. -/
def clear (A : Lil α) : Lil α :=
  { A with nvals := 0, rows := A.rows.map fun _ => [] }

/-- Non-const row access, `operator[]`, lines 433-438, read. -/
def row (A : Lil α) (i : Nat) : Except Err (Row α) := rd A.rows i

/-- Writing through the non-const `operator[]`, line 433: `m_nvals` is not
touched. -/
def pokeRow (A : Lil α) (i : Nat) (r : Row α) : Except Err (Lil α) := do
  let rows ← wr A.rows i r
  .ok { A with rows := rows }

/-- `recomputeNvals`, lines 409-418. -/
def recomputeNvals (A : Lil α) : Lil α :=
  { A with nvals := (A.rows.map List.length).sum }

/-- `resize` of the backend, lines 210-256. The column step erases from the
first element that is out of range. -/
def resizeBackend (A : Lil α) (m n : Nat) : Lil α :=
  let rows1 := resizeList A.rows m []
  let nv1 := if m < A.nrows then (rows1.map List.length).sum else A.nvals
  if n < A.ncols then
    let cut := fun (r : Row α) => r.takeWhile fun p => p.1 < n
    { nrows := m, ncols := n, rows := rows1.map cut,
      nvals := rows1.foldl (fun nv r => nv - (r.length - (cut r).length)) nv1 }
  else
    { nrows := m, ncols := n, rows := rows1, nvals := nv1 }

/-- `grb::Matrix::resize`, `/repo/src/graphblas/Matrix.hpp` lines 212-218. -/
def resize (A : Lil α) (m n : Nat) : Except Err Unit × Lil α :=
  if m = 0 ∨ n = 0 then (.error .invalidValue, A) else (.ok (), A.resizeBackend m n)

/-- `hasElement`, lines 258-282. -/
def hasElement (A : Lil α) (i j : Nat) : Except Err Bool :=
  if A.nrows ≤ i ∨ A.ncols ≤ j then .error .indexOutOfBounds
  else if A.rows.isEmpty then .ok false
  else match A.row i with
    | .error e => .error e
    | .ok r => if r.isEmpty then .ok false else .ok (r.has j)

/-- `extractElement`, lines 285-309. -/
def extractElement (A : Lil α) (i j : Nat) : Except Err α :=
  if A.nrows ≤ i ∨ A.ncols ≤ j then .error .indexOutOfBounds
  else if A.rows.isEmpty then .error .noValue
  else match A.row i with
    | .error e => .error e
    | .ok r => if r.isEmpty then .error .noValue else r.extract j

/-- `setElement` with merge, lines 352-388. -/
def setElementMerge (A : Lil α) (i j : Nat) (x : α) (merge : α → α → α) :
    Except Err Unit × Lil α :=
  if A.nrows ≤ i ∨ A.ncols ≤ j then (.error .indexOutOfBounds, A)
  else match A.row i with
    | .error e => (.error e, A)
    | .ok r =>
      let p := r.insertMerge merge j x
      (.ok (), { A with rows := A.rows.set i p.1,
                        nvals := if p.2 then A.nvals + 1 else A.nvals })

/-- `setElement`, lines 312-347: the same scan, an existing value is
overwritten. -/
def setElement (A : Lil α) (i j : Nat) (x : α) : Except Err Unit × Lil α :=
  A.setElementMerge i j x fun _ new => new

/-- `removeElement`, lines 390-407. -/
def removeElement (A : Lil α) (i j : Nat) : Except Err Unit × Lil α :=
  if A.nrows ≤ i ∨ A.ncols ≤ j then (.error .indexOutOfBounds, A)
  else match A.row i with
    | .error e => (.error e, A)
    | .ok r =>
      let p := r.erase j
      (.ok (), { A with rows := A.rows.set i p.1,
                        nvals := if p.2 then A.nvals - 1 else A.nvals })

/-- `build`, lines 170-187: `setElement` with `dup` for each tuple, stopping at
the first exception with the tuples so far stored. -/
def build (A : Lil α) (dup : α → α → α) : List (Nat × Nat × α) → Except Err Unit × Lil α
  | [] => (.ok (), A)
  | (i, j, x) :: ts =>
    match A.setElementMerge i j x dup with
    | (.error e, A') => (.error e, A')
    | (.ok (), A') => build A' dup ts

/-- `grb::Matrix::build` from arrays, `/repo/src/graphblas/Matrix.hpp` lines 183-197. -/
def buildArrays (A : Lil α) (dup : α → α → α) (is js : List Nat) (xs : List α) :
    Except Err Unit × Lil α :=
  if is.length ≠ js.length ∨ is.length ≠ xs.length then (.error .dimension, A)
  else A.build dup (is.zip (js.zip xs))

/-- `setRow`, lines 447-461 (and the moving overload, lines 464-473, with the
identity conversion). -/
def setRow (A : Lil α) (i : Nat) (cast : β → α) (r : Row β) : Except Err (Lil α) := do
  let old ← A.row i
  let rows ← wr A.rows i (r.cast cast)
  .ok { A with rows := rows, nvals := A.nvals + r.length - old.length }

/-- The two-iterator loop of `mergeRow`, lines 505-539. -/
def mergeLoop (op : α → β → α) (cast : β → α) : Row α → Row β → Row α
  | [], r => r.cast cast
  | l, [] => l
  | (li, x) :: l, (ri, y) :: r =>
    if li < ri then (li, x) :: mergeLoop op cast l ((ri, y) :: r)
    else if ri < li then (ri, cast y) :: mergeLoop op cast ((li, x) :: l) r
    else (li, op x y) :: mergeLoop op cast l r
termination_by l r => l.length + r.length

/-- `mergeRow` with an accumulator, lines 490-542. `op` includes the conversion
of its result to the matrix's scalar type. -/
def mergeRow (A : Lil α) (i : Nat) (op : α → β → α) (cast : β → α) (r : Row β) :
    Except Err (Lil α) :=
  if r.isEmpty then .ok A
  else do
    let old ← A.row i
    if old.isEmpty then A.setRow i cast r
    else A.setRow i id (mergeLoop op cast old r)

/-- `getCol`, lines 547-567: for each row, push every element with the given
column index. -/
def getCol (A : Lil α) (j : Nat) : Except Err (Row α) :=
  forN A.nrows [] fun i acc => do
    let r ← A.row i
    .ok (acc ++ (r.filter fun p => p.1 = j).map fun p => (i, p.2))

/-- `setCol`, lines 573-650: the row loop, with the iterator into `col_data`
as the remaining suffix. Erasing and replacing-or-inserting are the scans of
`removeElement` and `setElement`. -/
def setColLoop (cast : β → α) (j : Nat) : List Nat → Row β → Lil α → Except Err (Lil α)
  | [], _, A => .ok A
  | i :: is, [], A => do
    let r ← A.row i
    let p := r.erase j
    let rows ← wr A.rows i p.1
    setColLoop cast j is [] { A with rows := rows, nvals := if p.2 then A.nvals - 1 else A.nvals }
  | i :: is, (k, x) :: col, A => do
    let r ← A.row i
    if i < k then
      let p := r.erase j
      let rows ← wr A.rows i p.1
      setColLoop cast j is ((k, x) :: col)
        { A with rows := rows, nvals := if p.2 then A.nvals - 1 else A.nvals }
    else if i = k then
      let p := r.insertMerge (fun _ new => new) j (cast x)
      let rows ← wr A.rows i p.1
      setColLoop cast j is col
        { A with rows := rows, nvals := if p.2 then A.nvals + 1 else A.nvals }
    else .error .panic

/-- `setCol`, lines 573-650. -/
def setCol (A : Lil α) (j : Nat) (cast : β → α) (col : Row β) : Except Err (Lil α) :=
  setColLoop cast j (List.range A.nrows) col A

/-- `extractTuples`, lines 707-720; the three output iterators are one list. -/
def extractTuples (A : Lil α) : List (Nat × Nat × α) :=
  (((List.range A.rows.length).zip A.rows).map fun p =>
    p.2.map fun q => (p.1, q.1, q.2)).flatten

end Lil
end GBTL

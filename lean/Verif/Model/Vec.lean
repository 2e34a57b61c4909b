import Verif.Model.Basic
/-
Model of `grb::backend::BitmapSparseVector`
(`/repo/src/graphblas/platforms/sequential/BitmapSparseVector.hpp`) and of the
parts of the frontend `grb::Vector` (`/repo/src/graphblas/Vector.hpp`) that do
more than forward to it. Line numbers refer to the first file unless said
otherwise.

A mutating method takes the vector and returns the outcome together with the
vector as it is afterwards, also when an exception was thrown.
-/
namespace GBTL

/-- Data members, lines 510-513. `std::vector<bool>` is a `List Bool`.
`IndexType` members are `Nat`. -/
structure BVec (α : Type) where
  size : Nat
  nvals : Nat
  vals : List α
  bitmap : List Bool
  deriving DecidableEq, Repr

namespace BVec
variable {α β : Type}

/-- Constructor from a size, lines 68-78. `m_vals(nsize)` value-initialises. -/
def new [Inhabited α] (n : Nat) : Except Err (BVec α) :=
  if n = 0 then .error .invalidValue
  else .ok { size := n, nvals := 0, vals := List.replicate n default,
             bitmap := List.replicate n false }

/-- Constructor from a size and a value, lines 80-86 (no zero check; `m_nvals`
is initialised to 0 although every bit is set). -/
def newFill (n : Nat) (x : α) : Except Err (BVec α) :=
  .ok { size := n, nvals := 0, vals := List.replicate n x, bitmap := List.replicate n true }

/-- Constructor from a dense vector, lines 95-105. -/
def ofDense (rhs : List α) : Except Err (BVec α) :=
  if rhs.length = 0 then .error .invalidValue
  else .ok { size := rhs.length, nvals := rhs.length, vals := rhs,
             bitmap := List.replicate rhs.length true }

/-- Loop of the dense constructor with zero, lines 128-136. -/
def ofDenseZeroLoop [DecidableEq α] (rhs : List α) (zero : α) (v : BVec α) :
    Except Err (BVec α) :=
  forN rhs.length v fun idx v => do
    let x ← rd rhs idx
    if x ≠ zero then
      let vals ← wr v.vals idx x
      let bitmap ← wr v.bitmap idx true
      .ok { v with vals := vals, bitmap := bitmap, nvals := v.nvals + 1 }
    else .ok v

/-- Constructor from a dense vector and an implied zero, lines 116-137. -/
def ofDenseZero [Inhabited α] [DecidableEq α] (rhs : List α) (zero : α) : Except Err (BVec α) :=
  if rhs.length = 0 then .error .invalidValue
  else ofDenseZeroLoop rhs zero
    { size := rhs.length, nvals := 0, vals := List.replicate rhs.length default,
      bitmap := List.replicate rhs.length false }

/-- Copy assignment, lines 190-205. -/
def assignFrom (v rhs : BVec α) : Except Err Unit × BVec α :=
  if v.size ≠ rhs.size then (.error .dimension, v)
  else (.ok (), { v with nvals := rhs.nvals, vals := rhs.vals, bitmap := rhs.bitmap })

/-- The loop of the assignment from a dense vector, lines 220-224. -/
def assignDenseLoop : List α → Nat → List α → List Bool → Except Err (List α × List Bool)
  | [], _, vals, bitmap => .ok (vals, bitmap)
  | x :: rhs, idx, vals, bitmap => do
    let vals ← wr vals idx x
    let bitmap ← wr bitmap idx true
    assignDenseLoop rhs (idx + 1) vals bitmap

/-- Assignment from a dense vector, lines 214-227. -/
def assignDense (v : BVec α) (rhs : List α) : Except Err Unit × BVec α :=
  if rhs.length ≠ v.size then (.error .dimension, v)
  else
    match assignDenseLoop rhs 0 v.vals v.bitmap with
    | .ok (vals, bitmap) => (.ok (), { v with nvals := v.size, vals := vals, bitmap := bitmap })
    | .error e => (.error e, v)

/-- The comparison loop of `operator==`, lines 242-255. -/
def eqLoop [DecidableEq α] (a b : BVec α) : List Nat → Except Err Bool
  | [] => .ok true
  | i :: is => do
    let ba ← rd a.bitmap i
    let bb ← rd b.bitmap i
    if ba ≠ bb then .ok false
    else if ba then
      let x ← rd a.vals i
      let y ← rd b.vals i
      if x ≠ y then .ok false else eqLoop a b is
    else eqLoop a b is

/-- `operator==`, lines 235-258. -/
def eq [DecidableEq α] (a b : BVec α) : Except Err Bool :=
  if a.size ≠ b.size ∨ a.nvals ≠ b.nvals then .ok false
  else eqLoop a b (List.range a.size)

/-- `clear`, lines 272-277. The values stay in place. -/
def clear (v : BVec α) : BVec α :=
  { v with nvals := 0, bitmap := List.replicate v.size false }

/-- Number of set bits of a range of the bitmap: `std::reduce` with `plus`,
lines 302-305 and 312-315. -/
def countBits (l : List Bool) : Nat := (l.filter id).length

/-- `resize`, lines 288-328. `m_size` is overwritten before it is used in the
test on line 298. `m_nvals -= num_vals` is on `Nat` here; the theorems show it
never goes below zero for a consistent vector. -/
def resizeBackend [Inhabited α] (v : BVec α) (n : Nat) : BVec α :=
  if n < v.size then
    let v1 := { v with size := n }
    let nv := if n < v1.size / 2 then countBits (v1.bitmap.take n)
              else v1.nvals - countBits (v1.bitmap.drop n)
    { v1 with nvals := nv, bitmap := resizeList v1.bitmap n false,
              vals := resizeList v1.vals n default }
  else if v.size < n then
    { size := n, nvals := v.nvals, vals := resizeList v.vals n default,
      bitmap := resizeList v.bitmap n false }
  else v

/-- `grb::Vector::resize`, `/repo/src/graphblas/Vector.hpp` lines 206-212. -/
def resize [Inhabited α] (v : BVec α) (n : Nat) : Except Err Unit × BVec α :=
  if n = 0 then (.error .invalidValue, v) else (.ok (), resizeBackend v n)

/-- Loop of `build`, lines 345-362, on the fresh arrays `vals` and `bitmap`. -/
def buildLoop (size : Nat) (dup : α → α → α) :
    List (Nat × α) → List α → List Bool → Except Err (List α × List Bool)
  | [], vals, bitmap => .ok (vals, bitmap)
  | (i, x) :: ts, vals, bitmap =>
    if size ≤ i then .error .indexOutOfBounds
    else do
      let b ← rd bitmap i
      if b then
        let old ← rd vals i
        let vals' ← wr vals i (dup old x)
        buildLoop size dup ts vals' bitmap
      else
        let vals' ← wr vals i x
        let bitmap' ← wr bitmap i true
        buildLoop size dup ts vals' bitmap'

/-- `build`, lines 336-367. The index and value iterators are zipped into one
list of tuples; `m_nvals` is set to the number of tuples. The fresh arrays are
swapped in only after the loop. -/
def build [Inhabited α] (v : BVec α) (dup : α → α → α) (ts : List (Nat × α)) :
    Except Err Unit × BVec α :=
  match buildLoop v.size dup ts (List.replicate v.size default) (List.replicate v.size false) with
  | .error e => (.error e, v)
  | .ok (vals, bitmap) => (.ok (), { v with vals := vals, bitmap := bitmap, nvals := ts.length })

/-- `grb::Vector::build` from arrays, `/repo/src/graphblas/Vector.hpp` lines 181-193. -/
def buildArrays [Inhabited α] (v : BVec α) (dup : α → α → α) (indices : List Nat)
    (values : List α) : Except Err Unit × BVec α :=
  if indices.length ≠ values.length then (.error .dimension, v)
  else v.build dup (indices.zip values)

/-- `hasElement`, lines 369-377. -/
def hasElement (v : BVec α) (i : Nat) : Except Err Bool :=
  if v.size ≤ i then .error .indexOutOfBounds else rd v.bitmap i

/-- `extractElement`, lines 390-403. -/
def extractElement (v : BVec α) (i : Nat) : Except Err α :=
  if v.size ≤ i then .error .indexOutOfBounds
  else match rd v.bitmap i with
    | .error e => .error e
    | .ok false => .error .noValue
    | .ok true => rd v.vals i

/-- `setElement`, lines 406-419. The value is stored first, then the bit. -/
def setElement (v : BVec α) (i : Nat) (x : α) : Except Err Unit × BVec α :=
  if v.size ≤ i then (.error .indexOutOfBounds, v)
  else match wr v.vals i x with
    | .error e => (.error e, v)
    | .ok vals =>
      let v1 := { v with vals := vals }
      match rd v1.bitmap i with
      | .error e => (.error e, v1)
      | .ok true => (.ok (), v1)
      | .ok false => (.ok (), { v1 with nvals := v1.nvals + 1, bitmap := v1.bitmap.set i true })

/-- `removeElement`, lines 421-433. `--m_nvals` is on `Nat`; for a consistent
vector the counter is positive when a bit is set. -/
def removeElement (v : BVec α) (i : Nat) : Except Err Unit × BVec α :=
  if v.size ≤ i then (.error .indexOutOfBounds, v)
  else match rd v.bitmap i with
    | .error e => (.error e, v)
    | .ok true => (.ok (), { v with nvals := v.nvals - 1, bitmap := v.bitmap.set i false })
    | .ok false => (.ok (), v)

/-- Loop of `getContents`, lines 486-492, and of `extractTuples`, lines 440-447: push
`(idx, m_vals[idx])` for each set bit. -/
def contentsLoop (v : BVec α) : List Nat → Except Err (Row α)
  | [] => .ok []
  | idx :: is => do
    let b ← rd v.bitmap idx
    if b then
      let x ← rd v.vals idx
      let rest ← contentsLoop v is
      .ok ((idx, x) :: rest)
    else contentsLoop v is

/-- `getContents`, lines 482-494. -/
def getContents (v : BVec α) : Except Err (Row α) :=
  contentsLoop v (List.range v.size)

/-- `extractTuples`, lines 437-447; the pair of output iterators is one list. -/
def extractTuples (v : BVec α) : Except Err (Row α) :=
  contentsLoop v (List.range v.size)

/-- Loop of `setContents`, lines 501-506. -/
def setContentsLoop (cast : β → α) : Row β → BVec α → Except Err (BVec α)
  | [], v => .ok v
  | (idx, x) :: ts, v => do
    let bitmap ← wr v.bitmap idx true
    let vals ← wr v.vals idx (cast x)
    setContentsLoop cast ts { v with bitmap := bitmap, vals := vals, nvals := v.nvals + 1 }

/-- `setContents`, lines 497-507. -/
def setContents (v : BVec α) (cast : β → α) (contents : Row β) : Except Err (BVec α) :=
  setContentsLoop cast contents v.clear

end BVec
end GBTL

import Verif.Model.Effects
import Verif.Model.Program
/-
The containers and the operations again, on a machine that runs out of memory. The state
of the memory is the number of requests it will still serve; the next one throws
`std::bad_alloc`. The output container is part of the state, so that what it holds when
the exception leaves the call is known.

What asks for memory: every `emplace_back` and `emplace` on a row of a matrix, every
`std::vector::resize` that grows, every copy of a row, and any number of times the
temporaries of an operation. An `emplace_back` into spare capacity in fact asks for none;
the model lets it fail too, so that it has all executions of the code and some more (the
negations that are proved use executions of the code). The
request that fails is the last thing that happens: an `emplace_back`, `emplace` or
`resize` that throws leaves its `std::vector` as it was (the C++ standard promises it
for elements whose copies do not throw, as scalars and indices are).

File names are relative to `/repo/src/graphblas/platforms/sequential/`.
-/
namespace GBTL
open Spec (Outp MaskKind Op)
open Act (call lib output store)

variable {α β γ ζ τ μ χ : Type}

/-- The exception of an allocation that fails, `std::bad_alloc`; nothing in
`/repo/src/graphblas/operations.hpp` lines 63-1121 catches it. -/
inductive BadAlloc where
  | badAlloc
  deriving DecidableEq, Repr

/-- One request for memory, e.g. of the `emplace_back` of `LilSparseMatrix.hpp` line 459. -/
def request : Act Nat χ BadAlloc Unit :=
  call fun m =>
    match m with
    | 0 => (.error .badAlloc, 0)
    | m + 1 => (.ok (), m)

/-- A request that is made only if there is not enough room, e.g. of the `m_data.resize` of
`LilSparseMatrix.hpp` line 218. -/
def requestIf (p : Prop) [Decidable p] : Act Nat χ BadAlloc Unit :=
  if p then request else pure ()

/-- The requests of code that only works on temporaries, e.g. `sparse_mxm.hpp` lines
73-100. -/
def requests : Nat → Act Nat χ BadAlloc Unit
  | 0 => pure ()
  | k + 1 => do
    request
    requests k

/-! ### Matrices -/
namespace Lil

/-- `m_data[row_index].emplace_back(idx, val)`, `LilSparseMatrix.hpp` line 459. -/
def pushBackL (i : Nat) (p : Nat × α) : Act Nat (Lil α) BadAlloc Unit := do
  request
  let A ← output
  let r ← lib (A.row i)
  store { A with rows := A.rows.set i (r ++ [p]) }

/-- The loop of `setRow`, `LilSparseMatrix.hpp` lines 457-460. -/
def pushAllL (i : Nat) (cast : β → α) : Row β → Act Nat (Lil α) BadAlloc Unit
  | [] => pure ()
  | (j, x) :: r => do
    pushBackL i (j, cast x)
    pushAllL i cast r

/-- The copying `setRow`, `LilSparseMatrix.hpp` lines 447-461: the counter is set and the
old row is cleared first. This is the overload that every call with a named row uses; the
one for temporaries, lines 464-473, asks for no memory. -/
def setRowL (i : Nat) (cast : β → α) (r : Row β) : Act Nat (Lil α) BadAlloc Unit := do
  let A ← output
  let old ← lib (A.row i)
  store { A with rows := A.rows.set i [], nvals := A.nvals + r.length - old.length }
  pushAllL i cast r

/-- `setElement` with merge, `LilSparseMatrix.hpp` lines 352-388: memory is asked for
only if the position is new, and the counter goes up after that. -/
def setElementMergeL (i j : Nat) (x : α) (merge : α → α → α) : Act Nat (Lil α) BadAlloc Unit := do
  let A ← output
  if A.nrows ≤ i ∨ A.ncols ≤ j then lib (.error .indexOutOfBounds)
  else
    let r ← lib (A.row i)
    let p := r.insertMerge merge j x
    if p.2 then
      request
      store { A with rows := A.rows.set i p.1, nvals := A.nvals + 1 }
    else store { A with rows := A.rows.set i p.1 }

/-- `setElement`, `LilSparseMatrix.hpp` lines 312-347. -/
def setElementL (i j : Nat) (x : α) : Act Nat (Lil α) BadAlloc Unit :=
  setElementMergeL i j x fun _ new => new

/-- `build`, `LilSparseMatrix.hpp` lines 170-187. -/
def buildL (dup : α → α → α) : List (Nat × Nat × α) → Act Nat (Lil α) BadAlloc Unit
  | [] => pure ()
  | (i, j, x) :: ts => do
    setElementMergeL i j x dup
    buildL dup ts

/-- `grb::Matrix::resize`, `/repo/src/graphblas/Matrix.hpp` lines 212-218, and
`LilSparseMatrix.hpp` lines 210-256: only `m_data.resize`, the first statement, asks for
memory, and only if the number of rows grows. -/
def resizeL (m n : Nat) : Act Nat (Lil α) BadAlloc Unit := do
  let A ← output
  if m = 0 ∨ n = 0 then lib (.error .invalidValue)
  else
    requestIf (A.rows.length < m)
    store (A.resizeBackend m n)

/-- The rows of `m_data = rhs.m_data` from row `i` on, `LilSparseMatrix.hpp` line 137:
both have the same number of rows, so that the rows are assigned one after the other. A
row that cannot be copied is left as it was (libstdc++ and libc++ work like this; the
standard promises only a valid `m_data`). -/
def copyRowsL (i : Nat) : List (Row α) → Act Nat (Lil α) BadAlloc Unit
  | [] => pure ()
  | r :: rs => do
    request
    let A ← output
    store { A with rows := A.rows.set i r }
    copyRowsL (i + 1) rs

/-- Assignment, `LilSparseMatrix.hpp` lines 125-140: the counter is set first. -/
def assignFromL (rhs : Lil α) : Act Nat (Lil α) BadAlloc Unit := do
  let A ← output
  if A.nrows ≠ rhs.nrows ∨ A.ncols ≠ rhs.ncols then lib (.error .dimension)
  else
    store { A with nvals := rhs.nvals }
    copyRowsL 0 rhs.rows

/-- One row of `setCol`, `LilSparseMatrix.hpp` lines 581-647: `none` erases an element,
`some x` replaces or inserts one. -/
def setColRowL (j i : Nat) (x : Option α) : Act Nat (Lil α) BadAlloc Unit := do
  let A ← output
  let r ← lib (A.row i)
  match x with
  | none =>
    let p := r.erase j
    store { A with rows := A.rows.set i p.1, nvals := if p.2 then A.nvals - 1 else A.nvals }
  | some x =>
    let p := r.insertMerge (fun _ new => new) j x
    if p.2 then
      request
      store { A with rows := A.rows.set i p.1, nvals := A.nvals + 1 }
    else store { A with rows := A.rows.set i p.1 }

/-- `setCol`, `LilSparseMatrix.hpp` lines 573-650: the row loop. -/
def setColLoopL (cast : β → α) (j : Nat) : List Nat → Row β → Act Nat (Lil α) BadAlloc Unit
  | [], _ => pure ()
  | i :: is, [] => do
    setColRowL j i none
    setColLoopL cast j is []
  | i :: is, (k, x) :: col =>
    if i < k then do
      setColRowL j i none
      setColLoopL cast j is ((k, x) :: col)
    else if i = k then do
      setColRowL j i (some (cast x))
      setColLoopL cast j is col
    else do
      let A ← output
      let _ ← lib (A.row i)
      lib (.error .panic)

/-- `setCol`, `LilSparseMatrix.hpp` lines 573-650. -/
def setColL (j : Nat) (cast : β → α) (col : Row β) : Act Nat (Lil α) BadAlloc Unit := do
  let A ← output
  setColLoopL cast j (List.range A.nrows) col

end Lil

/-- `sparse_copy`, `sparse_helpers.hpp` lines 67-93; `work i` is the number of requests
for the temporary row. -/
def sparseCopyL (work : Nat → Nat) (cast : β → α) (src : Lil β) : Act Nat (Lil α) BadAlloc Unit := do
  let d ← output
  store d.clear
  forA d.nrows () fun i _ => do
    let srcRow ← lib (src.row i)
    requests (work i)
    let dstRow := Row.cast cast srcRow
    if !dstRow.isEmpty then Lil.setRowL i id dstRow else pure ()

/-- `write_with_opt_mask`, `sparse_helpers.hpp` lines 959-1070, all overloads; `work i` is
the number of requests for the temporary rows. -/
def writeWithOptMaskL (work : Nat → Nat) (truthy : μ → Bool) (castZ : ζ → γ) (Z : Lil ζ) (M : MMask μ)
    (outp : Outp) : Act Nat (Lil γ) BadAlloc Unit :=
  match M with
  | none => sparseCopyL work castZ Z
  | some (k, M) => do
    let C ← output
    forA C.nrows () fun i _ => do
      let C ← output
      let c ← lib (C.row i)
      let z ← lib (Z.row i)
      let m ← lib (M.row i)
      requests (work i)
      Lil.setRowL i id (applyWithMask id castZ outp c z (maskRow truthy k M.ncols m))

/-- A matrix operation, `/repo/src/graphblas/operations.hpp` lines 63-1121: the first
phase works on temporaries and makes `prep` requests, the second writes the output. -/
def MCall.runL (prep : Nat) (work : Nat → Nat) (c : MCall γ τ ζ) (o : MOut γ τ ζ μ) :
    Act Nat (Lil γ) BadAlloc Unit := do
  requests prep
  let C ← output
  let Z ← lib (c.pre { o with C := C })
  writeWithOptMaskL work o.truthy o.castZ Z o.M o.outp

/-- The first phase of `assign` to a row, `/repo/src/graphblas/operations.hpp` lines 600-638,
with `sparse_assign.hpp` lines 444-485. -/
def assignRowPre [Inhabited γ] (o : LOut γ α ζ μ) (keep : γ → ζ) (u : BVec α) (i : Nat) (ci : Idx) :
    Except Err (Row γ) := do
  o.m.sizeCheck o.C.ncols
  ci.lenCheck u.size
  indexCheck i o.C.nrows
  checkIndexArrayContent ci o.C.ncols
  let row ← o.C.row i
  let v ← fillVec o.C.ncols row
  let v ← assignBackend o.truthy o.castZ keep o.acc v o.m u ci o.outp
  v.extractTuples

/-- The first phase of `assign` to a column, `operations.hpp` lines 559-598, with
`sparse_assign.hpp` lines 391-430. -/
def assignColPre [Inhabited γ] (o : LOut γ α ζ μ) (keep : γ → ζ) (u : BVec α) (ri : Idx) (j : Nat) :
    Except Err (Row γ) := do
  o.m.sizeCheck o.C.nrows
  ri.lenCheck u.size
  indexCheck j o.C.ncols
  checkIndexArrayContent ri o.C.nrows
  let col ← o.C.getCol j
  let v ← fillVec o.C.nrows col
  let v ← assignBackend o.truthy o.castZ keep o.acc v o.m u ri o.outp
  v.extractTuples

/-- `assign` to a row, `operations.hpp` lines 600-638, with `sparse_assign.hpp` lines
444-488: only the last statement writes the matrix. -/
def assignRowL [Inhabited γ] (prep : Nat) (o : LOut γ α ζ μ) (keep : γ → ζ) (u : BVec α) (i : Nat)
    (ci : Idx) : Act Nat (Lil γ) BadAlloc Unit := do
  requests prep
  let C ← output
  let row ← lib (assignRowPre { o with C := C } keep u i ci)
  Lil.setRowL i id row

/-- `assign` to a column, `operations.hpp` lines 559-598, with `sparse_assign.hpp` lines
391-433: only the last statement writes the matrix. -/
def assignColL [Inhabited γ] (prep : Nat) (o : LOut γ α ζ μ) (keep : γ → ζ) (u : BVec α) (ri : Idx)
    (j : Nat) : Act Nat (Lil γ) BadAlloc Unit := do
  requests prep
  let C ← output
  let col ← lib (assignColPre { o with C := C } keep u ri j)
  Lil.setColL j id col

/-! ### Vectors -/
namespace BVec

/-- `clear`, `BitmapSparseVector.hpp` lines 272-277; `m_bitmap.assign` asks for memory only
if the bitmap is shorter than the vector. -/
def clearL : Act Nat (BVec α) BadAlloc Unit := do
  let v ← output
  store { v with nvals := 0 }
  requestIf (v.bitmap.length < v.size)
  let v ← output
  store { v with bitmap := List.replicate v.size false }

/-- The loop of `setContents`, `BitmapSparseVector.hpp` lines 501-506; no requests. -/
def setLoopL (cast : β → α) : Row β → Act Nat (BVec α) BadAlloc Unit
  | [] => pure ()
  | (i, x) :: r => do
    let v ← output
    let bitmap ← lib (wr v.bitmap i true)
    let vals ← lib (wr v.vals i (cast x))
    store { v with bitmap := bitmap, vals := vals, nvals := v.nvals + 1 }
    setLoopL cast r

/-- `setContents`, `BitmapSparseVector.hpp` lines 497-507. -/
def setContentsL (cast : β → α) (r : Row β) : Act Nat (BVec α) BadAlloc Unit := do
  clearL
  setLoopL cast r

/-- Assignment, `BitmapSparseVector.hpp` lines 190-205; copying a `std::vector` asks for
memory only if there is not enough room. -/
def assignFromL (rhs : BVec α) : Act Nat (BVec α) BadAlloc Unit := do
  let v ← output
  if v.size ≠ rhs.size then lib (.error .dimension)
  else
    store { v with nvals := rhs.nvals }
    requestIf (v.vals.length < rhs.vals.length)
    store { v with nvals := rhs.nvals, vals := rhs.vals }
    requestIf (v.bitmap.length < rhs.bitmap.length)
    store { v with nvals := rhs.nvals, vals := rhs.vals, bitmap := rhs.bitmap }

/-- `grb::Vector::resize`, `/repo/src/graphblas/Vector.hpp` lines 206-212, and
`BitmapSparseVector.hpp` lines 288-328: growing asks for memory twice. -/
def resizeL [Inhabited α] (n : Nat) : Act Nat (BVec α) BadAlloc Unit := do
  let v ← output
  if n = 0 then lib (.error .invalidValue)
  else if v.size < n then
    requestIf (v.vals.length < n)
    store { v with vals := resizeList v.vals n default }
    requestIf (v.bitmap.length < n)
    let v ← output
    store { v with bitmap := resizeList v.bitmap n false, size := n }
  else store (v.resizeBackend n)

/-- `build`, `BitmapSparseVector.hpp` lines 336-367: two new arrays, which are swapped in
at the end. -/
def buildL [Inhabited α] (dup : α → α → α) (ts : List (Nat × α)) : Act Nat (BVec α) BadAlloc Unit := do
  request
  request
  let v ← output
  let p ← lib (buildLoop v.size dup ts (List.replicate v.size default) (List.replicate v.size false))
  store { v with vals := p.1, bitmap := p.2, nvals := ts.length }

end BVec

/-- `write_with_opt_mask_1D`, `sparse_helpers.hpp` lines 1151-1247, all overloads; the
contents, the row of the mask and the new row are temporaries and make `work` requests. -/
def writeWithOptMask1DL (work : Nat) (truthy : μ → Bool) (castZ : ζ → γ) (z : Row ζ) (M : VMask μ)
    (outp : Outp) : Act Nat (BVec γ) BadAlloc Unit :=
  match M with
  | none => BVec.setContentsL castZ z
  | some (k, m) => do
    let w ← output
    let c ← lib w.getContents
    let mc ← lib m.getContents
    requests work
    BVec.setContentsL id (applyWithMask id castZ outp c z (maskRow truthy k m.size mc))

/-- The first phase of a vector operation, `/repo/src/graphblas/operations.hpp` and
`sparse_*.hpp` up to `write_with_opt_mask_1D`; the citations are at the models of the
parts. See `VCall.run_eq_pre`. -/
def VCall.pre (c : VCall γ τ ζ) (o : VOut γ τ ζ μ) : Except Err (Row ζ) :=
  match c with
  | .vxm sr u A => do
      o.m.sizeCheck o.w.size
      eqCheck o.w.size A.ncols
      eqCheck u.size A.nrows
      let t ← vxmT o.w sr u A
      ewiseOrOptAccum1D o.w t o.acc
  | .mxv sr A u => do
      o.m.sizeCheck o.w.size
      eqCheck o.w.size A.nrows
      eqCheck u.size A.ncols
      let t ← mxvT o.w sr A u
      ewiseOrOptAccum1D o.w t o.acc
  | .eWiseAdd f u v => do
      o.checks2 u v
      let t ← ewiseAddVec f.op f.c1 f.c2 u v
      ewiseOrOptAccum1D o.w t o.acc
  | .eWiseMult f u v => do
      o.checks2 u v
      let t ← ewiseMultVec f.op u v
      ewiseOrOptAccum1D o.w t o.acc
  | .apply f u => do
      o.m.sizeCheck o.w.size
      eqCheck o.w.size u.size
      let t ← applyVec f u
      ewiseOrOptAccum1D o.w t o.acc
  | .reduce r A => do
      o.m.sizeCheck o.w.size
      eqCheck o.w.size A.nrows
      let t ← reduceT r A
      ewiseOrOptAccum1D o.w t o.acc
  | .extract u ix => do
      o.m.sizeCheck o.w.size
      ix.lenCheck o.w.size
      let t ← extractVec o.w u ix
      ewiseOrOptAccum1D o.w t o.acc
  | .extractCol A ri j => do
      o.m.sizeCheck o.w.size
      ri.lenCheck o.w.size
      indexCheck j A.ncols
      let t ← extractColT' o.w A ri j
      ewiseOrOptAccum1D o.w t o.acc
  | .assign keep u ix => do
      o.m.sizeCheck o.w.size
      ix.lenCheck u.size
      let t ← assignVec o.w u ix
      ewiseOrStencilOptAccum1D keep o.w t (.list (setupIndices ix u.size)) o.acc
  | .assignConst keep x ix => do
      o.m.sizeCheck o.w.size
      ix.withinCheck o.w.size
      let t ← assignConstVec o.w x ix
      ewiseOrStencilOptAccum1D keep o.w t (.list (setupIndices ix o.w.size)) o.acc

/-- A vector operation, `/repo/src/graphblas/operations.hpp` lines 63-1121. -/
def VCall.runL (prep work : Nat) (c : VCall γ τ ζ) (o : VOut γ τ ζ μ) : Act Nat (BVec γ) BadAlloc Unit := do
  requests prep
  let w ← output
  let z ← lib (c.pre { o with w := w })
  writeWithOptMask1DL work o.truthy o.castZ z o.m o.outp

end GBTL

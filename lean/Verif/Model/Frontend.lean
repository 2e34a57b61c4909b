import Verif.Model.Ops
/-
Models of the operations a user calls: `/repo/src/graphblas/operations.hpp`, with
the argument checks of `/repo/src/graphblas/detail/checks.hpp`, calling the
`sequential` backend. Line numbers refer to `operations.hpp` unless said otherwise.

A call runs in two phases. The first one checks the arguments and computes the
final content `Z` (or `z`) in local containers; the output is not touched. The
second one writes the output. `Outcome` keeps apart an exception of the first
phase (the output is as before) and one of the second.
-/
namespace GBTL
open Spec (Outp MaskKind Accum)

variable {α β γ δ τ ζ μ σ ρ : Type}

/-- How a call of lines 63-1121 ends. -/
inductive Outcome (σ : Type) where
  /-- returned; the output is `s` -/
  | done (s : σ)
  /-- threw `e` before writing; the output is `s` -/
  | threw (e : Err) (s : σ)
  /-- threw `e` while writing the output -/
  | midway (e : Err)
  /-- undefined behaviour -/
  | ub
  deriving DecidableEq, Repr

/-- The second phase: `write_with_opt_mask` and `write_with_opt_mask_1D`,
`sparse_helpers.hpp` lines 959-1070 and 1151-1247, are the last statement of each backend
function. -/
def finish : Except Err σ → Outcome σ
  | .ok s => .done s
  | .error .ub => .ub
  | .error e => .midway e

/-- Both phases of a call of lines 63-1121; `s` is the output before the call. -/
def run (s : σ) (pre : Except Err ρ) (post : ρ → Except Err σ) : Outcome σ :=
  match pre with
  | .ok z => finish (post z)
  | .error .ub => .ub
  | .error e => .threw e s

/-! ### Arguments -/

/-- A matrix operand: a matrix, or `transpose(A)` (lines 1152-1157; `TransposeView`,
`/repo/src/graphblas/TransposeView.hpp` lines 43-72). -/
inductive Operand (α : Type) where
  | plain (A : Lil α)
  | tr (A : Lil α)
  deriving DecidableEq, Repr

/-- `nrows()` of an operand; a `TransposeView` swaps the shape, `TransposeView.hpp`
line 53. -/
def Operand.nrows : Operand α → Nat
  | .plain A => A.nrows
  | .tr A => A.ncols

/-- `ncols()` of an operand, `TransposeView.hpp` line 54. -/
def Operand.ncols : Operand α → Nat
  | .plain A => A.ncols
  | .tr A => A.nrows

/-- The output of a matrix operation and the arguments that control the write:
mask, conversion of mask values to `bool`, accumulator, conversion of the result to
the output's scalar type, MERGE or REPLACE. Parameters `C`, `Mask`, `accum`, `outp`, e.g.
lines 70-76. -/
structure MOut (γ τ ζ μ : Type) where
  C : Lil γ
  M : MMask μ
  truthy : μ → Bool
  acc : Accum γ τ ζ
  castZ : ζ → γ
  outp : Outp

/-- The same for vector operations: parameters `w`, `mask`, `accum`, `outp`, e.g. lines
113-119. -/
structure VOut (γ τ ζ μ : Type) where
  w : BVec γ
  m : VMask μ
  truthy : μ → Bool
  acc : Accum γ τ ζ
  castZ : ζ → γ
  outp : Outp

/-- A semiring argument: `mult a b` is `op.mult(a, b)` on an element of the left and
one of the right operand; `multSwap b a` is the same functor called with the right
operand's element first, `op.mult(b, a)`. Parameter `op` of lines 73, 116, 152; the
functors are in `algebra.hpp` lines 495-512. -/
structure SR (α β τ : Type) where
  add : τ → τ → τ
  mult : α → β → τ
  multSwap : β → α → τ

/-- The operator of an element-wise operation, with the conversions of a lone
element to the result type. `castBA` converts the right operand's scalar type to
the left's, and `opA`, `c2A` are `op` and `c2` applied to a right element so
converted; they are what `A, transpose(B)` uses. Parameter `op` of lines 195, 232, 281,
321. -/
structure EW (α β τ : Type) where
  op : α → β → τ
  c1 : α → τ
  c2 : β → τ
  castBA : β → α
  opA : α → α → τ
  c2A : α → τ

/-! ### Checks -/

/-- One check, `/repo/src/graphblas/detail/checks.hpp` lines 56-86. -/
def check (p : Bool) (e : Err) : Except Err Unit := if p then .ok () else .error e

/-- `check_val_equals` behind `check_nrows_nrows` etc., `checks.hpp` lines 56-62:
throws `DimensionException`. -/
def eqCheck (a b : Nat) : Except Err Unit := check (a == b) .dimension

/-- `check_nrows_nrows(C, Mask)`; no check for `NoMask`. `checks.hpp` lines 90-101. -/
def MMask.rowCheck (M : MMask μ) (n : Nat) : Except Err Unit :=
  match M with
  | none => .ok ()
  | some (_, M) => eqCheck n M.nrows

/-- `check_ncols_ncols(C, Mask)`, `checks.hpp` lines 105-116. -/
def MMask.colCheck (M : MMask μ) (n : Nat) : Except Err Unit :=
  match M with
  | none => .ok ()
  | some (_, M) => eqCheck n M.ncols

/-- `check_size_size(w, mask)`, `checks.hpp` lines 194-210; also `check_size_nrows` and
`check_size_ncols` of a mask, lines 214-242. -/
def VMask.sizeCheck (m : VMask μ) (n : Nat) : Except Err Unit :=
  match m with
  | none => .ok ()
  | some (_, m) => eqCheck n m.size

/-- `check_size_nindices`, `check_nrows_nindices`, `check_ncols_nindices`: no check
for `AllIndices`. `checks.hpp` lines 246-258, 158-173, 176-191. -/
def Idx.lenCheck (ix : Idx) (n : Nat) : Except Err Unit :=
  match ix with
  | .list l => eqCheck n l.length
  | .all => .ok ()

/-- `check_nindices_within_size` etc.: no check for `AllIndices`. `checks.hpp` lines
279-325, 76-86. -/
def Idx.withinCheck (ix : Idx) (n : Nat) : Except Err Unit :=
  match ix with
  | .list l => check (l.length ≤ n) .dimension
  | .all => .ok ()

/-- `check_index_within_ncols`, `check_index_within_nrows`: throws
`InvalidIndexException`. `checks.hpp` lines 261-275, 64-74. -/
def indexCheck (i n : Nat) : Except Err Unit := check (decide (i < n)) .invalidIndex

/-! ### The common shape of the operations -/

/-- A matrix operation computing `T`: checks, `T`, accumulate, write. The shape of every
function of `/repo/src/graphblas/platforms/sequential/sparse_*.hpp`, e.g. `sparse_mxm.hpp`
lines 60-110. -/
def MOut.op (o : MOut γ τ ζ μ) (checks : Except Err Unit) (T : Except Err (Lil τ)) :
    Outcome (Lil γ) :=
  run o.C
    (do
      checks
      let T ← T
      accumMat o.C o.acc T)
    fun Z => writeWithOptMask o.truthy o.castZ o.C Z o.M o.outp

/-- A vector operation computing `t`, e.g. `sparse_mxv.hpp` lines 55-109. -/
def VOut.op (o : VOut γ τ ζ μ) (checks : Except Err Unit) (t : Except Err (Row τ)) :
    Outcome (BVec γ) :=
  run o.w
    (do
      checks
      let t ← t
      ewiseOrOptAccum1D o.w t o.acc)
    fun z => writeWithOptMask1D o.truthy o.castZ o.w z o.m o.outp

/-- A matrix assignment: accumulation under the stencil of the index arguments.
`keep` converts an element of the output to the type of `Z`; without an
accumulator that is the output's own type (`sparse_assign.hpp` lines 364-366), so
that `keep` and `castZ` are the identity. -/
def MOut.opStencil (o : MOut γ τ ζ μ) (keep : γ → ζ) (ri ci : List Nat)
    (checks : Except Err Unit) (T : Except Err (Lil τ)) : Outcome (Lil γ) :=
  run o.C
    (do
      checks
      let T ← T
      ewiseOrStencilOptAccum keep (Lil.new o.C.nrows o.C.ncols) o.C T (.list ri) (.list ci) o.acc)
    fun Z => writeWithOptMask o.truthy o.castZ o.C Z o.M o.outp

/-- A vector assignment, `sparse_assign.hpp` lines 281-325. -/
def VOut.opStencil (o : VOut γ τ ζ μ) (keep : γ → ζ) (ix : List Nat)
    (checks : Except Err Unit) (t : Except Err (Row τ)) : Outcome (BVec γ) :=
  run o.w
    (do
      checks
      let t ← t
      ewiseOrStencilOptAccum1D keep o.w t (.list ix) o.acc)
    fun z => writeWithOptMask1D o.truthy o.castZ o.w z o.m o.outp

/-! ### mxm, vxm, mxv -/

/-- The overloads of the backend's `mxm`, which line 93 chooses from by the operands'
types. -/
def mxmT (C : Lil γ) (sr : SR α β τ) (via : τ → τ) : Operand α → Operand β → Except Err (Lil τ)
  | .plain A, .plain B => mxmAB C sr.add sr.mult A B
  | .tr A, .plain B => mxmATB C sr.add sr.mult A B
  | .plain A, .tr B => mxmABT C sr.add sr.mult A B
  | .tr A, .tr B => mxmATBT C sr.add sr.multSwap via A B

/-- `mxm`, lines 63-102. `via` is the conversion of a result to `C`'s scalar type
and back (see `mxmATBT`). -/
def mxm (o : MOut γ τ ζ μ) (sr : SR α β τ) (via : τ → τ) (A : Operand α) (B : Operand β) :
    Outcome (Lil γ) :=
  o.op
    (do
      o.M.rowCheck o.C.nrows
      o.M.colCheck o.C.ncols
      eqCheck o.C.nrows A.nrows
      eqCheck o.C.ncols B.ncols
      eqCheck A.ncols B.nrows)
    (mxmT o.C sr via A B)

/-- The overloads of the backend's `vxm`, called on line 134. -/
def vxmT (w : BVec γ) (sr : SR α β τ) (u : BVec α) : Operand β → Except Err (Row τ)
  | .plain A => vxmA sr.add sr.mult u A
  | .tr A => vxmAT w sr.add sr.mult u A

/-- `vxm`, lines 106-138. -/
def vxm (o : VOut γ τ ζ μ) (sr : SR α β τ) (u : BVec α) (A : Operand β) : Outcome (BVec γ) :=
  o.op
    (do
      o.m.sizeCheck o.w.size
      eqCheck o.w.size A.ncols
      eqCheck u.size A.nrows)
    (vxmT o.w sr u A)

/-- The overloads of the backend's `mxv`, called on line 170. -/
def mxvT (w : BVec γ) (sr : SR α β τ) (A : Operand α) (u : BVec β) : Except Err (Row τ) :=
  match A with
  | .plain A => mxvA w sr.add sr.mult A u
  | .tr A => mxvAT sr.add sr.multSwap A u

/-- `mxv`, lines 142-173. -/
def mxv (o : VOut γ τ ζ μ) (sr : SR α β τ) (A : Operand α) (u : BVec β) : Outcome (BVec γ) :=
  o.op
    (do
      o.m.sizeCheck o.w.size
      eqCheck o.w.size A.nrows
      eqCheck u.size A.ncols)
    (mxvT o.w sr A u)

/-! ### eWiseAdd, eWiseMult -/

/-- The shape checks shared by the element-wise vector operations, e.g. lines
209-211. -/
def VOut.checks2 (o : VOut γ τ ζ μ) (u : BVec α) (v : BVec β) : Except Err Unit := do
  o.m.sizeCheck o.w.size
  eqCheck o.w.size u.size
  eqCheck u.size v.size

/-- The shape checks shared by the element-wise matrix operations, e.g. lines
246-251. -/
def MOut.checks2 (o : MOut γ τ ζ μ) (A : Operand α) (B : Operand β) : Except Err Unit := do
  o.M.colCheck o.C.ncols
  o.M.rowCheck o.C.nrows
  eqCheck o.C.ncols A.ncols
  eqCheck o.C.nrows A.nrows
  eqCheck A.ncols B.ncols
  eqCheck A.nrows B.nrows

/-- `eWiseAdd` on vectors, lines 266-308. -/
def eWiseAddV (o : VOut γ τ ζ μ) (f : EW α β τ) (u : BVec α) (v : BVec β) : Outcome (BVec γ) :=
  o.op (o.checks2 u v) (ewiseAddVec f.op f.c1 f.c2 u v)

/-- The overloads of the backend's `eWiseAdd` on matrices, called on line 342. -/
def eWiseAddT (f : EW α β τ) : Operand α → Operand β → Except Err (Lil τ)
  | .plain A, .plain B => ewiseAddMat f.op f.c1 f.c2 A B
  | .tr A, .plain B => ewiseAddATB f.op f.c1 f.c2 A B
  | .plain A, .tr B => ewiseAddABT f.opA f.c1 f.c2A f.castBA A B
  | .tr A, .tr B => ewiseAddATBT f.op f.c1 f.c2 A B

/-- `eWiseAdd` on matrices, lines 310-351. -/
def eWiseAddM (o : MOut γ τ ζ μ) (f : EW α β τ) (A : Operand α) (B : Operand β) :
    Outcome (Lil γ) :=
  o.op (o.checks2 A B) (eWiseAddT f A B)

/-- `eWiseMult` on vectors, lines 180-219. -/
def eWiseMultV (o : VOut γ τ ζ μ) (f : EW α β τ) (u : BVec α) (v : BVec β) : Outcome (BVec γ) :=
  o.op (o.checks2 u v) (ewiseMultVec f.op u v)

/-- The overloads of the backend's `eWiseMult` on matrices, called on line 253. -/
def eWiseMultT (f : EW α β τ) : Operand α → Operand β → Except Err (Lil τ)
  | .plain A, .plain B => ewiseMultMat f.op A B
  | .tr A, .plain B => ewiseMultATB f.op A B
  | .plain A, .tr B => ewiseMultABT f.opA f.castBA A B
  | .tr A, .tr B => ewiseMultATBT f.op A B

/-- `eWiseMult` on matrices, lines 221-262. -/
def eWiseMultM (o : MOut γ τ ζ μ) (f : EW α β τ) (A : Operand α) (B : Operand β) :
    Outcome (Lil γ) :=
  o.op (o.checks2 A B) (eWiseMultT f A B)

/-! ### apply -/

/-- `apply` on a vector, lines 729-762; with a bound scalar (lines 802-872) `f` is
the binary operator with that operand fixed. -/
def applyV (o : VOut γ τ ζ μ) (f : α → τ) (u : BVec α) : Outcome (BVec γ) :=
  o.op
    (do
      o.m.sizeCheck o.w.size
      eqCheck o.w.size u.size)
    (applyVec f u)

/-- `apply` with the scalar bound to the first argument, lines 826-849. -/
def applyV1 (o : VOut γ τ ζ μ) (f : β → α → τ) (x : β) (u : BVec α) : Outcome (BVec γ) :=
  applyV o (fun a => f x a) u

/-- `apply` with the scalar bound to the second argument, lines 850-871. -/
def applyV2 (o : VOut γ τ ζ μ) (f : α → β → τ) (u : BVec α) (x : β) : Outcome (BVec γ) :=
  applyV o (fun a => f a x) u

/-- The overloads of the backend's `apply` on matrices, called on line 792. -/
def applyT (f : α → τ) : Operand α → Except Err (Lil τ)
  | .plain A => applyMat f A
  | .tr A => applyMatT f A

/-- `apply` on a matrix, lines 764-800; with a bound scalar lines 874-949. -/
def applyM (o : MOut γ τ ζ μ) (f : α → τ) (A : Operand α) : Outcome (Lil γ) :=
  o.op
    (do
      o.M.colCheck o.C.ncols
      o.M.rowCheck o.C.nrows
      eqCheck o.C.ncols A.ncols
      eqCheck o.C.nrows A.nrows)
    (applyT f A)

/-- `apply` with the scalar bound to the first argument, lines 898-922. -/
def applyM1 (o : MOut γ τ ζ μ) (f : β → α → τ) (x : β) (A : Operand α) : Outcome (Lil γ) :=
  applyM o (fun a => f x a) A

/-- `apply` with the scalar bound to the second argument, lines 923-948. -/
def applyM2 (o : MOut γ τ ζ μ) (f : α → β → τ) (A : Operand α) (x : β) : Outcome (Lil γ) :=
  applyM o (fun a => f a x) A

/-! ### reduce -/

/-- The operator of a reduction: `op` on two elements, `op'` on a running value and
an element, `opT` on two running values, `first` converts a lone element. In C++
they are one functor behind implicit conversions, the parameter `op` of lines 965, 999 and
1027. -/
structure RedOp (α τ : Type) where
  op : α → α → τ
  op' : τ → α → τ
  opT : τ → τ → τ
  first : α → τ

/-- The overloads of the backend's `reduce` to a vector, called on line 980. -/
def reduceT (r : RedOp α τ) : Operand α → Except Err (Row τ)
  | .plain A => reduceRows r.op r.op' r.first A
  | .tr A => reduceCols r.op' r.first A

/-- `reduce` of a matrix to a vector, lines 955-988. -/
def reduceMV (o : VOut γ τ ζ μ) (r : RedOp α τ) (A : Operand α) : Outcome (BVec γ) :=
  o.op
    (do
      o.m.sizeCheck o.w.size
      eqCheck o.w.size A.nrows)
    (reduceT r A)

/-- `reduce` of a vector to a scalar, lines 990-1014: the new value of `val`. -/
def reduceVS (castZ : ζ → γ) (acc : Accum γ τ ζ) (r : RedOp α τ) (e : τ) (val : γ) (u : BVec α) :
    Outcome γ :=
  run val (reduceVec r.op r.op' r.first e u) fun t => .ok (reduceScalarEnd castZ acc val t)

/-- `reduce` of a matrix to a scalar, lines 1016-1042. The frontend accepts only a
plain matrix; the backend's code for a transposed one is the same. -/
def reduceMS (castZ : ζ → γ) (acc : Accum γ τ ζ) (r : RedOp α τ) (e : τ) (val : γ) :
    Operand α → Outcome γ
  | .plain A | .tr A =>
    run val (reduceMat r.op r.op' r.opT r.first e A) fun t => .ok (reduceScalarEnd castZ acc val t)

/-! ### extract -/

/-- `extract` of a vector, lines 357-390. -/
def extractV (o : VOut γ α ζ μ) (u : BVec α) (ix : Idx) : Outcome (BVec γ) :=
  o.op
    (do
      o.m.sizeCheck o.w.size
      ix.lenCheck o.w.size)
    (extractVec o.w u ix)

/-- The overloads of the backend's `extract` on matrices, called on line 425. -/
def extractT (C : Lil γ) (A : Operand α) (ri ci : Idx) : Except Err (Lil α) :=
  match A with
  | .plain A => extractMat C A ri ci
  | .tr A => extractMatT C A ri ci

/-- `extract` of a matrix, lines 392-432. -/
def extractM (o : MOut γ α ζ μ) (A : Operand α) (ri ci : Idx) : Outcome (Lil γ) :=
  o.op
    (do
      o.M.rowCheck o.C.nrows
      o.M.colCheck o.C.ncols
      ri.lenCheck o.C.nrows
      ci.lenCheck o.C.ncols)
    (extractT o.C A ri ci)

/-- The overloads of the backend's column `extract`, called on line 466. -/
def extractColT' (w : BVec γ) (A : Operand α) (ri : Idx) (j : Nat) : Except Err (Row α) :=
  match A with
  | .plain A => extractCol w A ri j
  | .tr A => extractColT w A ri j

/-- `extract` of (part of) a column, lines 434-473. -/
def extractC (o : VOut γ α ζ μ) (A : Operand α) (ri : Idx) (j : Nat) : Outcome (BVec γ) :=
  o.op
    (do
      o.m.sizeCheck o.w.size
      ri.lenCheck o.w.size
      indexCheck j A.ncols)
    (extractColT' o.w A ri j)

/-! ### assign -/

/-- `assign` of a vector, lines 479-514. -/
def assignV (o : VOut γ α ζ μ) (keep : γ → ζ) (u : BVec α) (ix : Idx) : Outcome (BVec γ) :=
  o.opStencil keep (setupIndices ix u.size)
    (do
      o.m.sizeCheck o.w.size
      ix.lenCheck u.size)
    (assignVec o.w u ix)

/-- The overloads of the backend's `assign` on matrices, called on line 549. -/
def assignT (C : Lil γ) (A : Operand α) (ri ci : Idx) : Except Err (Lil α) :=
  match A with
  | .plain A => assignMat C A ri ci
  | .tr A => assignMatT C A ri ci

/-- `assign` of a matrix, lines 516-557. -/
def assignM (o : MOut γ α ζ μ) (keep : γ → ζ) (A : Operand α) (ri ci : Idx) : Outcome (Lil γ) :=
  o.opStencil keep (setupIndices ri A.nrows) (setupIndices ci A.ncols)
    (do
      o.M.rowCheck o.C.nrows
      o.M.colCheck o.C.ncols
      ri.lenCheck A.nrows
      ci.lenCheck A.ncols)
    (assignT o.C A ri ci)

/-- The error of a mutating call, or the container after it; for `setElement` in
`sparse_assign.hpp` lines 413 and 468. -/
def okState : Except Err Unit × σ → Except Err σ
  | (.ok _, s) => .ok s
  | (.error e, _) => .error e

/-- `Vector<CScalarType> c_vec(n); for (...) c_vec.setElement(...)`,
`sparse_assign.hpp` lines 410-415 and 464-469. -/
def fillVec [Inhabited γ] (n : Nat) (r : Row γ) : Except Err (BVec γ) := do
  let v ← BVec.new n
  r.foldlM (fun v p => okState (v.setElement p.1 p.2)) v

/-- The backend's vector `assign` without the frontend's checks, called on a
temporary vector, `sparse_assign.hpp` lines 281-325. -/
def assignBackend (truthy : μ → Bool) (castZ : ζ → γ) (keep : γ → ζ) (acc : Accum γ α ζ)
    (w : BVec γ) (m : VMask μ) (u : BVec α) (ix : Idx) (outp : Outp) : Except Err (BVec γ) := do
  let t ← assignVec w u ix
  let z ← ewiseOrStencilOptAccum1D keep w t (.list (setupIndices ix u.size)) acc
  writeWithOptMask1D truthy castZ w z m outp

/-- The output of a row or column assignment: a matrix, with a vector mask; the parameters
of lines 566-572 and 607-613. -/
structure LOut (γ τ ζ μ : Type) where
  C : Lil γ
  m : VMask μ
  truthy : μ → Bool
  acc : Accum γ τ ζ
  castZ : ζ → γ
  outp : Outp

/-- `assign` to a column, `operations.hpp` lines 559-598, with `sparse_assign.hpp` lines 391-433. -/
def assignCol [Inhabited γ] (o : LOut γ α ζ μ) (keep : γ → ζ) (u : BVec α) (ri : Idx) (j : Nat) :
    Outcome (Lil γ) :=
  run o.C
    (do
      o.m.sizeCheck o.C.nrows
      ri.lenCheck u.size
      indexCheck j o.C.ncols
      checkIndexArrayContent ri o.C.nrows
      let col ← o.C.getCol j
      let v ← fillVec o.C.nrows col
      let v ← assignBackend o.truthy o.castZ keep o.acc v o.m u ri o.outp
      v.extractTuples)
    fun col => o.C.setCol j id col

/-- `assign` to a row, `operations.hpp` lines 600-638, with `sparse_assign.hpp` lines 444-488. -/
def assignRow [Inhabited γ] (o : LOut γ α ζ μ) (keep : γ → ζ) (u : BVec α) (i : Nat) (ci : Idx) :
    Outcome (Lil γ) :=
  run o.C
    (do
      o.m.sizeCheck o.C.ncols
      ci.lenCheck u.size
      indexCheck i o.C.nrows
      checkIndexArrayContent ci o.C.ncols
      let row ← o.C.row i
      let v ← fillVec o.C.ncols row
      let v ← assignBackend o.truthy o.castZ keep o.acc v o.m u ci o.outp
      v.extractTuples)
    fun row => o.C.setRow i id row

/-- `assign` of a constant to a vector, lines 640-676. -/
def assignConstV (o : VOut γ α ζ μ) (keep : γ → ζ) (x : α) (ix : Idx) : Outcome (BVec γ) :=
  o.opStencil keep (setupIndices ix o.w.size)
    (do
      o.m.sizeCheck o.w.size
      ix.withinCheck o.w.size)
    (assignConstVec o.w x ix)

/-- `assign` of a constant to a matrix, lines 678-723. -/
def assignConstM (o : MOut γ α ζ μ) (keep : γ → ζ) (x : α) (ri ci : Idx) : Outcome (Lil γ) :=
  o.opStencil keep (setupIndices ri o.C.nrows) (setupIndices ci o.C.ncols)
    (do
      o.M.rowCheck o.C.nrows
      o.M.colCheck o.C.ncols
      ri.withinCheck o.C.nrows
      ci.withinCheck o.C.ncols)
    (assignConstMat o.C x ri ci)

/-! ### transpose, kronecker -/

/-- The overloads of the backend's `transpose`; of a `TransposeView` it uses the
underlying matrix itself, `sparse_transpose.hpp` lines 100-128. -/
def transposeOperandT : Operand α → Except Err (Lil α)
  | .plain A => transposeT A
  | .tr A => .ok A

/-- `transpose`, lines 1048-1075. (`Z` has the shape of the transposed operand,
which the checks make equal to `C`'s.) -/
def transposeM (o : MOut γ α ζ μ) (A : Operand α) : Outcome (Lil γ) :=
  o.op
    (do
      o.M.rowCheck o.C.nrows
      o.M.colCheck o.C.ncols
      eqCheck o.C.ncols A.nrows
      eqCheck A.ncols o.C.nrows)
    (transposeOperandT A)

/-- The overloads of the backend's `kronecker`, called on line 1112. -/
def kronT (C : Lil γ) (f : α → β → τ) : Operand α → Operand β → Except Err (Lil τ)
  | .plain A, .plain B => kronAB C f A B
  | .tr A, .plain B => kronATB C f A B
  | .plain A, .tr B => kronABT C f A B
  | .tr A, .tr B => kronATBT C f A B

/-- `kronecker`, lines 1081-1121; the products of the checks are `IndexType`
products. -/
def kronecker (o : MOut γ τ ζ μ) (f : α → β → τ) (A : Operand α) (B : Operand β) :
    Outcome (Lil γ) :=
  o.op
    (do
      o.M.rowCheck o.C.nrows
      o.M.colCheck o.C.ncols
      eqCheck o.C.ncols (mul64 A.ncols B.ncols)
      eqCheck o.C.nrows (mul64 A.nrows B.nrows))
    (kronT o.C f A B)

end GBTL

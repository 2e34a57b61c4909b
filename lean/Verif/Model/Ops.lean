import Verif.Model.Mxm
/-
Models of the remaining operations of the `sequential` backend. As in
`Verif.Model.Mxm`, each function computes the intermediate result `T` (or the
vector contents `t`) of one backend function; the accumulate and masked-write
steps that follow are shared. File names are relative to
`/repo/src/graphblas/platforms/sequential/`.
-/
namespace GBTL
open Spec (Outp MaskKind Accum)

variable {α β γ δ τ ζ μ : Type}

/-! ### A column at a time -/

/-- `for (auto&& [col_idx, val] : row) T[col_idx].emplace_back(k, val);`, e.g.
`sparse_transpose.hpp` lines 71-74, `sparse_ewiseadd.hpp` lines 265-268. -/
def pushCol (k : Nat) (row : Row τ) (T : Lil τ) : Except Err (Lil τ) :=
  row.foldlM (fun T p => do
    let t ← T.row p.1
    T.pokeRow p.1 (t ++ [(k, p.2)])) T

/-- The loop `for (row_idx = 0; row_idx < A.nrows(); ++row_idx)` pushing one
computed row after the other as a column of a fresh `m × n` matrix; `sparse_transpose.hpp`
lines 66-77, `sparse_apply.hpp` lines 178-187. -/
def pushCols (m n k : Nat) (row : Nat → Except Err (Row τ)) : Except Err (Lil τ) := do
  let T ← forN k (Lil.new m n) fun i T => do
    let r ← row i
    pushCol i r T
  .ok T.recomputeNvals

/-! ### transpose -/

/-- `transpose(C, Mask, accum, A)`, `sparse_transpose.hpp` lines 61-77: `T` is the
transpose of `A`. -/
def transposeT (A : Lil α) : Except Err (Lil α) :=
  if A.nvals > 0 then pushCols A.ncols A.nrows A.nrows fun i => A.row i
  else .ok (Lil.new A.ncols A.nrows)

/-- A complete unmasked backend `transpose` into a fresh matrix of another scalar
type: `transpose(Atran, NoMask(), NoAccumulate(), A, REPLACE)`,
`sparse_ewiseadd.hpp` lines 190-191 and 217-218. -/
def transposed (cast : α → β) (A : Lil α) : Except Err (Lil β) := do
  let T ← transposeT A
  let C : Lil β := Lil.new A.ncols A.nrows
  let Z ← accumMat C (.none id) T
  writeWithOptMask (μ := Bool) id cast C Z none .replace

/-! ### eWiseAdd -/

/-- `eWiseAdd` of vectors, `sparse_ewiseadd.hpp` lines 71-80. -/
def ewiseAddVec (op : α → β → τ) (c1 : α → τ) (c2 : β → τ) (u : BVec α) (v : BVec β) :
    Except Err (Row τ) :=
  if u.nvals > 0 || v.nvals > 0 then do
    let a ← u.getContents
    let b ← v.getContents
    .ok (ewiseOr op c1 c2 a b)
  else .ok []

/-- One row of `eWiseAdd` of matrices, `sparse_ewiseadd.hpp` lines 129-150: a row
that is empty on one side is copied from the other side. -/
def ewiseAddRow (op : α → β → τ) (c1 : α → τ) (c2 : β → τ) (a : Row α) (b : Row β) : Row τ :=
  if b.isEmpty then Row.cast c1 a
  else if a.isEmpty then Row.cast c2 b
  else ewiseOr op c1 c2 a b

/-- `eWiseAdd` of matrices, `sparse_ewiseadd.hpp` lines 119-153. (`setRow` of an
empty row, which the code skips in one of the three branches, changes nothing in
a fresh matrix.) -/
def ewiseAddMat (op : α → β → τ) (c1 : α → τ) (c2 : β → τ) (A : Lil α) (B : Lil β) :
    Except Err (Lil τ) :=
  if A.nvals > 0 || B.nvals > 0 then
    forN A.nrows (Lil.new A.nrows A.ncols) fun i T => do
      let a ← A.row i
      let b ← B.row i
      T.setRow i id (ewiseAddRow op c1 c2 a b)
  else .ok (Lil.new A.nrows A.ncols)

/-- `eWiseAdd` of two transposed matrices, `sparse_ewiseadd.hpp` lines 243-288. -/
def ewiseAddATBT (op : α → β → τ) (c1 : α → τ) (c2 : β → τ) (A : Lil α) (B : Lil β) :
    Except Err (Lil τ) :=
  if A.nvals > 0 || B.nvals > 0 then
    pushCols A.ncols A.nrows A.nrows fun i => do
      let a ← A.row i
      let b ← B.row i
      .ok (ewiseAddRow op c1 c2 a b)
  else .ok (Lil.new A.ncols A.nrows)

/-- `eWiseAdd(C, M, accum, op, A', B)`, `sparse_ewiseadd.hpp` lines 179-194: the
transpose of `A` is stored in a matrix of `A`'s type. -/
def ewiseAddATB (op : α → β → τ) (c1 : α → τ) (c2 : β → τ) (A : Lil α) (B : Lil β) :
    Except Err (Lil τ) := do
  let At ← transposed id A
  ewiseAddMat op c1 c2 At B

/-- `eWiseAdd(C, M, accum, op, A, B')`, `sparse_ewiseadd.hpp` lines 206-221: the
transpose of `B` is stored in a matrix of *`A`'s* type (line 217), so the operator
is called on two elements of that type (`op'`), and a lone element of `B` goes
through that type too (`c2'`). -/
def ewiseAddABT (op' : α → α → τ) (c1 : α → τ) (c2' : α → τ) (castBA : β → α) (A : Lil α)
    (B : Lil β) : Except Err (Lil τ) := do
  let Bt ← transposed castBA B
  ewiseAddMat op' c1 c2' A Bt

/-! ### eWiseMult -/

/-- `eWiseMult` of vectors, `sparse_ewisemult.hpp` lines 72-81. -/
def ewiseMultVec (op : α → β → τ) (u : BVec α) (v : BVec β) : Except Err (Row τ) :=
  if u.nvals > 0 && v.nvals > 0 then do
    let a ← u.getContents
    let b ← v.getContents
    .ok (ewiseAnd op a b)
  else .ok []

/-- `eWiseMult` of matrices, `sparse_ewisemult.hpp` lines 119-146. -/
def ewiseMultMat (op : α → β → τ) (A : Lil α) (B : Lil β) : Except Err (Lil τ) :=
  if A.nvals > 0 && B.nvals > 0 then
    forN A.nrows (Lil.new A.nrows A.ncols) fun i T => do
      let a ← A.row i
      let b ← B.row i
      if !a.isEmpty && !b.isEmpty then
        let t := ewiseAnd op a b
        if !t.isEmpty then T.setRow i id t else .ok T
      else .ok T
  else .ok (Lil.new A.nrows A.ncols)

/-- `eWiseMult` of two transposed matrices, `sparse_ewisemult.hpp` lines 236-268. -/
def ewiseMultATBT (op : α → β → τ) (A : Lil α) (B : Lil β) : Except Err (Lil τ) :=
  if A.nvals > 0 && B.nvals > 0 then
    pushCols A.ncols A.nrows A.nrows fun i => do
      let a ← A.row i
      let b ← B.row i
      if !a.isEmpty && !b.isEmpty then .ok (ewiseAnd op a b) else .ok []
  else .ok (Lil.new A.ncols A.nrows)

/-- `eWiseMult(C, M, accum, op, A', B)`, `sparse_ewisemult.hpp` lines 172-187. -/
def ewiseMultATB (op : α → β → τ) (A : Lil α) (B : Lil β) : Except Err (Lil τ) := do
  let At ← transposed id A
  ewiseMultMat op At B

/-- `eWiseMult(C, M, accum, op, A, B')`, `sparse_ewisemult.hpp` lines 199-214: as
for `eWiseAdd`, the transpose of `B` is stored in `A`'s type. -/
def ewiseMultABT (op' : α → α → τ) (castBA : β → α) (A : Lil α) (B : Lil β) :
    Except Err (Lil τ) := do
  let Bt ← transposed castBA B
  ewiseMultMat op' A Bt

/-! ### apply -/

/-- `apply` to a vector, `sparse_apply.hpp` lines 68-76; with a bound operand
(`apply_binop_1st`, `apply_binop_2nd`, lines 232-243 and 288-299) `op` is the
operator with that operand fixed. -/
def applyVec (op : α → τ) (u : BVec α) : Except Err (Row τ) :=
  if u.nvals > 0 then do
    let c ← u.getContents
    .ok (Row.cast op c)
  else .ok []

/-- `apply` to a matrix, `sparse_apply.hpp` lines 120-131 (and 346-360, 469-483):
`T[row_idx].emplace_back(a_idx, op(a_val))` for every element. -/
def applyMat (op : α → τ) (A : Lil α) : Except Err (Lil τ) := do
  let T ← forN A.nrows (Lil.new A.nrows A.ncols) fun i T => do
    let a ← A.row i
    let t ← T.row i
    T.pokeRow i (t ++ Row.cast op a)
  .ok T.recomputeNvals

/-- `apply` to a transposed matrix, `sparse_apply.hpp` lines 176-187 (and 405-421,
530-546). -/
def applyMatT (op : α → τ) (A : Lil α) : Except Err (Lil τ) :=
  pushCols A.ncols A.nrows A.nrows fun i => do
    let a ← A.row i
    .ok (Row.cast op a)

/-! ### reduce -/

/-- `reduce` of the rows of a matrix, `sparse_reduce.hpp` lines 66-86. -/
def reduceRows (op : α → α → τ) (op' : τ → α → τ) (cast1 : α → τ) (A : Lil α) :
    Except Err (Row τ) :=
  if A.nvals > 0 then
    forN A.nrows [] fun i t => do
      let a ← A.row i
      .ok (emplaceIf1D t i (reduction op op' cast1 id a))
  else .ok []

/-- `reduce` of the rows of a transposed matrix (a column reduction),
`sparse_reduce.hpp` lines 122-140. -/
def reduceCols (op' : τ → α → τ) (cast1 : α → τ) (A : Lil α) : Except Err (Row τ) :=
  if A.nvals > 0 then
    forN A.nrows [] fun i t => do
      let a ← A.row i
      if !a.isEmpty then .ok (xpey op' cast1 t a) else .ok t
  else .ok []

/-- `opt_accum_scalar`, `sparse_helpers.hpp` lines 712-735. -/
def optAccumScalar (val : γ) (t : τ) : Accum γ τ ζ → ζ
  | .some op _ _ => op val t
  | .none cast => cast t

/-- The final assignment `val = z` of the scalar reductions; `sparse_reduce.hpp`, the end of
each scalar reduction. -/
def reduceScalarEnd (castZ : ζ → γ) (acc : Accum γ τ ζ) (val : γ) (t : τ) : γ :=
  castZ (optAccumScalar val t acc)

/-- `reduce_vector_to_scalar`, `sparse_reduce.hpp` lines 167-176: `t`. -/
def reduceVec (op : α → α → τ) (op' : τ → α → τ) (cast1 : α → τ) (e : τ) (u : BVec α) :
    Except Err τ :=
  if u.nvals > 0 then do
    let c ← u.getContents
    .ok ((reduction op op' cast1 id c).getD e)
  else .ok e

/-- `if (reduction(tmp, A[row_idx], op)) t = op(t, tmp);`, `sparse_reduce.hpp`
lines 221-224. -/
def reduceStep (opT : τ → τ → τ) (t : τ) : Option τ → τ
  | some tmp => opT t tmp
  | none => t

/-- `reduce_matrix_to_scalar`, `sparse_reduce.hpp` lines 207-229 (and, for a
transposed matrix, 260-285, the same code): `t`. `opT` is the operator on two
partial results. -/
def reduceMat (op : α → α → τ) (op' : τ → α → τ) (opT : τ → τ → τ) (cast1 : α → τ) (e : τ)
    (A : Lil α) : Except Err τ :=
  if A.nvals > 0 then
    forN A.nrows e fun i t => do
      let a ← A.row i
      if !a.isEmpty then .ok (reduceStep opT t (reduction op op' cast1 id a)) else .ok t
  else .ok e

/-! ### extract -/

/-- `if (increment_while_below(it, end, wanted))`: the element at index `j` of a
row, searched from its beginning. `sparse_extract.hpp` lines 88-93 and 183-193. -/
def seek (r : Row α) (j : Nat) : Option α := headIs j (dropBelow j r)

/-- The search of `extractColumn`, `sparse_extract.hpp` lines 243-255. -/
def scan (j : Nat) : Row α → Option α
  | [] => none
  | (k, x) :: r => if k = j then some x else if k > j then none else scan j r

/-- The search of the transposed `extractColumn`, `sparse_extract.hpp` lines
284-295: every element with the index, up to the first larger index. -/
def scanAll (j : Nat) : Row α → List α
  | [] => []
  | (k, x) :: r => if k = j then x :: scanAll j r else if k > j then [] else scanAll j r

/-- `vectorExtract`, `sparse_extract.hpp` lines 68-95; `k` is `out_idx`. -/
def vectorExtract (src : Row α) : Nat → List Nat → Row α
  | _, [] => []
  | k, j :: js => emplaceIf1D [] k (seek src j) ++ vectorExtract src (k + 1) js

/-- `if (!out_row.empty()) T.setRow(k, out_row);`, e.g. `sparse_extract.hpp` lines
132-135, `sparse_assign.hpp` lines 177-178. -/
def setRowIf (T : Lil α) (k : Nat) (out : Row α) : Except Err (Lil α) :=
  if !out.isEmpty then T.setRow k id out else .ok T

/-- `matrixExtract`, `sparse_extract.hpp` lines 125-138; `k` is `out_row_index`. -/
def matrixExtractLoop (A : Lil α) (cols : List Nat) : Nat → List Nat → Lil α → Except Err (Lil α)
  | _, [], T => .ok T
  | k, i :: is, T => do
    let a ← A.row i
    let out := vectorExtract a 0 cols
    let T ← setRowIf T k out
    matrixExtractLoop A cols (k + 1) is T

/-- The inner loop of the transposed `matrixExtract`, `sparse_extract.hpp` lines
171-194; `k` is `out_row_idx`, `l` is `out_col_idx`. -/
def matrixExtractColT (a : Row α) (k : Nat) : Nat → List Nat → Lil α → Except Err (Lil α)
  | _, [], T => .ok T
  | l, j :: js, T => do
    let T ← emplaceIf T l k (seek a j)
    matrixExtractColT a k (l + 1) js T

/-- The outer loop of the transposed `matrixExtract`, `sparse_extract.hpp` lines
157-195. `A` is the matrix before transposition, `rows`/`cols` index the
transposed matrix. -/
def matrixExtractLoopT (A : Lil α) (rows : List Nat) : Nat → List Nat → Lil α → Except Err (Lil α)
  | _, [], T => .ok T
  | k, j :: js, T => do
    let a ← A.row j
    let T ← matrixExtractColT a k 0 rows T
    matrixExtractLoopT A rows (k + 1) js T

/-- `extract` of a vector, `sparse_extract.hpp` lines 324-335. -/
def extractVec (w : BVec γ) (u : BVec α) (ix : Idx) : Except Err (Row α) := do
  checkIndexArrayContent ix u.size
  let c ← u.getContents
  .ok (vectorExtract c 0 (setupIndices ix (min w.size u.size)))

/-- `extract` of a matrix, `sparse_extract.hpp` lines 381-394. -/
def extractMat (C : Lil γ) (A : Lil α) (ri ci : Idx) : Except Err (Lil α) := do
  checkIndexArrayContent ri A.nrows
  checkIndexArrayContent ci A.ncols
  matrixExtractLoop A (setupIndices ci (min A.ncols C.ncols)) 0
    (setupIndices ri (min A.nrows C.nrows)) (Lil.new C.nrows C.ncols).clear

/-- `extract` of a transposed matrix, `sparse_extract.hpp` lines 381-394 with the
overload of `matrixExtract` on lines 146-197. `A` is the matrix before
transposition. -/
def extractMatT (C : Lil γ) (A : Lil α) (ri ci : Idx) : Except Err (Lil α) := do
  checkIndexArrayContent ri A.ncols
  checkIndexArrayContent ci A.nrows
  let T ← matrixExtractLoopT A (setupIndices ri (min A.ncols C.nrows)) 0
    (setupIndices ci (min A.nrows C.ncols)) (Lil.new C.nrows C.ncols).clear
  .ok T.recomputeNvals

/-- The loop of `extractColumn`, `sparse_extract.hpp` lines 239-256. -/
def extractColumnLoop (A : Lil α) (j : Nat) : Nat → List Nat → Except Err (Row α)
  | _, [] => .ok []
  | k, i :: is => do
    let a ← A.row i
    let rest ← extractColumnLoop A j (k + 1) is
    .ok (emplaceIf1D [] k (scan j a) ++ rest)

/-- The loop of the transposed `extractColumn`, `sparse_extract.hpp` lines 276-296. -/
def extractRowLoop (row : Row α) : Nat → List Nat → Row α
  | _, [] => []
  | k, i :: is => (scanAll i row).map (fun x => (k, x)) ++ extractRowLoop row (k + 1) is

/-- `extract` of a column, `sparse_extract.hpp` lines 441-451. -/
def extractCol (w : BVec γ) (A : Lil α) (ri : Idx) (j : Nat) : Except Err (Row α) := do
  checkIndexArrayContent ri A.nrows
  extractColumnLoop A j 0 (setupIndices ri (min A.nrows w.size))

/-- `extract` of a column of a transposed matrix, `sparse_extract.hpp` lines
441-451 with the overload on lines 262-297. `A` is the matrix before
transposition. -/
def extractColT (w : BVec γ) (A : Lil α) (ri : Idx) (j : Nat) : Except Err (Row α) := do
  checkIndexArrayContent ri A.ncols
  let row ← A.row j
  .ok (extractRowLoop row 0 (setupIndices ri (min A.ncols w.size)))

/-! ### assign -/

/-- Insertion into a list of pairs sorted by first component, before its equals; part of the
model of `std::sort`, `sparse_assign.hpp` line 79. -/
def insertPair (p : Nat × Nat) : List (Nat × Nat) → List (Nat × Nat)
  | [] => [p]
  | q :: l => if p.1 ≤ q.1 then p :: q :: l else q :: insertPair p l

/-- `std::sort` of pairs by their first component; `sparse_assign.hpp` line 79. -/
def sortPairs (l : List (Nat × Nat)) : List (Nat × Nat) := l.foldr insertPair []

/-- `compute_outin_mapping`, `sparse_assign.hpp` lines 62-80: the pairs (output
index, input index) sorted by output index. (`std::sort` leaves the order of
equal output indices open; the model uses a stable sort. It matters only for
index lists with repetitions.) -/
def outinMapping (ix : List Nat) : List (Nat × Nat) :=
  sortPairs (ix.zip (List.range ix.length))

/-- Should the search of `vectorExpand` start again from the beginning of the
source? `sparse_assign.hpp` lines 139-140; `s` is the suffix at the iterator. -/
def restart (s : Row α) (next : Nat) : Bool :=
  match s with
  | [] => true
  | (k, _) :: _ => next < k

/-- Where the search for the next pair starts, `sparse_assign.hpp` lines 134-143. -/
def nextSuffix (src s : Row α) : List (Nat × Nat) → Row α
  | [] => s
  | (_, i') :: _ => if restart s i' then src else s

/-- The loop of `vectorExpand`, `sparse_assign.hpp` lines 103-144; `s` is the suffix
of the source at `src_it`. -/
def vectorExpandLoop (src : Row α) : Row α → List (Nat × Nat) → Row α
  | _, [] => []
  | s, (o, i) :: ps =>
    emplaceIf1D [] o (headIs i (dropBelow i s)) ++
      vectorExpandLoop src (nextSuffix src (dropBelow i s) ps) ps

/-- `vectorExpand`, `sparse_assign.hpp` lines 85-145. -/
def vectorExpand (src : Row α) (pairs : List (Nat × Nat)) : Row α :=
  vectorExpandLoop src src pairs

/-- `matrixExpand`, `sparse_assign.hpp` lines 158-180; `k` is `in_row_index`. -/
def matrixExpandLoop (A : Lil α) (pairs : List (Nat × Nat)) :
    Nat → List Nat → Lil α → Except Err (Lil α)
  | _, [], T => .ok T
  | k, o :: os, T => do
    let a ← A.row k
    let T ← setRowIf T o (if !a.isEmpty then vectorExpand a pairs else [])
    matrixExpandLoop A pairs (k + 1) os T

/-- The transposed `matrixExpand`, `sparse_assign.hpp` lines 194-216. -/
def matrixExpandT (A : Lil α) (rowPairs colPairs : List (Nat × Nat)) (T : Lil α) :
    Except Err (Lil α) := do
  let T ← colPairs.foldlM (fun T p => do
    let a ← A.row p.2
    pushCol p.1 (vectorExpand a rowPairs) T) T
  .ok T.recomputeNvals

/-- `assign` to a vector, `sparse_assign.hpp` lines 293-305: `t`. -/
def assignVec (w : BVec γ) (u : BVec α) (ix : Idx) : Except Err (Row α) := do
  checkIndexArrayContent ix w.size
  let c ← u.getContents
  .ok (vectorExpand c (outinMapping (setupIndices ix u.size)))

/-- `assign` to a matrix, `sparse_assign.hpp` lines 347-358: `T`. -/
def assignMat (C : Lil γ) (A : Lil α) (ri ci : Idx) : Except Err (Lil α) := do
  checkIndexArrayContent ri C.nrows
  checkIndexArrayContent ci C.ncols
  matrixExpandLoop A (outinMapping (setupIndices ci A.ncols)) 0 (setupIndices ri A.nrows)
    (Lil.new C.nrows C.ncols).clear

/-- `assign` of a transposed matrix, `sparse_assign.hpp` lines 347-358 with the
overload of `matrixExpand` on lines 189-217. `A` is the matrix before
transposition. -/
def assignMatT (C : Lil γ) (A : Lil α) (ri ci : Idx) : Except Err (Lil α) := do
  checkIndexArrayContent ri C.nrows
  checkIndexArrayContent ci C.ncols
  matrixExpandT A (outinMapping (setupIndices ri A.ncols)) (outinMapping (setupIndices ci A.nrows))
    (Lil.new C.nrows C.ncols).clear

/-- `assign` of a constant to a vector, `sparse_assign.hpp` lines 507-515: `t`. -/
def assignConstVec (w : BVec γ) (val : α) (ix : Idx) : Except Err (Row α) := do
  checkIndexArrayContent ix w.size
  .ok ((setupIndices ix w.size).map fun i => (i, val))

/-- `assignConstant`, `sparse_assign.hpp` lines 221-243. -/
def assignConstLoop (val : α) (cols : List Nat) : List Nat → Lil α → Except Err (Lil α)
  | [], T => .ok T
  | i :: is, T => do
    let out : Row α := cols.map fun j => (j, val)
    let T ← setRowIf T i out
    assignConstLoop val cols is T

/-- `assign` of a constant to a matrix, `sparse_assign.hpp` lines 559-571: `T`. -/
def assignConstMat (C : Lil γ) (val : α) (ri ci : Idx) : Except Err (Lil α) := do
  checkIndexArrayContent ri C.nrows
  checkIndexArrayContent ci C.ncols
  assignConstLoop val (setupIndices ci C.ncols) (setupIndices ri C.nrows) (Lil.new C.nrows C.ncols)

/-! ### kronecker -/

/-- `IndexType` is `uint64_t`: products and sums wrap; `sparse_kronecker.hpp` lines 98 and
106. -/
def mul64 (a b : Nat) : Nat := a * b % 2 ^ 64
/-- The sum of two `IndexType` values, `sparse_kronecker.hpp` lines 98 and 106. -/
def add64 (a b : Nat) : Nat := (a + b) % 2 ^ 64

/-- `T[i].emplace_back(j, x)`; `sparse_kronecker.hpp` lines 105-106. -/
def pushAt (T : Lil τ) (i j : Nat) (x : τ) : Except Err (Lil τ) := do
  let t ← T.row i
  T.pokeRow i (t ++ [(j, x)])

/-- `kronecker`, `sparse_kronecker.hpp` lines 67-113: `T`. -/
def kronAB (C : Lil γ) (op : α → β → τ) (A : Lil α) (B : Lil β) : Except Err (Lil τ) :=
  if A.nvals > 0 && B.nvals > 0 then
    forN A.nrows (Lil.new C.nrows C.ncols) fun ia T => do
      let a ← A.row ia
      if a.isEmpty then .ok T
      else do
        let T ← forN B.nrows T fun ib T => do
          let b ← B.row ib
          if b.isEmpty then .ok T
          else
            a.foldlM (fun T p => b.foldlM (fun T q =>
              pushAt T (add64 (mul64 ia B.nrows) ib) (add64 (mul64 p.1 B.ncols) q.1) (op p.2 q.2)) T) T
        .ok T.recomputeNvals
  else .ok (Lil.new C.nrows C.ncols)

/-- `kronecker` with `A` transposed, `sparse_kronecker.hpp` lines 153-199. -/
def kronATB (C : Lil γ) (op : α → β → τ) (A : Lil α) (B : Lil β) : Except Err (Lil τ) :=
  if A.nvals > 0 && B.nvals > 0 then
    forN A.nrows (Lil.new C.nrows C.ncols) fun ia T => do
      let a ← A.row ia
      if a.isEmpty then .ok T
      else do
        let T ← forN B.nrows T fun ib T => do
          let b ← B.row ib
          if b.isEmpty then .ok T
          else
            a.foldlM (fun T p => b.foldlM (fun T q =>
              pushAt T (add64 (mul64 p.1 B.nrows) ib) (add64 (mul64 ia B.ncols) q.1) (op p.2 q.2)) T) T
        .ok T.recomputeNvals
  else .ok (Lil.new C.nrows C.ncols)

/-- `kronecker` with `B` transposed, `sparse_kronecker.hpp` lines 238-284. -/
def kronABT (C : Lil γ) (op : α → β → τ) (A : Lil α) (B : Lil β) : Except Err (Lil τ) :=
  if A.nvals > 0 && B.nvals > 0 then
    forN A.nrows (Lil.new C.nrows C.ncols) fun ia T => do
      let a ← A.row ia
      if a.isEmpty then .ok T
      else do
        let T ← a.foldlM (fun T p => forN B.nrows T fun ib T => do
          let b ← B.row ib
          if b.isEmpty then .ok T
          else
            b.foldlM (fun T q =>
              pushAt T (add64 (mul64 ia B.ncols) q.1) (add64 (mul64 p.1 B.nrows) ib) (op p.2 q.2)) T) T
        .ok T.recomputeNvals
  else .ok (Lil.new C.nrows C.ncols)

/-- `kronecker` with both transposed, `sparse_kronecker.hpp` lines 323-369. -/
def kronATBT (C : Lil γ) (op : α → β → τ) (A : Lil α) (B : Lil β) : Except Err (Lil τ) :=
  if A.nvals > 0 && B.nvals > 0 then
    forN A.nrows (Lil.new C.nrows C.ncols) fun ia T => do
      let a ← A.row ia
      if a.isEmpty then .ok T
      else do
        let T ← forN B.nrows T fun ib T => do
          let b ← B.row ib
          if b.isEmpty then .ok T
          else
            a.foldlM (fun T p => b.foldlM (fun T q =>
              pushAt T (add64 (mul64 p.1 B.ncols) q.1) (add64 (mul64 ia B.nrows) ib) (op p.2 q.2)) T) T
        .ok T.recomputeNvals
  else .ok (Lil.new C.nrows C.ncols)

end GBTL

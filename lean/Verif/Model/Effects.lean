import Verif.Model.Frontend
import Verif.Spec.Effects
/-
The operations of the `sequential` backend again, with operators that may throw and may
read and change a state of their own. `Verif.Model.Ops`, `Verif.Model.Mxm` and
`Verif.Model.Frontend` take the operators (the unary or binary operator, the semiring,
the accumulator) to be functions; here every call of one is a step that changes the
state `ω` of the operators and may throw an `X`. The output container is part of the
state too, so that its content when the call ends is known however it ends.

The conversions between scalar types stay functions. File names are relative to
`/repo/src/graphblas/platforms/sequential/`.
-/
namespace GBTL
open Spec (Outp MaskKind Op EAccum)

variable {ω χ X α β γ δ τ ζ μ σ : Type}

/-! ### Steps -/

/-- Why a call stops early: an exception of the library, or one that an operator threw.
No function of `/repo/src/graphblas/operations.hpp` lines 63-1121, or called from there,
catches any. -/
inductive Halt (X : Type) where
  | lib (e : Err)
  | op (x : X)
  deriving DecidableEq, Repr

/-- A piece of code: from the operators' state and the output container to a value or an
exception, and both as they are then. The functions of `operations.hpp` lines 63-1121
take the output by reference. -/
def Act (ω χ X τ : Type) : Type := ω × χ → Except (Halt X) τ × (ω × χ)

namespace Act

/-- The code that follows; an exception ends everything, as there is no `try` in
`/repo/src/graphblas/operations.hpp` lines 63-1121. -/
def andThen (x : Act ω χ X σ) (f : σ → Act ω χ X τ) : Act ω χ X τ := fun s =>
  match x s with
  | (.ok a, s1) => f a s1
  | (.error h, s1) => (.error h, s1)

instance : Monad (Act ω χ X) where
  pure a := fun s => (.ok a, s)
  bind := andThen

/-- A call of an operator: it sees its own state, not the output. E.g.
`sparse_apply.hpp` line 73. -/
def call (f : Op ω X τ) : Act ω χ X τ := fun s =>
  match f s.1 with
  | (.ok a, w) => (.ok a, (w, s.2))
  | (.error x, w) => (.error (.op x), (w, s.2))

/-- Code that calls no operator and does not change the output, e.g. the checks of
`operations.hpp` lines 84-88. -/
def lib (x : Except Err τ) : Act ω χ X τ := fun s =>
  match x with
  | .ok a => (.ok a, s)
  | .error e => (.error (.lib e), s)

/-- Reading the output container, e.g. `C.nrows()` in `sparse_mxm.hpp` line 73. -/
def output : Act ω χ X χ := fun s => (.ok s.2, s)

/-- The output container gets a new content, e.g. by `write_with_opt_mask`,
`sparse_mxm.hpp` line 108. -/
def store (c : χ) : Act ω χ X Unit := fun s => (.ok (), (s.1, c))

end Act

open Act (call lib output store)

/-- `for (i = 0; i < n; ++i) body(i)`; as in `sparse_mxm.hpp` line 78. -/
def forA (n : Nat) (s : σ) (body : Nat → σ → Act ω χ X σ) : Act ω χ X σ :=
  (List.range n).foldlM (fun s i => body i s) s

/-! ### Rows -/

/-- `for (auto&& [idx, val] : row) out.emplace_back(idx, op(val));`, `sparse_apply.hpp`
lines 71-75. -/
def mapRowE (op : α → Op ω X τ) : Row α → Act ω χ X (Row τ)
  | [] => pure []
  | (i, x) :: r => do
    let y ← call (op x)
    let ys ← mapRowE op r
    pure ((i, y) :: ys)

/-- `ewise_or`, `sparse_helpers.hpp` lines 352-411. -/
def ewiseOrE (op : α → β → Op ω X δ) (c1 : α → δ) (c2 : β → δ) :
    Row α → Row β → Act ω χ X (Row δ)
  | [], [] => pure []
  | (i, x) :: r, [] => do
    let z ← ewiseOrE op c1 c2 r []
    pure ((i, c1 x) :: z)
  | [], (j, y) :: s => do
    let z ← ewiseOrE op c1 c2 [] s
    pure ((j, c2 y) :: z)
  | (i, x) :: r, (j, y) :: s =>
    if j = i then do
      let v ← call (op x y)
      let z ← ewiseOrE op c1 c2 r s
      pure ((i, v) :: z)
    else if j > i then do
      let z ← ewiseOrE op c1 c2 r ((j, y) :: s)
      pure ((i, c1 x) :: z)
    else do
      let z ← ewiseOrE op c1 c2 ((i, x) :: r) s
      pure ((j, c2 y) :: z)
termination_by r s => r.length + s.length

/-- `ewise_and`, `sparse_helpers.hpp` lines 740-774. -/
def ewiseAndE (op : α → β → Op ω X δ) : Row α → Row β → Act ω χ X (Row δ)
  | (i, x) :: r, (j, y) :: s =>
    if j = i then do
      let v ← call (op x y)
      let z ← ewiseAndE op r s
      pure ((i, v) :: z)
    else if j > i then ewiseAndE op r ((j, y) :: s)
    else ewiseAndE op ((i, x) :: r) s
  | [], _ => pure []
  | _, [] => pure []
termination_by r s => r.length + s.length

/-- The loop of `dot`, `sparse_helpers.hpp` lines 223-250: the multiply is called before
the add that takes its result. -/
def dotLoopE (add : τ → τ → Op ω X τ) (mult : α → β → Op ω X τ) :
    Row α → Row β → Option τ → Act ω χ X (Option τ)
  | (i, x) :: r, (j, y) :: s, ans =>
    if j = i then do
      let p ← call (mult x y)
      match ans with
      | some a => do
        let v ← call (add a p)
        dotLoopE add mult r s (some v)
      | none => dotLoopE add mult r s (some p)
    else if j > i then dotLoopE add mult r ((j, y) :: s) ans
    else dotLoopE add mult ((i, x) :: r) s ans
  | [], _, ans => pure ans
  | _, [], ans => pure ans
termination_by r s => r.length + s.length

/-- `dot`, `sparse_helpers.hpp` lines 206-253. -/
def dotE (add : τ → τ → Op ω X τ) (mult : α → β → Op ω X τ) (v1 : Row α) (v2 : Row β) :
    Act ω χ X (Option τ) :=
  if v2.isEmpty || v1.isEmpty then pure none else dotLoopE add mult v1 v2 none

/-- `dot_rev`, `sparse_helpers.hpp` lines 258-305. -/
def dotRevE (add : τ → τ → Op ω X τ) (mult : α → β → Op ω X τ) (v2 : Row α) (v1 : Row β) :
    Act ω χ X (Option τ) :=
  if v2.isEmpty || v1.isEmpty then pure none
  else dotLoopE add (fun b a => mult a b) v1 v2 none

/-- `reduction`, `sparse_helpers.hpp` lines 311-344; the answer has the operator's type. -/
def reductionE (op : α → α → Op ω X τ) (op' : τ → α → Op ω X τ) (cast1 : α → τ) :
    Row α → Act ω χ X (Option τ)
  | [] => pure none
  | [(_, x)] => pure (some (cast1 x))
  | (_, x) :: (_, y) :: r => do
    let t ← call (op x y)
    let t ← r.foldlM (fun t p => call (op' t p.2)) t
    pure (some t)

/-- `axpy`, `sparse_helpers.hpp` lines 1377-1409: the multiply (line 1395) is called before
the place of its result is sought. -/
def axpyE (add : τ → τ → Op ω X τ) (mult : α → β → Op ω X τ) (a : α) :
    Row τ → Row β → Act ω χ X (Row τ)
  | c, [] => pure c
  | c, (j, b) :: bs => do
    let t ← call (mult a b)
    match headIs j (dropBelow j c) with
    | some x => do
      let v ← call (add x t)
      let z ← axpyE add mult a (dropBelow j c).tail bs
      pure (takeBelow j c ++ (j, v) :: z)
    | none => do
      let z ← axpyE add mult a (dropBelow j c) bs
      pure (takeBelow j c ++ (j, t) :: z)

/-- `xpey`, `sparse_helpers.hpp` lines 1341-1366. -/
def xpeyE (op : α → β → Op ω X α) (cast : β → α) : Row α → Row β → Act ω χ X (Row α)
  | v1, [] => pure v1
  | v1, (j, y) :: s =>
    match headIs j (dropBelow j v1) with
    | some x => do
      let v ← call (op x y)
      let z ← xpeyE op cast (dropBelow j v1).tail s
      pure (takeBelow j v1 ++ (j, v) :: z)
    | none => do
      let z ← xpeyE op cast (dropBelow j v1) s
      pure (takeBelow j v1 ++ (j, cast y) :: z)

/-! ### The intermediate result -/

/-- `apply` to a vector, `sparse_apply.hpp` lines 68-76. -/
def applyVecE (op : α → Op ω X τ) (u : BVec α) : Act ω χ X (Row τ) :=
  if u.nvals > 0 then do
    let c ← lib u.getContents
    mapRowE op c
  else pure []

/-- `apply` to a matrix, `sparse_apply.hpp` lines 120-131. -/
def applyMatE (op : α → Op ω X τ) (A : Lil α) : Act ω χ X (Lil τ) := do
  let T ← forA A.nrows (Lil.new A.nrows A.ncols) fun i T => do
    let a ← lib (A.row i)
    let t ← lib (T.row i)
    let r ← mapRowE op a
    lib (T.pokeRow i (t ++ r))
  pure T.recomputeNvals

/-- The loop pushing one computed row after the other as a column; `sparse_apply.hpp`
lines 178-187, `sparse_ewiseadd.hpp` lines 253-285. In `apply` each result is pushed
before the next call (lines 182-185); the matrix it is pushed to is a local one, so the
order of the pushes and the calls cannot be seen. -/
def pushColsE (m n k : Nat) (row : Nat → Act ω χ X (Row τ)) : Act ω χ X (Lil τ) := do
  let T ← forA k (Lil.new m n) fun i T => do
    let r ← row i
    lib (pushCol i r T)
  pure T.recomputeNvals

/-- `apply` to a transposed matrix, `sparse_apply.hpp` lines 176-187. -/
def applyMatTE (op : α → Op ω X τ) (A : Lil α) : Act ω χ X (Lil τ) :=
  pushColsE A.ncols A.nrows A.nrows fun i => do
    let a ← lib (A.row i)
    mapRowE op a

/-- `eWiseAdd` of vectors, `sparse_ewiseadd.hpp` lines 71-80. -/
def ewiseAddVecE (op : α → β → Op ω X τ) (c1 : α → τ) (c2 : β → τ) (u : BVec α) (v : BVec β) :
    Act ω χ X (Row τ) :=
  if u.nvals > 0 || v.nvals > 0 then do
    let a ← lib u.getContents
    let b ← lib v.getContents
    ewiseOrE op c1 c2 a b
  else pure []

/-- One row of `eWiseAdd` of matrices, `sparse_ewiseadd.hpp` lines 129-150. -/
def ewiseAddRowE (op : α → β → Op ω X τ) (c1 : α → τ) (c2 : β → τ) (a : Row α) (b : Row β) :
    Act ω χ X (Row τ) :=
  if b.isEmpty then pure (Row.cast c1 a)
  else if a.isEmpty then pure (Row.cast c2 b)
  else ewiseOrE op c1 c2 a b

/-- `eWiseAdd` of matrices, `sparse_ewiseadd.hpp` lines 119-153. -/
def ewiseAddMatE (op : α → β → Op ω X τ) (c1 : α → τ) (c2 : β → τ) (A : Lil α) (B : Lil β) :
    Act ω χ X (Lil τ) :=
  if A.nvals > 0 || B.nvals > 0 then
    forA A.nrows (Lil.new A.nrows A.ncols) fun i T => do
      let a ← lib (A.row i)
      let b ← lib (B.row i)
      let t ← ewiseAddRowE op c1 c2 a b
      lib (T.setRow i id t)
  else pure (Lil.new A.nrows A.ncols)

/-- `eWiseAdd` of two transposed matrices, `sparse_ewiseadd.hpp` lines 243-288. -/
def ewiseAddATBTE (op : α → β → Op ω X τ) (c1 : α → τ) (c2 : β → τ) (A : Lil α) (B : Lil β) :
    Act ω χ X (Lil τ) :=
  if A.nvals > 0 || B.nvals > 0 then
    pushColsE A.ncols A.nrows A.nrows fun i => do
      let a ← lib (A.row i)
      let b ← lib (B.row i)
      ewiseAddRowE op c1 c2 a b
  else pure (Lil.new A.ncols A.nrows)

/-- `eWiseMult` of vectors, `sparse_ewisemult.hpp` lines 72-81. -/
def ewiseMultVecE (op : α → β → Op ω X τ) (u : BVec α) (v : BVec β) : Act ω χ X (Row τ) :=
  if u.nvals > 0 && v.nvals > 0 then do
    let a ← lib u.getContents
    let b ← lib v.getContents
    ewiseAndE op a b
  else pure []

/-- `eWiseMult` of matrices, `sparse_ewisemult.hpp` lines 119-146. -/
def ewiseMultMatE (op : α → β → Op ω X τ) (A : Lil α) (B : Lil β) : Act ω χ X (Lil τ) :=
  if A.nvals > 0 && B.nvals > 0 then
    forA A.nrows (Lil.new A.nrows A.ncols) fun i T => do
      let a ← lib (A.row i)
      let b ← lib (B.row i)
      if !a.isEmpty && !b.isEmpty then do
        let t ← ewiseAndE op a b
        if !t.isEmpty then lib (T.setRow i id t) else pure T
      else pure T
  else pure (Lil.new A.nrows A.ncols)

/-- `eWiseMult` of two transposed matrices, `sparse_ewisemult.hpp` lines 236-268. -/
def ewiseMultATBTE (op : α → β → Op ω X τ) (A : Lil α) (B : Lil β) : Act ω χ X (Lil τ) :=
  if A.nvals > 0 && B.nvals > 0 then
    pushColsE A.ncols A.nrows A.nrows fun i => do
      let a ← lib (A.row i)
      let b ← lib (B.row i)
      if !a.isEmpty && !b.isEmpty then ewiseAndE op a b else pure []
  else pure (Lil.new A.ncols A.nrows)

/-- `reduce` of the rows of a matrix, `sparse_reduce.hpp` lines 66-86. -/
def reduceRowsE (op : α → α → Op ω X τ) (op' : τ → α → Op ω X τ) (cast1 : α → τ) (A : Lil α) :
    Act ω χ X (Row τ) :=
  if A.nvals > 0 then
    forA A.nrows [] fun i t => do
      let a ← lib (A.row i)
      let r ← reductionE op op' cast1 a
      pure (emplaceIf1D t i r)
  else pure []

/-- `reduce` of the columns of a matrix, `sparse_reduce.hpp` lines 122-140. -/
def reduceColsE (op' : τ → α → Op ω X τ) (cast1 : α → τ) (A : Lil α) : Act ω χ X (Row τ) :=
  if A.nvals > 0 then
    forA A.nrows [] fun i t => do
      let a ← lib (A.row i)
      if !a.isEmpty then xpeyE op' cast1 t a else pure t
  else pure []

/-- `reduce_vector_to_scalar`, `sparse_reduce.hpp` lines 167-176: `t`. -/
def reduceVecE (op : α → α → Op ω X τ) (op' : τ → α → Op ω X τ) (cast1 : α → τ) (e : τ)
    (u : BVec α) : Act ω χ X τ :=
  if u.nvals > 0 then do
    let c ← lib u.getContents
    let r ← reductionE op op' cast1 c
    pure (r.getD e)
  else pure e

/-- `if (reduction(tmp, A[row_idx], op)) t = op(t, tmp);`, `sparse_reduce.hpp` lines
221-224. -/
def reduceStepE (opT : τ → τ → Op ω X τ) (t : τ) : Option τ → Act ω χ X τ
  | some tmp => call (opT t tmp)
  | none => pure t

/-- `reduce_matrix_to_scalar`, `sparse_reduce.hpp` lines 207-229 and 260-285: `t`. -/
def reduceMatE (op : α → α → Op ω X τ) (op' : τ → α → Op ω X τ) (opT : τ → τ → Op ω X τ)
    (cast1 : α → τ) (e : τ) (A : Lil α) : Act ω χ X τ :=
  if A.nvals > 0 then
    forA A.nrows e fun i t => do
      let a ← lib (A.row i)
      if !a.isEmpty then do
        let r ← reductionE op op' cast1 a
        reduceStepE opT t r
      else pure t
  else pure e

/-- `mxm`, `A*B`, `sparse_mxm.hpp` lines 76-89. -/
def mxmABE (C : Lil γ) (add : τ → τ → Op ω X τ) (mult : α → β → Op ω X τ) (A : Lil α)
    (B : Lil β) : Act ω χ X (Lil τ) :=
  forA A.nrows (Lil.new C.nrows C.ncols) fun i T => do
    let a ← lib (A.row i)
    a.foldlM (fun T p => do
      let b ← lib (B.row p.1)
      if b.isEmpty then pure T
      else do
        let t ← lib (T.row i)
        let r ← axpyE add mult p.2 t b
        lib (T.pokeRow i r)) T

/-- `mxm`, `A'*B`, `sparse_mxm.hpp` lines 138-149. -/
def mxmATBE (C : Lil γ) (add : τ → τ → Op ω X τ) (mult : α → β → Op ω X τ) (A : Lil α)
    (B : Lil β) : Act ω χ X (Lil τ) :=
  forA A.nrows (Lil.new C.nrows C.ncols) fun k T => do
    let a ← lib (A.row k)
    let b ← lib (B.row k)
    if a.isEmpty || b.isEmpty then pure T
    else a.foldlM (fun T p => do
      let t ← lib (T.row p.1)
      let r ← axpyE add mult p.2 t b
      lib (T.pokeRow p.1 r)) T

/-- `mxm`, `A*B'`, `sparse_mxm.hpp` lines 196-226. -/
def mxmABTE (C : Lil γ) (add : τ → τ → Op ω X τ) (mult : α → β → Op ω X τ) (A : Lil α)
    (B : Lil β) : Act ω χ X (Lil τ) :=
  if A.nvals > 0 && B.nvals > 0 then do
    let T ← forA A.nrows (Lil.new C.nrows C.ncols) fun i T => do
      let a ← lib (A.row i)
      if a.isEmpty then pure T
      else forA B.nrows T fun j T => do
        let b ← lib (B.row j)
        if b.isEmpty then pure T
        else do
          let d ← dotE add mult a b
          lib (emplaceIf T i j d)
    pure T.recomputeNvals
  else pure (Lil.new C.nrows C.ncols)

/-- `mxm`, `A'*B'`, `sparse_mxm.hpp` lines 271-296. -/
def mxmATBTE (C : Lil γ) (add : τ → τ → Op ω X τ) (mult : β → α → Op ω X τ) (via : τ → τ)
    (A : Lil α) (B : Lil β) : Act ω χ X (Lil τ) :=
  forA B.nrows (Lil.new C.nrows C.ncols) fun i T => do
    let b ← lib (B.row i)
    let tRow ← b.foldlM (fun (tRow : Row τ) p => do
      let a ← lib (A.row p.1)
      if a.isEmpty then pure tRow else axpyE add mult p.2 tRow a) []
    lib (tRow.foldlM (fun T p => do
      let t ← T.row p.1
      T.pokeRow p.1 (t ++ [(i, via p.2)])) T)

/-- `mxv`, `A*u`, `sparse_mxv.hpp` lines 67-92. -/
def mxvAE (w : BVec γ) (add : τ → τ → Op ω X τ) (mult : α → β → Op ω X τ) (A : Lil α)
    (u : BVec β) : Act ω χ X (Row τ) :=
  if A.nvals > 0 && u.nvals > 0 then do
    let uc ← lib u.getContents
    forA w.size [] fun i t => do
      let a ← lib (A.row i)
      if a.isEmpty then pure t
      else do
        let d ← dotRevE add mult a uc
        pure (emplaceIf1D t i d)
  else pure []

/-- `vxm`, `u*A`, `sparse_vxm.hpp` lines 66-79, and `mxv`, `A'*u`, `sparse_mxv.hpp` lines
136-149. -/
def vxmAE (add : τ → τ → Op ω X τ) (mult : β → α → Op ω X τ) (u : BVec β) (A : Lil α) :
    Act ω χ X (Row τ) :=
  if A.nvals > 0 && u.nvals > 0 then
    forA u.size [] fun i t => do
      let h ← lib (u.hasElement i)
      if !h then pure t
      else do
        let a ← lib (A.row i)
        if a.isEmpty then pure t
        else do
          let x ← lib (u.extractElement i)
          axpyE add mult x t a
  else pure []

/-- `vxm`, `u*A'`, `sparse_vxm.hpp` lines 121-141. -/
def vxmATE (w : BVec γ) (add : τ → τ → Op ω X τ) (mult : β → α → Op ω X τ) (u : BVec β)
    (A : Lil α) : Act ω χ X (Row τ) :=
  if A.nvals > 0 && u.nvals > 0 then do
    let uc ← lib u.getContents
    forA w.size [] fun i t => do
      let a ← lib (A.row i)
      if a.isEmpty then pure t
      else do
        let d ← dotE add mult uc a
        pure (emplaceIf1D t i d)
  else pure []

/-- `kronecker`, `sparse_kronecker.hpp` lines 67-113. -/
def kronABE (C : Lil γ) (op : α → β → Op ω X τ) (A : Lil α) (B : Lil β) : Act ω χ X (Lil τ) :=
  if A.nvals > 0 && B.nvals > 0 then
    forA A.nrows (Lil.new C.nrows C.ncols) fun ia T => do
      let a ← lib (A.row ia)
      if a.isEmpty then pure T
      else do
        let T ← forA B.nrows T fun ib T => do
          let b ← lib (B.row ib)
          if b.isEmpty then pure T
          else
            a.foldlM (fun T p => b.foldlM (fun T q => do
              let v ← call (op p.2 q.2)
              lib (pushAt T (add64 (mul64 ia B.nrows) ib) (add64 (mul64 p.1 B.ncols) q.1) v)) T) T
        pure T.recomputeNvals
  else pure (Lil.new C.nrows C.ncols)

/-- `kronecker` with `A` transposed, `sparse_kronecker.hpp` lines 153-199. -/
def kronATBE (C : Lil γ) (op : α → β → Op ω X τ) (A : Lil α) (B : Lil β) : Act ω χ X (Lil τ) :=
  if A.nvals > 0 && B.nvals > 0 then
    forA A.nrows (Lil.new C.nrows C.ncols) fun ia T => do
      let a ← lib (A.row ia)
      if a.isEmpty then pure T
      else do
        let T ← forA B.nrows T fun ib T => do
          let b ← lib (B.row ib)
          if b.isEmpty then pure T
          else
            a.foldlM (fun T p => b.foldlM (fun T q => do
              let v ← call (op p.2 q.2)
              lib (pushAt T (add64 (mul64 p.1 B.nrows) ib) (add64 (mul64 ia B.ncols) q.1) v)) T) T
        pure T.recomputeNvals
  else pure (Lil.new C.nrows C.ncols)

/-- `kronecker` with `B` transposed, `sparse_kronecker.hpp` lines 238-284. -/
def kronABTE (C : Lil γ) (op : α → β → Op ω X τ) (A : Lil α) (B : Lil β) : Act ω χ X (Lil τ) :=
  if A.nvals > 0 && B.nvals > 0 then
    forA A.nrows (Lil.new C.nrows C.ncols) fun ia T => do
      let a ← lib (A.row ia)
      if a.isEmpty then pure T
      else do
        let T ← a.foldlM (fun T p => forA B.nrows T fun ib T => do
          let b ← lib (B.row ib)
          if b.isEmpty then pure T
          else
            b.foldlM (fun T q => do
              let v ← call (op p.2 q.2)
              lib (pushAt T (add64 (mul64 ia B.ncols) q.1) (add64 (mul64 p.1 B.nrows) ib) v)) T) T
        pure T.recomputeNvals
  else pure (Lil.new C.nrows C.ncols)

/-- `kronecker` with both transposed, `sparse_kronecker.hpp` lines 323-369. -/
def kronATBTE (C : Lil γ) (op : α → β → Op ω X τ) (A : Lil α) (B : Lil β) : Act ω χ X (Lil τ) :=
  if A.nvals > 0 && B.nvals > 0 then
    forA A.nrows (Lil.new C.nrows C.ncols) fun ia T => do
      let a ← lib (A.row ia)
      if a.isEmpty then pure T
      else do
        let T ← forA B.nrows T fun ib T => do
          let b ← lib (B.row ib)
          if b.isEmpty then pure T
          else
            a.foldlM (fun T p => b.foldlM (fun T q => do
              let v ← call (op p.2 q.2)
              lib (pushAt T (add64 (mul64 p.1 B.ncols) q.1) (add64 (mul64 ia B.nrows) ib) v)) T) T
        pure T.recomputeNvals
  else pure (Lil.new C.nrows C.ncols)

/-! ### Arguments -/

/-- The arguments of a matrix operation that control the write, as in `MOut`; the output
itself is in the state. Parameters `Mask`, `accum`, `outp`, `operations.hpp` lines 71-76. -/
structure EMOut (ω X γ τ ζ μ : Type) where
  M : MMask μ
  truthy : μ → Bool
  acc : EAccum ω X γ τ ζ
  castZ : ζ → γ
  outp : Outp

/-- The same for a vector operation, `operations.hpp` lines 114-119. -/
structure EVOut (ω X γ τ ζ μ : Type) where
  m : VMask μ
  truthy : μ → Bool
  acc : EAccum ω X γ τ ζ
  castZ : ζ → γ
  outp : Outp

/-- A semiring argument, as `SR`; parameter `op` of `operations.hpp` lines 73, 116, 152. -/
structure ESR (ω X α β τ : Type) where
  add : τ → τ → Op ω X τ
  mult : α → β → Op ω X τ
  multSwap : β → α → Op ω X τ

/-- The operator of an element-wise operation, as `EW`; parameter `op` of `operations.hpp`
lines 195, 232, 281, 321. -/
structure EEW (ω X α β τ : Type) where
  op : α → β → Op ω X τ
  c1 : α → τ
  c2 : β → τ
  castBA : β → α
  opA : α → α → Op ω X τ
  c2A : α → τ

/-- The operator of a reduction, as `RedOp`; parameter `op` of `operations.hpp` lines 965,
999 and 1027. -/
structure ERedOp (ω X α τ : Type) where
  op : α → α → Op ω X τ
  op' : τ → α → Op ω X τ
  opT : τ → τ → Op ω X τ
  first : α → τ

/-! ### Accumulate and write -/

/-- `ewise_or_opt_accum`, `sparse_helpers.hpp` lines 645-675, into a fresh `Z`. -/
def accumMatE (C : Lil γ) (acc : EAccum ω X γ τ ζ) (T : Lil τ) : Act ω χ X (Lil ζ) :=
  match acc with
  | .some op cC cT =>
    forA (Lil.new (α := ζ) C.nrows C.ncols).nrows (Lil.new C.nrows C.ncols) fun i Z => do
      let c ← lib (C.row i)
      let t ← lib (T.row i)
      let z ← ewiseOrE op cC cT c t
      lib (Z.setRow i id z)
  | .none cast => lib (sparseCopy cast (Lil.new C.nrows C.ncols) T)

/-- `ewise_or_opt_accum_1D`, `sparse_helpers.hpp` lines 682-709. -/
def accumVecE (w : BVec γ) (acc : EAccum ω X γ τ ζ) (t : Row τ) : Act ω χ X (Row ζ) :=
  match acc with
  | .some op cC cT => do
    let c ← lib w.getContents
    ewiseOrE op cC cT c t
  | .none cast => pure (t.map fun p => (p.1, cast p.2))

/-- `ewise_or_stencil_opt_accum`, `sparse_helpers.hpp` lines 580-638. -/
def accumStencilE (keep : γ → ζ) (C : Lil γ) (acc : EAccum ω X γ τ ζ) (T : Lil τ) (ri ci : Idx) :
    Act ω χ X (Lil ζ) :=
  match acc with
  | .some op cC cT =>
    forA (Lil.new (α := ζ) C.nrows C.ncols).nrows (Lil.new C.nrows C.ncols) fun i Z => do
      let c ← lib (C.row i)
      let t ← lib (T.row i)
      let z ← ewiseOrE op cC cT c t
      lib (Z.setRow i id z)
  | .none cast =>
    lib (ewiseOrStencilOptAccum keep (Lil.new C.nrows C.ncols) C T ri ci (.none cast))

/-- `ewise_or_stencil_opt_accum_1D`, `sparse_helpers.hpp` lines 544-570. -/
def accumStencil1DE (keep : γ → ζ) (w : BVec γ) (acc : EAccum ω X γ τ ζ) (t : Row τ) (ix : Idx) :
    Act ω χ X (Row ζ) :=
  match acc with
  | .some op cC cT => do
    let c ← lib w.getContents
    ewiseOrE op cC cT c t
  | .none cast => lib (ewiseOrStencilOptAccum1D keep w t ix (.none cast))

/-- A matrix operation: checks, `T`, accumulate into `Z`, write. The shape of every function
of `sparse_*.hpp`, e.g. `sparse_mxm.hpp` lines 60-110. `write_with_opt_mask` calls no
operator; should it throw (it does not on consistent containers), the model keeps the
output as it was. -/
def EMOut.op (o : EMOut ω X γ τ ζ μ) (checks : Lil γ → Except Err Unit)
    (T : Lil γ → Act ω (Lil γ) X (Lil τ)) : Act ω (Lil γ) X Unit := do
  let C ← output
  lib (checks C)
  let T ← T C
  let C ← output
  let Z ← accumMatE C o.acc T
  let C ← output
  let C' ← lib (writeWithOptMask o.truthy o.castZ C Z o.M o.outp)
  store C'

/-- A vector operation, e.g. `sparse_mxv.hpp` lines 55-109. -/
def EVOut.op (o : EVOut ω X γ τ ζ μ) (checks : BVec γ → Except Err Unit)
    (t : BVec γ → Act ω (BVec γ) X (Row τ)) : Act ω (BVec γ) X Unit := do
  let w ← output
  lib (checks w)
  let t ← t w
  let w ← output
  let z ← accumVecE w o.acc t
  let w ← output
  let w' ← lib (writeWithOptMask1D o.truthy o.castZ w z o.m o.outp)
  store w'

/-- A matrix assignment, `sparse_assign.hpp` lines 330-400. -/
def EMOut.opStencil (o : EMOut ω X γ τ ζ μ) (keep : γ → ζ) (ri ci : List Nat)
    (checks : Lil γ → Except Err Unit) (T : Lil γ → Act ω (Lil γ) X (Lil τ)) :
    Act ω (Lil γ) X Unit := do
  let C ← output
  lib (checks C)
  let T ← T C
  let C ← output
  let Z ← accumStencilE keep C o.acc T (.list ri) (.list ci)
  let C ← output
  let C' ← lib (writeWithOptMask o.truthy o.castZ C Z o.M o.outp)
  store C'

/-- A vector assignment, `sparse_assign.hpp` lines 281-325. -/
def EVOut.opStencil (o : EVOut ω X γ τ ζ μ) (keep : γ → ζ) (ix : List Nat)
    (checks : BVec γ → Except Err Unit) (t : BVec γ → Act ω (BVec γ) X (Row τ)) :
    Act ω (BVec γ) X Unit := do
  let w ← output
  lib (checks w)
  let t ← t w
  let w ← output
  let z ← accumStencil1DE keep w o.acc t (.list ix)
  let w ← output
  let w' ← lib (writeWithOptMask1D o.truthy o.castZ w z o.m o.outp)
  store w'

/-- The end of a scalar reduction: `val` is read for the accumulator and then assigned;
`sparse_reduce.hpp` lines 176-185, `opt_accum_scalar`, `sparse_helpers.hpp` lines 712-735. -/
def reduceScalarEndE (castZ : ζ → γ) (acc : EAccum ω X γ τ ζ) (t : τ) : Act ω γ X Unit := do
  let val ← output
  let z ← match acc with
    | .some op _ _ => call (op val t)
    | .none cast => pure (cast t)
  store (castZ z)

/-! ### The calls -/

/-- `mxm`, `operations.hpp` lines 63-102. -/
def mxmE (o : EMOut ω X γ τ ζ μ) (sr : ESR ω X α β τ) (via : τ → τ) (A : Operand α)
    (B : Operand β) : Act ω (Lil γ) X Unit :=
  o.op
    (fun C => do
      o.M.rowCheck C.nrows
      o.M.colCheck C.ncols
      eqCheck C.nrows A.nrows
      eqCheck C.ncols B.ncols
      eqCheck A.ncols B.nrows)
    fun C =>
      match A, B with
      | .plain A, .plain B => mxmABE C sr.add sr.mult A B
      | .tr A, .plain B => mxmATBE C sr.add sr.mult A B
      | .plain A, .tr B => mxmABTE C sr.add sr.mult A B
      | .tr A, .tr B => mxmATBTE C sr.add sr.multSwap via A B

/-- `vxm`, `operations.hpp` lines 106-138. -/
def vxmE (o : EVOut ω X γ τ ζ μ) (sr : ESR ω X α β τ) (u : BVec α) (A : Operand β) :
    Act ω (BVec γ) X Unit :=
  o.op
    (fun w => do
      o.m.sizeCheck w.size
      eqCheck w.size A.ncols
      eqCheck u.size A.nrows)
    fun w =>
      match A with
      | .plain A => vxmAE sr.add sr.mult u A
      | .tr A => vxmATE w sr.add sr.mult u A

/-- `mxv`, `operations.hpp` lines 142-173. -/
def mxvE (o : EVOut ω X γ τ ζ μ) (sr : ESR ω X α β τ) (A : Operand α) (u : BVec β) :
    Act ω (BVec γ) X Unit :=
  o.op
    (fun w => do
      o.m.sizeCheck w.size
      eqCheck w.size A.nrows
      eqCheck u.size A.ncols)
    fun w =>
      match A with
      | .plain A => mxvAE w sr.add sr.mult A u
      | .tr A => vxmAE sr.add sr.multSwap u A

/-- The shape checks of the element-wise vector operations, `operations.hpp` lines
209-211. -/
def EVOut.checks2 (o : EVOut ω X γ τ ζ μ) (u : BVec α) (v : BVec β) (w : BVec γ) :
    Except Err Unit := do
  o.m.sizeCheck w.size
  eqCheck w.size u.size
  eqCheck u.size v.size

/-- The shape checks of the element-wise matrix operations, `operations.hpp` lines
246-251. -/
def EMOut.checks2 (o : EMOut ω X γ τ ζ μ) (A : Operand α) (B : Operand β) (C : Lil γ) :
    Except Err Unit := do
  o.M.colCheck C.ncols
  o.M.rowCheck C.nrows
  eqCheck C.ncols A.ncols
  eqCheck C.nrows A.nrows
  eqCheck A.ncols B.ncols
  eqCheck A.nrows B.nrows

/-- `eWiseAdd` on vectors, `operations.hpp` lines 266-308. -/
def eWiseAddVE (o : EVOut ω X γ τ ζ μ) (f : EEW ω X α β τ) (u : BVec α) (v : BVec β) :
    Act ω (BVec γ) X Unit :=
  o.op (o.checks2 u v) fun _ => ewiseAddVecE f.op f.c1 f.c2 u v

/-- `eWiseAdd` on matrices, `operations.hpp` lines 310-351; the overloads with one operand
transposed store that transpose first, `sparse_ewiseadd.hpp` lines 179-221. -/
def eWiseAddME (o : EMOut ω X γ τ ζ μ) (f : EEW ω X α β τ) (A : Operand α) (B : Operand β) :
    Act ω (Lil γ) X Unit :=
  o.op (o.checks2 A B) fun _ =>
    match A, B with
    | .plain A, .plain B => ewiseAddMatE f.op f.c1 f.c2 A B
    | .tr A, .plain B => do
      let At ← lib (transposed id A)
      ewiseAddMatE f.op f.c1 f.c2 At B
    | .plain A, .tr B => do
      let Bt ← lib (transposed f.castBA B)
      ewiseAddMatE f.opA f.c1 f.c2A A Bt
    | .tr A, .tr B => ewiseAddATBTE f.op f.c1 f.c2 A B

/-- `eWiseMult` on vectors, `operations.hpp` lines 180-219. -/
def eWiseMultVE (o : EVOut ω X γ τ ζ μ) (f : EEW ω X α β τ) (u : BVec α) (v : BVec β) :
    Act ω (BVec γ) X Unit :=
  o.op (o.checks2 u v) fun _ => ewiseMultVecE f.op u v

/-- `eWiseMult` on matrices, `operations.hpp` lines 221-262; the overloads with one operand
transposed, `sparse_ewisemult.hpp` lines 172-214. -/
def eWiseMultME (o : EMOut ω X γ τ ζ μ) (f : EEW ω X α β τ) (A : Operand α) (B : Operand β) :
    Act ω (Lil γ) X Unit :=
  o.op (o.checks2 A B) fun _ =>
    match A, B with
    | .plain A, .plain B => ewiseMultMatE f.op A B
    | .tr A, .plain B => do
      let At ← lib (transposed id A)
      ewiseMultMatE f.op At B
    | .plain A, .tr B => do
      let Bt ← lib (transposed f.castBA B)
      ewiseMultMatE f.opA A Bt
    | .tr A, .tr B => ewiseMultATBTE f.op A B

/-- `apply` on a vector, `operations.hpp` lines 729-762; with a bound scalar lines
802-872. -/
def applyVE (o : EVOut ω X γ τ ζ μ) (f : α → Op ω X τ) (u : BVec α) : Act ω (BVec γ) X Unit :=
  o.op
    (fun w => do
      o.m.sizeCheck w.size
      eqCheck w.size u.size)
    fun _ => applyVecE f u

/-- `apply` on a matrix, `operations.hpp` lines 764-800; with a bound scalar lines
874-949. -/
def applyME (o : EMOut ω X γ τ ζ μ) (f : α → Op ω X τ) (A : Operand α) : Act ω (Lil γ) X Unit :=
  o.op
    (fun C => do
      o.M.colCheck C.ncols
      o.M.rowCheck C.nrows
      eqCheck C.ncols A.ncols
      eqCheck C.nrows A.nrows)
    fun _ =>
      match A with
      | .plain A => applyMatE f A
      | .tr A => applyMatTE f A

/-- `reduce` of a matrix to a vector, `operations.hpp` lines 955-988. -/
def reduceMVE (o : EVOut ω X γ τ ζ μ) (r : ERedOp ω X α τ) (A : Operand α) :
    Act ω (BVec γ) X Unit :=
  o.op
    (fun w => do
      o.m.sizeCheck w.size
      eqCheck w.size A.nrows)
    fun _ =>
      match A with
      | .plain A => reduceRowsE r.op r.op' r.first A
      | .tr A => reduceColsE r.op' r.first A

/-- `reduce` of a vector to a scalar, `operations.hpp` lines 990-1014; the output is `val`. -/
def reduceVSE (castZ : ζ → γ) (acc : EAccum ω X γ τ ζ) (r : ERedOp ω X α τ) (e : τ) (u : BVec α) :
    Act ω γ X Unit := do
  let t ← reduceVecE r.op r.op' r.first e u
  reduceScalarEndE castZ acc t

/-- `reduce` of a matrix to a scalar, `operations.hpp` lines 1016-1042. -/
def reduceMSE (castZ : ζ → γ) (acc : EAccum ω X γ τ ζ) (r : ERedOp ω X α τ) (e : τ)
    (A : Lil α) : Act ω γ X Unit := do
  let t ← reduceMatE r.op r.op' r.opT r.first e A
  reduceScalarEndE castZ acc t

/-- `kronecker`, `operations.hpp` lines 1081-1121. -/
def kroneckerE (o : EMOut ω X γ τ ζ μ) (f : α → β → Op ω X τ) (A : Operand α) (B : Operand β) :
    Act ω (Lil γ) X Unit :=
  o.op
    (fun C => do
      o.M.rowCheck C.nrows
      o.M.colCheck C.ncols
      eqCheck C.ncols (mul64 A.ncols B.ncols)
      eqCheck C.nrows (mul64 A.nrows B.nrows))
    fun C =>
      match A, B with
      | .plain A, .plain B => kronABE C f A B
      | .tr A, .plain B => kronATBE C f A B
      | .plain A, .tr B => kronABTE C f A B
      | .tr A, .tr B => kronATBTE C f A B

/-- `extract` of a vector, `operations.hpp` lines 357-390: the accumulator is the only
operator. -/
def extractVE (o : EVOut ω X γ α ζ μ) (u : BVec α) (ix : Idx) : Act ω (BVec γ) X Unit :=
  o.op
    (fun w => do
      o.m.sizeCheck w.size
      ix.lenCheck w.size)
    fun w => lib (extractVec w u ix)

/-- `extract` of a matrix, `operations.hpp` lines 392-432. -/
def extractME (o : EMOut ω X γ α ζ μ) (A : Operand α) (ri ci : Idx) : Act ω (Lil γ) X Unit :=
  o.op
    (fun C => do
      o.M.rowCheck C.nrows
      o.M.colCheck C.ncols
      ri.lenCheck C.nrows
      ci.lenCheck C.ncols)
    fun C => lib (extractT C A ri ci)

/-- `assign` of a vector, `operations.hpp` lines 479-514. -/
def assignVE (o : EVOut ω X γ α ζ μ) (keep : γ → ζ) (u : BVec α) (ix : Idx) :
    Act ω (BVec γ) X Unit :=
  o.opStencil keep (setupIndices ix u.size)
    (fun w => do
      o.m.sizeCheck w.size
      ix.lenCheck u.size)
    fun w => lib (assignVec w u ix)

/-- `assign` of a matrix, `operations.hpp` lines 516-557. -/
def assignME (o : EMOut ω X γ α ζ μ) (keep : γ → ζ) (A : Operand α) (ri ci : Idx) :
    Act ω (Lil γ) X Unit :=
  o.opStencil keep (setupIndices ri A.nrows) (setupIndices ci A.ncols)
    (fun C => do
      o.M.rowCheck C.nrows
      o.M.colCheck C.ncols
      ri.lenCheck A.nrows
      ci.lenCheck A.ncols)
    fun C => lib (assignT C A ri ci)

/-- `transpose`, `operations.hpp` lines 1048-1075. -/
def transposeME (o : EMOut ω X γ α ζ μ) (A : Operand α) : Act ω (Lil γ) X Unit :=
  o.op
    (fun C => do
      o.M.rowCheck C.nrows
      o.M.colCheck C.ncols
      eqCheck C.ncols A.nrows
      eqCheck A.ncols C.nrows)
    fun _ => lib (transposeOperandT A)

/-- `extract` of (part of) a column, `operations.hpp` lines 434-473. -/
def extractCE (o : EVOut ω X γ α ζ μ) (A : Operand α) (ri : Idx) (j : Nat) : Act ω (BVec γ) X Unit :=
  o.op
    (fun w => do
      o.m.sizeCheck w.size
      ri.lenCheck w.size
      indexCheck j A.ncols)
    fun w => lib (extractColT' w A ri j)

/-- `assign` of a constant to a vector, `operations.hpp` lines 640-676. -/
def assignConstVE (o : EVOut ω X γ α ζ μ) (keep : γ → ζ) (x : α) (ix : Idx) :
    Act ω (BVec γ) X Unit := do
  let w ← output
  o.opStencil keep (setupIndices ix w.size)
    (fun w => do
      o.m.sizeCheck w.size
      ix.withinCheck w.size)
    fun w => lib (assignConstVec w x ix)

/-- `assign` of a constant to a matrix, `operations.hpp` lines 678-723. -/
def assignConstME (o : EMOut ω X γ α ζ μ) (keep : γ → ζ) (x : α) (ri ci : Idx) :
    Act ω (Lil γ) X Unit := do
  let C ← output
  o.opStencil keep (setupIndices ri C.nrows) (setupIndices ci C.ncols)
    (fun C => do
      o.M.rowCheck C.nrows
      o.M.colCheck C.ncols
      ri.withinCheck C.nrows
      ci.withinCheck C.ncols)
    fun C => lib (assignConstMat C x ri ci)

/-- The vector `assign` that a row or column assignment calls on a temporary vector `v`,
`sparse_assign.hpp` lines 281-325: its operators see the matrix as it was. -/
def assignBackendE (o : EVOut ω X γ α ζ μ) (keep : γ → ζ) (v : BVec γ) (u : BVec α) (ix : Idx) :
    Act ω χ X (BVec γ) := do
  let t ← lib (assignVec v u ix)
  let z ← accumStencil1DE keep v o.acc t (.list (setupIndices ix u.size))
  lib (writeWithOptMask1D o.truthy o.castZ v z o.m o.outp)

/-- `assign` to a column, `operations.hpp` lines 559-598, with `sparse_assign.hpp` lines
391-433. The mask, accumulator and control arguments are those of a vector operation. -/
def assignColE [Inhabited γ] (o : EVOut ω X γ α ζ μ) (keep : γ → ζ) (u : BVec α) (ri : Idx) (j : Nat) :
    Act ω (Lil γ) X Unit := do
  let C ← output
  let v ← lib (do
    o.m.sizeCheck C.nrows
    ri.lenCheck u.size
    indexCheck j C.ncols
    checkIndexArrayContent ri C.nrows
    let col ← C.getCol j
    fillVec C.nrows col)
  let v ← assignBackendE o keep v u ri
  let col ← lib v.extractTuples
  let C ← output
  let C' ← lib (C.setCol j id col)
  store C'

/-- `assign` to a row, `operations.hpp` lines 600-638, with `sparse_assign.hpp` lines
444-488. -/
def assignRowE [Inhabited γ] (o : EVOut ω X γ α ζ μ) (keep : γ → ζ) (u : BVec α) (i : Nat) (ci : Idx) :
    Act ω (Lil γ) X Unit := do
  let C ← output
  let v ← lib (do
    o.m.sizeCheck C.ncols
    ci.lenCheck u.size
    indexCheck i C.nrows
    checkIndexArrayContent ci C.ncols
    let row ← C.row i
    fillVec C.ncols row)
  let v ← assignBackendE o keep v u ci
  let row ← lib v.extractTuples
  let C ← output
  let C' ← lib (C.setRow i id row)
  store C'

/-! ### build -/

/-- The loop of `BitmapSparseVector::build`, `BitmapSparseVector.hpp` lines 345-362. -/
def vecBuildLoopE (size : Nat) (dup : α → α → Op ω X α) :
    List (Nat × α) → List α → List Bool → Act ω χ X (List α × List Bool)
  | [], vals, bitmap => pure (vals, bitmap)
  | (i, x) :: ts, vals, bitmap =>
    if size ≤ i then lib (.error .indexOutOfBounds)
    else do
      let b ← lib (rd bitmap i)
      if b then do
        let old ← lib (rd vals i)
        let y ← call (dup old x)
        let vals' ← lib (wr vals i y)
        vecBuildLoopE size dup ts vals' bitmap
      else do
        let vals' ← lib (wr vals i x)
        let bitmap' ← lib (wr bitmap i true)
        vecBuildLoopE size dup ts vals' bitmap'

/-- `BitmapSparseVector::build`, lines 336-367: the arrays are swapped in after the loop. -/
def vecBuildE [Inhabited α] (dup : α → α → Op ω X α) (ts : List (Nat × α)) :
    Act ω (BVec α) X Unit := do
  let v ← output
  let r ← vecBuildLoopE v.size dup ts (List.replicate v.size default) (List.replicate v.size false)
  let v ← output
  store { v with vals := r.1, bitmap := r.2, nvals := ts.length }

/-- The scan of `LilSparseMatrix::setElement` with merge, `LilSparseMatrix.hpp` lines
367-386. -/
def insertMergeE (merge : α → α → Op ω X α) : Row α → Nat → α → Act ω χ X (Row α × Bool)
  | [], j, x => pure ([(j, x)], true)
  | (idx, y) :: r, j, x =>
    if idx = j then do
      let v ← call (merge y x)
      pure ((idx, v) :: r, false)
    else if idx > j then pure ((j, x) :: (idx, y) :: r, true)
    else do
      let p ← insertMergeE merge r j x
      pure ((idx, y) :: p.1, p.2)

/-- `LilSparseMatrix::setElement` with merge, lines 352-388: an operator that throws
leaves the element it was to be merged with as it was. -/
def setElementMergeE (i j : Nat) (x : α) (merge : α → α → Op ω X α) : Act ω (Lil α) X Unit := do
  let A ← output
  if A.nrows ≤ i ∨ A.ncols ≤ j then lib (.error .indexOutOfBounds)
  else do
    let r ← lib (A.row i)
    let p ← insertMergeE merge r j x
    store { A with rows := A.rows.set i p.1, nvals := if p.2 then A.nvals + 1 else A.nvals }

/-- `LilSparseMatrix::build`, lines 170-187: one `setElement` after the other, on the
matrix itself. -/
def matBuildE (dup : α → α → Op ω X α) : List (Nat × Nat × α) → Act ω (Lil α) X Unit
  | [] => pure ()
  | (i, j, x) :: ts => do
    setElementMergeE i j x dup
    matBuildE dup ts

/-! ### The `optimized_sequential` backend -/

/-- One row of `A*B`,
`/repo/src/graphblas/platforms/optimized_sequential/sparse_mxm_AB.hpp` lines 72-82. -/
def abRowE (add : τ → τ → Op ω X τ) (mult : α → β → Op ω X τ) (B : Lil β) (a : Row α) :
    Act ω χ X (Row τ) :=
  a.foldlM (fun t p => do
    let b ← lib (B.row p.1)
    if b.isEmpty then pure t else axpyE add mult p.2 t b) []

/-- `AB_NoMask_NoAccum_kernel`,
`/repo/src/graphblas/platforms/optimized_sequential/sparse_mxm_AB.hpp` lines 61-87: every
row is stored in `C` (line 85) before the next is computed. `A` and `B` are other
objects. -/
def optABKernelE (add : τ → τ → Op ω X τ) (mult : α → β → Op ω X τ) (cast : τ → γ) (A : Lil α)
    (B : Lil β) : Act ω (Lil γ) X Unit :=
  forA A.nrows () fun i _ => do
    let a ← lib (A.row i)
    let t ← abRowE add mult B a
    let C ← output
    let C' ← lib (C.setRow i cast t)
    store C'

/-- `mxm(C, NoMask, NoAccumulate, semiring, A, B)` of the `optimized_sequential` backend
for three different matrices: the checks of `operations.hpp` lines 84-88, then
`sparse_mxm_NoMask_NoAccum_AB`,
`/repo/src/graphblas/platforms/optimized_sequential/sparse_mxm_AB.hpp` lines 391-420. -/
def optMxmABE (add : τ → τ → Op ω X τ) (mult : α → β → Op ω X τ) (cast : τ → γ) (A : Lil α)
    (B : Lil β) : Act ω (Lil γ) X Unit := do
  let C ← output
  lib (do
    eqCheck C.nrows A.nrows
    eqCheck C.ncols B.ncols
    eqCheck A.ncols B.nrows)
  if A.nvals == 0 || B.nvals == 0 then store C.clear
  else optABKernelE add mult cast A B

end GBTL

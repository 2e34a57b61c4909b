import Verif.Model.Frontend
/-
Model of `mxm` in the `optimized_sequential` backend:
`/repo/src/graphblas/platforms/optimized_sequential/sparse_mxm.hpp` (dispatch) and
`sparse_mxm_AB.hpp`, `sparse_mxm_ABT.hpp`, `sparse_mxm_ATB.hpp`,
`sparse_mxm_ATBT.hpp` beside it. The other headers of that backend are the same as
those of `sequential`.

Unlike in the `sequential` backend, many kernels write rows of `C` while they are
still reading rows of `A`, `B` and the mask. Any of the three may be the same object
as `C`; an `Arg` tells which, and every read goes through it.
-/
namespace GBTL
open Spec (Outp MaskKind Accum)

variable {α β γ δ τ ζ μ ρ : Type}

/-- A matrix argument of a call with output `C`: another object, or `C` itself;
`sparse_mxm.hpp` lines 63-654: the parameters `C`, `M`, `A`, `B` are references. -/
inductive Arg (γ : Type) : Type → Type 1 where
  | obj {α : Type} (A : Lil α) : Arg γ α
  | same : Arg γ γ

/-- The content of the argument while the output's content is `C`; `sparse_mxm_AB.hpp` lines
61-380: the reads `A[i]`, `B[k]`, `M[i]`. -/
def Arg.at : Arg γ α → Lil γ → Lil α
  | .obj A, _ => A
  | .same, C => C

/-- `(void*)&C == (void*)&A`; e.g. `sparse_mxm_AB.hpp` line 407. -/
def Arg.isC : Arg γ α → Bool
  | .obj _ => false
  | .same => true

/-- The operations and conversions of a call. `castT` converts the semiring's
result to `C`'s scalar type, `castZ` the accumulator's result. `accC` is the
accumulator called with the product already converted to `C`'s type. `castBA`
converts `B`'s scalar type to `A`'s and `multA` is the multiply called on two
values of `A`'s type, the first coming from `B`; the template parameters of the functions of
`sparse_mxm_AB.hpp` and of the three files beside it. -/
structure OptOps (α β γ τ ζ μ : Type) where
  add : τ → τ → τ
  mult : α → β → τ
  multA : α → α → τ
  castBA : β → α
  castT : τ → γ
  castZ : ζ → γ
  accC : γ → γ → ζ
  truthy : μ → Bool

/-- An accumulator: operator and conversions of a lone element; the parameter `accum` of the
same functions. -/
structure AccOp (γ τ ζ : Type) where
  op : γ → τ → ζ
  cC : γ → ζ
  cT : τ → ζ

/-- `LilSparseMatrix::swap`, `LilSparseMatrix.hpp` lines 421-428: the rows are
exchanged one by one for as many rows as `C` has, the counter is copied. Only the
effect on `C` is modelled; the other matrix is a temporary at every call. -/
def Lil.swapFrom (C D : Lil γ) : Except Err (Lil γ) :=
  if D.rows.length < C.rows.length then .error .ub
  else .ok { C with rows := D.rows.take C.rows.length, nvals := D.nvals }

/-! ### Fragments shared by the kernels -/

/-- `T_row.clear(); for (auto const &Ai_elt : A[i]) { ... axpy(T_row, semiring, a_ik, B[k]); }`,
`sparse_mxm_AB.hpp` lines 74-83 and 106-118. -/
def abRow (add : τ → τ → τ) (mult : α → β → τ) (B : Lil β) (a : Row α) : Except Err (Row τ) :=
  a.foldlM (fun t p => do
    let b ← B.row p.1
    if b.isEmpty then .ok t else .ok (axpy add mult p.2 t b)) []

/-- The same with `masked_axpy`, lines 154-168, 217-231, 283-296, 345-357. -/
def abMaskedRow (sf compl : Bool) (truthy : μ → Bool) (add : τ → τ → τ) (mult : α → β → τ)
    (m : Row μ) (B : Lil β) (a : Row α) : Except Err (Row τ) :=
  a.foldlM (fun t p => do
    let b ← B.row p.1
    if b.isEmpty then .ok t else .ok (maskedAxpy sf compl truthy add mult p.2 t m b)) []

/-- Lines 150-168 and 213-231: with a mask that is not complemented, `T_row` stays
empty if the mask's row is empty. -/
def abMaskRow (sf : Bool) (truthy : μ → Bool) (add : τ → τ → τ) (mult : α → β → τ)
    (m : Row μ) (B : Lil β) (a : Row α) : Except Err (Row τ) :=
  if m.isEmpty then .ok [] else abMaskedRow sf false truthy add mult m B a

/-- One row of `A*B'`: `for (j = 0; j < B.nrows(); ++j) { ... dot ... }`,
`sparse_mxm_ABT.hpp` lines 76-88 and 118-131. -/
def abtRow (add : τ → τ → τ) (mult : α → β → τ) (a : Row α) (B : Lil β) : Except Err (Row τ) :=
  forN B.nrows [] fun j t => do
    let b ← B.row j
    if b.isEmpty then .ok t else .ok (emplaceIf1D t j (dot add mult a b))

/-- The body of the masked loop over `j`, after the check that `B[j]` is not empty;
the state is `T_row` and the mask iterator. `sparse_mxm_ABT.hpp` lines 170-182. -/
def abtStep (sf compl : Bool) (truthy : μ → Bool) (add : τ → τ → τ) (mult : α → β → τ)
    (a : Row α) (j : Nat) (b : Row β) (s : Row τ × Row μ) : Row τ × Row μ :=
  (if (maskCheck sf truthy s.2 j).1 == compl then s.1
   else emplaceIf1D s.1 j (dot add mult a b), (maskCheck sf truthy s.2 j).2)

/-- The masked loop over `j`, `sparse_mxm_ABT.hpp` lines 167-182, 233-254, 307-322,
372-393. -/
def abtMaskedRow (sf compl : Bool) (truthy : μ → Bool) (add : τ → τ → τ) (mult : α → β → τ)
    (m : Row μ) (a : Row α) (B : Lil β) : Except Err (Row τ) := do
  let s ← forN B.nrows ([], m) fun j s => do
    let b ← B.row j
    if b.isEmpty then .ok s else .ok (abtStep sf compl truthy add mult a j b s)
  .ok s.1

/-- Lines 163-183, 231-255: no loop if the row of `A` or of the mask is empty. -/
def abtMaskRow (sf : Bool) (truthy : μ → Bool) (add : τ → τ → τ) (mult : α → β → τ)
    (m : Row μ) (a : Row α) (B : Lil β) : Except Err (Row τ) :=
  if !a.isEmpty && !m.isEmpty then abtMaskedRow sf false truthy add mult m a B else .ok []

/-- Lines 303-323, 368-394: no loop if the row of `A` is empty. -/
def abtCompRow (sf : Bool) (truthy : μ → Bool) (add : τ → τ → τ) (mult : α → β → τ)
    (m : Row μ) (a : Row α) (B : Lil β) : Except Err (Row τ) :=
  if !a.isEmpty then abtMaskedRow sf true truthy add mult m a B else .ok []

/-- Store `T_row` as row `i` of `C`: directly, or merged with the old row through
the mask. The end of every masked kernel without accumulator, e.g.
`sparse_mxm_AB.hpp` lines 170-183. -/
def storeT (sf compl : Bool) (truthy : μ → Bool) (cast : ρ → γ) (direct : Bool) (i : Nat)
    (m : Row μ) (t : Row ρ) (C : Lil γ) : Except Err (Lil γ) :=
  if direct then C.setRow i cast t
  else do
    let c ← C.row i
    C.setRow i id (maskedMerge sf compl truthy cast m c t)

/-- The end of every masked kernel with accumulator: `Z_row` by `masked_accum`, then
stored directly or merged, e.g. `sparse_mxm_AB.hpp` lines 233-252. -/
def storeZ (sf compl : Bool) (truthy : μ → Bool) (castZ : ζ → γ) (acc : AccOp γ τ ζ) (direct : Bool)
    (i : Nat) (m : Row μ) (t : Row τ) (C : Lil γ) : Except Err (Lil γ) := do
  let c ← C.row i
  storeT sf compl truthy castZ direct i m (maskedAccum sf compl truthy acc.op acc.cC acc.cT m c t) C

/-! ### A*B: `sparse_mxm_AB.hpp` -/

/-- `AB_NoMask_NoAccum_kernel`, lines 61-87. -/
def abNoMaskNoAccumK (add : τ → τ → τ) (mult : α → β → τ) (cast : τ → γ) (C : Lil γ) (a : Arg γ α)
    (b : Arg γ β) : Except Err (Lil γ) :=
  forN (a.at C).nrows C fun i C => do
    let ar ← (a.at C).row i
    let t ← abRow add mult (b.at C) ar
    C.setRow i cast t

/-- `AB_NoMask_Accum_kernel`, lines 96-126. -/
def abNoMaskAccumK (x : OptOps α β γ τ ζ μ) (acc : AccOp γ τ ζ) (C : Lil γ) (a : Arg γ α)
    (b : Arg γ β) : Except Err (Lil γ) :=
  forN (a.at C).nrows C fun i C => do
    let ar ← (a.at C).row i
    let t ← abRow x.add x.mult (b.at C) ar
    if !t.isEmpty then C.mergeRow i (fun c t => x.castZ (acc.op c t)) x.castT t else .ok C

/-- `AB_Mask_NoAccum_kernel`, lines 135-185. -/
def abMaskNoAccumK (add : τ → τ → τ) (mult : α → β → τ) (truthy : μ → Bool) (cast : τ → γ) (sf : Bool)
    (outp : Outp) (C : Lil γ) (m : Arg γ μ) (a : Arg γ α) (b : Arg γ β) : Except Err (Lil γ) :=
  forN (a.at C).nrows C fun i C => do
    let mr ← (m.at C).row i
    let ar ← (a.at C).row i
    let t ← abMaskRow sf truthy add mult mr (b.at C) ar
    storeT sf false truthy cast (outp == .replace) i mr t C

/-- `AB_Mask_Accum_kernel`, lines 195-254. -/
def abMaskAccumK (x : OptOps α β γ τ ζ μ) (acc : AccOp γ τ ζ) (sf : Bool)
    (outp : Outp) (C : Lil γ) (m : Arg γ μ) (a : Arg γ α) (b : Arg γ β) : Except Err (Lil γ) :=
  forN (a.at C).nrows C fun i C => do
    let mr ← (m.at C).row i
    let ar ← (a.at C).row i
    let t ← abMaskRow sf x.truthy x.add x.mult mr (b.at C) ar
    storeZ sf false x.truthy x.castZ acc (outp == .replace) i mr t C

/-- `AB_CompMask_NoAccum_kernel`, lines 263-312. -/
def abCompNoAccumK (add : τ → τ → τ) (mult : α → β → τ) (truthy : μ → Bool) (cast : τ → γ) (sf : Bool)
    (outp : Outp) (C : Lil γ) (m : Arg γ μ) (a : Arg γ α) (b : Arg γ β) : Except Err (Lil γ) :=
  forN (a.at C).nrows C fun i C => do
    let mr ← (m.at C).row i
    let ar ← (a.at C).row i
    let t ← abMaskedRow sf true truthy add mult mr (b.at C) ar
    storeT sf true truthy cast (outp == .replace || mr.isEmpty) i mr t C

/-- `AB_CompMask_Accum_kernel`, lines 322-380. -/
def abCompAccumK (x : OptOps α β γ τ ζ μ) (acc : AccOp γ τ ζ) (sf : Bool)
    (outp : Outp) (C : Lil γ) (m : Arg γ μ) (a : Arg γ α) (b : Arg γ β) : Except Err (Lil γ) :=
  forN (a.at C).nrows C fun i C => do
    let mr ← (m.at C).row i
    let ar ← (a.at C).row i
    let t ← abMaskedRow sf true x.truthy x.add x.mult mr (b.at C) ar
    storeZ sf true x.truthy x.castZ acc (outp == .replace || mr.isEmpty) i mr t C

/-- The second half of the wrappers when `&C == &B`, without accumulator: the
temporary replaces `C`, or is merged into it row by row. E.g. `sparse_mxm_AB.hpp`
lines 502-519. -/
def fromTmp (sf compl : Bool) (truthy : μ → Bool) (outp : Outp) (m : Arg γ μ) (tmp C : Lil γ) :
    Except Err (Lil γ) :=
  match outp with
  | .replace => C.swapFrom tmp
  | .merge => forN C.nrows C fun i C => do
    let mr ← (m.at C).row i
    let t ← tmp.row i
    storeT sf compl truthy id false i mr t C

/-- The same with a mask and an accumulator, e.g. lines 581-604. -/
def fromTmpAccum (sf compl : Bool) (truthy : μ → Bool) (castZ : ζ → γ) (acc : AccOp γ τ ζ)
    (outp : Outp) (m : Arg γ μ) (tmp : Lil τ) (C : Lil γ) : Except Err (Lil γ) :=
  forN C.nrows C fun i C => do
    let mr ← (m.at C).row i
    let t ← tmp.row i
    storeZ sf compl truthy castZ acc (outp == .replace) i mr t C

/-- The same without mask: `for (...) C.mergeRow(i, Ctmp[i], accum);`, lines
447-450. -/
def mergeTmp (op : γ → ρ → γ) (cast : ρ → γ) (tmp : Lil ρ) (C : Lil γ) : Except Err (Lil γ) :=
  forN C.nrows C fun i C => do
    let t ← tmp.row i
    C.mergeRow i op cast t

/-- `sparse_mxm_NoMask_NoAccum_AB`, lines 391-420. -/
def optNoMaskNoAccumAB (x : OptOps α β γ τ ζ μ) (C : Lil γ) (a : Arg γ α) (b : Arg γ β) :
    Except Err (Lil γ) :=
  if (a.at C).nvals == 0 || (b.at C).nvals == 0 then .ok C.clear
  else if b.isC then do
    let tmp ← abNoMaskNoAccumK x.add x.mult x.castT (Lil.new C.nrows C.ncols) (.obj (a.at C))
      (.obj (b.at C))
    C.swapFrom tmp
  else abNoMaskNoAccumK x.add x.mult x.castT C a b

/-- `sparse_mxm_NoMask_Accum_AB`, lines 428-460. -/
def optNoMaskAccumAB (x : OptOps α β γ τ ζ μ) (acc : AccOp γ τ ζ) (C : Lil γ) (a : Arg γ α)
    (b : Arg γ β) : Except Err (Lil γ) :=
  if (a.at C).nvals == 0 || (b.at C).nvals == 0 then .ok C
  else if b.isC then do
    let tmp ← abNoMaskNoAccumK x.add x.mult x.castT (Lil.new C.nrows C.ncols) (.obj (a.at C))
      (.obj (b.at C))
    mergeTmp (fun c t => x.castZ (x.accC c t)) id tmp C
  else abNoMaskAccumK x acc C a b

/-- `sparse_mxm_Mask_NoAccum_AB`, lines 468-530. -/
def optMaskNoAccumAB (x : OptOps α β γ τ ζ μ) (sf : Bool) (outp : Outp) (C : Lil γ) (m : Arg γ μ)
    (a : Arg γ α) (b : Arg γ β) : Except Err (Lil γ) :=
  if outp == .replace && ((a.at C).nvals == 0 || (b.at C).nvals == 0 || (m.at C).nvals == 0) then
    .ok C.clear
  else if outp == .merge && (m.at C).nvals == 0 then .ok C
  else if b.isC then do
    let tmp ← abMaskNoAccumK x.add x.mult x.truthy x.castT sf .replace (Lil.new C.nrows C.ncols)
      (.obj (m.at C)) (.obj (a.at C)) (.obj (b.at C))
    fromTmp sf false x.truthy outp m tmp C
  else abMaskNoAccumK x.add x.mult x.truthy x.castT sf outp C m a b

/-- `sparse_mxm_Mask_Accum_AB`, lines 539-613. -/
def optMaskAccumAB (x : OptOps α β γ τ ζ μ) (acc : AccOp γ τ ζ) (sf : Bool) (outp : Outp) (C : Lil γ)
    (m : Arg γ μ) (a : Arg γ α) (b : Arg γ β) : Except Err (Lil γ) :=
  if outp == .replace && (m.at C).nvals == 0 then .ok C.clear
  else if outp == .merge && (m.at C).nvals == 0 then .ok C
  else if b.isC then do
    let tmp ← abMaskNoAccumK x.add x.mult x.truthy id sf .replace (Lil.new C.nrows C.ncols)
      (.obj (m.at C)) (.obj (a.at C)) (.obj (b.at C))
    fromTmpAccum sf false x.truthy x.castZ acc outp m tmp C
  else abMaskAccumK x acc sf outp C m a b

/-- `sparse_mxm_CompMask_NoAccum_AB`, lines 621-678. -/
def optCompNoAccumAB (x : OptOps α β γ τ ζ μ) (sf : Bool) (outp : Outp) (C : Lil γ) (m : Arg γ μ)
    (a : Arg γ α) (b : Arg γ β) : Except Err (Lil γ) :=
  if outp == .replace && ((a.at C).nvals == 0 || (b.at C).nvals == 0) then .ok C.clear
  else if b.isC then do
    let tmp ← abCompNoAccumK x.add x.mult x.truthy x.castT sf .replace (Lil.new C.nrows C.ncols)
      (.obj (m.at C)) (.obj (a.at C)) (.obj (b.at C))
    fromTmp sf true x.truthy outp m tmp C
  else abCompNoAccumK x.add x.mult x.truthy x.castT sf outp C m a b

/-- `sparse_mxm_CompMask_Accum_AB`, lines 687-758. -/
def optCompAccumAB (x : OptOps α β γ τ ζ μ) (acc : AccOp γ τ ζ) (sf : Bool) (outp : Outp) (C : Lil γ)
    (m : Arg γ μ) (a : Arg γ α) (b : Arg γ β) : Except Err (Lil γ) :=
  if outp == .replace && (m.at C).nvals == 0 && ((a.at C).nvals == 0 || (b.at C).nvals == 0) then
    .ok C
  else if b.isC then do
    let tmp ← abCompNoAccumK x.add x.mult x.truthy id sf .replace (Lil.new C.nrows C.ncols)
      (.obj (m.at C)) (.obj (a.at C)) (.obj (b.at C))
    fromTmpAccum sf true x.truthy x.castZ acc outp m tmp C
  else abCompAccumK x acc sf outp C m a b

/-! ### A*B': `sparse_mxm_ABT.hpp` -/

/-- `ABT_NoMask_NoAccum_kernel`, lines 61-92. An empty row of `A` is skipped before
`C.setRow` is reached (line 74): the row of `C` keeps what it held. -/
def abtNoMaskNoAccumK (add : τ → τ → τ) (mult : α → β → τ) (cast : τ → γ) (C : Lil γ) (a : Arg γ α)
    (b : Arg γ β) : Except Err (Lil γ) :=
  forN (a.at C).nrows C fun i C => do
    let ar ← (a.at C).row i
    if ar.isEmpty then .ok C
    else do
      let t ← abtRow add mult ar (b.at C)
      C.setRow i id (Row.cast cast t)

/-- `ABT_NoMask_Accum_kernel`, lines 101-139. -/
def abtNoMaskAccumK (x : OptOps α β γ τ ζ μ) (acc : AccOp γ τ ζ) (C : Lil γ) (a : Arg γ α)
    (b : Arg γ β) : Except Err (Lil γ) :=
  forN (a.at C).nrows C fun i C => do
    let ar ← (a.at C).row i
    if ar.isEmpty then .ok C
    else do
      let t ← abtRow x.add x.mult ar (b.at C)
      if !t.isEmpty then C.mergeRow i (fun c t => x.castZ (acc.op c t)) x.castT t else .ok C

/-- `ABT_Mask_NoAccum_kernel`, lines 148-201. -/
def abtMaskNoAccumK (add : τ → τ → τ) (mult : α → β → τ) (truthy : μ → Bool) (cast : τ → γ) (sf : Bool)
    (outp : Outp) (C : Lil γ) (m : Arg γ μ) (a : Arg γ α) (b : Arg γ β) : Except Err (Lil γ) :=
  forN (a.at C).nrows C fun i C => do
    let mr ← (m.at C).row i
    let ar ← (a.at C).row i
    let t ← abtMaskRow sf truthy add mult mr ar (b.at C)
    storeT sf false truthy cast (outp == .replace) i mr t C

/-- `ABT_Mask_Accum_kernel`, lines 211-277. -/
def abtMaskAccumK (x : OptOps α β γ τ ζ μ) (acc : AccOp γ τ ζ) (sf : Bool)
    (outp : Outp) (C : Lil γ) (m : Arg γ μ) (a : Arg γ α) (b : Arg γ β) : Except Err (Lil γ) :=
  forN (a.at C).nrows C fun i C => do
    let mr ← (m.at C).row i
    let ar ← (a.at C).row i
    let t ← abtMaskRow sf x.truthy x.add x.mult mr ar (b.at C)
    storeZ sf false x.truthy x.castZ acc (outp == .replace) i mr t C

/-- `ABT_CompMask_NoAccum_kernel`, lines 286-340. -/
def abtCompNoAccumK (add : τ → τ → τ) (mult : α → β → τ) (truthy : μ → Bool) (cast : τ → γ) (sf : Bool)
    (outp : Outp) (C : Lil γ) (m : Arg γ μ) (a : Arg γ α) (b : Arg γ β) : Except Err (Lil γ) :=
  forN (a.at C).nrows C fun i C => do
    let mr ← (m.at C).row i
    let ar ← (a.at C).row i
    let t ← abtCompRow sf truthy add mult mr ar (b.at C)
    storeT sf true truthy cast (outp == .replace) i mr t C

/-- `ABT_CompMask_Accum_kernel`, lines 350-418. -/
def abtCompAccumK (x : OptOps α β γ τ ζ μ) (acc : AccOp γ τ ζ) (sf : Bool)
    (outp : Outp) (C : Lil γ) (m : Arg γ μ) (a : Arg γ α) (b : Arg γ β) : Except Err (Lil γ) :=
  forN (a.at C).nrows C fun i C => do
    let mr ← (m.at C).row i
    let ar ← (a.at C).row i
    let t ← abtCompRow sf x.truthy x.add x.mult mr ar (b.at C)
    storeZ sf true x.truthy x.castZ acc (outp == .replace) i mr t C

/-- `sparse_mxm_NoMask_NoAccum_ABT`, lines 429-461. -/
def optNoMaskNoAccumABT (x : OptOps α β γ τ ζ μ) (C : Lil γ) (a : Arg γ α) (b : Arg γ β) :
    Except Err (Lil γ) :=
  if (a.at C).nvals == 0 || (b.at C).nvals == 0 then .ok C.clear
  else if b.isC then do
    let tmp ← abtNoMaskNoAccumK x.add x.mult x.castT (Lil.new C.nrows C.ncols) (.obj (a.at C))
      (.obj (b.at C))
    C.swapFrom tmp
  else abtNoMaskNoAccumK x.add x.mult x.castT C a b

/-- `sparse_mxm_NoMask_Accum_ABT`, lines 469-501. -/
def optNoMaskAccumABT (x : OptOps α β γ τ ζ μ) (acc : AccOp γ τ ζ) (C : Lil γ) (a : Arg γ α)
    (b : Arg γ β) : Except Err (Lil γ) :=
  if (a.at C).nvals == 0 || (b.at C).nvals == 0 then .ok C
  else if b.isC then do
    let tmp ← abtNoMaskNoAccumK x.add x.mult x.castT (Lil.new C.nrows C.ncols) (.obj (a.at C))
      (.obj (b.at C))
    mergeTmp (fun c t => x.castZ (x.accC c t)) id tmp C
  else abtNoMaskAccumK x acc C a b

/-- `sparse_mxm_Mask_NoAccum_ABT`, lines 509-573. -/
def optMaskNoAccumABT (x : OptOps α β γ τ ζ μ) (sf : Bool) (outp : Outp) (C : Lil γ) (m : Arg γ μ)
    (a : Arg γ α) (b : Arg γ β) : Except Err (Lil γ) :=
  if outp == .replace && ((a.at C).nvals == 0 || (b.at C).nvals == 0 || (m.at C).nvals == 0) then
    .ok C.clear
  else if outp == .merge && (m.at C).nvals == 0 then .ok C
  else if b.isC then do
    let tmp ← abtMaskNoAccumK x.add x.mult x.truthy x.castT sf .replace (Lil.new C.nrows C.ncols)
      (.obj (m.at C)) (.obj (a.at C)) (.obj (b.at C))
    fromTmp sf false x.truthy outp m tmp C
  else abtMaskNoAccumK x.add x.mult x.truthy x.castT sf outp C m a b

/-- `sparse_mxm_Mask_Accum_ABT`, lines 582-658. -/
def optMaskAccumABT (x : OptOps α β γ τ ζ μ) (acc : AccOp γ τ ζ) (sf : Bool) (outp : Outp) (C : Lil γ)
    (m : Arg γ μ) (a : Arg γ α) (b : Arg γ β) : Except Err (Lil γ) :=
  if outp == .replace && (m.at C).nvals == 0 then .ok C.clear
  else if outp == .merge && (m.at C).nvals == 0 then .ok C
  else if b.isC then do
    let tmp ← abtMaskNoAccumK x.add x.mult x.truthy id sf .replace (Lil.new C.nrows C.ncols)
      (.obj (m.at C)) (.obj (a.at C)) (.obj (b.at C))
    fromTmpAccum sf false x.truthy x.castZ acc outp m tmp C
  else abtMaskAccumK x acc sf outp C m a b

/-- `sparse_mxm_CompMask_NoAccum_ABT`, lines 666-726. -/
def optCompNoAccumABT (x : OptOps α β γ τ ζ μ) (sf : Bool) (outp : Outp) (C : Lil γ) (m : Arg γ μ)
    (a : Arg γ α) (b : Arg γ β) : Except Err (Lil γ) :=
  if outp == .replace && ((a.at C).nvals == 0 || (b.at C).nvals == 0) then .ok C.clear
  else if b.isC then do
    let tmp ← abtCompNoAccumK x.add x.mult x.truthy x.castT sf .replace (Lil.new C.nrows C.ncols)
      (.obj (m.at C)) (.obj (a.at C)) (.obj (b.at C))
    fromTmp sf true x.truthy outp m tmp C
  else abtCompNoAccumK x.add x.mult x.truthy x.castT sf outp C m a b

/-- `sparse_mxm_CompMask_Accum_ABT`, lines 735-802. -/
def optCompAccumABT (x : OptOps α β γ τ ζ μ) (acc : AccOp γ τ ζ) (sf : Bool) (outp : Outp) (C : Lil γ)
    (m : Arg γ μ) (a : Arg γ α) (b : Arg γ β) : Except Err (Lil γ) :=
  if b.isC then do
    let tmp ← abtCompNoAccumK x.add x.mult x.truthy id sf .replace (Lil.new C.nrows C.ncols)
      (.obj (m.at C)) (.obj (a.at C)) (.obj (b.at C))
    fromTmpAccum sf true x.truthy x.castZ acc outp m tmp C
  else abtCompAccumK x acc sf outp C m a b

/-! ### A'*B: `sparse_mxm_ATB.hpp`

`T` is a fresh matrix, so that `C` is not written while `A`, `B` and `M` are read by
the kernels. -/

/-- `ATB_NoMask_kernel`, lines 61-80. -/
def atbNoMaskK (add : τ → τ → τ) (mult : α → β → τ) (T : Lil τ) (A : Lil α) (B : Lil β) :
    Except Err (Lil τ) :=
  forN A.nrows T fun k T => do
    let a ← A.row k
    let b ← B.row k
    if a.isEmpty || b.isEmpty then .ok T
    else a.foldlM (fun T p => do
      let t ← T.row p.1
      T.pokeRow p.1 (axpy add mult p.2 t b)) T

/-- The body of the inner loop of `ATB_Mask_kernel`, lines 101-111. -/
def atbMaskStep (sf : Bool) (truthy : μ → Bool) (add : τ → τ → τ) (mult : α → β → τ)
    (M : Lil μ) (b : Row β) (T : Lil τ) (p : Nat × α) : Except Err (Lil τ) := do
  let m ← M.row p.1
  if m.isEmpty then .ok T
  else do
    let t ← T.row p.1
    T.pokeRow p.1 (maskedAxpy sf false truthy add mult p.2 t m b)

/-- `ATB_Mask_kernel`, lines 89-114. -/
def atbMaskK (sf : Bool) (truthy : μ → Bool) (add : τ → τ → τ) (mult : α → β → τ)
    (T : Lil τ) (M : Lil μ) (A : Lil α) (B : Lil β) : Except Err (Lil τ) :=
  forN A.nrows T fun k T => do
    let a ← A.row k
    let b ← B.row k
    if a.isEmpty || b.isEmpty then .ok T
    else a.foldlM (atbMaskStep sf truthy add mult M b) T

/-- The body of the inner loop of `ATB_CompMask_kernel`, lines 135-143. -/
def atbCompStep (sf : Bool) (truthy : μ → Bool) (add : τ → τ → τ) (mult : α → β → τ)
    (M : Lil μ) (b : Row β) (T : Lil τ) (p : Nat × α) : Except Err (Lil τ) := do
  let m ← M.row p.1
  let t ← T.row p.1
  T.pokeRow p.1 (maskedAxpy sf true truthy add mult p.2 t m b)

/-- `ATB_CompMask_kernel`, lines 123-146. -/
def atbCompK (sf : Bool) (truthy : μ → Bool) (add : τ → τ → τ) (mult : α → β → τ)
    (T : Lil τ) (M : Lil μ) (A : Lil α) (B : Lil β) : Except Err (Lil τ) :=
  forN A.nrows T fun k T => do
    let a ← A.row k
    let b ← B.row k
    if a.isEmpty || b.isEmpty then .ok T
    else a.foldlM (atbCompStep sf truthy add mult M b) T

/-- `sparse_mxm_NoMask_NoAccum_ATB`, lines 157-184. -/
def optNoMaskNoAccumATB (x : OptOps α β γ τ ζ μ) (C : Lil γ) (a : Arg γ α) (b : Arg γ β) :
    Except Err (Lil γ) :=
  if (a.at C).nvals == 0 || (b.at C).nvals == 0 then .ok C.clear
  else do
    let T ← atbNoMaskK x.add x.mult (Lil.new C.nrows C.ncols) (a.at C) (b.at C)
    forN C.nrows C fun i C => do
      let t ← T.row i
      C.setRow i x.castT t

/-- `sparse_mxm_NoMask_Accum_ATB`, lines 192-221. -/
def optNoMaskAccumATB (x : OptOps α β γ τ ζ μ) (acc : AccOp γ τ ζ) (C : Lil γ) (a : Arg γ α)
    (b : Arg γ β) : Except Err (Lil γ) :=
  if (a.at C).nvals == 0 || (b.at C).nvals == 0 then .ok C
  else do
    let T ← atbNoMaskK x.add x.mult (Lil.new C.nrows C.ncols) (a.at C) (b.at C)
    forN C.nrows C fun i C => do
      let t ← T.row i
      if !t.isEmpty then C.mergeRow i (fun c t => x.castZ (acc.op c t)) x.castT t else .ok C

/-- `sparse_mxm_Mask_NoAccum_ATB`, lines 229-282. -/
def optMaskNoAccumATB (x : OptOps α β γ τ ζ μ) (sf : Bool) (outp : Outp) (C : Lil γ) (m : Arg γ μ)
    (a : Arg γ α) (b : Arg γ β) : Except Err (Lil γ) :=
  if outp == .replace && ((a.at C).nvals == 0 || (b.at C).nvals == 0 || (m.at C).nvals == 0) then
    .ok C.clear
  else if outp == .merge && (m.at C).nvals == 0 then .ok C
  else do
    let T ← atbMaskK sf x.truthy x.add x.mult (Lil.new C.nrows C.ncols) (m.at C) (a.at C) (b.at C)
    forN C.nrows C fun i C => do
      let mr ← (m.at C).row i
      let t ← T.row i
      storeT sf false x.truthy x.castT (outp == .replace) i mr t C

/-- `sparse_mxm_Mask_Accum_ATB`, lines 291-350. -/
def optMaskAccumATB (x : OptOps α β γ τ ζ μ) (acc : AccOp γ τ ζ) (sf : Bool) (outp : Outp) (C : Lil γ)
    (m : Arg γ μ) (a : Arg γ α) (b : Arg γ β) : Except Err (Lil γ) :=
  if outp == .replace && (m.at C).nvals == 0 then .ok C.clear
  else if outp == .merge && (m.at C).nvals == 0 then .ok C
  else do
    let T ← atbMaskK sf x.truthy x.add x.mult (Lil.new C.nrows C.ncols) (m.at C) (a.at C) (b.at C)
    forN C.nrows C fun i C => do
      let mr ← (m.at C).row i
      let t ← T.row i
      storeZ sf false x.truthy x.castZ acc (outp == .replace) i mr t C

/-- `sparse_mxm_CompMask_NoAccum_ATB`, lines 358-402. -/
def optCompNoAccumATB (x : OptOps α β γ τ ζ μ) (sf : Bool) (outp : Outp) (C : Lil γ) (m : Arg γ μ)
    (a : Arg γ α) (b : Arg γ β) : Except Err (Lil γ) :=
  if outp == .replace && ((a.at C).nvals == 0 || (b.at C).nvals == 0) then .ok C.clear
  else do
    let T ← atbCompK sf x.truthy x.add x.mult (Lil.new C.nrows C.ncols) (m.at C) (a.at C) (b.at C)
    forN C.nrows C fun i C => do
      let mr ← (m.at C).row i
      let t ← T.row i
      storeT sf true x.truthy x.castT (outp == .replace || mr.isEmpty) i mr t C

/-- `sparse_mxm_CompMask_Accum_ATB`, lines 411-466. -/
def optCompAccumATB (x : OptOps α β γ τ ζ μ) (acc : AccOp γ τ ζ) (sf : Bool) (outp : Outp) (C : Lil γ)
    (m : Arg γ μ) (a : Arg γ α) (b : Arg γ β) : Except Err (Lil γ) :=
  if outp == .replace && (m.at C).nvals == 0 && ((a.at C).nvals == 0 || (b.at C).nvals == 0) then
    .ok C
  else do
    let T ← atbCompK sf x.truthy x.add x.mult (Lil.new C.nrows C.ncols) (m.at C) (a.at C) (b.at C)
    forN C.nrows C fun i C => do
      let mr ← (m.at C).row i
      let t ← T.row i
      storeZ sf true x.truthy x.castZ acc (outp == .replace || mr.isEmpty) i mr t C

/-! ### A'*B': `sparse_mxm_ATBT.hpp` -/

/-- One row of `B*A`, lines 72-83 (and 227-238, 323-334, 421-432, 517-528). The
element of `B` is stored in a variable of `A`'s scalar type (line 76). -/
def atbtRow (add : τ → τ → τ) (multA : α → α → τ) (castBA : β → α) (A : Lil α) (b : Row β) :
    Except Err (Row τ) :=
  b.foldlM (fun t p => do
    let a ← A.row p.1
    if a.isEmpty then .ok t else .ok (axpy add multA (castBA p.2) t a)) []

/-- `ATBT_NoMask_NoAccum_kernel`, lines 57-92. It is only called with `C` distinct
from `A` and `B`. -/
def atbtK (add : τ → τ → τ) (multA : α → α → τ) (castBA : β → α) (cast : τ → γ) (C : Lil γ)
    (A : Lil α) (B : Lil β) : Except Err (Lil γ) := do
  let C ← forN B.nrows C.clear fun i C => do
    let b ← B.row i
    let t ← atbtRow add multA castBA A b
    pushCol i (Row.cast cast t) C
  .ok C.recomputeNvals

/-- The computation of `T` in the masked functions, e.g. lines 216-247: as above,
into a fresh matrix, without recomputing the counter. -/
def atbtT (add : τ → τ → τ) (multA : α → α → τ) (castBA : β → α) (m n : Nat) (A : Lil α) (B : Lil β) :
    Except Err (Lil τ) :=
  forN B.nrows (Lil.new m n) fun i T => do
    let b ← B.row i
    let t ← atbtRow add multA castBA A b
    pushCol i t T

/-- The loop that keeps the elements of a row that the mask (its complement)
allows, e.g. lines 254-265: the elements kept. -/
def maskFilter (sf compl : Bool) (truthy : μ → Bool) : Row μ → Row τ → Row τ
  | _, [] => []
  | m, (j, t) :: ts =>
    if (maskCheck sf truthy m j).1 == compl then
      maskFilter sf compl truthy (maskCheck sf truthy m j).2 ts
    else (j, t) :: maskFilter sf compl truthy (maskCheck sf truthy m j).2 ts

/-- `sparse_mxm_NoMask_NoAccum_ATBT`, lines 103-138. -/
def optNoMaskNoAccumATBT (x : OptOps α β γ τ ζ μ) (C : Lil γ) (a : Arg γ α) (b : Arg γ β) :
    Except Err (Lil γ) :=
  if (a.at C).nvals == 0 || (b.at C).nvals == 0 then .ok C.clear
  else if a.isC || b.isC then do
    let tmp ← atbtK x.add x.multA x.castBA x.castT (Lil.new C.nrows C.ncols) (a.at C) (b.at C)
    let C ← forN C.nrows C fun i C => do
      let t ← tmp.row i
      C.setRow i id t
    .ok C.recomputeNvals
  else do
    let C ← atbtK x.add x.multA x.castBA x.castT C (a.at C) (b.at C)
    .ok C.recomputeNvals

/-- `sparse_mxm_NoMask_Accum_ATBT`, lines 146-188: both branches do the same. -/
def optNoMaskAccumATBT (x : OptOps α β γ τ ζ μ) (acc : AccOp γ τ ζ) (C : Lil γ) (a : Arg γ α)
    (b : Arg γ β) : Except Err (Lil γ) :=
  if (a.at C).nvals == 0 || (b.at C).nvals == 0 then .ok C
  else do
    let T ← atbtK x.add x.multA x.castBA id (Lil.new C.nrows C.ncols) (a.at C) (b.at C)
    mergeTmp (fun c t => x.castZ (acc.op c t)) x.castT T C

/-- `sparse_mxm_Mask_NoAccum_ATBT`, lines 196-282. -/
def optMaskNoAccumATBT (x : OptOps α β γ τ ζ μ) (sf : Bool) (outp : Outp) (C : Lil γ) (m : Arg γ μ)
    (a : Arg γ α) (b : Arg γ β) : Except Err (Lil γ) :=
  if outp == .replace && ((a.at C).nvals == 0 || (b.at C).nvals == 0 || (m.at C).nvals == 0) then
    .ok C.clear
  else if outp == .merge && (m.at C).nvals == 0 then .ok C
  else do
    let T ← atbtT x.add x.multA x.castBA C.nrows C.ncols (a.at C) (b.at C)
    forN C.nrows C fun i C => do
      let mr ← (m.at C).row i
      let t ← T.row i
      storeT sf false x.truthy id (outp == .replace) i mr
        (Row.cast x.castT (maskFilter sf false x.truthy mr t)) C

/-- `sparse_mxm_Mask_Accum_ATBT`, lines 291-389. -/
def optMaskAccumATBT (x : OptOps α β γ τ ζ μ) (acc : AccOp γ τ ζ) (sf : Bool) (outp : Outp) (C : Lil γ)
    (m : Arg γ μ) (a : Arg γ α) (b : Arg γ β) : Except Err (Lil γ) :=
  if outp == .replace && (m.at C).nvals == 0 then .ok C.clear
  else if outp == .merge && (m.at C).nvals == 0 then .ok C
  else do
    let T ← atbtT x.add x.multA x.castBA C.nrows C.ncols (a.at C) (b.at C)
    forN C.nrows C fun i C => do
      let mr ← (m.at C).row i
      let t ← T.row i
      storeZ sf false x.truthy x.castZ acc (outp == .replace) i mr
        (maskFilter sf false x.truthy mr t) C

/-- `sparse_mxm_CompMask_NoAccum_ATBT`, lines 397-480. -/
def optCompNoAccumATBT (x : OptOps α β γ τ ζ μ) (sf : Bool) (outp : Outp) (C : Lil γ) (m : Arg γ μ)
    (a : Arg γ α) (b : Arg γ β) : Except Err (Lil γ) :=
  if outp == .replace && ((a.at C).nvals == 0 || (b.at C).nvals == 0) then .ok C.clear
  else do
    let T ← atbtT x.add x.multA x.castBA C.nrows C.ncols (a.at C) (b.at C)
    forN C.nrows C fun i C => do
      let mr ← (m.at C).row i
      let t ← T.row i
      storeT sf true x.truthy id (outp == .replace) i mr
        (Row.cast x.castT (maskFilter sf true x.truthy mr t)) C

/-- `sparse_mxm_CompMask_Accum_ATBT`, lines 489-584. -/
def optCompAccumATBT (x : OptOps α β γ τ ζ μ) (acc : AccOp γ τ ζ) (sf : Bool) (outp : Outp) (C : Lil γ)
    (m : Arg γ μ) (a : Arg γ α) (b : Arg γ β) : Except Err (Lil γ) :=
  if outp == .replace && (m.at C).nvals == 0 && ((a.at C).nvals == 0 || (b.at C).nvals == 0) then
    .ok C
  else do
    let T ← atbtT x.add x.multA x.castBA C.nrows C.ncols (a.at C) (b.at C)
    forN C.nrows C fun i C => do
      let mr ← (m.at C).row i
      let t ← T.row i
      storeZ sf true x.truthy x.castZ acc (outp == .replace) i mr
        (maskFilter sf true x.truthy mr t) C

/-! ### Dispatch -/

/-- An operand of a call that may share its object with the output: plain or
through a `TransposeView`; `sparse_mxm.hpp` lines 63-654, overloads on `TransposeView`. -/
inductive ArgOperand (γ α : Type) : Type 1 where
  | plain (a : Arg γ α)
  | tr (a : Arg γ α)

/-- What the operand is while the output's content is `C`;
`/repo/src/graphblas/operations.hpp` lines 82-97, the arguments of the checks. -/
def ArgOperand.at (C : Lil γ) : ArgOperand γ α → Operand α
  | .plain a => .plain (a.at C)
  | .tr a => .tr (a.at C)

/-- A mask argument that may share its object with the output; `sparse_mxm.hpp` lines
63-654, overloads on `NoMask`, `MatrixComplementView`, `MatrixStructureView`,
`MatrixStructuralComplementView`. -/
abbrev ArgMask (γ μ : Type) := Option (MaskKind × Arg γ μ)

/-- What the mask is while the output's content is `C`; `/repo/src/graphblas/operations.hpp` lines 82-84, the mask given to the checks. -/
def ArgMask.at (C : Lil γ) (M : ArgMask γ μ) : MMask μ :=
  match M with
  | none => none
  | some (k, m) => some (k, m.at C)

/-- The four functions of one operand combination behind a mask: by value or
structure of the mask (`structure_flag`), and by complement. Dispatch,
`sparse_mxm.hpp` lines 63-654. -/
def optDispatch (k : MaskKind) (mask comp : Bool → Except Err (Lil γ)) : Except Err (Lil γ) :=
  match k with
  | .plain => mask false
  | .struct => mask true
  | .comp => comp false
  | .structComp => comp true

/-- The backend's `mxm`, all 40 overloads, `sparse_mxm.hpp` lines 63-654. -/
def optMxmBackend (x : OptOps α β γ τ ζ μ) (acc : Option (AccOp γ τ ζ)) (outp : Outp) (C : Lil γ)
    (M : ArgMask γ μ) : ArgOperand γ α → ArgOperand γ β → Except Err (Lil γ)
  | .plain a, .plain b => match M, acc with
    | none, none => optNoMaskNoAccumAB x C a b
    | none, some acc => optNoMaskAccumAB x acc C a b
    | some (k, m), none => optDispatch k (fun sf => optMaskNoAccumAB x sf outp C m a b)
      (fun sf => optCompNoAccumAB x sf outp C m a b)
    | some (k, m), some acc => optDispatch k (fun sf => optMaskAccumAB x acc sf outp C m a b)
      (fun sf => optCompAccumAB x acc sf outp C m a b)
  | .plain a, .tr b => match M, acc with
    | none, none => optNoMaskNoAccumABT x C a b
    | none, some acc => optNoMaskAccumABT x acc C a b
    | some (k, m), none => optDispatch k (fun sf => optMaskNoAccumABT x sf outp C m a b)
      (fun sf => optCompNoAccumABT x sf outp C m a b)
    | some (k, m), some acc => optDispatch k (fun sf => optMaskAccumABT x acc sf outp C m a b)
      (fun sf => optCompAccumABT x acc sf outp C m a b)
  | .tr a, .plain b => match M, acc with
    | none, none => optNoMaskNoAccumATB x C a b
    | none, some acc => optNoMaskAccumATB x acc C a b
    | some (k, m), none => optDispatch k (fun sf => optMaskNoAccumATB x sf outp C m a b)
      (fun sf => optCompNoAccumATB x sf outp C m a b)
    | some (k, m), some acc => optDispatch k (fun sf => optMaskAccumATB x acc sf outp C m a b)
      (fun sf => optCompAccumATB x acc sf outp C m a b)
  | .tr a, .tr b => match M, acc with
    | none, none => optNoMaskNoAccumATBT x C a b
    | none, some acc => optNoMaskAccumATBT x acc C a b
    | some (k, m), none => optDispatch k (fun sf => optMaskNoAccumATBT x sf outp C m a b)
      (fun sf => optCompNoAccumATBT x sf outp C m a b)
    | some (k, m), some acc => optDispatch k (fun sf => optMaskAccumATBT x acc sf outp C m a b)
      (fun sf => optCompAccumATBT x acc sf outp C m a b)

/-- The shape checks of `mxm`, `/repo/src/graphblas/operations.hpp` lines 82-97. -/
def mxmChecks (M : MMask μ) (C : Lil γ) (A : Operand α) (B : Operand β) : Except Err Unit := do
  M.rowCheck C.nrows
  M.colCheck C.ncols
  eqCheck C.nrows A.nrows
  eqCheck C.ncols B.ncols
  eqCheck A.ncols B.nrows

/-- `mxm` of the frontend calling the `optimized_sequential` backend;
`/repo/src/graphblas/operations.hpp` lines 72-105. -/
def optMxm (x : OptOps α β γ τ ζ μ) (acc : Option (AccOp γ τ ζ)) (outp : Outp) (C : Lil γ)
    (M : ArgMask γ μ) (A : ArgOperand γ α) (B : ArgOperand γ β) : Outcome (Lil γ) :=
  run C (mxmChecks (M.at C) C (A.at C) (B.at C)) fun _ => optMxmBackend x acc outp C M A B

/-! ### The sequential backend with shared objects -/

/-- `write_with_opt_mask` of the `sequential` backend when the mask may be the output
itself, `sequential/sparse_helpers.hpp` lines 959-1070: the mask's row is read in the
iteration that writes the row. -/
def writeShared (truthy : μ → Bool) (castZ : ζ → γ) (C : Lil γ) (Z : Lil ζ) (M : ArgMask γ μ)
    (outp : Outp) : Except Err (Lil γ) :=
  match M with
  | none => sparseCopy castZ C Z
  | some (k, m) =>
    forN C.nrows C fun i C => do
      let c ← C.row i
      let z ← Z.row i
      let mr ← (m.at C).row i
      C.setRow i id (applyWithMask id castZ outp c z (maskRow truthy k (m.at C).ncols mr))

/-- `mxm` calling the `sequential` backend, with operands and mask that may be the
output itself: `T` and `Z` are complete before `C` is written;
`/repo/src/graphblas/operations.hpp` lines 72-105, `sequential/sparse_mxm.hpp`. -/
def mxmShared (truthy : μ → Bool) (acc : Accum γ τ ζ) (castZ : ζ → γ) (outp : Outp) (C : Lil γ)
    (M : ArgMask γ μ) (sr : SR α β τ) (via : τ → τ) (A : ArgOperand γ α) (B : ArgOperand γ β) :
    Outcome (Lil γ) :=
  run C
    (do
      mxmChecks (M.at C) C (A.at C) (B.at C)
      let T ← mxmT C sr via (A.at C) (B.at C)
      accumMat C acc T)
    fun Z => writeShared truthy castZ C Z M outp

end GBTL

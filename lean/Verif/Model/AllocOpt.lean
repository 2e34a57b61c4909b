import Verif.Model.Alloc
import Verif.Model.OptMxm
/-
The products of the `optimized_sequential` backend again, on a machine that runs out of
memory (see `Verif/Model/Alloc.lean`). Function by function as in `Verif/Model/OptMxm.lean`:
`work i` is the number of requests for the temporary rows of row `i`, `prep` that for a
temporary matrix. The requests of one row are all made before its store: the output is
not touched between them.

File names are relative to
`/repo/src/graphblas/platforms/optimized_sequential/`.
-/
namespace GBTL
open Spec (Outp MaskKind Op)
open Act (call lib output store)

variable {α β γ τ ζ μ ρ : Type}

/-- `mergeRow` with an accumulator, `LilSparseMatrix.hpp` lines 490-542: the merged row is
built in a temporary, then stored by the copying `setRow`. -/
def Lil.mergeRowL (i : Nat) (op : α → β → α) (cast : β → α) (r : Row β) :
    Act Nat (Lil α) BadAlloc Unit :=
  if r.isEmpty then pure ()
  else do
    let A ← output
    let old ← lib (A.row i)
    if old.isEmpty then Lil.setRowL i cast r
    else Lil.setRowL i id (mergeLoop op cast old r)

/-- `C.swap(Ctmp)`, `LilSparseMatrix.hpp` lines 421-428: it asks for no memory. -/
def Lil.swapL (D : Lil γ) : Act Nat (Lil γ) BadAlloc Unit := do
  let C ← output
  let C' ← lib (C.swapFrom D)
  store C'

/-- The end of every masked kernel without accumulator, e.g. `sparse_mxm_AB.hpp` lines
170-183. -/
def storeTL (sf compl : Bool) (truthy : μ → Bool) (cast : ρ → γ) (direct : Bool) (i : Nat)
    (m : Row μ) (t : Row ρ) : Act Nat (Lil γ) BadAlloc Unit :=
  if direct then Lil.setRowL i cast t
  else do
    let C ← output
    let c ← lib (C.row i)
    Lil.setRowL i id (maskedMerge sf compl truthy cast m c t)

/-- The end of every masked kernel with accumulator, e.g. `sparse_mxm_AB.hpp` lines
233-252. -/
def storeZL (sf compl : Bool) (truthy : μ → Bool) (castZ : ζ → γ) (acc : AccOp γ τ ζ) (direct : Bool)
    (i : Nat) (m : Row μ) (t : Row τ) : Act Nat (Lil γ) BadAlloc Unit := do
  let C ← output
  let c ← lib (C.row i)
  storeTL sf compl truthy castZ direct i m (maskedAccum sf compl truthy acc.op acc.cC acc.cT m c t)

/-! ### A*B: `sparse_mxm_AB.hpp` -/

/-- `AB_NoMask_NoAccum_kernel`, lines 61-87. -/
def abNoMaskNoAccumL (work : Nat → Nat) (add : τ → τ → τ) (mult : α → β → τ) (cast : τ → γ) (a : Arg γ α)
    (b : Arg γ β) : Act Nat (Lil γ) BadAlloc Unit := do
  let C ← output
  forA (a.at C).nrows () fun i _ => do
    let C ← output
    let ar ← lib ((a.at C).row i)
    let t ← lib (abRow add mult (b.at C) ar)
    requests (work i)
    Lil.setRowL i cast t

/-- `AB_NoMask_Accum_kernel`, lines 96-126. -/
def abNoMaskAccumL (work : Nat → Nat) (x : OptOps α β γ τ ζ μ) (acc : AccOp γ τ ζ) (a : Arg γ α)
    (b : Arg γ β) : Act Nat (Lil γ) BadAlloc Unit := do
  let C ← output
  forA (a.at C).nrows () fun i _ => do
    let C ← output
    let ar ← lib ((a.at C).row i)
    let t ← lib (abRow x.add x.mult (b.at C) ar)
    requests (work i)
    if !t.isEmpty then Lil.mergeRowL i (fun c t => x.castZ (acc.op c t)) x.castT t else pure ()

/-- `AB_Mask_NoAccum_kernel`, lines 135-185. -/
def abMaskNoAccumL (work : Nat → Nat) (add : τ → τ → τ) (mult : α → β → τ) (truthy : μ → Bool)
    (cast : τ → γ) (sf : Bool)
    (outp : Outp) (m : Arg γ μ) (a : Arg γ α) (b : Arg γ β) : Act Nat (Lil γ) BadAlloc Unit := do
  let C ← output
  forA (a.at C).nrows () fun i _ => do
    let C ← output
    let mr ← lib ((m.at C).row i)
    let ar ← lib ((a.at C).row i)
    let t ← lib (abMaskRow sf truthy add mult mr (b.at C) ar)
    requests (work i)
    storeTL sf false truthy cast (outp == .replace) i mr t

/-- `AB_Mask_Accum_kernel`, lines 195-254. -/
def abMaskAccumL (work : Nat → Nat) (x : OptOps α β γ τ ζ μ) (acc : AccOp γ τ ζ) (sf : Bool)
    (outp : Outp) (m : Arg γ μ) (a : Arg γ α) (b : Arg γ β) : Act Nat (Lil γ) BadAlloc Unit := do
  let C ← output
  forA (a.at C).nrows () fun i _ => do
    let C ← output
    let mr ← lib ((m.at C).row i)
    let ar ← lib ((a.at C).row i)
    let t ← lib (abMaskRow sf x.truthy x.add x.mult mr (b.at C) ar)
    requests (work i)
    storeZL sf false x.truthy x.castZ acc (outp == .replace) i mr t

/-- `AB_CompMask_NoAccum_kernel`, lines 263-312. -/
def abCompNoAccumL (work : Nat → Nat) (add : τ → τ → τ) (mult : α → β → τ) (truthy : μ → Bool)
    (cast : τ → γ) (sf : Bool)
    (outp : Outp) (m : Arg γ μ) (a : Arg γ α) (b : Arg γ β) : Act Nat (Lil γ) BadAlloc Unit := do
  let C ← output
  forA (a.at C).nrows () fun i _ => do
    let C ← output
    let mr ← lib ((m.at C).row i)
    let ar ← lib ((a.at C).row i)
    let t ← lib (abMaskedRow sf true truthy add mult mr (b.at C) ar)
    requests (work i)
    storeTL sf true truthy cast (outp == .replace || mr.isEmpty) i mr t

/-- `AB_CompMask_Accum_kernel`, lines 322-380. -/
def abCompAccumL (work : Nat → Nat) (x : OptOps α β γ τ ζ μ) (acc : AccOp γ τ ζ) (sf : Bool)
    (outp : Outp) (m : Arg γ μ) (a : Arg γ α) (b : Arg γ β) : Act Nat (Lil γ) BadAlloc Unit := do
  let C ← output
  forA (a.at C).nrows () fun i _ => do
    let C ← output
    let mr ← lib ((m.at C).row i)
    let ar ← lib ((a.at C).row i)
    let t ← lib (abMaskedRow sf true x.truthy x.add x.mult mr (b.at C) ar)
    requests (work i)
    storeZL sf true x.truthy x.castZ acc (outp == .replace || mr.isEmpty) i mr t

/-- The second half of the wrappers when `&C == &B`, without accumulator: the
temporary replaces `C`, or is merged into it row by row. E.g. `sparse_mxm_AB.hpp`
lines 502-519. -/
def fromTmpL (work : Nat → Nat) (sf compl : Bool) (truthy : μ → Bool) (outp : Outp) (m : Arg γ μ)
    (tmp : Lil γ) :
    Act Nat (Lil γ) BadAlloc Unit :=
  match outp with
  | .replace => Lil.swapL tmp
  | .merge => do
    let C ← output
    forA C.nrows () fun i _ => do
      let C ← output
      let mr ← lib ((m.at C).row i)
      let t ← lib (tmp.row i)
      requests (work i)
      storeTL sf compl truthy id false i mr t

/-- The same with a mask and an accumulator, e.g. lines 581-604. -/
def fromTmpAccumL (work : Nat → Nat) (sf compl : Bool) (truthy : μ → Bool) (castZ : ζ → γ) (acc : AccOp γ τ ζ)
    (outp : Outp) (m : Arg γ μ) (tmp : Lil τ) : Act Nat (Lil γ) BadAlloc Unit := do
  let C ← output
  forA C.nrows () fun i _ => do
    let C ← output
    let mr ← lib ((m.at C).row i)
    let t ← lib (tmp.row i)
    requests (work i)
    storeZL sf compl truthy castZ acc (outp == .replace) i mr t

/-- The same without mask: `for (...) C.mergeRow(i, Ctmp[i], accum);`, lines
447-450. -/
def mergeTmpL (work : Nat → Nat) (op : γ → ρ → γ) (cast : ρ → γ) (tmp : Lil ρ) :
    Act Nat (Lil γ) BadAlloc Unit := do
  let C ← output
  forA C.nrows () fun i _ => do
    let t ← lib (tmp.row i)
    requests (work i)
    Lil.mergeRowL i op cast t

/-- `sparse_mxm_NoMask_NoAccum_AB`, lines 391-420. -/
def optNoMaskNoAccumABL (prep : Nat) (work : Nat → Nat) (x : OptOps α β γ τ ζ μ) (a : Arg γ α) (b : Arg γ β) :
    Act Nat (Lil γ) BadAlloc Unit := do
  let C ← output
  if (a.at C).nvals == 0 || (b.at C).nvals == 0 then store C.clear
  else if b.isC then do
    requests prep
    let tmp ← lib (abNoMaskNoAccumK x.add x.mult x.castT (Lil.new C.nrows C.ncols) (.obj (a.at C))
      (.obj (b.at C)))
    Lil.swapL tmp
  else abNoMaskNoAccumL work x.add x.mult x.castT a b

/-- `sparse_mxm_NoMask_Accum_AB`, lines 428-460. -/
def optNoMaskAccumABL (prep : Nat) (work : Nat → Nat) (x : OptOps α β γ τ ζ μ) (acc : AccOp γ τ ζ)
    (a : Arg γ α)
    (b : Arg γ β) : Act Nat (Lil γ) BadAlloc Unit := do
  let C ← output
  if (a.at C).nvals == 0 || (b.at C).nvals == 0 then pure ()
  else if b.isC then do
    requests prep
    let tmp ← lib (abNoMaskNoAccumK x.add x.mult x.castT (Lil.new C.nrows C.ncols) (.obj (a.at C))
      (.obj (b.at C)))
    mergeTmpL work (fun c t => x.castZ (x.accC c t)) id tmp
  else abNoMaskAccumL work x acc a b

/-- `sparse_mxm_Mask_NoAccum_AB`, lines 468-530. -/
def optMaskNoAccumABL (prep : Nat) (work : Nat → Nat) (x : OptOps α β γ τ ζ μ) (sf : Bool)
    (outp : Outp) (m : Arg γ μ)
    (a : Arg γ α) (b : Arg γ β) : Act Nat (Lil γ) BadAlloc Unit := do
  let C ← output
  if outp == .replace && ((a.at C).nvals == 0 || (b.at C).nvals == 0 || (m.at C).nvals == 0) then
    store C.clear
  else if outp == .merge && (m.at C).nvals == 0 then pure ()
  else if b.isC then do
    requests prep
    let tmp ← lib (abMaskNoAccumK x.add x.mult x.truthy x.castT sf .replace (Lil.new C.nrows C.ncols)
      (.obj (m.at C)) (.obj (a.at C)) (.obj (b.at C)))
    fromTmpL work sf false x.truthy outp m tmp
  else abMaskNoAccumL work x.add x.mult x.truthy x.castT sf outp m a b

/-- `sparse_mxm_Mask_Accum_AB`, lines 539-613. -/
def optMaskAccumABL (prep : Nat) (work : Nat → Nat) (x : OptOps α β γ τ ζ μ) (acc : AccOp γ τ ζ)
    (sf : Bool) (outp : Outp) (m : Arg γ μ) (a : Arg γ α) (b : Arg γ β) : Act Nat (Lil γ) BadAlloc Unit := do
  let C ← output
  if outp == .replace && (m.at C).nvals == 0 then store C.clear
  else if outp == .merge && (m.at C).nvals == 0 then pure ()
  else if b.isC then do
    requests prep
    let tmp ← lib (abMaskNoAccumK x.add x.mult x.truthy id sf .replace (Lil.new C.nrows C.ncols)
      (.obj (m.at C)) (.obj (a.at C)) (.obj (b.at C)))
    fromTmpAccumL work sf false x.truthy x.castZ acc outp m tmp
  else abMaskAccumL work x acc sf outp m a b

/-- `sparse_mxm_CompMask_NoAccum_AB`, lines 621-678. -/
def optCompNoAccumABL (prep : Nat) (work : Nat → Nat) (x : OptOps α β γ τ ζ μ) (sf : Bool)
    (outp : Outp) (m : Arg γ μ)
    (a : Arg γ α) (b : Arg γ β) : Act Nat (Lil γ) BadAlloc Unit := do
  let C ← output
  if outp == .replace && ((a.at C).nvals == 0 || (b.at C).nvals == 0) then store C.clear
  else if b.isC then do
    requests prep
    let tmp ← lib (abCompNoAccumK x.add x.mult x.truthy x.castT sf .replace (Lil.new C.nrows C.ncols)
      (.obj (m.at C)) (.obj (a.at C)) (.obj (b.at C)))
    fromTmpL work sf true x.truthy outp m tmp
  else abCompNoAccumL work x.add x.mult x.truthy x.castT sf outp m a b

/-- `sparse_mxm_CompMask_Accum_AB`, lines 687-758. -/
def optCompAccumABL (prep : Nat) (work : Nat → Nat) (x : OptOps α β γ τ ζ μ) (acc : AccOp γ τ ζ)
    (sf : Bool) (outp : Outp) (m : Arg γ μ) (a : Arg γ α) (b : Arg γ β) : Act Nat (Lil γ) BadAlloc Unit := do
  let C ← output
  if outp == .replace && (m.at C).nvals == 0 && ((a.at C).nvals == 0 || (b.at C).nvals == 0) then
    pure ()
  else if b.isC then do
    requests prep
    let tmp ← lib (abCompNoAccumK x.add x.mult x.truthy id sf .replace (Lil.new C.nrows C.ncols)
      (.obj (m.at C)) (.obj (a.at C)) (.obj (b.at C)))
    fromTmpAccumL work sf true x.truthy x.castZ acc outp m tmp
  else abCompAccumL work x acc sf outp m a b

/-! ### A*B': `sparse_mxm_ABT.hpp` -/


/-- `ABT_NoMask_NoAccum_kernel`, lines 61-92. An empty row of `A` is skipped before
`C.setRow` is reached (line 74): the row of `C` keeps what it held. -/
def abtNoMaskNoAccumL (work : Nat → Nat) (add : τ → τ → τ) (mult : α → β → τ) (cast : τ → γ) (a : Arg γ α)
    (b : Arg γ β) : Act Nat (Lil γ) BadAlloc Unit := do
  let C ← output
  forA (a.at C).nrows () fun i _ => do
    let C ← output
    let ar ← lib ((a.at C).row i)
    if ar.isEmpty then pure ()
    else do
      let t ← lib (abtRow add mult ar (b.at C))
      requests (work i)
      Lil.setRowL i id (Row.cast cast t)

/-- `ABT_NoMask_Accum_kernel`, lines 101-139. -/
def abtNoMaskAccumL (work : Nat → Nat) (x : OptOps α β γ τ ζ μ) (acc : AccOp γ τ ζ) (a : Arg γ α)
    (b : Arg γ β) : Act Nat (Lil γ) BadAlloc Unit := do
  let C ← output
  forA (a.at C).nrows () fun i _ => do
    let C ← output
    let ar ← lib ((a.at C).row i)
    if ar.isEmpty then pure ()
    else do
      let t ← lib (abtRow x.add x.mult ar (b.at C))
      requests (work i)
      if !t.isEmpty then Lil.mergeRowL i (fun c t => x.castZ (acc.op c t)) x.castT t else pure ()

/-- `ABT_Mask_NoAccum_kernel`, lines 148-201. -/
def abtMaskNoAccumL (work : Nat → Nat) (add : τ → τ → τ) (mult : α → β → τ) (truthy : μ → Bool)
    (cast : τ → γ) (sf : Bool)
    (outp : Outp) (m : Arg γ μ) (a : Arg γ α) (b : Arg γ β) : Act Nat (Lil γ) BadAlloc Unit := do
  let C ← output
  forA (a.at C).nrows () fun i _ => do
    let C ← output
    let mr ← lib ((m.at C).row i)
    let ar ← lib ((a.at C).row i)
    let t ← lib (abtMaskRow sf truthy add mult mr ar (b.at C))
    requests (work i)
    storeTL sf false truthy cast (outp == .replace) i mr t

/-- `ABT_Mask_Accum_kernel`, lines 211-277. -/
def abtMaskAccumL (work : Nat → Nat) (x : OptOps α β γ τ ζ μ) (acc : AccOp γ τ ζ) (sf : Bool)
    (outp : Outp) (m : Arg γ μ) (a : Arg γ α) (b : Arg γ β) : Act Nat (Lil γ) BadAlloc Unit := do
  let C ← output
  forA (a.at C).nrows () fun i _ => do
    let C ← output
    let mr ← lib ((m.at C).row i)
    let ar ← lib ((a.at C).row i)
    let t ← lib (abtMaskRow sf x.truthy x.add x.mult mr ar (b.at C))
    requests (work i)
    storeZL sf false x.truthy x.castZ acc (outp == .replace) i mr t

/-- `ABT_CompMask_NoAccum_kernel`, lines 286-340. -/
def abtCompNoAccumL (work : Nat → Nat) (add : τ → τ → τ) (mult : α → β → τ) (truthy : μ → Bool)
    (cast : τ → γ) (sf : Bool)
    (outp : Outp) (m : Arg γ μ) (a : Arg γ α) (b : Arg γ β) : Act Nat (Lil γ) BadAlloc Unit := do
  let C ← output
  forA (a.at C).nrows () fun i _ => do
    let C ← output
    let mr ← lib ((m.at C).row i)
    let ar ← lib ((a.at C).row i)
    let t ← lib (abtCompRow sf truthy add mult mr ar (b.at C))
    requests (work i)
    storeTL sf true truthy cast (outp == .replace) i mr t

/-- `ABT_CompMask_Accum_kernel`, lines 350-418. -/
def abtCompAccumL (work : Nat → Nat) (x : OptOps α β γ τ ζ μ) (acc : AccOp γ τ ζ) (sf : Bool)
    (outp : Outp) (m : Arg γ μ) (a : Arg γ α) (b : Arg γ β) : Act Nat (Lil γ) BadAlloc Unit := do
  let C ← output
  forA (a.at C).nrows () fun i _ => do
    let C ← output
    let mr ← lib ((m.at C).row i)
    let ar ← lib ((a.at C).row i)
    let t ← lib (abtCompRow sf x.truthy x.add x.mult mr ar (b.at C))
    requests (work i)
    storeZL sf true x.truthy x.castZ acc (outp == .replace) i mr t

/-- `sparse_mxm_NoMask_NoAccum_ABT`, lines 429-461. -/
def optNoMaskNoAccumABTL (prep : Nat) (work : Nat → Nat) (x : OptOps α β γ τ ζ μ) (a : Arg γ α)
    (b : Arg γ β) : Act Nat (Lil γ) BadAlloc Unit := do
  let C ← output
  if (a.at C).nvals == 0 || (b.at C).nvals == 0 then store C.clear
  else if b.isC then do
    requests prep
    let tmp ← lib (abtNoMaskNoAccumK x.add x.mult x.castT (Lil.new C.nrows C.ncols) (.obj (a.at C))
      (.obj (b.at C)))
    Lil.swapL tmp
  else abtNoMaskNoAccumL work x.add x.mult x.castT a b

/-- `sparse_mxm_NoMask_Accum_ABT`, lines 469-501. -/
def optNoMaskAccumABTL (prep : Nat) (work : Nat → Nat) (x : OptOps α β γ τ ζ μ) (acc : AccOp γ τ ζ)
    (a : Arg γ α)
    (b : Arg γ β) : Act Nat (Lil γ) BadAlloc Unit := do
  let C ← output
  if (a.at C).nvals == 0 || (b.at C).nvals == 0 then pure ()
  else if b.isC then do
    requests prep
    let tmp ← lib (abtNoMaskNoAccumK x.add x.mult x.castT (Lil.new C.nrows C.ncols) (.obj (a.at C))
      (.obj (b.at C)))
    mergeTmpL work (fun c t => x.castZ (x.accC c t)) id tmp
  else abtNoMaskAccumL work x acc a b

/-- `sparse_mxm_Mask_NoAccum_ABT`, lines 509-573. -/
def optMaskNoAccumABTL (prep : Nat) (work : Nat → Nat) (x : OptOps α β γ τ ζ μ) (sf : Bool)
    (outp : Outp) (m : Arg γ μ)
    (a : Arg γ α) (b : Arg γ β) : Act Nat (Lil γ) BadAlloc Unit := do
  let C ← output
  if outp == .replace && ((a.at C).nvals == 0 || (b.at C).nvals == 0 || (m.at C).nvals == 0) then
    store C.clear
  else if outp == .merge && (m.at C).nvals == 0 then pure ()
  else if b.isC then do
    requests prep
    let tmp ← lib (abtMaskNoAccumK x.add x.mult x.truthy x.castT sf .replace (Lil.new C.nrows C.ncols)
      (.obj (m.at C)) (.obj (a.at C)) (.obj (b.at C)))
    fromTmpL work sf false x.truthy outp m tmp
  else abtMaskNoAccumL work x.add x.mult x.truthy x.castT sf outp m a b

/-- `sparse_mxm_Mask_Accum_ABT`, lines 582-658. -/
def optMaskAccumABTL (prep : Nat) (work : Nat → Nat) (x : OptOps α β γ τ ζ μ) (acc : AccOp γ τ ζ)
    (sf : Bool) (outp : Outp) (m : Arg γ μ) (a : Arg γ α) (b : Arg γ β) : Act Nat (Lil γ) BadAlloc Unit := do
  let C ← output
  if outp == .replace && (m.at C).nvals == 0 then store C.clear
  else if outp == .merge && (m.at C).nvals == 0 then pure ()
  else if b.isC then do
    requests prep
    let tmp ← lib (abtMaskNoAccumK x.add x.mult x.truthy id sf .replace (Lil.new C.nrows C.ncols)
      (.obj (m.at C)) (.obj (a.at C)) (.obj (b.at C)))
    fromTmpAccumL work sf false x.truthy x.castZ acc outp m tmp
  else abtMaskAccumL work x acc sf outp m a b

/-- `sparse_mxm_CompMask_NoAccum_ABT`, lines 666-726. -/
def optCompNoAccumABTL (prep : Nat) (work : Nat → Nat) (x : OptOps α β γ τ ζ μ) (sf : Bool)
    (outp : Outp) (m : Arg γ μ)
    (a : Arg γ α) (b : Arg γ β) : Act Nat (Lil γ) BadAlloc Unit := do
  let C ← output
  if outp == .replace && ((a.at C).nvals == 0 || (b.at C).nvals == 0) then store C.clear
  else if b.isC then do
    requests prep
    let tmp ← lib (abtCompNoAccumK x.add x.mult x.truthy x.castT sf .replace (Lil.new C.nrows C.ncols)
      (.obj (m.at C)) (.obj (a.at C)) (.obj (b.at C)))
    fromTmpL work sf true x.truthy outp m tmp
  else abtCompNoAccumL work x.add x.mult x.truthy x.castT sf outp m a b

/-- `sparse_mxm_CompMask_Accum_ABT`, lines 735-802. -/
def optCompAccumABTL (prep : Nat) (work : Nat → Nat) (x : OptOps α β γ τ ζ μ) (acc : AccOp γ τ ζ)
    (sf : Bool) (outp : Outp) (m : Arg γ μ) (a : Arg γ α) (b : Arg γ β) : Act Nat (Lil γ) BadAlloc Unit := do
  let C ← output
  if b.isC then do
    requests prep
    let tmp ← lib (abtCompNoAccumK x.add x.mult x.truthy id sf .replace (Lil.new C.nrows C.ncols)
      (.obj (m.at C)) (.obj (a.at C)) (.obj (b.at C)))
    fromTmpAccumL work sf true x.truthy x.castZ acc outp m tmp
  else abtCompAccumL work x acc sf outp m a b

/-! ### A'*B: `sparse_mxm_ATB.hpp` -/


/-- `sparse_mxm_NoMask_NoAccum_ATB`, lines 157-184. -/
def optNoMaskNoAccumATBL (prep : Nat) (work : Nat → Nat) (x : OptOps α β γ τ ζ μ) (a : Arg γ α)
    (b : Arg γ β) : Act Nat (Lil γ) BadAlloc Unit := do
  let C ← output
  if (a.at C).nvals == 0 || (b.at C).nvals == 0 then store C.clear
  else do
    requests prep
    let T ← lib (atbNoMaskK x.add x.mult (Lil.new C.nrows C.ncols) (a.at C) (b.at C))
    forA C.nrows () fun i _ => do
      let t ← lib (T.row i)
      requests (work i)
      Lil.setRowL i x.castT t

/-- `sparse_mxm_NoMask_Accum_ATB`, lines 192-221. -/
def optNoMaskAccumATBL (prep : Nat) (work : Nat → Nat) (x : OptOps α β γ τ ζ μ) (acc : AccOp γ τ ζ)
    (a : Arg γ α)
    (b : Arg γ β) : Act Nat (Lil γ) BadAlloc Unit := do
  let C ← output
  if (a.at C).nvals == 0 || (b.at C).nvals == 0 then pure ()
  else do
    requests prep
    let T ← lib (atbNoMaskK x.add x.mult (Lil.new C.nrows C.ncols) (a.at C) (b.at C))
    forA C.nrows () fun i _ => do
      let t ← lib (T.row i)
      requests (work i)
      if !t.isEmpty then Lil.mergeRowL i (fun c t => x.castZ (acc.op c t)) x.castT t else pure ()

/-- `sparse_mxm_Mask_NoAccum_ATB`, lines 229-282. -/
def optMaskNoAccumATBL (prep : Nat) (work : Nat → Nat) (x : OptOps α β γ τ ζ μ) (sf : Bool)
    (outp : Outp) (m : Arg γ μ)
    (a : Arg γ α) (b : Arg γ β) : Act Nat (Lil γ) BadAlloc Unit := do
  let C ← output
  if outp == .replace && ((a.at C).nvals == 0 || (b.at C).nvals == 0 || (m.at C).nvals == 0) then
    store C.clear
  else if outp == .merge && (m.at C).nvals == 0 then pure ()
  else do
    requests prep
    let T ← lib (atbMaskK sf x.truthy x.add x.mult (Lil.new C.nrows C.ncols) (m.at C) (a.at C) (b.at C))
    forA C.nrows () fun i _ => do
      let C ← output
      let mr ← lib ((m.at C).row i)
      let t ← lib (T.row i)
      requests (work i)
      storeTL sf false x.truthy x.castT (outp == .replace) i mr t

/-- `sparse_mxm_Mask_Accum_ATB`, lines 291-350. -/
def optMaskAccumATBL (prep : Nat) (work : Nat → Nat) (x : OptOps α β γ τ ζ μ) (acc : AccOp γ τ ζ)
    (sf : Bool) (outp : Outp) (m : Arg γ μ) (a : Arg γ α) (b : Arg γ β) : Act Nat (Lil γ) BadAlloc Unit := do
  let C ← output
  if outp == .replace && (m.at C).nvals == 0 then store C.clear
  else if outp == .merge && (m.at C).nvals == 0 then pure ()
  else do
    requests prep
    let T ← lib (atbMaskK sf x.truthy x.add x.mult (Lil.new C.nrows C.ncols) (m.at C) (a.at C) (b.at C))
    forA C.nrows () fun i _ => do
      let C ← output
      let mr ← lib ((m.at C).row i)
      let t ← lib (T.row i)
      requests (work i)
      storeZL sf false x.truthy x.castZ acc (outp == .replace) i mr t

/-- `sparse_mxm_CompMask_NoAccum_ATB`, lines 358-402. -/
def optCompNoAccumATBL (prep : Nat) (work : Nat → Nat) (x : OptOps α β γ τ ζ μ) (sf : Bool)
    (outp : Outp) (m : Arg γ μ)
    (a : Arg γ α) (b : Arg γ β) : Act Nat (Lil γ) BadAlloc Unit := do
  let C ← output
  if outp == .replace && ((a.at C).nvals == 0 || (b.at C).nvals == 0) then store C.clear
  else do
    requests prep
    let T ← lib (atbCompK sf x.truthy x.add x.mult (Lil.new C.nrows C.ncols) (m.at C) (a.at C) (b.at C))
    forA C.nrows () fun i _ => do
      let C ← output
      let mr ← lib ((m.at C).row i)
      let t ← lib (T.row i)
      requests (work i)
      storeTL sf true x.truthy x.castT (outp == .replace || mr.isEmpty) i mr t

/-- `sparse_mxm_CompMask_Accum_ATB`, lines 411-466. -/
def optCompAccumATBL (prep : Nat) (work : Nat → Nat) (x : OptOps α β γ τ ζ μ) (acc : AccOp γ τ ζ)
    (sf : Bool) (outp : Outp) (m : Arg γ μ) (a : Arg γ α) (b : Arg γ β) : Act Nat (Lil γ) BadAlloc Unit := do
  let C ← output
  if outp == .replace && (m.at C).nvals == 0 && ((a.at C).nvals == 0 || (b.at C).nvals == 0) then
    pure ()
  else do
    requests prep
    let T ← lib (atbCompK sf x.truthy x.add x.mult (Lil.new C.nrows C.ncols) (m.at C) (a.at C) (b.at C))
    forA C.nrows () fun i _ => do
      let C ← output
      let mr ← lib ((m.at C).row i)
      let t ← lib (T.row i)
      requests (work i)
      storeZL sf true x.truthy x.castZ acc (outp == .replace || mr.isEmpty) i mr t

/-! ### A'*B': `sparse_mxm_ATBT.hpp` -/


/-- `for (auto&& [j, t] : T_row) C[j].emplace_back(i, t);`, lines 84-89: the counter is not
touched. -/
def pushColL (i : Nat) : Row γ → Act Nat (Lil γ) BadAlloc Unit
  | [] => pure ()
  | (j, t) :: r => do
    Lil.pushBackL j (i, t)
    pushColL i r

/-- `ATBT_NoMask_NoAccum_kernel`, lines 57-92, writing `C` itself: the counter is 0 until
the last statement. -/
def atbtL (work : Nat → Nat) (add : τ → τ → τ) (multA : α → α → τ) (castBA : β → α) (cast : τ → γ)
    (A : Lil α) (B : Lil β) : Act Nat (Lil γ) BadAlloc Unit := do
  let C ← output
  store C.clear
  forA B.nrows () fun i _ => do
    let b ← lib (B.row i)
    let t ← lib (atbtRow add multA castBA A b)
    requests (work i)
    pushColL i (Row.cast cast t)
  let C ← output
  store C.recomputeNvals

/-- `sparse_mxm_NoMask_NoAccum_ATBT`, lines 103-138. -/
def optNoMaskNoAccumATBTL (prep : Nat) (work : Nat → Nat) (x : OptOps α β γ τ ζ μ) (a : Arg γ α)
    (b : Arg γ β) : Act Nat (Lil γ) BadAlloc Unit := do
  let C ← output
  if (a.at C).nvals == 0 || (b.at C).nvals == 0 then store C.clear
  else if a.isC || b.isC then do
    requests prep
    let tmp ← lib (atbtK x.add x.multA x.castBA x.castT (Lil.new C.nrows C.ncols) (a.at C) (b.at C))
    forA C.nrows () fun i _ => do
      let t ← lib (tmp.row i)
      requests (work i)
      Lil.setRowL i id t
    let C ← output
    store C.recomputeNvals
  else do
    atbtL work x.add x.multA x.castBA x.castT (a.at C) (b.at C)
    let C ← output
    store C.recomputeNvals

/-- `sparse_mxm_NoMask_Accum_ATBT`, lines 146-188: both branches do the same. -/
def optNoMaskAccumATBTL (prep : Nat) (work : Nat → Nat) (x : OptOps α β γ τ ζ μ) (acc : AccOp γ τ ζ)
    (a : Arg γ α)
    (b : Arg γ β) : Act Nat (Lil γ) BadAlloc Unit := do
  let C ← output
  if (a.at C).nvals == 0 || (b.at C).nvals == 0 then pure ()
  else do
    requests prep
    let T ← lib (atbtK x.add x.multA x.castBA id (Lil.new C.nrows C.ncols) (a.at C) (b.at C))
    mergeTmpL work (fun c t => x.castZ (acc.op c t)) x.castT T

/-- `sparse_mxm_Mask_NoAccum_ATBT`, lines 196-282. -/
def optMaskNoAccumATBTL (prep : Nat) (work : Nat → Nat) (x : OptOps α β γ τ ζ μ) (sf : Bool)
    (outp : Outp) (m : Arg γ μ)
    (a : Arg γ α) (b : Arg γ β) : Act Nat (Lil γ) BadAlloc Unit := do
  let C ← output
  if outp == .replace && ((a.at C).nvals == 0 || (b.at C).nvals == 0 || (m.at C).nvals == 0) then
    store C.clear
  else if outp == .merge && (m.at C).nvals == 0 then pure ()
  else do
    requests prep
    let T ← lib (atbtT x.add x.multA x.castBA C.nrows C.ncols (a.at C) (b.at C))
    forA C.nrows () fun i _ => do
      let C ← output
      let mr ← lib ((m.at C).row i)
      let t ← lib (T.row i)
      requests (work i)
      storeTL sf false x.truthy id (outp == .replace) i mr
        (Row.cast x.castT (maskFilter sf false x.truthy mr t))

/-- `sparse_mxm_Mask_Accum_ATBT`, lines 291-389. -/
def optMaskAccumATBTL (prep : Nat) (work : Nat → Nat) (x : OptOps α β γ τ ζ μ) (acc : AccOp γ τ ζ)
    (sf : Bool) (outp : Outp) (m : Arg γ μ) (a : Arg γ α) (b : Arg γ β) : Act Nat (Lil γ) BadAlloc Unit := do
  let C ← output
  if outp == .replace && (m.at C).nvals == 0 then store C.clear
  else if outp == .merge && (m.at C).nvals == 0 then pure ()
  else do
    requests prep
    let T ← lib (atbtT x.add x.multA x.castBA C.nrows C.ncols (a.at C) (b.at C))
    forA C.nrows () fun i _ => do
      let C ← output
      let mr ← lib ((m.at C).row i)
      let t ← lib (T.row i)
      requests (work i)
      storeZL sf false x.truthy x.castZ acc (outp == .replace) i mr
        (maskFilter sf false x.truthy mr t)

/-- `sparse_mxm_CompMask_NoAccum_ATBT`, lines 397-480. -/
def optCompNoAccumATBTL (prep : Nat) (work : Nat → Nat) (x : OptOps α β γ τ ζ μ) (sf : Bool)
    (outp : Outp) (m : Arg γ μ)
    (a : Arg γ α) (b : Arg γ β) : Act Nat (Lil γ) BadAlloc Unit := do
  let C ← output
  if outp == .replace && ((a.at C).nvals == 0 || (b.at C).nvals == 0) then store C.clear
  else do
    requests prep
    let T ← lib (atbtT x.add x.multA x.castBA C.nrows C.ncols (a.at C) (b.at C))
    forA C.nrows () fun i _ => do
      let C ← output
      let mr ← lib ((m.at C).row i)
      let t ← lib (T.row i)
      requests (work i)
      storeTL sf true x.truthy id (outp == .replace) i mr
        (Row.cast x.castT (maskFilter sf true x.truthy mr t))

/-- `sparse_mxm_CompMask_Accum_ATBT`, lines 489-584. -/
def optCompAccumATBTL (prep : Nat) (work : Nat → Nat) (x : OptOps α β γ τ ζ μ) (acc : AccOp γ τ ζ)
    (sf : Bool) (outp : Outp) (m : Arg γ μ) (a : Arg γ α) (b : Arg γ β) : Act Nat (Lil γ) BadAlloc Unit := do
  let C ← output
  if outp == .replace && (m.at C).nvals == 0 && ((a.at C).nvals == 0 || (b.at C).nvals == 0) then
    pure ()
  else do
    requests prep
    let T ← lib (atbtT x.add x.multA x.castBA C.nrows C.ncols (a.at C) (b.at C))
    forA C.nrows () fun i _ => do
      let C ← output
      let mr ← lib ((m.at C).row i)
      let t ← lib (T.row i)
      requests (work i)
      storeZL sf true x.truthy x.castZ acc (outp == .replace) i mr
        (maskFilter sf true x.truthy mr t)

/-! ### Dispatch -/

/-- By value or structure of the mask, and by complement, `sparse_mxm.hpp` lines 63-654. -/
def optDispatchL (k : MaskKind) (mask comp : Bool → Act Nat (Lil γ) BadAlloc Unit) :
    Act Nat (Lil γ) BadAlloc Unit :=
  match k with
  | .plain => mask false
  | .struct => mask true
  | .comp => comp false
  | .structComp => comp true

/-- The backend's `mxm`, all 40 overloads, `sparse_mxm.hpp` lines 63-654. -/
def optMxmBackendL (prep : Nat) (work : Nat → Nat) (x : OptOps α β γ τ ζ μ) (acc : Option (AccOp γ τ ζ))
    (outp : Outp) (M : ArgMask γ μ) : ArgOperand γ α → ArgOperand γ β → Act Nat (Lil γ) BadAlloc Unit
  | .plain a, .plain b => match M, acc with
    | none, none => optNoMaskNoAccumABL prep work x a b
    | none, some acc => optNoMaskAccumABL prep work x acc a b
    | some (k, m), none => optDispatchL k (fun sf => optMaskNoAccumABL prep work x sf outp m a b)
      (fun sf => optCompNoAccumABL prep work x sf outp m a b)
    | some (k, m), some acc => optDispatchL k (fun sf => optMaskAccumABL prep work x acc sf outp m a b)
      (fun sf => optCompAccumABL prep work x acc sf outp m a b)
  | .plain a, .tr b => match M, acc with
    | none, none => optNoMaskNoAccumABTL prep work x a b
    | none, some acc => optNoMaskAccumABTL prep work x acc a b
    | some (k, m), none => optDispatchL k (fun sf => optMaskNoAccumABTL prep work x sf outp m a b)
      (fun sf => optCompNoAccumABTL prep work x sf outp m a b)
    | some (k, m), some acc => optDispatchL k (fun sf => optMaskAccumABTL prep work x acc sf outp m a b)
      (fun sf => optCompAccumABTL prep work x acc sf outp m a b)
  | .tr a, .plain b => match M, acc with
    | none, none => optNoMaskNoAccumATBL prep work x a b
    | none, some acc => optNoMaskAccumATBL prep work x acc a b
    | some (k, m), none => optDispatchL k (fun sf => optMaskNoAccumATBL prep work x sf outp m a b)
      (fun sf => optCompNoAccumATBL prep work x sf outp m a b)
    | some (k, m), some acc => optDispatchL k (fun sf => optMaskAccumATBL prep work x acc sf outp m a b)
      (fun sf => optCompAccumATBL prep work x acc sf outp m a b)
  | .tr a, .tr b => match M, acc with
    | none, none => optNoMaskNoAccumATBTL prep work x a b
    | none, some acc => optNoMaskAccumATBTL prep work x acc a b
    | some (k, m), none => optDispatchL k (fun sf => optMaskNoAccumATBTL prep work x sf outp m a b)
      (fun sf => optCompNoAccumATBTL prep work x sf outp m a b)
    | some (k, m), some acc => optDispatchL k (fun sf => optMaskAccumATBTL prep work x acc sf outp m a b)
      (fun sf => optCompAccumATBTL prep work x acc sf outp m a b)

/-- `mxm` of the frontend calling the `optimized_sequential` backend;
`/repo/src/graphblas/operations.hpp` lines 72-105. The checks ask for no memory. -/
def optMxmL (prep : Nat) (work : Nat → Nat) (x : OptOps α β γ τ ζ μ) (acc : Option (AccOp γ τ ζ))
    (outp : Outp) (M : ArgMask γ μ) (A : ArgOperand γ α) (B : ArgOperand γ β) :
    Act Nat (Lil γ) BadAlloc Unit := do
  let C ← output
  lib (mxmChecks (M.at C) C (A.at C) (B.at C))
  optMxmBackendL prep work x acc outp M A B

end GBTL

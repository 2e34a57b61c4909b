import Verif.Model.Vec
import Verif.Model.Lil
import Verif.Spec.Basic
/-
Model of `/repo/src/graphblas/platforms/sequential/sparse_helpers.hpp`. Line
numbers refer to that file. A loop over iterators is a recursion over the
remaining suffixes of the rows; `emplace_back` order is list order.
-/
namespace GBTL
open Spec (Outp MaskKind Accum)

variable {α β γ δ τ ζ μ ν : Type}

/-! ### Iterator helpers -/

/-- Advancing an iterator while the index is below `j`: the suffix it then
points to. Lines 121-124 and 1302-1305. -/
def dropBelow (j : Nat) (r : Row α) : Row α := r.dropWhile fun p => p.1 < j

/-- The elements passed over by the same loop; `increment_and_add_while_below`,
lines 132-141, pushes them to the result. -/
def takeBelow (j : Nat) (r : Row α) : Row α := r.takeWhile fun p => p.1 < j

/-- Does the iterator point to index `j`? Lines 125, 1307. -/
def headIs (j : Nat) (r : Row α) : Option α :=
  match r with
  | (k, x) :: _ => if k = j then some x else none
  | [] => none

/-! ### dot, reduction -/

/-- The loop of `dot`, lines 223-250; `ans` is `none` while `value_set` is false. -/
def dotLoop (add : τ → τ → τ) (mult : α → β → τ) : Row α → Row β → Option τ → Option τ
  | (i, x) :: r, (j, y) :: s, ans =>
    if j = i then
      dotLoop add mult r s (match ans with
        | some a => some (add a (mult x y))
        | none => some (mult x y))
    else if j > i then dotLoop add mult r ((j, y) :: s) ans
    else dotLoop add mult ((i, x) :: r) s ans
  | [], _, ans => ans
  | _, [], ans => ans
termination_by r s => r.length + s.length

/-- `dot`, lines 206-253: `none` when `value_set` is returned false. -/
def dot (add : τ → τ → τ) (mult : α → β → τ) (v1 : Row α) (v2 : Row β) : Option τ :=
  if v2.isEmpty || v1.isEmpty then none else dotLoop add mult v1 v2 none

/-- `dot_rev(ans, vec2, vec1, op)`, lines 258-305: the same loop, the multiply
gets the element of the first argument first. -/
def dotRev (add : τ → τ → τ) (mult : α → β → τ) (v2 : Row α) (v1 : Row β) : Option τ :=
  if v2.isEmpty || v1.isEmpty then none else dotLoop add (fun b a => mult a b) v1 v2 none

/-- `reduction`, lines 311-344. `cast1` converts an element to the operator's
result type, `op` combines two elements, `op'` the running value with an
element, `cast` converts to the answer's type. (In C++ `op` and `op'` are the
same functor with implicit conversions.) -/
def reduction (op : α → α → τ) (op' : τ → α → τ) (cast1 : α → τ) (cast : τ → δ) :
    Row α → Option δ
  | [] => none
  | [(_, x)] => some (cast (cast1 x))
  | (_, x) :: (_, y) :: r => some (cast (r.foldl (fun t p => op' t p.2) (op x y)))

/-! ### Element-wise merges -/

/-- `ewise_or`, lines 352-411. `op` includes the conversion to the answer's type.
(The aliasing check on lines 357-361 never fires: every caller passes a local
answer.) -/
def ewiseOr (op : α → β → δ) (c1 : α → δ) (c2 : β → δ) : Row α → Row β → Row δ
  | [], [] => []
  | (i, x) :: r, [] => (i, c1 x) :: ewiseOr op c1 c2 r []
  | [], (j, y) :: s => (j, c2 y) :: ewiseOr op c1 c2 [] s
  | (i, x) :: r, (j, y) :: s =>
    if j = i then (i, op x y) :: ewiseOr op c1 c2 r s
    else if j > i then (i, c1 x) :: ewiseOr op c1 c2 r ((j, y) :: s)
    else (j, c2 y) :: ewiseOr op c1 c2 ((i, x) :: r) s
termination_by r s => r.length + s.length

/-- `ewise_and`, lines 740-774. -/
def ewiseAnd (op : α → β → δ) : Row α → Row β → Row δ
  | (i, x) :: r, (j, y) :: s =>
    if j = i then (i, op x y) :: ewiseAnd op r s
    else if j > i then ewiseAnd op r ((j, y) :: s)
    else ewiseAnd op ((i, x) :: r) s
  | [], _ => []
  | _, [] => []
termination_by r s => r.length + s.length

/-- An index argument: an explicit list of indices (any `std::vector`-like
sequence, or an `IndexSequenceRange`) or `AllIndices`; `/repo/src/graphblas/indices.hpp`
lines 171-193 and 229-247. -/
inductive Idx where
  | list (l : List Nat)
  | all
  deriving DecidableEq, Repr

/-- `searchIndices`, lines 417-430. -/
def searchIndices : Idx → Nat → Bool
  | .list l, n => l.any fun k => k = n
  | .all, _ => true

/-- `ewise_or_stencil`, lines 462-535. -/
def ewiseOrStencil (c1 : α → δ) (c2 : β → δ) (st : Idx) : Row α → Row β → Row δ
  | [], [] => []
  | (i, x) :: r, [] =>
    if !searchIndices st i then (i, c1 x) :: ewiseOrStencil c1 c2 st r []
    else ewiseOrStencil c1 c2 st r []
  | [], (j, y) :: s => (j, c2 y) :: ewiseOrStencil c1 c2 st [] s
  | (i, x) :: r, (j, y) :: s =>
    if j = i then (j, c2 y) :: ewiseOrStencil c1 c2 st r s
    else if i < j then
      if !searchIndices st i then (i, c1 x) :: ewiseOrStencil c1 c2 st r ((j, y) :: s)
      else ewiseOrStencil c1 c2 st r ((j, y) :: s)
    else (j, c2 y) :: ewiseOrStencil c1 c2 st ((i, x) :: r) s
termination_by r s => r.length + s.length

/-- `sparse_copy`, lines 67-93. -/
def sparseCopy (cast : β → α) (dst : Lil α) (src : Lil β) : Except Err (Lil α) :=
  forN dst.nrows dst.clear fun i d => do
    let srcRow ← src.row i
    let dstRow := Row.cast cast srcRow
    if !dstRow.isEmpty then d.setRow i id dstRow else .ok d

/-- `ewise_or_opt_accum`, lines 645-675, both overloads. `Z` is the freshly
constructed destination. -/
def ewiseOrOptAccum (Z : Lil ζ) (C : Lil γ) (T : Lil τ) : Accum γ τ ζ → Except Err (Lil ζ)
  | .some op cC cT =>
    forN Z.nrows Z fun i Z => do
      let c ← C.row i
      let t ← T.row i
      Z.setRow i id (ewiseOr op cC cT c t)
  | .none cast => sparseCopy cast Z T

/-- `ewise_or_opt_accum_1D`, lines 682-709, both overloads; `z` is empty at every
call, so appending to it is the same as producing the list. -/
def ewiseOrOptAccum1D (w : BVec γ) (t : Row τ) : Accum γ τ ζ → Except Err (Row ζ)
  | .some op cC cT => do
    let c ← w.getContents
    .ok (ewiseOr op cC cT c t)
  | .none cast => .ok (t.map fun p => (p.1, cast p.2))

/-- `ewise_or_stencil_opt_accum`, lines 580-638, both overloads. `castC`, `castT`
convert to the type of `Z` in the overload without accumulator. -/
def ewiseOrStencilOptAccum (castC : γ → ζ) (Z : Lil ζ) (C : Lil γ) (T : Lil τ) (ri ci : Idx) :
    Accum γ τ ζ → Except Err (Lil ζ)
  | .some op cC cT =>
    forN Z.nrows Z fun i Z => do
      let c ← C.row i
      let t ← T.row i
      Z.setRow i id (ewiseOr op cC cT c t)
  | .none cast =>
    forN Z.nrows Z fun i Z =>
      if searchIndices ri i then do
        let c ← C.row i
        let t ← T.row i
        Z.setRow i id (ewiseOrStencil castC cast ci c t)
      else do
        let c ← C.row i
        Z.setRow i castC c

/-- `ewise_or_stencil_opt_accum_1D`, lines 544-570, both overloads. -/
def ewiseOrStencilOptAccum1D (castC : γ → ζ) (w : BVec γ) (t : Row τ) (ix : Idx) :
    Accum γ τ ζ → Except Err (Row ζ)
  | .some op cC cT => do
    let c ← w.getContents
    .ok (ewiseOr op cC cT c t)
  | .none cast => do
    let c ← w.getContents
    .ok (ewiseOrStencil castC cast ix c t)

/-! ### Masked write -/

/-- `apply_with_mask`, lines 805-875. A falsy mask element is skipped
(`increment_until_true`, lines 103-108). -/
def applyWithMask (truthy : ν → Bool) (castZ : ζ → γ) (outp : Outp) :
    Row γ → Row ζ → Row ν → Row γ
  | c, _, [] => match outp with
    | .merge => c
    | .replace => []
  | c, z, (mi, mv) :: m =>
    if !truthy mv then applyWithMask truthy castZ outp c z m
    else
      let pre := match outp with
        | .merge => takeBelow mi c
        | .replace => []
      let c1 := match outp with
        | .merge => dropBelow mi c
        | .replace => c
      let z1 := dropBelow mi z
      let put := match headIs mi z1 with
        | some x => [(mi, castZ x)]
        | none => []
      let c2 := match headIs mi c1 with
        | some _ => c1.tail
        | none => c1
      pre ++ (put ++ applyWithMask truthy castZ outp c2 z1 m)

/-- The loop of `get_complement_row`, lines 909-923 (and of
`get_structural_complement_row` lines 939-949 with `keepFalse = fun _ => false`),
over the remaining column indices: positions without a stored element, and
stored elements for which `keepFalse` holds. -/
def complementLoop (keepFalse : μ → Bool) : List Nat → Row μ → Row Bool
  | [], _ => []
  | ix :: is, [] => (ix, true) :: complementLoop keepFalse is []
  | ix :: is, (k, v) :: it =>
    if ix < k then (ix, true) :: complementLoop keepFalse is ((k, v) :: it)
    else if keepFalse v then (ix, true) :: complementLoop keepFalse is it
    else complementLoop keepFalse is it

/-- `get_structure_row`, lines 885-896; `get_structure_contents`, 1080-1090. -/
def structureRow (r : Row μ) : Row Bool := r.map fun p => (p.1, true)

/-- The row of booleans that drives `apply_with_mask` for each kind of mask: the
overloads of `write_with_opt_mask`, lines 959-1058. For a plain mask the row
itself is used, with its values converted by `truthy`. -/
def maskRow (truthy : μ → Bool) (k : MaskKind) (ncols : Nat) (r : Row μ) : Row Bool :=
  match k with
  | .plain => Row.cast truthy r
  | .comp => complementLoop (fun v => !truthy v) (List.range ncols) r
  | .struct => structureRow r
  | .structComp => complementLoop (fun _ => false) (List.range ncols) r

/-- A matrix mask argument; `none` is `NoMask`: the mask parameter of lines 961, 987, 1014,
1041 and 1066. -/
abbrev MMask (μ : Type) := Option (MaskKind × Lil μ)
/-- A vector mask argument: the mask parameter of lines 1154, 1176, 1198, 1221 and 1242. -/
abbrev VMask (μ : Type) := Option (MaskKind × BVec μ)

/-- `write_with_opt_mask`, lines 959-1070, all overloads. -/
def writeWithOptMask (truthy : μ → Bool) (castZ : ζ → γ) (C : Lil γ) (Z : Lil ζ) (M : MMask μ)
    (outp : Outp) : Except Err (Lil γ) :=
  match M with
  | none => sparseCopy castZ C Z
  | some (k, M) =>
    forN C.nrows C fun i C => do
      let c ← C.row i
      let z ← Z.row i
      let m ← M.row i
      C.setRow i id (applyWithMask id castZ outp c z (maskRow truthy k M.ncols m))

/-- `write_with_opt_mask_1D`, lines 1151-1247, all overloads;
`get_*_contents`, lines 1080-1144. -/
def writeWithOptMask1D (truthy : μ → Bool) (castZ : ζ → γ) (w : BVec γ) (z : Row ζ) (M : VMask μ)
    (outp : Outp) : Except Err (BVec γ) :=
  match M with
  | none => w.setContents castZ z
  | some (k, m) => do
    let c ← w.getContents
    let mc ← m.getContents
    w.setContents id (applyWithMask id castZ outp c z (maskRow truthy k m.size mc))

/-! ### Index arguments -/

/-- `check_index_array_content`, lines 1253-1267. -/
def checkIndexArrayContent (ix : Idx) (dim : Nat) : Except Err Unit :=
  match ix with
  | .list l => if l.any fun i => dim ≤ i then .error .indexOutOfBounds else .ok ()
  | .all => .ok ()

/-- `setupIndices`, lines 1274-1282. -/
def setupIndices (ix : Idx) (n : Nat) : List Nat :=
  match ix with
  | .list l => l
  | .all => List.range n

/-! ### Kernels of mxm -/

/-- `advance_and_check_mask_iterator`, lines 1317-1332: the answer and the
advanced iterator. -/
def maskCheck (sf : Bool) (truthy : μ → Bool) (m : Row μ) (j : Nat) : Bool × Row μ :=
  let m1 := dropBelow j m
  (match headIs j m1 with
    | some v => sf || truthy v
    | none => false, m1)

/-- `xpey`, lines 1341-1366. -/
def xpey (op : α → β → α) (cast : β → α) : Row α → Row β → Row α
  | v1, [] => v1
  | v1, (j, y) :: s =>
    let rest := dropBelow j v1
    takeBelow j v1 ++ match headIs j rest with
      | some x => (j, op x y) :: xpey op cast rest.tail s
      | none => (j, cast y) :: xpey op cast rest s

/-- `axpy`, lines 1377-1409. -/
def axpy (add : τ → τ → τ) (mult : α → β → τ) (a : α) : Row τ → Row β → Row τ
  | c, [] => c
  | c, (j, b) :: bs =>
    let t := mult a b
    let rest := dropBelow j c
    takeBelow j c ++ match headIs j rest with
      | some x => (j, add x t) :: axpy add mult a rest.tail bs
      | none => (j, t) :: axpy add mult a rest bs

/-- The loop of `masked_axpy`, lines 1441-1473. -/
def maskedAxpyLoop (sf compl : Bool) (truthy : μ → Bool) (add : τ → τ → τ) (mult : α → β → τ)
    (a : α) : Row τ → Row μ → Row β → Row τ
  | c, _, [] => c
  | c, m, (j, b) :: bs =>
    let (ok, m1) := maskCheck sf truthy m j
    if ok == compl then maskedAxpyLoop sf compl truthy add mult a c m1 bs
    else
      let t := mult a b
      let rest := dropBelow j c
      takeBelow j c ++ match headIs j rest with
        | some x => (j, add x t) :: maskedAxpyLoop sf compl truthy add mult a rest.tail m1 bs
        | none => (j, t) :: maskedAxpyLoop sf compl truthy add mult a rest m1 bs

/-- `masked_axpy`, lines 1421-1475. -/
def maskedAxpy (sf compl : Bool) (truthy : μ → Bool) (add : τ → τ → τ) (mult : α → β → τ)
    (a : α) (c : Row τ) (m : Row μ) (b : Row β) : Row τ :=
  if m.isEmpty && compl then axpy add mult a c b
  else maskedAxpyLoop sf compl truthy add mult a c m b

/-- `masked_accum`, lines 1487-1552. (`z` is empty at every call.) -/
def maskedAccum (sf compl : Bool) (truthy : μ → Bool) (op : γ → τ → ζ) (cC : γ → ζ) (cT : τ → ζ) :
    Row μ → Row γ → Row τ → Row ζ
  | _, [], [] => []
  | m, [], (ti, t) :: ts => (ti, cT t) :: maskedAccum sf compl truthy op cC cT m [] ts
  | m, (ci, c) :: cs, [] =>
    let (ok, m1) := maskCheck sf truthy m ci
    if ok != compl then (ci, cC c) :: maskedAccum sf compl truthy op cC cT m1 cs []
    else maskedAccum sf compl truthy op cC cT m1 cs []
  | m, (ci, c) :: cs, (ti, t) :: ts =>
    if ti < ci then (ti, cT t) :: maskedAccum sf compl truthy op cC cT m ((ci, c) :: cs) ts
    else if ci < ti then
      let (ok, m1) := maskCheck sf truthy m ci
      if ok != compl then (ci, cC c) :: maskedAccum sf compl truthy op cC cT m1 cs ((ti, t) :: ts)
      else maskedAccum sf compl truthy op cC cT m1 cs ((ti, t) :: ts)
    else (ti, op c t) :: maskedAccum sf compl truthy op cC cT m cs ts
termination_by _ c t => c.length + t.length

/-- The inner loop of `masked_merge`, lines 1585-1594 (with `bound = some next_z`)
and 1604-1613 (with `bound = none`): emit the elements of `c` below the bound
where the mask check equals `compl`; also return the advanced iterators. -/
def mergeEmit (sf compl : Bool) (truthy : μ → Bool) (bound : Option Nat) :
    Row γ → Row μ → Row γ × Row γ × Row μ
  | [], m => ([], [], m)
  | (ci, x) :: c, m =>
    if bound.all fun b => ci < b then
      let (ok, m1) := maskCheck sf truthy m ci
      let (out, c', m') := mergeEmit sf compl truthy bound c m1
      (if ok == compl then (ci, x) :: out else out, c', m')
    else ([], (ci, x) :: c, m)

/-- `masked_merge`, lines 1566-1616, after `lastZ` (the current `next_z`, `none`
before the first element). -/
def maskedMergeLoop (sf compl : Bool) (truthy : μ → Bool) (cast : ζ → γ) :
    Option Nat → Row μ → Row γ → Row ζ → Row γ
  | lastZ, m, c, [] =>
    let c1 := match lastZ with
      | some k => c.dropWhile fun p => p.1 ≤ k
      | none => c
    (mergeEmit sf compl truthy none c1 m).1
  | _, m, c, (zi, x) :: z =>
    let (out, c', m') := mergeEmit sf compl truthy (some zi) c m
    out ++ (zi, cast x) :: maskedMergeLoop sf compl truthy cast (some zi) m' c' z

/-- `masked_merge`, lines 1566-1616. -/
def maskedMerge (sf compl : Bool) (truthy : μ → Bool) (cast : ζ → γ) (m : Row μ) (ci : Row γ)
    (z : Row ζ) : Row γ :=
  maskedMergeLoop sf compl truthy cast none m ci z

end GBTL

import Verif.Model.Frontend
import Verif.Spec.Masks
import Verif.Spec.Ops
/-
What the arguments of an operation mean to the user, when their shapes fit, and
what it means that an output holds the GraphBLAS result.
-/
namespace GBTL
open Spec (Outp MaskKind Accum)

variable {α β γ δ τ ζ μ : Type}

/-- The content of a matrix operand. -/
def Operand.get : Operand α → Spec.Mat α
  | .plain A => A.get
  | .tr A => Spec.Mat.tr A.get

/-- A consistent operand. -/
def Operand.WF : Operand α → Prop
  | .plain A => A.WF
  | .tr A => A.WF

/-- Is the operand a transposed view? -/
def Operand.isTr : Operand α → Prop
  | .plain _ => False
  | .tr _ => True

/-- The mask argument is consistent. -/
def MMask.WF (M : MMask μ) : Prop := ∀ k A, M = some (k, A) → A.WF
def VMask.WF (m : VMask μ) : Prop := ∀ k v, m = some (k, v) → v.WF

/-- The mask has the output's shape (no mask fits every output). -/
def MMask.Fits (M : MMask μ) (m n : Nat) : Prop :=
  ∀ k A, M = some (k, A) → A.nrows = m ∧ A.ncols = n
def VMask.Fits (m : VMask μ) (n : Nat) : Prop := ∀ k v, m = some (k, v) → v.size = n

/-- Consistent output and mask. -/
structure MOut.WF (o : MOut γ τ ζ μ) : Prop where
  out : o.C.WF
  mask : o.M.WF
structure VOut.WF (o : VOut γ τ ζ μ) : Prop where
  out : o.w.WF
  mask : o.m.WF
structure LOut.WF (o : LOut γ τ ζ μ) : Prop where
  out : o.C.WF
  mask : o.m.WF

/-- `C'` is the output after writing `Z` through the mask: consistent, of unchanged
shape, and at each position where the mask allows writing it holds `Z` (converted
to the output's type), elsewhere its old content (MERGE) or nothing (REPLACE). -/
structure MOut.Holds (o : MOut γ τ ζ μ) (Z : Spec.Mat ζ) (C' : Lil γ) : Prop where
  wf : C'.WF
  nrows : C'.nrows = o.C.nrows
  ncols : C'.ncols = o.C.ncols
  get : ∀ i j, i < o.C.nrows → j < o.C.ncols →
    C'.get i j = Spec.write o.castZ (o.M.allows o.truthy i j) o.outp (o.C.get i j) (Z i j)

structure VOut.Holds (o : VOut γ τ ζ μ) (z : Spec.Vec ζ) (w' : BVec γ) : Prop where
  wf : w'.WF
  size : w'.size = o.w.size
  get : ∀ i, i < o.w.size →
    w'.get i = Spec.write o.castZ (o.m.allows o.truthy i) o.outp (o.w.get i) (z i)

/-- `C'` is the GraphBLAS result `C<M,outp> = C ⊙ T`. -/
def MOut.Yields (o : MOut γ τ ζ μ) (T : Spec.Mat τ) (C' : Lil γ) : Prop :=
  o.Holds (fun i j => Spec.accum o.acc (o.C.get i j) (T i j)) C'

def VOut.Yields (o : VOut γ τ ζ μ) (t : Spec.Vec τ) (w' : BVec γ) : Prop :=
  o.Holds (fun i => Spec.accum o.acc (o.w.get i) (t i)) w'

/-- `C'` is the output after writing `z` through the vector mask into column `j`;
the rest of the matrix is unchanged. -/
structure LOut.HoldsCol (o : LOut γ τ ζ μ) (j : Nat) (z : Spec.Vec ζ) (C' : Lil γ) : Prop where
  wf : C'.WF
  nrows : C'.nrows = o.C.nrows
  ncols : C'.ncols = o.C.ncols
  get : ∀ i k, i < o.C.nrows → k < o.C.ncols → C'.get i k =
    if k = j then Spec.write o.castZ (o.m.allows o.truthy i) o.outp (o.C.get i j) (z i)
    else o.C.get i k

/-- As above for row `i`. -/
structure LOut.HoldsRow (o : LOut γ τ ζ μ) (i : Nat) (z : Spec.Vec ζ) (C' : Lil γ) : Prop where
  wf : C'.WF
  nrows : C'.nrows = o.C.nrows
  ncols : C'.ncols = o.C.ncols
  get : ∀ k j, k < o.C.nrows → j < o.C.ncols → C'.get k j =
    if k = i then Spec.write o.castZ (o.m.allows o.truthy j) o.outp (o.C.get i j) (z j)
    else o.C.get k j

/-- The listed positions of a source of length `n` lie inside a destination of
length `m`; for `AllIndices` the source must not be longer. -/
def Idx.inside (ix : Idx) (n m : Nat) : Prop :=
  match ix with
  | .list l => ∀ i ∈ l, i < m
  | .all => n ≤ m

/-! ### Shape rules -/

/-- Shapes for `C = A · B`. -/
structure MxmShapes (o : MOut γ τ ζ μ) (A : Operand α) (B : Operand β) : Prop where
  mask : o.M.Fits o.C.nrows o.C.ncols
  rows : o.C.nrows = A.nrows
  cols : o.C.ncols = B.ncols
  inner : A.ncols = B.nrows

/-- Shapes for `w = u · A`. -/
structure VxmShapes (o : VOut γ τ ζ μ) (u : BVec α) (A : Operand β) : Prop where
  mask : o.m.Fits o.w.size
  out : o.w.size = A.ncols
  inner : u.size = A.nrows

/-- Shapes for `w = A · u`. -/
structure MxvShapes (o : VOut γ τ ζ μ) (A : Operand α) (u : BVec β) : Prop where
  mask : o.m.Fits o.w.size
  out : o.w.size = A.nrows
  inner : u.size = A.ncols

/-- Everything has the output's shape. -/
structure SameShape2 (o : MOut γ τ ζ μ) (A : Operand α) (B : Operand β) : Prop where
  mask : o.M.Fits o.C.nrows o.C.ncols
  cols : o.C.ncols = A.ncols
  rows : o.C.nrows = A.nrows
  cols2 : A.ncols = B.ncols
  rows2 : A.nrows = B.nrows

structure SameSize2 (o : VOut γ τ ζ μ) (u : BVec α) (v : BVec β) : Prop where
  mask : o.m.Fits o.w.size
  size : o.w.size = u.size
  size2 : u.size = v.size

structure SameShape (o : MOut γ τ ζ μ) (A : Operand α) : Prop where
  mask : o.M.Fits o.C.nrows o.C.ncols
  cols : o.C.ncols = A.ncols
  rows : o.C.nrows = A.nrows

structure SameSize (o : VOut γ τ ζ μ) (u : BVec α) : Prop where
  mask : o.m.Fits o.w.size
  size : o.w.size = u.size

/-- Shapes for a row reduction. -/
structure ReduceShapes (o : VOut γ τ ζ μ) (A : Operand α) : Prop where
  mask : o.m.Fits o.w.size
  out : o.w.size = A.nrows

/-- Shapes for `transpose`. -/
structure TransposeShapes (o : MOut γ τ ζ μ) (A : Operand α) : Prop where
  mask : o.M.Fits o.C.nrows o.C.ncols
  cols : o.C.ncols = A.nrows
  rows : A.ncols = o.C.nrows

/-- Shapes for `kronecker`. -/
structure KronShapes (o : MOut γ τ ζ μ) (A : Operand α) (B : Operand β) : Prop where
  mask : o.M.Fits o.C.nrows o.C.ncols
  cols : o.C.ncols = A.ncols * B.ncols
  rows : o.C.nrows = A.nrows * B.nrows

/-- Shapes for `w = u(indices)`: the number of selected indices is the output's
size. -/
structure ExtractVShapes (o : VOut γ τ ζ μ) (u : BVec α) (ix : Idx) : Prop where
  mask : o.m.Fits o.w.size
  len : ix.len u.size = o.w.size

/-- Shapes for `C = A(rows, cols)`. -/
structure ExtractMShapes (o : MOut γ τ ζ μ) (A : Operand α) (ri ci : Idx) : Prop where
  mask : o.M.Fits o.C.nrows o.C.ncols
  rows : ri.len A.nrows = o.C.nrows
  cols : ci.len A.ncols = o.C.ncols

/-- Shapes for `w = A(rows, j)`. -/
structure ExtractCShapes (o : VOut γ τ ζ μ) (A : Operand α) (ri : Idx) : Prop where
  mask : o.m.Fits o.w.size
  len : ri.len A.nrows = o.w.size

/-- Shapes for `w(indices) = u`: as many selected positions as the source has. -/
structure AssignVShapes (o : VOut γ τ ζ μ) (u : BVec α) (ix : Idx) : Prop where
  mask : o.m.Fits o.w.size
  len : ix.len o.w.size = u.size

/-- Shapes for `C(rows, cols) = A`. -/
structure AssignMShapes (o : MOut γ τ ζ μ) (A : Operand α) (ri ci : Idx) : Prop where
  mask : o.M.Fits o.C.nrows o.C.ncols
  rows : ri.len o.C.nrows = A.nrows
  cols : ci.len o.C.ncols = A.ncols

/-- Shapes for `C(rows, j) = u`. -/
structure AssignColShapes (o : LOut γ τ ζ μ) (u : BVec α) (ri : Idx) : Prop where
  mask : o.m.Fits o.C.nrows
  len : ri.len o.C.nrows = u.size

/-- Shapes for `C(i, cols) = u`. -/
structure AssignRowShapes (o : LOut γ τ ζ μ) (u : BVec α) (ci : Idx) : Prop where
  mask : o.m.Fits o.C.ncols
  len : ci.len o.C.ncols = u.size

/-- Shapes for `w(indices) = x`: not more positions than the output has. -/
structure ConstVShapes (o : VOut γ τ ζ μ) (ix : Idx) : Prop where
  mask : o.m.Fits o.w.size
  len : ix.len o.w.size ≤ o.w.size

/-- Shapes for `C(rows, cols) = x`. -/
structure ConstMShapes (o : MOut γ τ ζ μ) (ri ci : Idx) : Prop where
  mask : o.M.Fits o.C.nrows o.C.ncols
  rows : ri.len o.C.nrows ≤ o.C.nrows
  cols : ci.len o.C.ncols ≤ o.C.ncols

end GBTL

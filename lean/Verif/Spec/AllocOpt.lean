import Verif.Spec.Alloc
import Verif.Model.AllocOpt
/-
What a product of the optimized backend should leave in its output when memory runs out, and
what it leaves if it wrote the output without counting.
-/
namespace GBTL
variable {α β γ τ ζ μ : Type}

/-- The product of two transposed matrices, neither of which is the output, without mask and
accumulator. -/
def Uncounted (acc : Option (AccOp γ τ ζ)) (M : ArgMask γ μ) (A : ArgOperand γ α) (B : ArgOperand γ β) : Prop :=
  acc = none ∧ M = none ∧ ∃ a b, A = .tr a ∧ B = .tr b ∧ a.isC = false ∧ b.isC = false

/-- Every row of `left` is a beginning of the row of the result `C'`, but `left` reports no
elements. -/
structure Begun (C' left : Lil γ) : Prop where
  nrows : left.nrows = C'.nrows
  ncols : left.ncols = C'.ncols
  len : left.rows.length = C'.rows.length
  nvals : left.nvals = 0
  rows : ∀ k, ∃ l, left.rowD k = (C'.rowD k).take l

/-- What is asked of a matrix that a call left when memory ran out: the shape it had, sorted
rows, elements that are old ones or new ones, and a counter that is not too small. -/
structure LeftUsable (C C' left : Lil γ) : Prop where
  wfr : left.WFr
  nrows : left.nrows = C.nrows
  ncols : left.ncols = C.ncols
  counted : left.stored ≤ left.nvals
  elements : ∀ i j, left.get i j = none ∨ left.get i j = C.get i j ∨ left.get i j = C'.get i j

end GBTL

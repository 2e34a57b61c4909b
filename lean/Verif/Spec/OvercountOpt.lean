import Verif.Spec.Overcount
import Verif.Model.OptMxm
/-
Calls of the `optimized_sequential` backend's `mxm` on matrices that report more elements
than they store, and the same calls on the matrices with the right counts.
-/
namespace GBTL

variable {α γ μ : Type}

/-- The argument with the right count; the output stays the output. -/
def Arg.recount : Arg γ α → Arg γ α
  | .obj A => .obj A.recount
  | .same => .same

def ArgOperand.recount : ArgOperand γ α → ArgOperand γ α
  | .plain a => .plain a.recount
  | .tr a => .tr a.recount

def ArgMask.recount (M : ArgMask γ μ) : ArgMask γ μ := M.map fun p => (p.1, p.2.recount)

/-- The same end of the call, and the matrix it leaves with the right count. -/
def Outcome.recount : Outcome (Lil γ) → Outcome (Lil γ)
  | .done C => .done C.recount
  | .threw e C => .threw e C.recount
  | .midway e => .midway e
  | .ub => .ub

/-- The matrix under an operand, while the output's content is `C`. -/
def ArgOperand.mat (C : Lil γ) : ArgOperand γ α → Lil α
  | .plain a => a.at C
  | .tr a => a.at C

/-- A matrix that reports no element exactly if it has none. -/
def Lil.Frank (A : Lil α) : Prop := A.nvals = 0 ↔ A.stored = 0

end GBTL

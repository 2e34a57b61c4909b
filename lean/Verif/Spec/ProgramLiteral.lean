import Verif.Spec.ProgramOver
/-
The operators that the code calls. Products of two transposed matrices, products of a transposed
matrix with a vector, and element-wise operations whose right operand only is transposed call the
operators on converted or exchanged arguments. Replacing the operators by what is called gives the
program that the code runs.
-/
namespace GBTL
open Spec (Outp MaskKind Accum VecCall Ans AVec)

variable {tm tv : Nat → Type} {γ ζ τ α ρ : Type}

/-- Accumulate after a conversion. -/
def _root_.Spec.Accum.after (via : τ → τ) : Accum γ τ ζ → Accum γ τ ζ
  | .none cast => .none fun t => cast (via t)
  | .some op cC cT => .some (fun c t => op c (via t)) cC fun t => cT (via t)

/-- The operators that are called: with both operands of `mxm` transposed, the multiplication with
exchanged arguments; with the right operand of an element-wise operation transposed only, the
operator on its values converted to the scalar type of the left one. -/
def MOp.literal : MOp tm γ ζ τ → MOp tm γ ζ τ
  | .mxm A B sr via =>
    if A.tr && B.tr then .mxm A B { sr with mult := fun x y => sr.multSwap y x } id else .mxm A B sr via
  | .eWiseAdd A B f =>
    if !A.tr && B.tr then
      .eWiseAdd A B { f with op := fun x y => f.opA x (f.castBA y), c2 := fun y => f.c2A (f.castBA y) }
    else .eWiseAdd A B f
  | .eWiseMult A B f =>
    if !A.tr && B.tr then .eWiseMult A B { f with op := fun x y => f.opA x (f.castBA y) } else .eWiseMult A B f
  | e => e

/-- The conversion of the products of two transposed matrices to the scalar type of the output. -/
def MOp.after : MOp tm γ ζ τ → τ → τ
  | .mxm A B _ via => if A.tr && B.tr then via else id
  | _ => id

/-- With the matrix of `mxv` transposed, the multiplication is called with exchanged arguments. -/
def VOp.literal : VOp tm tv γ ζ τ → VOp tm tv γ ζ τ
  | .mxv A u sr => if A.tr then .mxv A u { sr with mult := fun x y => sr.multSwap y x } else .mxv A u sr
  | e => e

def Stmt.literal : Stmt tm tv α → Stmt tm tv α
  | .opM x mask acc castZ outp e => .opM x mask (acc.after e.after) castZ outp e.literal
  | .opV x mask acc castZ outp e => .opV x mask acc castZ outp e.literal
  | c => c

def Program.literal : Program tm tv ρ → Program tm tv ρ
  | .ret r => .ret r
  | .step c k => .step c.literal fun r => (k r).literal

/-- As `MOp.handled`, `VOp.handled` and `Stmt.handledOver`, but with any operators. -/
def MOp.handledLiteral (a : AStore tm tv) (m n : Nat) : MOp tm γ ζ τ → Prop
  | .mxm _ _ _ _ => True
  | .eWiseAdd _ _ _ => True
  | .eWiseMult _ _ _ => True
  | e => e.handled a m n

def VOp.handledLiteral (a : AStore tm tv) (n : Nat) : VOp tm tv γ ζ τ → Prop
  | .mxv _ _ _ => True
  | e => e.handled a n

def Stmt.handledLiteral (a : AStore tm tv) : Stmt tm tv α → Prop
  | .opM x _ _ _ _ e => e.handledLiteral a (a.mat x).nrows (a.mat x).ncols
  | .opV x _ _ _ _ e => e.handledLiteral a (a.vec x).size
  | c => c.handledOver a

/-- Every call the program makes is handled, if it runs as its operators say. -/
def Program.handledLiteral (a : AStore tm tv) (d : Nat → Nat) : Program tm tv ρ → Prop
  | .ret _ => True
  | .step c k => c.handledLiteral a ∧ (k (c.literal.answer a d)).handledLiteral (c.literal.spec a).2
      (c.literal.surplus a d (c.literal.answer a d))

end GBTL

import Verif.Model.OptMxm
import Verif.Spec.Frontend
/-
Vocabulary for calls of `mxm` whose arguments may be the output object itself, on
either backend.
-/
namespace GBTL
open Spec (Outp MaskKind Accum)

variable {α β γ δ τ ζ μ : Type}

/-- The argument replaced by a distinct copy of what it holds when the output holds
`C`. -/
def Arg.copy (C : Lil γ) (a : Arg γ α) : Arg γ α := .obj (a.at C)

def ArgOperand.copy (C : Lil γ) : ArgOperand γ α → ArgOperand γ α
  | .plain a => .plain (a.copy C)
  | .tr a => .tr (a.copy C)

def ArgMask.copy (C : Lil γ) (M : ArgMask γ μ) : ArgMask γ μ :=
  match M with
  | none => none
  | some (k, m) => some (k, m.copy C)

/-- The accumulator argument as the specification sees it. -/
def accumOf (acc : Option (AccOp γ τ ζ)) (cast : τ → ζ) : Accum γ τ ζ :=
  match acc with
  | none => .none cast
  | some a => .some a.op a.cC a.cT

/-- The output side of the call as the specification sees it. `cast` is the
conversion of a product that is not accumulated. -/
def OptOps.out (x : OptOps α β γ τ ζ μ) (acc : Option (AccOp γ τ ζ)) (cast : τ → ζ) (outp : Outp)
    (C : Lil γ) (M : ArgMask γ μ) : MOut γ τ ζ μ :=
  { C := C, M := M.at C, truthy := x.truthy, acc := accumOf acc cast, castZ := x.castZ, outp := outp }

/-- No conversion loses anything that the two backends treat differently. A product
that is not accumulated reaches the output's type the same way. Without mask, it
makes no difference whether an element goes to the output directly or through the
accumulator's result type, and the accumulator may be given the product already
converted to the output's type. With an empty mask, an empty operand and REPLACE,
the old elements survive the accumulator's result type. -/
structure OptOps.Lossless (x : OptOps α β γ τ ζ μ) (acc : Option (AccOp γ τ ζ)) (cast : τ → ζ)
    (outp : Outp) (M : MMask μ) (A : Spec.Mat α) (B : Spec.Mat β) : Prop where
  plain : acc = none → ∀ t, x.castZ (cast t) = x.castT t
  old : M = none → ∀ a, acc = some a → ∀ c, x.castZ (a.cC c) = c
  new : M = none → ∀ a, acc = some a → ∀ t, x.castZ (a.cT t) = x.castT t
  both : M = none → ∀ a, acc = some a → ∀ c t, x.castZ (x.accC c (x.castT t)) = x.castZ (a.op c t)
  skip : ∀ k m a, M = some (k, m) → acc = some a → outp = .replace → (∀ i j, m.get i j = none) →
    (∀ i j, A i j = none) ∨ (∀ i j, B i j = none) → ∀ c, x.castZ (a.cC c) = c

/-- Without mask and accumulator and with operands `A`, `transpose(B)`: wherever a
row of `A` stores nothing, the same row of `C` stores nothing before the call
(or `B` is the output itself). -/
def NoStaleRows (acc : Option (AccOp γ τ ζ)) (C : Lil γ) (M : ArgMask γ μ) (A : ArgOperand γ α)
    (B : ArgOperand γ β) : Prop :=
  M = none → acc = none → ∀ a b, A = .plain a → B = .tr b → b.isC = true ∨
    ∀ i, (∀ j, (a.at C).get i j = none) → ∀ j, C.get i j = none

/-- The multiply of the `optimized_sequential` backend: with both operands
transposed it is called with the operands exchanged and `B`'s element converted to
`A`'s scalar type. -/
def OptOps.mulFor (x : OptOps α β γ τ ζ μ) : Operand α → Operand β → α → β → τ
  | .tr _, .tr _ => fun a b => x.multA (x.castBA b) a
  | _, _ => x.mult

/-- The row `i` of the output is left as it was: without mask and accumulator, with operands
`A`, `transpose(B)` neither of which is empty, where row `i` of `A` is. -/
def LeavesRow (C : Lil γ) (A : ArgOperand γ α) (B : ArgOperand γ β) (i : Nat) : Prop :=
  ∃ a b, A = .plain a ∧ B = .tr b ∧ b.isC = false ∧ (∃ k l, (a.at C).get k l ≠ none) ∧
    (∃ k l, (b.at C).get k l ≠ none) ∧ ∀ l, (a.at C).get i l = none

/-- The output is left as it was: with an empty complemented mask, an empty operand and
REPLACE, unless the operands are `A`, `transpose(B)`. -/
def LeavesAll (outp : Outp) (C : Lil γ) (M : ArgMask γ μ) (A : ArgOperand γ α) (B : ArgOperand γ β) : Prop :=
  (∃ k m, M = some (k, m) ∧ (k = .comp ∨ k = .structComp) ∧ ∀ i j, (m.at C).get i j = none) ∧ outp = .replace ∧
    ((∀ i j, (A.at C).get i j = none) ∨ ∀ i j, (B.at C).get i j = none) ∧ ¬ ∃ a b, A = .plain a ∧ B = .tr b

/-- The products are converted to the output's type before they are accumulated: if `B` is
the output and `A` is not transposed. -/
def FirstToC (A : ArgOperand γ α) (B : ArgOperand γ β) : Prop :=
  ∃ a b, A = .plain a ∧ (B = .plain b ∨ B = .tr b) ∧ b.isC = true

open Classical in
/-- What `mxm` of the `optimized_sequential` backend leaves at position (i, j) of the output, which held
`c`, when the product has `t` there. -/
noncomputable def OptOps.leaves (x : OptOps α β γ τ ζ μ) (acc : Option (AccOp γ τ ζ)) (outp : Outp) (C : Lil γ)
    (M : ArgMask γ μ) (A : ArgOperand γ α) (B : ArgOperand γ β) (i j : Nat) (c : Option γ) (t : Option τ) : Option γ :=
  match M, acc with
  | none, none => if LeavesRow C A B i then c else t.map x.castT
  | none, some a => Spec.accum (.some (fun c t => x.castZ (if FirstToC A B then x.accC c (x.castT t) else a.op c t)) id x.castT) c t
  | some _, none => Spec.write x.castT ((M.at C).allows x.truthy i j) outp c t
  | some _, some a => if LeavesAll outp C M A B then c
    else Spec.write x.castZ ((M.at C).allows x.truthy i j) outp c (Spec.accum (.some a.op a.cC a.cT) c t)

/-- The mask kind that the kernels' flags stand for. -/
def kindOf (sf compl : Bool) : MaskKind :=
  match sf, compl with
  | false, false => .plain
  | false, true => .comp
  | true, false => .struct
  | true, true => .structComp

/-- The elements of a row at positions where a mask row allows writing. -/
def allowedOnly (truthy : μ → Bool) (k : MaskKind) (m : Row μ) (r : Row τ) : Row τ :=
  r.filter fun p => Spec.allows truthy k (Row.get m p.1)

end GBTL

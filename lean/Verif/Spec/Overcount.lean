import Verif.Spec.Calls
import Verif.Spec.Alloc
import Verif.Spec.Containers
/-
Matrices that report more elements than they store, as calls leave them that ran out of
memory (C98), and the same matrices with the right count.
-/
namespace GBTL
open Spec (Accum MatCall Ans AMat)

variable {α γ τ ζ μ : Type}

/-- The matrix with the same elements that reports the right number of them. -/
def Lil.recount (A : Lil α) : Lil α := { A with nvals := A.stored }

/-- How many elements are reported too many. -/
def Lil.excess (A : Lil α) : Nat := A.nvals - A.stored

/-- The same matrix, reporting `d` more elements. -/
def Lil.more (A : Lil α) (d : Nat) : Lil α := { A with nvals := A.nvals + d }

/-- A matrix with sorted rows that reports at least as many elements as it stores. -/
structure Lil.Over (A : Lil α) : Prop where
  wfr : A.WFr
  le : A.stored ≤ A.nvals

def Operand.recount : Operand α → Operand α
  | .plain A => .plain A.recount
  | .tr A => .tr A.recount

def Operand.Over : Operand α → Prop
  | .plain A => A.Over
  | .tr A => A.Over

/-- The mask with the right count. -/
def MMask.recount (M : MMask μ) : MMask μ := M.map fun p => (p.1, p.2.recount)

/-- The output and the mask with the right counts. -/
def MOut.recount (o : MOut γ τ ζ μ) : MOut γ τ ζ μ := { o with C := o.C.recount, M := MMask.recount o.M }

structure MOut.Over (o : MOut γ τ ζ μ) : Prop where
  out : o.C.Over
  mask : ∀ k M, o.M = some (k, M) → M.Over

/-- What `nvals` of the output is off by afterwards: as much as before with a mask, nothing
without one. -/
def MOut.left (o : MOut γ τ ζ μ) : Nat :=
  match o.M with
  | none => 0
  | some _ => o.C.excess

/-- The operation on matrices with the right counts. -/
def MCall.recount : MCall γ τ ζ → MCall γ τ ζ
  | .mxm sr via A B => .mxm sr via A.recount B.recount
  | .eWiseAdd f A B => .eWiseAdd f A.recount B.recount
  | .eWiseMult f A B => .eWiseMult f A.recount B.recount
  | .apply f A => .apply f A.recount
  | .extract A ri ci => .extract A.recount ri ci
  | .transpose A => .transpose A.recount
  | .kronecker f A B => .kronecker f A.recount B.recount
  | .assign keep A ri ci => .assign keep A.recount ri ci
  | .assignConst keep x ri ci => .assignConst keep x ri ci

def MCall.Over : MCall γ τ ζ → Prop
  | .mxm _ _ A B => A.Over ∧ B.Over
  | .eWiseAdd _ A B => A.Over ∧ B.Over
  | .eWiseMult _ A B => A.Over ∧ B.Over
  | .apply _ A => A.Over
  | .extract A _ _ => A.Over
  | .transpose A => A.Over
  | .kronecker _ A B => A.Over ∧ B.Over
  | .assign _ A _ _ => A.Over
  | .assignConst .. => True

/-- The operation on matrices with the right counts; its vectors are as they are. -/
def VCall.recountM : VCall γ τ ζ → VCall γ τ ζ
  | .vxm sr u A => .vxm sr u A.recount
  | .mxv sr A u => .mxv sr A.recount u
  | .reduce r A => .reduce r A.recount
  | .extractCol A ri j => .extractCol A.recount ri j
  | c => c

/-- Consistent vectors, and matrices that may report too many elements. -/
def VCall.OverM : VCall γ τ ζ → Prop
  | .vxm _ u A => u.WF ∧ A.Over
  | .mxv _ A u => A.Over ∧ u.WF
  | .reduce _ A => A.Over
  | .extractCol A _ _ => A.Over
  | _ => True

/-- What a matrix with `m` rows that reports `d` elements too many does to the answer of a
method: only `nvals` differs. -/
def _root_.Spec.MatCall.over (d : Nat) : MatCall α → Except Err (Ans α) → Except Err (Ans α)
  | .nvals, .ok (.num k) => .ok (.num (k + d))
  | _, a => a

/-- How many elements a matrix with `m` rows reports too many after the call: `clear` and
taking rows away count anew. -/
def _root_.Spec.MatCall.surplus (d m : Nat) : MatCall α → Nat
  | .clear => 0
  | .resize m' n' => if m' ≠ 0 ∧ n' ≠ 0 ∧ m' < m then 0 else d
  | _ => d

/-- The answers to method calls on a matrix that reports `d` elements too many and otherwise
is `s`. -/
def _root_.Spec.overAnswers : Nat → AMat α → List (MatCall α) → List (Except Err (Ans α))
  | _, _, [] => []
  | d, s, c :: cs => c.over d (s.step c).1 :: Spec.overAnswers (c.surplus d s.nrows) (s.step c).2 cs

end GBTL

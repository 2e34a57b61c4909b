import Verif.Model.Alloc
import Verif.Spec.Alloc
import Verif.Model.OptMxm
/-
Calls that are made again after they ran out of memory.
-/
namespace GBTL

variable {α γ τ ζ μ χ : Type}

/-- What a container can hold after a call on it was made any number of times and ran out
of memory each time. `call X` is the call when the container holds `X`; the attempts may
have any amounts of memory. -/
inductive Retried (call : χ → Act Nat χ BadAlloc Unit → Prop) (old : χ) : χ → Prop where
  | start : Retried call old old
  | again {X Y : χ} (a : Act Nat χ BadAlloc Unit) (mem : Nat) :
      Retried call old X → call X a → Ended.RanOut (a (mem, X)) Y → Retried call old Y

/-- An operation with a matrix as its output, for the output `X` in place of the one it
was called with; it asks for memory as often as it likes. -/
def MCall.attempt (c : MCall γ τ ζ) (o : MOut γ τ ζ μ) (X : Lil γ) (a : Act Nat (Lil γ) BadAlloc Unit) : Prop :=
  ∃ prep work, a = c.runL prep work { o with C := X }

/-- An operation with a vector as its output. -/
def VCall.attempt (c : VCall γ τ ζ) (o : VOut γ τ ζ μ) (x : BVec γ) (a : Act Nat (BVec γ) BadAlloc Unit) : Prop :=
  ∃ prep work, a = c.runL prep work { o with w := x }

/-- An operand that is not the output. -/
def Operand.other : Operand α → ArgOperand γ α
  | .plain A => .plain (.obj A)
  | .tr A => .tr (.obj A)

/-- A mask that is not the output. -/
def MMask.other (M : MMask μ) : ArgMask γ μ := M.map fun p => (p.1, .obj p.2)

end GBTL

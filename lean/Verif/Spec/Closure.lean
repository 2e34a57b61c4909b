import Verif.Spec.Powers
/-
Programs that add up the powers of a matrix in place with `mxm` and an accumulator.
-/
namespace GBTL
open Spec (Outp)

variable {α : Type}

/-- `mxm(X, NoMask(), add, op, Y, Z, outp);` where `X` may be `Y` or `Z` (see C29). -/
def accumulateProduct (add mult : α → α → α) (outp : Outp) (X Y Z : Lil α) : Prog (Lil α) :=
  exec ((MCall.mxm (SR.of add mult) id (.plain Y) (.plain Z)).run ⟨X, (none : MMask Unit), fun _ => true, .some add id id, id, outp⟩)

/-- `X = A; for (t = 0; t < k; ++t) mxm(X, NoMask(), add, op, X, A, outp);` -/
def closeBySteps (add mult : α → α → α) (outp : Outp) (A : Lil α) : Nat → Prog (Lil α)
  | 0 => .ok A
  | k + 1 => do
    let X ← closeBySteps add mult outp A k
    accumulateProduct add mult outp X X A

/-- `X = A; for (t = 0; t < k; ++t) mxm(X, NoMask(), add, op, X, X, outp);` -/
def closeBySquares (add mult : α → α → α) (outp : Outp) (A : Lil α) : Nat → Prog (Lil α)
  | 0 => .ok A
  | k + 1 => do
    let X ← closeBySquares add mult outp A k
    accumulateProduct add mult outp X X X

/-- `vxm(w, NoMask(), add, op, u, A, outp);` where `w` may be `u`. -/
def accumulateVxm (add mult : α → α → α) (outp : Outp) (w u : BVec α) (A : Lil α) : Prog (BVec α) :=
  exec ((VCall.vxm (SR.of add mult) u (.plain A)).run ⟨w, (none : VMask Unit), fun _ => true, .some add id id, id, outp⟩)

/-- `for (t = 0; t < k; ++t) vxm(w, NoMask(), add, op, w, A, outp);` -/
def relaxBySteps (add mult : α → α → α) (outp : Outp) (w : BVec α) (A : Lil α) : Nat → Prog (BVec α)
  | 0 => .ok w
  | k + 1 => do
    let x ← relaxBySteps add mult outp w A k
    accumulateVxm add mult outp x x A

end GBTL

namespace Spec

/-- A closed walk does not improve what follows it. -/
def NoGain {α : Type} (le : α → α → Prop) (mult : α → α → α) (M : Mat α) : Prop :=
  ∀ x l c, along mult M x l x = some c → ∀ b, le b (mult c b)

end Spec

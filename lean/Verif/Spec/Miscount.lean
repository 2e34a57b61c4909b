import Verif.Spec.Calls
/-
The vectors that report a wrong number of elements: `build` counts every tuple of a repeated
index, and the constructor from a size and a value reports none. What an operation takes such
vectors for.
-/
namespace GBTL
open Spec (Outp MaskKind Accum VecCall Ans)

variable {α γ τ ζ μ : Type}

/-- The vector with the same elements that reports the right number of them. -/
def BVec.recount (v : BVec α) : BVec α := { v with nvals := Spec.Vec.count v.size v.get }

/-- The vector without elements if no elements are reported, the vector with the right count
otherwise. -/
def BVec.believed (v : BVec α) : BVec α := if v.nvals = 0 then v.clear else v.recount

/-- Is there a value and a bit for every index? -/
structure BVec.Sized (v : BVec α) : Prop where
  vlen : v.vals.length = v.size
  blen : v.bitmap.length = v.size

/-- The mask with the right count. -/
def VMask.recount (m : VMask μ) : VMask μ := m.map fun p => (p.1, p.2.recount)

/-- The output and the mask with the right counts. -/
def VOut.recount (o : VOut γ τ ζ μ) : VOut γ τ ζ μ := { o with w := o.w.recount, m := VMask.recount o.m }

/-- What the operation takes its operands for: multiplication, element-wise multiplication and
`apply` believe the number of elements when it is zero, element-wise addition when both are
zero; `extract` and `assign` do not look at it. -/
def VCall.asSeen : VCall γ τ ζ → VCall γ τ ζ
  | .vxm sr u A => .vxm sr u.believed A
  | .mxv sr A u => .mxv sr A u.believed
  | .eWiseAdd f u v => if u.nvals = 0 ∧ v.nvals = 0 then .eWiseAdd f u.clear v.clear else .eWiseAdd f u.recount v.recount
  | .eWiseMult f u v => .eWiseMult f u.believed v.believed
  | .apply f u => .apply f u.believed
  | .extract u ix => .extract u.recount ix
  | .assign keep u ix => .assign keep u.recount ix
  | c => c

/-- Have the operands a value and a bit for every index, and are the matrices consistent? -/
def VCall.Sized : VCall γ τ ζ → Prop
  | .vxm _ u A => u.Sized ∧ A.WF
  | .mxv _ A u => u.Sized ∧ A.WF
  | .eWiseAdd _ u v => u.Sized ∧ v.Sized
  | .eWiseMult _ u v => u.Sized ∧ v.Sized
  | .apply _ u => u.Sized
  | .reduce _ A => A.WF
  | .extract u _ => u.Sized
  | .extractCol A _ _ => A.WF
  | .assign _ u _ => u.Sized
  | .assignConst .. => True

/-- The answers to method calls when `nvals` reports `d` elements too many, until the vector
is cleared. -/
def _root_.Spec.overReport (d : Nat) : List (VecCall α) → List (Except Err (Ans α)) → List (Except Err (Ans α))
  | .nvals :: cs, .ok (.num k) :: as => .ok (.num (k + d)) :: Spec.overReport d cs as
  | .clear :: cs, a :: as => a :: Spec.overReport 0 cs as
  | _ :: cs, a :: as => a :: Spec.overReport d cs as
  | _, _ => []

end GBTL

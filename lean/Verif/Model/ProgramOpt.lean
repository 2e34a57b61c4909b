import Verif.Model.Program
import Verif.Spec.ProgramOpt
/-
Running a program (`Verif/Spec/Program.lean`) with the `optimized_sequential` backend,
`/repo/src/graphblas/platforms/optimized_sequential`. Its files are those of the
`sequential` backend except for `mxm` (`sparse_mxm.hpp`, `sparse_mxm_AB.hpp`,
`sparse_mxm_ABT.hpp`, `sparse_mxm_ATB.hpp`, `sparse_mxm_ATBT.hpp` and the helpers they
use, modelled in `Verif/Model/OptMxm.lean`).
-/
namespace GBTL
open Spec (Outp MaskKind Accum)

variable {tm tv : Nat → Type} {τ ζ μ α ρ : Type}

/-- An operand of `mxm`: the output itself if it is the same variable, which the kernels
may test (`/repo/src/graphblas/platforms/optimized_sequential/sparse_mxm_AB.hpp` lines
61-380, and the files beside it: the operands are references). -/
def Ref.arg (s : Store tm tv) (x : Nat) (r : Ref) : ArgOperand (tm x) (tm r.x) :=
  let o : Arg (tm x) (tm r.x) := if h : r.x = x then h ▸ .same else .obj (s.mat r.x)
  if r.tr then .tr o else .plain o

/-- The accumulator argument of the kernels, `NoAccumulate` or an operator;
`/repo/src/graphblas/platforms/optimized_sequential/sparse_mxm.hpp` lines 63-654. -/
def accOp {γ : Type} : Accum γ τ ζ → Option (AccOp γ τ ζ)
  | .none _ => none
  | .some op cC cT => some ⟨op, cC, cT⟩

/-- The operators of a call with the conversions made in the kernels;
`/repo/src/graphblas/platforms/optimized_sequential/sparse_mxm.hpp` lines 63-654. -/
def Convs.ops (K : Convs tm) (x : Nat) (A B : Ref) (sr : SR (tm A.x) (tm B.x) τ) (acc : Accum (tm x) τ ζ)
    (castZ : ζ → tm x) (truthy : μ → Bool) : OptOps (tm A.x) (tm B.x) (tm x) τ ζ μ :=
  let k := K.conv x A.x B.x sr acc
  { add := sr.add, mult := sr.mult, multA := k.multA, castBA := k.castBA, castT := k.castT, castZ := castZ,
    accC := k.accC, truthy := truthy }

section
variable [∀ x, Inhabited (tm x)] [∀ x, Inhabited (tv x)]

/-- One call with the `optimized_sequential` backend;
`/repo/src/graphblas/operations.hpp` lines 72-105 for `mxm`, the other functions are those
of `Stmt.exec`. -/
def Stmt.execOpt (K : Convs tm) (s : Store tm tv) : Stmt tm tv α → Option (Except Err α × Store tm tv)
  | .opM x none acc castZ outp (.mxm A B sr _) =>
    observeOut (s.setM x) (optMxm (μ := Unit) (K.ops x A B sr acc castZ fun _ => true) (accOp acc) outp (s.mat x)
      none (A.arg s x) (B.arg s x))
  | .opM x (some (k, ⟨z, truthy⟩)) acc castZ outp (.mxm A B sr _) =>
    observeOut (s.setM x) (optMxm (K.ops x A B sr acc castZ truthy) (accOp acc) outp (s.mat x)
      (matMask s x k z) (A.arg s x) (B.arg s x))
  | c => c.exec s

/-- The run of a program with the `optimized_sequential` backend; `none` if a call is
undefined or throws while writing. -/
def Program.execOpt (K : Convs tm) (s : Store tm tv) : Program tm tv ρ → Option (ρ × Store tm tv)
  | .ret r => some (r, s)
  | .step c k =>
    match c.execOpt K s with
    | none => none
    | some (r, s') => (k r).execOpt K s'

end

/-! ### Either backend -/

/-- The two CPU backends, `/repo/src/graphblas/platforms/sequential` and
`/repo/src/graphblas/platforms/optimized_sequential`, the second with the conversions made in its kernels. -/
inductive Backend (tm : Nat → Type) : Type 1 where
  | sequential
  | optimized (K : Convs tm)

section
variable [∀ x, Inhabited (tm x)] [∀ x, Inhabited (tv x)]

/-- One call with a given backend, chosen when the program is compiled;
`/repo/src/CMakeLists.txt` lines 38-56. -/
def Stmt.execOn (be : Backend tm) (s : Store tm tv) (c : Stmt tm tv α) : Option (Except Err α × Store tm tv) :=
  match be with
  | .sequential => c.exec s
  | .optimized K => c.execOpt K s

/-- The run of a program with a given backend; `none` if a call is undefined or throws while writing. -/
def Program.execOn (be : Backend tm) (s : Store tm tv) : Program tm tv ρ → Option (ρ × Store tm tv)
  | .ret r => some (r, s)
  | .step c k =>
    match c.execOn be s with
    | none => none
    | some (r, s') => (k r).execOn be s'

end
end GBTL

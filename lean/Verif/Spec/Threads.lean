import Verif.Spec.Program
/-
Which variables a call is given, and how.

The signature of a call tells what it may look at and what it may change: its output is
a non-`const` reference (or the object of a non-`const` method), everything else is a
`const` reference. Threads that follow the usual rule of C++ for objects without locks
("either everyone reads an object, or one thread has it for itself") are described with
these two sets only.
-/
namespace GBTL
open Spec (MatCall VecCall Outp MaskKind Accum)

/-- A matrix variable or a vector variable. -/
inductive Var where
  | mat (x : Nat)
  | vec (x : Nat)
  deriving DecidableEq, Repr

variable {tm tv : Nat → Type} {γ ζ τ α ρ ι : Type}

/-- The containers among the arguments of a matrix operation. -/
def MOp.args : MOp tm γ ζ τ → List Var
  | .mxm a b _ _ | .eWiseAdd a b _ | .eWiseMult a b _ | .kronecker a b _ => [.mat a.x, .mat b.x]
  | .apply a _ | .extract a _ _ | .transpose a | .assign _ a _ _ => [.mat a.x]
  | .assignConst _ _ _ _ => []

/-- The containers among the arguments of a vector operation. -/
def VOp.args : VOp tm tv γ ζ τ → List Var
  | .vxm u a _ | .mxv a u _ => [.vec u, .mat a.x]
  | .eWiseAdd u v _ | .eWiseMult u v _ => [.vec u, .vec v]
  | .apply u _ | .extract u _ | .assign _ u _ => [.vec u]
  | .reduce a _ _ | .extractCol a _ _ => [.mat a.x]
  | .assignConst _ _ _ => []

/-- The container of a mask argument. -/
def maskVars {ty : Nat → Type} (mk : Nat → Var) : MaskArg ty → List Var
  | none => []
  | some (_, ⟨z, _⟩) => [mk z]

/-- Is the method `const`? -/
def matConst : MatCall α → Bool
  | .has _ _ | .extract _ _ | .nvals | .shape => true
  | _ => false

def vecConst : VecCall α → Bool
  | .has _ | .extract _ | .nvals | .size => true
  | _ => false

/-- The variables a call may change. -/
def Stmt.writes : Stmt tm tv α → List Var
  | .newM x _ _ | .denseM x _ _ | .copyM x _ _ | .buildM x _ _ | .opM x _ _ _ _ _
  | .assignCol x _ _ _ _ _ _ _ _ | .assignRow x _ _ _ _ _ _ _ _ => [.mat x]
  | .newV x _ | .denseV x _ | .copyV x _ _ | .buildV x _ _ | .opV x _ _ _ _ _ => [.vec x]
  | .mcall x c => if matConst c then [] else [.mat x]
  | .vcall x c => if vecConst c then [] else [.vec x]
  | .eqM _ _ _ _ | .eqV _ _ _ _ | .tuplesM _ | .tuplesV _
  | .reduceV _ _ _ _ _ _ _ | .reduceM _ _ _ _ _ _ _ => []

/-- The variables a call may look at, besides those it may change. -/
def Stmt.reads : Stmt tm tv α → List Var
  | .newM _ _ _ | .denseM _ _ _ | .newV _ _ | .denseV _ _ | .buildM _ _ _ | .buildV _ _ _ => []
  | .copyM _ y _ => [.mat y]
  | .copyV _ y _ => [.vec y]
  | .eqM x y _ _ => [.mat x, .mat y]
  | .eqV x y _ _ => [.vec x, .vec y]
  | .mcall x _ | .tuplesM x | .reduceM _ _ _ _ _ x _ => [.mat x]
  | .vcall x _ | .tuplesV x | .reduceV _ _ _ _ _ x _ => [.vec x]
  | .opM _ mask _ _ _ e => maskVars .mat mask ++ e.args
  | .opV _ mask _ _ _ e => maskVars .vec mask ++ e.args
  | .assignCol _ mask u _ _ _ _ _ _ | .assignRow _ mask u _ _ _ _ _ _ => .vec u :: maskVars .vec mask

/-- Whatever its calls return, the program changes variables in `W` only, and looks at
variables in `R` and `W` only. -/
def Program.Within (R W : Var → Prop) : Program tm tv ρ → Prop
  | .ret _ => True
  | .step c k => (∀ v ∈ c.writes, W v) ∧ (∀ v ∈ c.reads, R v ∨ W v) ∧ ∀ r, (k r).Within R W

/-- Threads that share objects for reading only: thread `i` keeps to the variables
`R i` and `W i`, and what it may change no other thread uses. -/
structure Separate (R W : ι → Var → Prop) (p : ι → Program tm tv ρ) : Prop where
  within : ∀ i, (p i).Within (R i) (W i)
  own : ∀ i j, i ≠ j → ∀ v, W i v → ¬ W j v ∧ ¬ R j v

end GBTL

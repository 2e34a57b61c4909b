import Verif.Model.AllocProgram
import Verif.Spec.Overcount
/-
What a program that runs out of memory now and then may rely on. Every call ends the way
its meaning (`Stmt.spec` in `Verif/Spec/Program.lean`) says, or throws `std::bad_alloc`.
After that, an operation, an `assign` or a `build` may have left its output matrix with other elements;
nothing else has changed, and the next call finds a matrix of the same shape with these
elements.
-/
namespace GBTL
open Spec (MatCall VecCall)

variable {tm tv : Nat → Type} {α ρ : Type}

/-- The matrix that may hold something else after the call has run out of memory. -/
def Stmt.tears : Stmt tm tv α → Option Nat
  | .buildM x _ _ | .opM x _ _ _ _ _ | .assignCol x _ _ _ _ _ _ _ _ | .assignRow x _ _ _ _ _ _ _ _ => some x
  | _ => none

/-- What the variables may hold after the call has run out of memory. -/
structure Stmt.MayLeave (a : AStore tm tv) (c : Stmt tm tv α) (a' : AStore tm tv) : Prop where
  vec : a'.vec = a.vec
  mat : ∀ x, c.tears ≠ some x → a'.mat x = a.mat x
  nrows : ∀ x, (a'.mat x).nrows = (a.mat x).nrows
  ncols : ∀ x, (a'.mat x).ncols = (a.mat x).ncols

/-- The ways a call may end. -/
def Stmt.MayEnd (a : AStore tm tv) (c : Stmt tm tv α) (r : Except (Halt BadAlloc) α) (a' : AStore tm tv) :
    Prop :=
  match r with
  | .ok v => c.spec a = (.ok v, a')
  | .error (.lib e) => c.spec a = (.error e, a')
  | .error (.op .badAlloc) => c.MayLeave a a'

/-- The ways a program may end. -/
def ProgramL.MayEnd (a : AStore tm tv) : ProgramL tm tv ρ → ρ × AStore tm tv → Prop
  | .ret r, q => q = (r, a)
  | .step c k, q => ∃ r a', c.MayEnd a r a' ∧ (k r).MayEnd a' q

/-- The calls that are left out: copies of matrices (`C103_copy_wrong`), the
growth of vectors; and what shows the number of
elements a matrix reports, which may be too large (C99). -/
def Stmt.steady : Stmt tm tv α → Prop
  | .copyM .. | .eqM .. => False
  | .mcall _ .nvals => False
  | .vcall _ (.resize _) => False
  | _ => True

/-- Every call the program may make is handled (`Stmt.handled`), and none is left out. -/
def ProgramL.steady (a : AStore tm tv) : ProgramL tm tv ρ → Prop
  | .ret _ => True
  | .step c k => c.handled a ∧ c.steady ∧ ∀ r a', c.MayEnd a r a' → (k r).steady a'

/-- Matrices that report at least the elements they store, and consistent vectors. -/
structure Store.Usable (s : Store tm tv) : Prop where
  mat : ∀ x, (s.mat x).Over
  vec : ∀ x, (s.vec x).WF ∧ 0 < (s.vec x).size

end GBTL

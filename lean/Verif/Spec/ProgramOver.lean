import Verif.Spec.Miscount
import Verif.Model.Program
/-
What programs see after vectors were built from lists with repeated indices. Beside what the
variables hold, a number is kept for every vector variable: how many elements too many the
vector reports.
-/
namespace GBTL
open Spec (Outp MaskKind Accum VecCall Ans AVec)

variable {tm tv : Nat → Type} {α ρ : Type}

/-- Change one number. -/
def setNum (d : Nat → Nat) (x k : Nat) : Nat → Nat := fun y => if y = x then k else d y

/-- What a call returns or throws. Two calls show the surplus: `nvals`, and the comparison of
two vectors, which also compares what they report. -/
noncomputable def Stmt.answer (a : AStore tm tv) (d : Nat → Nat) : Stmt tm tv α → Except Err α
  | .vcall x .nvals => .ok (.num (Spec.Vec.count (a.vec x).size (a.vec x).map + d x))
  | .eqV x y h _ => open Classical in .ok (decide (a.vec x = castTo h (a.vec y) ∧ d x = d y))
  | c => (c.spec a).1

/-- The surplus after a call that returned or threw `r`. A call that throws changes none. A
vector that is constructed, cleared or the output of an operation reports its elements; a copy
reports what the original does; `build` reports the length of the list. -/
def Stmt.surplus (a : AStore tm tv) (d : Nat → Nat) : Stmt tm tv α → Except Err α → Nat → Nat
  | _, .error _ => d
  | .newV x _, _ => setNum d x 0
  | .denseV x _, _ => setNum d x 0
  | .copyV x y _, _ => setNum d x (d y)
  | .vcall x .clear, _ => setNum d x 0
  | .buildV x dup ts, _ =>
    setNum d x (ts.length - Spec.Vec.count (a.vec x).size (Spec.combined dup ts))
  | .opV x _ _ _ _ _, _ => setNum d x 0
  | _, _ => d

/-- The meaning of a program: what it returns, what the variables hold then, and the surplus
of what the vectors report. -/
noncomputable def Program.specOver (a : AStore tm tv) (d : Nat → Nat) : Program tm tv ρ → ρ × AStore tm tv × (Nat → Nat)
  | .ret r => (r, a, d)
  | .step c k => (k (c.answer a d)).specOver (c.spec a).2 (c.surplus a d (c.answer a d))

/-- As `Stmt.handled`, but with any list for `build`. -/
def Stmt.handledOver (a : AStore tm tv) : Stmt tm tv α → Prop
  | .buildV _ _ _ => True
  | c => c.handled a

/-- Every call the program makes is handled. -/
def Program.handledOver (a : AStore tm tv) (d : Nat → Nat) : Program tm tv ρ → Prop
  | .ret _ => True
  | .step c k => c.handledOver a ∧ (k (c.answer a d)).handledOver (c.spec a).2 (c.surplus a d (c.answer a d))

/-- The calls that show what a vector reports. -/
def Stmt.counts : Stmt tm tv α → Prop
  | .vcall _ .nvals => True
  | .eqV _ _ _ _ => True
  | _ => False

/-- The program never asks a vector for its number of elements and compares no vectors. -/
def Program.never (a : AStore tm tv) : Program tm tv ρ → Prop
  | .ret _ => True
  | .step c k => ¬ c.counts ∧ (k (c.spec a).1).never (c.spec a).2

/-- Every call the program makes is handled, if no vector reports a wrong number. -/
def Program.handledBuild (a : AStore tm tv) : Program tm tv ρ → Prop
  | .ret _ => True
  | .step c k => c.handledOver a ∧ (k (c.spec a).1).handledBuild (c.spec a).2

/-- The variables are bound to objects that are consistent, but that every vector `x` reports
`d x` elements too many. -/
structure Store.Reports (s : Store tm tv) (d : Nat → Nat) : Prop where
  mat : ∀ x, (s.mat x).WF
  vec : ∀ x, (s.vec x).Sized ∧ 0 < (s.vec x).size
  nvals : ∀ x, (s.vec x).nvals = Spec.Vec.count (s.vec x).size (s.vec x).get + d x

end GBTL

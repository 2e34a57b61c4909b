import Verif.Model.Utils
import Verif.Model.Algo
/-
Model of `/repo/src/demo/mxm_homework.cpp`. Line numbers refer to this file.
-/
namespace GBTL

/-- The inner loop, lines 86-103, for one element of the result: is the first answer at its place the same value? `ne` is `!=` of the scalar
type. -/
def answered {α : Type} (ne : α → α → Bool) (r : Nat × Nat × α) : List (Nat × Nat × α) → Bool
  | [] => false
  | a :: as =>
    if a.1 = r.1 ∧ a.2.1 = r.2.1 then !ne a.2.2 r.2.2
    else answered ne r as

/-- The outer loop, lines 79-108: the value of `success` at its end. -/
def checkAnswers {α : Type} (ne : α → α → Bool) (ans : List (Nat × Nat × α)) : List (Nat × Nat × α) → Bool → Bool
  | [], success => success
  | r :: rs, success => checkAnswers ne ans rs (if answered ne r ans then success else false)

/-- `main`, lines 37-109, for any number of rows (and as many columns), any elements of `a` and `b`, any answers and any scalar type with its addition
and multiplication: the exit code. (The text it prints is left out.) -/
def mxmHomework {α : Type} (ne : α → α → Bool) (sr : SR α α α) (n : Nat) (as bs ans : List (Nat × Nat × α)) : Prog Nat := do
  let a ← lift (method ((Lil.new n n : Lil α).build (fun _ b => b) as))
  let b ← lift (method ((Lil.new n n : Lil α).build (fun _ b => b) bs))
  let c ← exec (mxm (mPlain id (Lil.new n n)) sr id (.plain a) (.plain b))
  .ok (if checkAnswers ne ans c.extractTuples true then 0 else 1)

end GBTL

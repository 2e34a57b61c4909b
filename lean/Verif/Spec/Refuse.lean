import Verif.Model.Algo
/-
What it means that an algorithm refuses its arguments.
-/
namespace GBTL

/-- The run ends with one of the library's exceptions: it returns nothing, it does not go on
forever, and it does not run into undefined behaviour. -/
def Throws {σ : Type} (p : Prog σ) : Prop := ∃ e : Err, e ≠ .ub ∧ p = .error (.err e)

end GBTL

import Verif.Spec.Laws
/-
A transposed view and the matrix that `transpose` writes.
-/
namespace GBTL
open Spec (Outp)

/-- `A'` is the operand `A`, or `A` is a transposed view and `A'` the matrix that a call of `transpose`
with its matrix wrote. -/
inductive Materialized {α : Type} : Operand α → Operand α → Prop
  | same (A : Operand α) : A.WF → Materialized A A
  | copy (U D X : Lil α) (outp : Outp) : U.WF → D.Of U.ncols U.nrows → D.into outp (.transpose (.plain U)) = .done X →
      Materialized (.tr U) (.plain X)

end GBTL

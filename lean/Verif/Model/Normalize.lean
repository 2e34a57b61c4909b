import Verif.Model.KTrussInc
import Verif.Props.Elementwise
/-
Model of `normalize_rows` and `normalize_cols` in
`/repo/src/graphblas/matrix_utils.hpp`. Line numbers refer to this file.

Simplification: floating-point values are exact rational numbers. Division by zero,
which gives an infinity in a floating-point type and is undefined in an integer type,
gives zero here; the theorems exclude it.
-/
namespace GBTL
open Spec (Outp MaskKind Accum)

variable {T : Type}

/-- `Plus`, `Times` and `MultiplicativeInverse` of the scalar type; lines 137-205. -/
structure NormOps (T : Type) where
  add : T → T → T
  times : T → T → T
  inv : T → T

/-- Exact arithmetic, for the floating-point types; `algebra.hpp`: `Plus`, `Times`,
`MultiplicativeInverse`. -/
def NormOps.rat : NormOps Rat := ⟨(· + ·), (· * ·), fun x => 1 / x⟩

/-- An integer type; `ov` is what an overflowing operation yields. Division truncates;
`algebra.hpp`: `Plus`, `Times`, `MultiplicativeInverse`. -/
def NormOps.int (t : ITy) (ov : Int → Int → Int) : NormOps Int := ⟨t.plusT ov, t.timesT ov, fun x => Int.tdiv 1 x⟩

/-- `normalize_rows`, lines 137-166: the new value of `A`. `Adiag` is built from the
tuples of `w`, as in `diag`. -/
def normalizeRows [Inhabited T] (o : NormOps T) (A : Lil T) : Prog (Lil T) := do
  let w ← lift (BVec.new A.nrows)
  let w ← exec (reduceMV (vPlain id w) (.of o.add id) (.plain A))
  let w ← exec (applyV (vPlain id w) o.inv w)
  let D ← lift (diag id w)
  exec (mxm (mPlain id A) ⟨o.add, o.times, o.times⟩ id (.plain D) (.plain A))

/-- `normalize_cols`, lines 176-205: the new value of `A`. The vector has the number of
rows as its size. -/
def normalizeCols [Inhabited T] (o : NormOps T) (A : Lil T) : Prog (Lil T) := do
  let w ← lift (BVec.new A.nrows)
  let w ← exec (reduceMV (vPlain id w) (.of o.add id) (.tr A))
  let w ← exec (applyV (vPlain id w) o.inv w)
  let D ← lift (diag id w)
  exec (mxm (mPlain id A) ⟨o.add, o.times, o.times⟩ id (.plain A) (.plain D))

end GBTL

import Verif.Spec.Laws
import Verif.Model.Algo
/-
Programs that compute powers of a matrix with `mxm`, and the walks these are about.
-/
namespace GBTL
open Spec (Outp)

variable {α : Type}

/-- `X = A; for (t = 0; t < k; ++t) mxm(D[t], NoMask(), NoAccumulate(), op, X, A, outp), X = D[t];` -/
def powerBySteps (add mult : α → α → α) (outp : Outp) (D : Nat → Lil α) (A : Lil α) : Nat → Prog (Lil α)
  | 0 => .ok A
  | k + 1 => do
    let X ← powerBySteps add mult outp D A k
    exec ((D k).into outp (.mxm (SR.of add mult) id (.plain X) (.plain A)))

/-- `X = A; for (t = 0; t < k; ++t) mxm(D[t], NoMask(), NoAccumulate(), op, X, X, outp), X = D[t];` -/
def powerBySquares (add mult : α → α → α) (outp : Outp) (D : Nat → Lil α) (A : Lil α) : Nat → Prog (Lil α)
  | 0 => .ok A
  | k + 1 => do
    let X ← powerBySquares add mult outp D A k
    exec ((D k).into outp (.mxm (SR.of add mult) id (.plain X) (.plain X)))

end GBTL

namespace Spec

variable {α : Type}

/-- The product of the elements along the walk from `i` over the vertices `l` to `j`; nothing if an element is missing. -/
def along (mult : α → α → α) (A : Mat α) : Nat → List Nat → Nat → Option α
  | i, [], j => A i j
  | i, x :: l, j => both mult (A i x) (along mult A x l j)

/-- All ways to choose `k` vertices below `n` in a row. -/
def stops (n : Nat) : Nat → List (List Nat)
  | 0 => [[]]
  | k + 1 => (List.range n).flatMap fun x => (stops n k).map fun l => l ++ [x]

/-- There is an edge from each vertex of the walk to the next. -/
def IsWalk (A : Mat α) : Nat → List Nat → Nat → Prop
  | i, [], j => A i j ≠ none
  | i, x :: l, j => A i x ≠ none ∧ IsWalk A x l j

instance IsWalk.dec (A : Mat α) : (i : Nat) → (l : List Nat) → (j : Nat) → Decidable (IsWalk A i l j)
  | i, [], j => inferInstanceAs (Decidable (A i j ≠ none))
  | i, x :: l, j =>
    have := IsWalk.dec A x l j
    inferInstanceAs (Decidable (A i x ≠ none ∧ IsWalk A x l j))

end Spec

import Verif.Model.Program
/-
What a container needs so that no access to it goes outside its arrays, and the calls
that are left out of C69. Both look at shapes and array lengths only.
-/
namespace GBTL

variable {tm tv : Nat → Type} {γ ζ τ α ρ : Type}

/-- Every index of the row is below `n`. -/
def Row.Below (n : Nat) (r : Row α) : Prop := ∀ p ∈ r, p.1 < n

/-- The matrix has one array per row, and no element lies outside the shape. Nothing is
said about order, repetitions or the element count. -/
structure Lil.Safe (A : Lil α) : Prop where
  len : A.rows.length = A.nrows
  below : ∀ r ∈ A.rows, Row.Below A.ncols r

/-- The vector's arrays are as long as it is. -/
structure BVec.Safe (v : BVec α) : Prop where
  vals : v.vals.length = v.size
  bitmap : v.bitmap.length = v.size

/-- All objects of a program. -/
structure Store.Safe (s : Store tm tv) : Prop where
  mat : ∀ x, (s.mat x).Safe
  vec : ∀ x, (s.vec x).Safe

/-! ### The calls that are left out -/

/-- `assign` with `AllIndices` needs a source that is not larger than the output
(`m × n`), and the shape of a Kronecker product must fit in `IndexType`. -/
def MOp.bounded (a : AStore tm tv) (m n : Nat) : MOp tm γ ζ τ → Prop
  | .kronecker A B _ =>
    (A.val a).nrows * (B.val a).nrows < 2 ^ 64 ∧ (A.val a).ncols * (B.val a).ncols < 2 ^ 64
  | .assign _ A ri ci => (ri = none → (A.val a).nrows ≤ m) ∧ (ci = none → (A.val a).ncols ≤ n)
  | _ => True

def VOp.bounded (a : AStore tm tv) (n : Nat) : VOp tm tv γ ζ τ → Prop
  | .assign _ u ix => ix = none → (a.vec u).size ≤ n
  | _ => True

/-- In addition, the constructor from a dense matrix needs a row. Nothing is asked
about repetitions or order in index lists, repeated indices in `build`, operators, or
shapes and indices otherwise. -/
def Stmt.bounded (a : AStore tm tv) : Stmt tm tv α → Prop
  | .denseM _ _ rows => rows ≠ []
  | .opM x _ _ _ _ e => e.bounded a (a.mat x).nrows (a.mat x).ncols
  | .opV x _ _ _ _ e => e.bounded a (a.vec x).size
  | .assignCol x _ u _ _ _ _ ri _ => ri = none → (a.vec u).size ≤ (a.mat x).nrows
  | .assignRow x _ u _ _ _ _ _ ci => ci = none → (a.vec u).size ≤ (a.mat x).ncols
  | _ => True

/-- Every call that the program makes in its run from `s` is of that kind. -/
def Program.bounded [∀ x, Inhabited (tm x)] [∀ x, Inhabited (tv x)] (s : Store tm tv) :
    Program tm tv ρ → Prop
  | .ret _ => True
  | .step c k => c.bounded s.abs ∧ ∀ r s', c.exec s = some (r, s') → (k r).bounded s'

end GBTL

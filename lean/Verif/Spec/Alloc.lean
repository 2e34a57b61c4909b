import Verif.Spec.Abs
import Verif.Model.Alloc
/-
What a user sees of a call when memory runs out: how the call ended, and what the
container holds then.
-/
namespace GBTL
variable {χ γ : Type}

/-- How a call on a container ended: a return or an exception, the memory that is left,
and the container. -/
abbrev Ended (χ : Type) : Type := Except (Halt BadAlloc) Unit × (Nat × χ)

/-- The call returned, and the container is `c`. -/
def Ended.Returned (r : Ended χ) (c : χ) : Prop := r.1 = .ok () ∧ r.2.2 = c

/-- The call threw an exception of the library, and the container is `c`. -/
def Ended.Threw (r : Ended χ) (e : Err) (c : χ) : Prop := r.1 = .error (.lib e) ∧ r.2.2 = c

/-- The call threw `std::bad_alloc`, and the container is `c`. -/
def Ended.RanOut (r : Ended χ) (c : χ) : Prop := r.1 = .error (.op .badAlloc) ∧ r.2.2 = c

/-- The call ended the way it does on a machine with enough memory. -/
def Ended.AsUsual (r : Ended χ) (full : Except Err Unit × χ) : Prop :=
  match full.1 with
  | .ok _ => r.Returned full.2
  | .error e => r.Threw e full.2

/-- With enough memory the call has the effect `full`. -/
def Suffices (call : Act Nat χ BadAlloc Unit) (old : χ) (full : Except Err Unit × χ) : Prop :=
  ∃ enough, ∀ mem, enough ≤ mem → Ended.AsUsual (call (mem, old)) full

/-- Whenever memory runs out, the call has its whole effect or none. -/
def WholeOrNone (call : Act Nat χ BadAlloc Unit) (old : χ) (full : Except Err Unit × χ) : Prop :=
  (∀ mem, Ended.AsUsual (call (mem, old)) full ∨ Ended.RanOut (call (mem, old)) old) ∧
    Suffices call old full

/-- The number of elements stored in a matrix, counted one by one. -/
def Lil.stored (A : Lil γ) : Nat := (A.rows.map List.length).sum

/-- What is left of a matrix if writing it row by row stopped at row `i`: the rows above
are those of the result `C'`, the rows below those that were there (`rest`). Row `i` is
either untouched, and `nvals` is right; or it has the first `k` elements of the new row,
and `nvals` counts the missing ones. -/
structure Torn (rest C' left : Lil γ) (i : Nat) : Prop where
  nrows : left.nrows = C'.nrows
  ncols : left.ncols = C'.ncols
  len : left.rows.length = rest.rows.length
  above : ∀ k, k < i → left.rowD k = C'.rowD k
  below : ∀ k, i < k → left.rowD k = rest.rowD k
  row : left.rowD i = rest.rowD i ∧ left.nvals = left.stored ∨
    ∃ k, k < (C'.rowD i).length ∧ left.rowD i = (C'.rowD i).take k ∧
      left.nvals = left.stored + ((C'.rowD i).length - k)

end GBTL

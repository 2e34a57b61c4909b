import Verif.Spec.Ops
import Verif.Spec.Frontend
/-
What `assign` of a constant leaves behind for index lists in any order and with
repetitions.
-/
namespace Spec

variable {γ τ ζ : Type}

/-- `i` is listed, and every index listed before its first occurrence is smaller: the
first listed index that is not below `i` is `i`. -/
def leads (l : List Nat) (i : Nat) : Bool := l.find? (fun k => decide (i ≤ k)) == some i

/-- The constant as far as a masked assignment sees it: at the leading positions. -/
def leadConst (l : List Nat) (x : τ) (i : Nat) : Option τ := if leads l i then some x else none

/-- The content before conversion to the output's type that an unmasked constant
assignment leaves at position `i` of a vector holding `c`. Without accumulator the constant
is at all listed positions. With one, an old value is combined with the constant only if
the position is listed once and leads; otherwise the constant replaces it. -/
def constVecAt (keep : γ → ζ) (acc : Accum γ τ ζ) (l : List Nat) (x : τ) (c : Option γ) (i : Nat) :
    Option ζ :=
  match acc with
  | .none cast => if i ∈ l then some (cast x) else c.map keep
  | .some op castC castT =>
    match c with
    | none => if i ∈ l then some (castT x) else none
    | some y =>
      if i ∈ l then (if leads l i ∧ l.count i = 1 then some (op y x) else some (castT x))
      else some (castC y)

/-- The same for a position of a matrix, in a listed row; `i` is its column. With an
accumulator, an old value whose position does not lead stays. -/
def constRowAt (keep : γ → ζ) (acc : Accum γ τ ζ) (l : List Nat) (x : τ) (c : Option γ) (i : Nat) :
    Option ζ :=
  match acc with
  | .none cast => if i ∈ l then some (cast x) else c.map keep
  | .some op castC castT =>
    match c with
    | none => if i ∈ l then some (castT x) else none
    | some y => if leads l i then some (op y x) else some (castC y)

end Spec

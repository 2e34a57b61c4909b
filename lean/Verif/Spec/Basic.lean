/-
Specification layer: sparse vectors and matrices as partial functions, and the
GraphBLAS semantics given pointwise. Nothing here refers to the model of the
C++ code.
-/
namespace Spec

/-- A sparse vector: `none` means "no stored value". -/
abbrev Vec (α : Type) := Nat → Option α

/-- A sparse matrix. -/
abbrev Mat (α : Type) := Nat → Nat → Option α

/-- Number of stored elements among the first `n` indices. -/
def Vec.count {α : Type} (n : Nat) (v : Vec α) : Nat :=
  ((List.range n).filter fun i => (v i).isSome).length

/-- Number of stored elements of a matrix with `m` rows and `n` columns. -/
def Mat.count {α : Type} (m n : Nat) (A : Mat α) : Nat :=
  ((List.range m).map fun i => Vec.count n (A i)).sum

/-- Point update. -/
def Vec.set {α : Type} (v : Vec α) (i : Nat) (x : Option α) : Vec α :=
  fun k => if k = i then x else v k

def Mat.set {α : Type} (A : Mat α) (i j : Nat) (x : Option α) : Mat α :=
  fun k l => if k = i ∧ l = j then x else A k l

/-- Output control of a masked operation. -/
inductive Outp where
  | merge
  | replace
  deriving DecidableEq, Repr

/-- The kinds of mask argument: no mask, a mask used by value, its complement,
the structure of a mask, the complement of the structure. -/
inductive MaskKind where
  | plain
  | comp
  | struct
  | structComp
  deriving DecidableEq, Repr

/-- Does a mask of kind `k` whose element at this position is `m` allow writing
to this position? `truthy` is the conversion of a mask value to `bool`. -/
def allows {μ : Type} (truthy : μ → Bool) (k : MaskKind) (m : Option μ) : Bool :=
  match k with
  | .plain => m.any truthy
  | .comp => !(m.any truthy)
  | .struct => m.isSome
  | .structComp => !m.isSome

/-- The accumulator argument of an operation. `γ` is the scalar type of the
output, `τ` of the computed result, `ζ` of the accumulator's result. The
conversions are C++'s implicit scalar conversions. -/
inductive Accum (γ τ ζ : Type) where
  | none (cast : τ → ζ)
  | some (op : γ → τ → ζ) (castC : γ → ζ) (castT : τ → ζ)

/-- `Z = C ⊙ T` at one position: without an accumulator, `Z = T`; with one, the
operator is applied where both are stored, and an element stored on one side
only is kept. -/
def accum {γ τ ζ : Type} (acc : Accum γ τ ζ) (c : Option γ) (t : Option τ) : Option ζ :=
  match acc with
  | .none cast => t.map cast
  | .some f cC cT =>
    match c, t with
    | .some c, .some t => Option.some (f c t)
    | .some c, .none => Option.some (cC c)
    | .none, .some t => Option.some (cT t)
    | .none, .none => Option.none

/-- `C<M,outp> = Z` at one position. -/
def write {γ ζ : Type} (castZ : ζ → γ) (allowed : Bool) (outp : Outp)
    (c : Option γ) (z : Option ζ) : Option γ :=
  if allowed then z.map castZ
  else match outp with
    | .merge => c
    | .replace => none

/-- Left-to-right sum of the values present in a list. -/
def osum {τ : Type} (add : τ → τ → τ) (l : List (Option τ)) : Option τ :=
  l.foldl (fun acc x =>
    match acc, x with
    | some a, some b => some (add a b)
    | some a, none => some a
    | none, y => y) none

/-- Apply a binary operator where both operands are stored. -/
def both {α β τ : Type} (f : α → β → τ) (a : Option α) (b : Option β) : Option τ :=
  match a, b with
  | some a, some b => some (f a b)
  | _, _ => none

/-- Apply a binary operator where both operands are stored, keep a single one. -/
def either {α β τ : Type} (f : α → β → τ) (ca : α → τ) (cb : β → τ)
    (a : Option α) (b : Option β) : Option τ :=
  match a, b with
  | some a, some b => some (f a b)
  | some a, none => some (ca a)
  | none, some b => some (cb b)
  | none, none => none

/-- Transpose. -/
def Mat.tr {α : Type} (A : Mat α) : Mat α := fun i j => A j i

/-- Matrix product over a semiring, inner dimension `n`, the products being
summed in ascending order of the inner index. -/
def mxm {α β τ : Type} (n : Nat) (add : τ → τ → τ) (mult : α → β → τ)
    (A : Mat α) (B : Mat β) : Mat τ :=
  fun i j => osum add ((List.range n).map fun k => both mult (A i k) (B k j))

/-- Matrix times vector. -/
def mxv {α β τ : Type} (n : Nat) (add : τ → τ → τ) (mult : α → β → τ)
    (A : Mat α) (u : Vec β) : Vec τ :=
  fun i => osum add ((List.range n).map fun k => both mult (A i k) (u k))

/-- Vector times matrix. -/
def vxm {α β τ : Type} (n : Nat) (add : τ → τ → τ) (mult : α → β → τ)
    (u : Vec α) (A : Mat β) : Vec τ :=
  fun j => osum add ((List.range n).map fun k => both mult (u k) (A k j))

end Spec

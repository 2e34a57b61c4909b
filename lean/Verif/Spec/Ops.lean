import Verif.Spec.Basic
/-
Specifications of reduce, extract, assign and kronecker. Nothing here refers to
the model of the C++ code.
-/
namespace Spec

/-- Left fold of the values present in a list, in order; `none` if there is none.
`first` turns the first value into the fold's type. -/
def ofold {α τ : Type} (first : α → τ) (next : τ → α → τ) (l : List (Option α)) : Option τ :=
  l.foldl (fun acc x =>
    match acc, x with
    | some t, some a => some (next t a)
    | none, some a => some (first a)
    | acc, none => acc) none

/-- The stored values of a vector of size `n`, in ascending index order. -/
def Vec.vals {α : Type} (n : Nat) (v : Vec α) : List α := (List.range n).filterMap v

/-- The stored values of an `m × n` matrix, row by row. -/
def Mat.vals {α : Type} (m n : Nat) (A : Mat α) : List α :=
  (List.range m).flatMap fun i => Vec.vals n (A i)

/-- The stored values of an `m × n` matrix, column by column. -/
def Mat.valsT {α : Type} (m n : Nat) (A : Mat α) : List α :=
  (List.range n).flatMap fun j => (List.range m).filterMap fun i => A i j

/-- The `k`-th selected index: of an explicit list, its `k`-th element; of "all
indices" of a source with `n` of them, `k` itself. -/
def nth (l : Option (List Nat)) (n k : Nat) : Option Nat :=
  match l with
  | some l => l[k]?
  | none => if k < n then some k else none

/-- `w = u(indices)`. -/
def extract {α : Type} (n : Nat) (ix : Option (List Nat)) (u : Vec α) : Vec α :=
  fun k => (nth ix n k).bind u

/-- `C = A(rows, cols)`. -/
def extractMat {α : Type} (m n : Nat) (ri ci : Option (List Nat)) (A : Mat α) : Mat α :=
  fun i j => (nth ri m i).bind fun r => (nth ci n j).bind fun c => A r c

/-- The position of `i` in a list of selected indices: `some k` with
`indices[k] = i`. -/
def posOf (l : Option (List Nat)) (n i : Nat) : Option Nat :=
  match l with
  | some l => l.idxOf? i
  | none => if i < n then some i else none

/-- Is index `i` selected? -/
def selected (l : Option (List Nat)) (n i : Nat) : Bool := (posOf l n i).isSome

/-- The content of the output before masking, `w(indices) = u`, at one position:
`sel` tells whether the position is listed, `t` is the source's value for it. An
unlisted position keeps its content (`keep` and the accumulator's `castC` convert
it to the type the operation computes in). A listed position takes the source's
value, or its absence, when there is no accumulator, and is accumulated with it
otherwise. -/
def assignAt {γ τ ζ : Type} (keep : γ → ζ) (acc : Accum γ τ ζ) (sel : Bool) (c : Option γ)
    (t : Option τ) : Option ζ :=
  if sel then accum acc c t
  else match acc with
    | .none _ => c.map keep
    | .some _ castC _ => c.map castC

/-- The source's value for position `i` of `w(indices) = u`. -/
def assignSrc {α : Type} (n : Nat) (ix : Option (List Nat)) (u : Vec α) : Vec α :=
  fun i => (posOf ix n i).bind u

/-- The source's value for position `(i, j)` of `C(rows, cols) = A`, `A` of shape
`m × n`. -/
def assignSrcMat {α : Type} (m n : Nat) (ri ci : Option (List Nat)) (A : Mat α) : Mat α :=
  fun i j => (posOf ri m i).bind fun r => (posOf ci n j).bind fun c => A r c

/-- Kronecker product; `r × c` is the shape of `B`. -/
def kron {α β τ : Type} (r c : Nat) (op : α → β → τ) (A : Mat α) (B : Mat β) : Mat τ :=
  fun i j => both op (A (i / r) (j / c)) (B (i % r) (j % c))

end Spec

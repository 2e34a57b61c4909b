/-
Outcomes of calls, and checked access to `std::vector`s.
-/
namespace GBTL

/-- The exceptions of `/repo/src/graphblas/exceptions.hpp` (lines 46, 104, 86, 122, 164,
64, in this order) that the modelled code throws, and `ub` for undefined behaviour (an access past the end of a
`std::vector`). -/
inductive Err where
  | indexOutOfBounds
  | invalidIndex
  | invalidValue
  | dimension
  | noValue
  | panic
  | ub
  deriving DecidableEq, Repr

instance exceptDecEq {α : Type} [DecidableEq α] : DecidableEq (Except Err α) := fun a b =>
  match a, b with
  | .ok x, .ok y => if h : x = y then isTrue (by rw [h]) else isFalse (by intro h'; cases h'; exact h rfl)
  | .error x, .error y => if h : x = y then isTrue (by rw [h]) else isFalse (by intro h'; cases h'; exact h rfl)
  | .ok _, .error _ => isFalse (by intro h; cases h)
  | .error _, .ok _ => isFalse (by intro h; cases h)

/-- `LilSparseMatrix::RowType` (`/repo/src/graphblas/platforms/sequential/LilSparseMatrix.hpp`
lines 50-51): `std::vector<std::tuple<IndexType, T>>`, a list of (index, value)
pairs. -/
abbrev Row (α : Type) := List (Nat × α)

/-- `v[i]` as an rvalue: undefined behaviour past the end. `std::vector`'s, as in
`/repo/src/graphblas/platforms/sequential/BitmapSparseVector.hpp` line 402. -/
def rd {α : Type} (l : List α) (i : Nat) : Except Err α :=
  match l[i]? with
  | some a => .ok a
  | none => .error .ub

/-- `v[i] = a`: undefined behaviour past the end. `std::vector`'s, as in
`/repo/src/graphblas/platforms/sequential/BitmapSparseVector.hpp` line 413. -/
def wr {α : Type} (l : List α) (i : Nat) (a : α) : Except Err (List α) :=
  if i < l.length then .ok (l.set i a) else .error .ub

/-- `std::vector::resize(n, fill)`, as in
`/repo/src/graphblas/platforms/sequential/BitmapSparseVector.hpp` lines 319-325. -/
def resizeList {α : Type} (l : List α) (n : Nat) (fill : α) : List α :=
  l.take n ++ List.replicate (n - l.length) fill

/-- `for (i = 0; i < n; ++i) body(i)` over a state, stopping at the first
exception; as in `/repo/src/graphblas/platforms/sequential/sparse_helpers.hpp` line 79. -/
def forN {σ : Type} (n : Nat) (s : σ) (body : Nat → σ → Except Err σ) : Except Err σ :=
  (List.range n).foldlM (fun s i => body i s) s

end GBTL

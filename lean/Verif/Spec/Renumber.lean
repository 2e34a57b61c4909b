/-
Renumbering the vertices of a graph, and the graph in an edge list.
-/
namespace Spec

/-- `d` renumbers the numbers below `n`, and `τ` is the renumbering back. -/
structure Renumbering (n : Nat) (d τ : Nat → Nat) : Prop where
  there : ∀ i, i < n → d i < n ∧ τ (d i) = i
  back : ∀ a, a < n → τ a < n ∧ d (τ a) = a

/-- The numbers in a file with one row for each pair. -/
def numbers (rows : List (Nat × Nat)) : List Nat := rows.flatMap fun r => [r.1, r.2]

/-- The graph in an edge list: loops are ignored. -/
def fileGraph (rows : List (Nat × Nat)) (i j : Nat) : Bool := i ≠ j && rows.contains (i, j)

/-- The number of rows, loops not counted, that begin with `v`. -/
def degreeIn (rows : List (Nat × Nat)) (v : Nat) : Nat :=
  (rows.filter fun r => r.1 = v && r.2 ≠ v).length

/-- `A'` is `A` with row and column `u` moved to `d u`. -/
def MovedMat {α : Type} (n : Nat) (d : Nat → Nat) (A A' : Nat → Nat → Option α) : Prop :=
  ∀ u v, u < n → v < n → A' (d u) (d v) = A u v

/-- `x'` is `x` with position `v` moved to `d v`. -/
def MovedVec {α : Type} (n : Nat) (d : Nat → Nat) (x x' : Nat → Option α) : Prop :=
  ∀ v, v < n → x' (d v) = x v

end Spec

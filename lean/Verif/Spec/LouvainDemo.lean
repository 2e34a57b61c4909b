/-
Files with weighted edges for the Louvain demo (C89).
-/
namespace Spec

/-- The numbers in a file with one row for each edge: source, destination and weight. -/
def numbers3 (rows : List (Nat × Nat × Nat)) : List Nat := rows.flatMap fun r => [r.1, r.2.1, r.2.2]

/-- The weight in the last row for the edge from `s` to `d`. -/
def lastWeight (rows : List (Nat × Nat × Nat)) (s d : Nat) : Option Nat :=
  (rows.reverse.find? fun r => r.1 = s && r.2.1 = d).map (·.2.2)

end Spec

import Verif.Spec.Cluster
import Verif.Spec.Renumber
/-
Elections without ties. Nothing here refers to the model of the C++ code.
-/
namespace Spec

/-- The votes of the vertices in `S` for `j`. -/
def votesOf (n : Nat) (W : Mat Rat) (S : Nat → Bool) (j : Nat) : Rat :=
  ((List.range n).map fun u => if S u then (W u j).getD 0 else 0).sum

/-- However the vertices are put in clusters, no two clusters with voters have as many votes for
the same vertex. -/
def ClearVotes (n : Nat) (W : Mat Rat) : Prop :=
  ∀ (j : Nat) (S S' : Nat → Bool), j < n → (∀ u, ¬ (S u = true ∧ S' u = true)) →
    (∃ u, u < n ∧ S u = true ∧ W u j ≠ none) → (∃ u, u < n ∧ S' u = true ∧ W u j ≠ none) →
    votesOf n W S j ≠ votesOf n W S' j

end Spec

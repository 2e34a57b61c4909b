import Verif.Spec.Normalize
/-
Specification of peer-pressure clustering. Nothing here refers to the model of the C++
code. The vertices are `0, …, n - 1`; `W u v` is the weight of the vote of `u` for `v`;
a clustering `a` gives each vertex the number of its cluster, if it is in one.
-/
namespace Spec

/-- Does a member of cluster `i` vote for `j`? -/
def Candidate (n : Nat) (W : Mat Rat) (a : Vec Nat) (i j : Nat) : Prop :=
  ∃ u, u < n ∧ a u = some i ∧ W u j ≠ none

/-- The votes of the members of cluster `i` for `j`. -/
def votes (n : Nat) (W : Mat Rat) (a : Vec Nat) (i j : Nat) : Rat :=
  ((List.range n).map fun u => if a u = some i then (W u j).getD 0 else 0).sum

/-- Cluster `i` wins vertex `j`: it has the most votes, and the highest number among the
clusters with as many. -/
structure Elected (n : Nat) (W : Mat Rat) (a : Vec Nat) (j i : Nat) : Prop where
  candidate : Candidate n W a i j
  best : ∀ i', Candidate n W a i' j →
    votes n W a i' j < votes n W a i j ∨ votes n W a i' j = votes n W a i j ∧ i' ≤ i

/-- `b` is the clustering after one round: every vertex is in the cluster that won it, and
in none if nobody in a cluster voted for it. -/
structure NextClusters (n : Nat) (W : Mat Rat) (a b : Vec Nat) : Prop where
  elected : ∀ j i, j < n → (b j = some i ↔ Elected n W a j i)
  none : ∀ j, j < n → (b j = none ↔ ∀ i, ¬ Candidate n W a i j)

/-- `b` is the clustering after the first round that changes nothing, counted from `a0`, or
after `limit` rounds. -/
def PeerPressure (n : Nat) (W : Mat Rat) (a0 : Vec Nat) (limit : Nat) (b : Vec Nat) : Prop :=
  ∃ (k : Nat) (a : Nat → Vec Nat), a 0 = a0 ∧ a k = b ∧ k ≤ limit ∧
    (∀ t, t < k → NextClusters n W (a t) (a (t + 1)) ∧ ∃ j, j < n ∧ a (t + 1) j ≠ a t j) ∧
    (k < limit → NextClusters n W b b)

/-- Row `i` is the cluster of vertex `j` in the matrix `C`: it has the greatest
value of column `j`, and is the first that has. -/
structure FirstBest (C : Mat Rat) (j i : Nat) (x : Rat) : Prop where
  stored : C i j = some x
  best : ∀ i' y, C i' j = some y → y < x ∨ y = x ∧ i ≤ i'

end Spec

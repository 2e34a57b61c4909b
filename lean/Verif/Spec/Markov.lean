import Verif.Spec.Normalize
/-
Specification of Markov clustering: the textbook process on square matrices of order `n`.
Nothing here refers to the model of the C++ code.
-/
namespace Spec

/-- The `e`-th power of a matrix. -/
def mpower (n : Nat) (A : Nat → Nat → Rat) : Nat → Nat → Nat → Rat
  | 0, i, j => if i = j then 1 else 0
  | e + 1, i, j => ((List.range n).map fun l => mpower n A e i l * A l j).sum

/-- Every element divided by the sum of its column. -/
def colNorm (n : Nat) (A : Nat → Nat → Rat) (i j : Nat) : Rat := A i j / ((List.range n).map fun k => A k j).sum

/-- Inflation: every element raised to the power `r`, and the columns normalised. -/
def inflate (n r : Nat) (A : Nat → Nat → Rat) : Nat → Nat → Rat := colNorm n fun i j => A i j ^ r

/-- The matrix after `k` rounds of expansion and inflation. -/
def mclAfter (n e r : Nat) (A : Nat → Nat → Rat) : Nat → Nat → Nat → Rat
  | 0 => colNorm n A
  | k + 1 => inflate n r (mpower n (mclAfter n e r A k) e)

/-- The mean squared change in round `k + 1`. -/
def mclError (n e r : Nat) (A : Nat → Nat → Rat) (k : Nat) : Rat :=
  ((List.range n).map fun i => ((List.range n).map fun j =>
    (mclAfter n e r A k i j - mclAfter n e r A (k + 1) i j) * (mclAfter n e r A k i j - mclAfter n e r A (k + 1) i j)).sum).sum
    / ((n : Rat) * (n : Rat))

/-- The product of `k + 1` factors, computed only where it has not become zero: what was zero
stays zero. -/
def keptPower (n : Nat) (A : Nat → Nat → Rat) : Nat → Nat → Nat → Rat
  | 0, i, j => A i j
  | k + 1, i, j => if keptPower n A k i j = 0 then 0 else ((List.range n).map fun l => keptPower n A k i l * A l j).sum

/-- How often a loop `for (i = 0; i < x - 1; ++i)` over unsigned numbers of 64 bits runs. -/
def timesLess (x : Nat) : Nat := if x = 0 then 2 ^ 64 - 1 else x - 1

/-- The matrix after `k` rounds in which no element appears at a new position. -/
def keptAfter (n e r : Nat) (A : Nat → Nat → Rat) : Nat → Nat → Nat → Rat
  | 0 => colNorm n A
  | k + 1 => inflate n (timesLess r + 1) (keptPower n (keptAfter n e r A k) (timesLess e))

/-- The mean squared change in round `k + 1` of these. -/
def keptError (n e r : Nat) (A : Nat → Nat → Rat) (k : Nat) : Rat :=
  ((List.range n).map fun i => ((List.range n).map fun j =>
    (keptAfter n e r A k i j - keptAfter n e r A (k + 1) i j) * (keptAfter n e r A k i j - keptAfter n e r A (k + 1) i j)).sum).sum
    / ((n : Rat) * (n : Rat))

/-- The matrix with zeros where nothing is stored. -/
def dense (A : Mat Rat) (i j : Nat) : Rat := (A i j).getD 0

end Spec

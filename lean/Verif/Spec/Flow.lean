import Verif.Spec.Graph
/-
Flows in a network with the vertices `0`, …, `n - 1`, the source `s`, the sink `t` and
the capacities `c`. Nothing here refers to the model of the C++ code.
-/
namespace Spec

/-- `g u v` is the flow from `u` to `v`. It is between zero and the capacity, and what
enters a vertex other than the source and the sink leaves it. -/
structure IsFlow (n s t : Nat) (c g : Nat → Nat → Int) : Prop where
  nonneg : ∀ u v, u < n → v < n → 0 ≤ g u v
  capacity : ∀ u v, u < n → v < n → g u v ≤ c u v
  conserved : ∀ u, u < n → u ≠ s → u ≠ t → total n (fun v => g v u) = total n (fun v => g u v)

/-- The value of a flow: what leaves the source minus what enters it. -/
def flowValue (n s : Nat) (g : Nat → Nat → Int) : Int :=
  total n (fun v => g s v) - total n (fun v => g v s)

/-- The largest value of a flow is `m`. -/
def IsMaxFlow (n s t : Nat) (c : Nat → Nat → Int) (m : Int) : Prop :=
  (∃ g, IsFlow n s t c g ∧ flowValue n s g = m) ∧ ∀ g, IsFlow n s t c g → flowValue n s g ≤ m

/-- The capacities a matrix stores; no capacity where it stores nothing. -/
def capacityOf (A : Mat Int) (u v : Nat) : Int := (A u v).getD 0

/-- The sum of all capacities. -/
def totalCapacity (n : Nat) (c : Nat → Nat → Int) : Int := total n fun u => total n fun v => c u v

end Spec

import Verif.Spec.Flow
/-
Cuts of a network: sets of vertices that contain the source but not the sink.
-/
namespace Spec

/-- What can flow out of the set `U`: the sum of the capacities of the edges that leave it. -/
def cutCapacity (n : Nat) (c : Nat → Nat → Int) (U : Nat → Bool) : Int :=
  total n fun x => total n fun y => if U x && !U y then c x y else 0

/-- The smallest capacity of a set with `s` but not `t` is `m`. -/
def IsMinCut (n s t : Nat) (c : Nat → Nat → Int) (m : Int) : Prop :=
  (∃ U : Nat → Bool, U s = true ∧ U t = false ∧ cutCapacity n c U = m) ∧
    ∀ U : Nat → Bool, U s = true → U t = false → m ≤ cutCapacity n c U

end Spec

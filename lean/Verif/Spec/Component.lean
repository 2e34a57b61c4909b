import Verif.Spec.Basic
/-
Sets of vertices that no edge joins to the rest of the graph: unions of connected components.
Nothing here refers to the model of the C++ code.
-/
namespace Spec

/-- No edge joins a vertex in `P` and a vertex outside `P`. -/
def Apart {α : Type} (W : Nat → Nat → Option α) (P : Nat → Prop) : Prop := ∀ u v, W u v ≠ none → (P u ↔ P v)

end Spec

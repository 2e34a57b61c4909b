import Verif.Spec.Graph
/-
The graphs in which `filtered_sssp` (C36) and `sssp_delta_step` (C54) find their distances.
-/
namespace Spec

/-- The graph without the edges from start vertices to a vertex that is not one and to
which a start vertex has an edge of weight zero. -/
noncomputable def withoutZero (W : Mat Int) (S : Vec Int) : Mat Int := fun u v =>
  open Classical in
  if S u ≠ none ∧ S v = none ∧ ∃ s, S s ≠ none ∧ W s v = some 0 then none else W u v

/-- The graph without the edges out of the vertices, other than `src`, that an edge of weight
zero leads to from `src`. -/
def deadEnds (W : Mat Int) (src : Nat) : Mat Int := fun u v =>
  if u ≠ src ∧ W src u = some 0 then none else W u v

end Spec

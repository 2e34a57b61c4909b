import Verif.Spec.Calls
/-
Vocabulary for laws that relate several calls: calls without mask and accumulator, and
the laws of the operators.
-/
namespace Spec

/-- An associative, commutative addition, an associative multiplication, and
distributivity. Neither a zero nor a unit is asked for. -/
structure Semiring {α : Type} (add mult : α → α → α) : Prop where
  add_assoc : ∀ x y z, add (add x y) z = add x (add y z)
  add_comm : ∀ x y, add x y = add y x
  mult_assoc : ∀ x y z, mult (mult x y) z = mult x (mult y z)
  left : ∀ x y z, mult x (add y z) = add (mult x y) (mult x z)
  right : ∀ x y z, mult (add x y) z = add (mult x z) (mult y z)

end Spec

namespace GBTL
open Spec (Outp MaskKind Accum)

/-- `op(C, NoMask(), NoAccumulate(), ..., outp)` in one scalar type. -/
def Lil.into {α : Type} (C : Lil α) (outp : Outp) (c : MCall α α α) : Outcome (Lil α) :=
  c.run (μ := Unit) ⟨C, none, fun _ => true, .none id, id, outp⟩

def BVec.into {α : Type} (w : BVec α) (outp : Outp) (c : VCall α α α) : Outcome (BVec α) :=
  c.run (μ := Unit) ⟨w, none, fun _ => true, .none id, id, outp⟩

/-- A semiring object on one scalar type. -/
def SR.of {α : Type} (add mult : α → α → α) : SR α α α := ⟨add, mult, mult⟩

/-- An operator on one scalar type, for element-wise operations. -/
def EW.of {α : Type} (op : α → α → α) : EW α α α := ⟨op, id, id, id, op, id⟩

/-- A consistent matrix of the given shape. -/
structure Lil.Of {α : Type} (A : Lil α) (m n : Nat) : Prop where
  wf : A.WF
  nrows : A.nrows = m
  ncols : A.ncols = n

/-- A consistent vector of the given size. -/
structure BVec.Of {α : Type} (v : BVec α) (n : Nat) : Prop where
  wf : v.WF
  size : v.size = n

/-- Equal size and content; for consistent vectors, this is what `==` tests (C06). -/
def BVec.Same {α : Type} (v w : BVec α) : Prop := v.size = w.size ∧ ∀ i, v.get i = w.get i

/-- An index argument that names `p` positions below `N`, possibly with repetitions. -/
def Idx.Picks (ix : Idx) (p N : Nat) : Prop :=
  match ix with
  | .list l => l.length = p ∧ ∀ i ∈ l, i < N
  | .all => p = N

/-- The `k`-th position named. -/
def Idx.pick (ix : Idx) (k : Nat) : Nat :=
  match ix with
  | .list l => l.getD k 0
  | .all => k

/-- The positions that `jx` names among those named by `ix`. -/
def Idx.comp (ix jx : Idx) : Idx :=
  match jx with
  | .all => ix
  | .list l => .list (l.map ix.pick)

/-- No position is named by both. -/
def Idx.Disjoint (ix jx : Idx) (p q : Nat) : Prop := ∀ k l, k < p → l < q → ix.pick k ≠ jx.pick l

end GBTL

namespace Spec

/-- The kind of mask with `complement` applied or removed. -/
def MaskKind.opposite : MaskKind → MaskKind
  | .plain => .comp
  | .comp => .plain
  | .struct => .structComp
  | .structComp => .struct

end Spec

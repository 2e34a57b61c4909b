import Verif.Spec.Abs
import Verif.Model.Helpers
/-
What a mask argument allows, and when a mask argument is acceptable.
-/
namespace GBTL
variable {μ : Type}

/-- Does a matrix mask argument allow writing to `(i, j)`? No mask allows
everything. -/
def MMask.allows (truthy : μ → Bool) (M : MMask μ) (i j : Nat) : Bool :=
  match M with
  | none => true
  | some (k, M) => Spec.allows truthy k (M.get i j)

/-- Does a vector mask argument allow writing to `i`? -/
def VMask.allows (truthy : μ → Bool) (M : VMask μ) (i : Nat) : Bool :=
  match M with
  | none => true
  | some (k, m) => Spec.allows truthy k (m.get i)

/-- A mask argument for an output of shape `m × n`: consistent and of that shape. -/
def MMask.OK (M : MMask μ) (m n : Nat) : Prop :=
  match M with
  | none => True
  | some (_, M) => M.WF ∧ M.nrows = m ∧ M.ncols = n

def VMask.OK (M : VMask μ) (n : Nat) : Prop :=
  match M with
  | none => True
  | some (_, m) => m.WF ∧ m.size = n

/-- An index argument as the specification sees it: an explicit list, or all
indices. -/
def Idx.sel : Idx → Option (List Nat)
  | .list l => some l
  | .all => none

/-- The number of selected indices, when `all` selects `n`. -/
def Idx.len (ix : Idx) (n : Nat) : Nat :=
  match ix with
  | .list l => l.length
  | .all => n

/-- Every listed index is below `n`. -/
def Idx.below (ix : Idx) (n : Nat) : Prop :=
  match ix with
  | .list l => ∀ i ∈ l, i < n
  | .all => True

/-- No index is listed twice. -/
def Idx.nodup (ix : Idx) : Prop :=
  match ix with
  | .list l => l.Nodup
  | .all => True

/-- The listed indices are strictly ascending. -/
def Idx.ascending (ix : Idx) : Prop :=
  match ix with
  | .list l => l.Pairwise (· < ·)
  | .all => True

end GBTL

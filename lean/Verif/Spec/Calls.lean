import Verif.Spec.Frontend
import Verif.Model.Calls
/-
All operations with a matrix (vector) output, each with its arguments other than the
output, the mask, the accumulator and the output control. Used to state properties of
"every operation".
-/
namespace GBTL
open Spec (Outp MaskKind Accum)

/-- An operation writing a matrix. `γ` is the scalar type of the output, `τ` of the
computed result, `ζ` of the accumulated result. (`apply` with a bound scalar is
`apply` with the operator so bound, `applyM1`, `applyM2`.) -/
inductive MCall (γ τ ζ : Type) : Type 1 where
  | mxm {α β : Type} (sr : SR α β τ) (via : τ → τ) (A : Operand α) (B : Operand β)
  | eWiseAdd {α β : Type} (f : EW α β τ) (A : Operand α) (B : Operand β)
  | eWiseMult {α β : Type} (f : EW α β τ) (A : Operand α) (B : Operand β)
  | apply {α : Type} (f : α → τ) (A : Operand α)
  | extract (A : Operand τ) (ri ci : Idx)
  | transpose (A : Operand τ)
  | kronecker {α β : Type} (f : α → β → τ) (A : Operand α) (B : Operand β)
  | assign (keep : γ → ζ) (A : Operand τ) (ri ci : Idx)
  | assignConst (keep : γ → ζ) (x : τ) (ri ci : Idx)

/-- An operation writing a vector. -/
inductive VCall (γ τ ζ : Type) : Type 1 where
  | vxm {α β : Type} (sr : SR α β τ) (u : BVec α) (A : Operand β)
  | mxv {α β : Type} (sr : SR α β τ) (A : Operand α) (u : BVec β)
  | eWiseAdd {α β : Type} (f : EW α β τ) (u : BVec α) (v : BVec β)
  | eWiseMult {α β : Type} (f : EW α β τ) (u : BVec α) (v : BVec β)
  | apply {α : Type} (f : α → τ) (u : BVec α)
  | reduce {α : Type} (r : RedOp α τ) (A : Operand α)
  | extract (u : BVec τ) (ix : Idx)
  | extractCol (A : Operand τ) (ri : Idx) (j : Nat)
  | assign (keep : γ → ζ) (u : BVec τ) (ix : Idx)
  | assignConst (keep : γ → ζ) (x : τ) (ix : Idx)

variable {γ τ ζ μ : Type}

/-- Run the call. -/
def MCall.run (c : MCall γ τ ζ) (o : MOut γ τ ζ μ) : Outcome (Lil γ) :=
  match c with
  | .mxm sr via A B => GBTL.mxm o sr via A B
  | .eWiseAdd f A B => eWiseAddM o f A B
  | .eWiseMult f A B => eWiseMultM o f A B
  | .apply f A => applyM o f A
  | .extract A ri ci => extractM o A ri ci
  | .transpose A => transposeM o A
  | .kronecker f A B => GBTL.kronecker o f A B
  | .assign keep A ri ci => assignM o keep A ri ci
  | .assignConst keep x ri ci => assignConstM o keep x ri ci

def VCall.run (c : VCall γ τ ζ) (o : VOut γ τ ζ μ) : Outcome (BVec γ) :=
  match c with
  | .vxm sr u A => GBTL.vxm o sr u A
  | .mxv sr A u => GBTL.mxv o sr A u
  | .eWiseAdd f u v => eWiseAddV o f u v
  | .eWiseMult f u v => eWiseMultV o f u v
  | .apply f u => applyV o f u
  | .reduce r A => reduceMV o r A
  | .extract u ix => extractV o u ix
  | .extractCol A ri j => extractC o A ri j
  | .assign keep u ix => assignV o keep u ix
  | .assignConst keep x ix => assignConstV o keep x ix

/-- Is it one of the two assignments (which treat unlisted positions apart)? -/
def MCall.isAssign : MCall γ τ ζ → Bool
  | .assign .. => true
  | .assignConst .. => true
  | _ => false

def VCall.isAssign : VCall γ τ ζ → Bool
  | .assign .. => true
  | .assignConst .. => true
  | _ => false

/-- The arguments are consistent containers, and the index lists are of the kind the
code handles: for an output of shape `m × n`, an `assign` has lists without
repetitions, and with `AllIndices` a source that is not larger than the output;
an `assign` of a constant has a strictly ascending column list; the shape of a
Kronecker product fits in `IndexType`. Shapes and index ranges are otherwise
unrestricted. -/
def MCall.Good (c : MCall γ τ ζ) (m n : Nat) : Prop :=
  match c with
  | .mxm _ _ A B => A.WF ∧ B.WF
  | .eWiseAdd _ A B => A.WF ∧ B.WF
  | .eWiseMult _ A B => A.WF ∧ B.WF
  | .apply _ A => A.WF
  | .extract A _ _ => A.WF
  | .transpose A => A.WF
  | .kronecker _ A B => A.WF ∧ B.WF ∧ A.nrows * B.nrows < 2 ^ 64 ∧ A.ncols * B.ncols < 2 ^ 64
  | .assign _ A ri ci => A.WF ∧ ri.nodup ∧ ci.nodup ∧ (ri = .all → A.nrows ≤ m) ∧
      (ci = .all → A.ncols ≤ n)
  | .assignConst _ _ _ ci => ci.ascending

def VCall.Good (c : VCall γ τ ζ) (n : Nat) : Prop :=
  match c with
  | .vxm _ u A => u.WF ∧ A.WF
  | .mxv _ A u => A.WF ∧ u.WF
  | .eWiseAdd _ u v => u.WF ∧ v.WF
  | .eWiseMult _ u v => u.WF ∧ v.WF
  | .apply _ u => u.WF
  | .reduce r A => A.WF ∧ ∀ x y, r.op x y = r.op' (r.first x) y
  | .extract u _ => u.WF
  | .extractCol A _ _ => A.WF
  | .assign _ u ix => u.WF ∧ ix.nodup ∧ (ix = .all → u.size ≤ n)
  | .assignConst _ _ ix => ix.ascending

/-- The shape rules and index ranges of the operation for an output of shape
`m × n`. (For `AllIndices` there is no rule.) -/
def MCall.Accepts (c : MCall γ τ ζ) (m n : Nat) : Prop :=
  match c with
  | .mxm _ _ A B => m = A.nrows ∧ n = B.ncols ∧ A.ncols = B.nrows
  | .eWiseAdd _ A B => m = A.nrows ∧ n = A.ncols ∧ m = B.nrows ∧ n = B.ncols
  | .eWiseMult _ A B => m = A.nrows ∧ n = A.ncols ∧ m = B.nrows ∧ n = B.ncols
  | .apply _ A => m = A.nrows ∧ n = A.ncols
  | .extract A ri ci => ri.len m = m ∧ ci.len n = n ∧ ri.below A.nrows ∧ ci.below A.ncols
  | .transpose A => m = A.ncols ∧ n = A.nrows
  | .kronecker _ A B => m = A.nrows * B.nrows ∧ n = A.ncols * B.ncols
  | .assign _ A ri ci => ri.len A.nrows = A.nrows ∧ ci.len A.ncols = A.ncols ∧ ri.below m ∧ ci.below n
  | .assignConst _ _ ri ci => ri.len m ≤ m ∧ ci.len n ≤ n ∧ ri.below m ∧ ci.below n

def VCall.Accepts (c : VCall γ τ ζ) (n : Nat) : Prop :=
  match c with
  | .vxm _ u A => n = A.ncols ∧ u.size = A.nrows
  | .mxv _ A u => n = A.nrows ∧ u.size = A.ncols
  | .eWiseAdd _ u v => n = u.size ∧ n = v.size
  | .eWiseMult _ u v => n = u.size ∧ n = v.size
  | .apply _ u => n = u.size
  | .reduce _ A => n = A.nrows
  | .extract u ix => ix.len n = n ∧ ix.below u.size
  | .extractCol A ri j => ri.len n = n ∧ j < A.ncols ∧ ri.below A.nrows
  | .assign _ u ix => ix.len u.size = u.size ∧ ix.below n
  | .assignConst _ _ ix => ix.len n ≤ n ∧ ix.below n

/-! ### Programs -/

/-- The matrix behind an operand. -/
def Operand.mat {α : Type} : Operand α → Lil α
  | .plain A => A
  | .tr A => A

/-- The matrices and vectors a call reads. -/
def MCall.mats (c : MCall γ τ ζ) : List (Σ δ : Type, Lil δ) :=
  match c with
  | .mxm _ _ A B => [⟨_, A.mat⟩, ⟨_, B.mat⟩]
  | .eWiseAdd _ A B => [⟨_, A.mat⟩, ⟨_, B.mat⟩]
  | .eWiseMult _ A B => [⟨_, A.mat⟩, ⟨_, B.mat⟩]
  | .apply _ A => [⟨_, A.mat⟩]
  | .extract A _ _ => [⟨_, A.mat⟩]
  | .transpose A => [⟨_, A.mat⟩]
  | .kronecker _ A B => [⟨_, A.mat⟩, ⟨_, B.mat⟩]
  | .assign _ A _ _ => [⟨_, A.mat⟩]
  | .assignConst .. => []

def VCall.mats (c : VCall γ τ ζ) : List (Σ δ : Type, Lil δ) :=
  match c with
  | .vxm _ _ A => [⟨_, A.mat⟩]
  | .mxv _ A _ => [⟨_, A.mat⟩]
  | .reduce _ A => [⟨_, A.mat⟩]
  | .extractCol A _ _ => [⟨_, A.mat⟩]
  | _ => []

def VCall.vecs (c : VCall γ τ ζ) : List (Σ δ : Type, BVec δ) :=
  match c with
  | .vxm _ u _ => [⟨_, u⟩]
  | .mxv _ _ u => [⟨_, u⟩]
  | .eWiseAdd _ u v => [⟨_, u⟩, ⟨_, v⟩]
  | .eWiseMult _ u v => [⟨_, u⟩, ⟨_, v⟩]
  | .apply _ u => [⟨_, u⟩]
  | .extract u _ => [⟨_, u⟩]
  | .assign _ u _ => [⟨_, u⟩]
  | _ => []

/-- The restrictions on index lists (and, for `kronecker`, sizes) of `MCall.Good`. -/
def MCall.Lists (c : MCall γ τ ζ) (m n : Nat) : Prop :=
  match c with
  | .kronecker _ A B => A.nrows * B.nrows < 2 ^ 64 ∧ A.ncols * B.ncols < 2 ^ 64
  | .assign _ A ri ci => ri.nodup ∧ ci.nodup ∧ (ri = .all → A.nrows ≤ m) ∧ (ci = .all → A.ncols ≤ n)
  | .assignConst _ _ _ ci => ci.ascending
  | _ => True

/-- The restrictions on index lists of `VCall.Good`, and the functor condition of
`reduce`. -/
def VCall.Lists (c : VCall γ τ ζ) (n : Nat) : Prop :=
  match c with
  | .reduce r _ => ∀ x y, r.op x y = r.op' (r.first x) y
  | .assign _ u ix => ix.nodup ∧ (ix = .all → u.size ≤ n)
  | .assignConst _ _ ix => ix.ascending
  | _ => True

mutual

/-- A matrix a program can have built: a new one, or the result of a method or an
operation on such matrices and vectors, subject to the restrictions above. Calls
that throw are included: what they leave behind is what they were given. -/
inductive ReachM : {δ : Type} → Lil δ → Prop
  | new {δ : Type} (m n : Nat) : ReachM (Lil.new m n : Lil δ)
  | dense {δ : Type} (keep : δ → Bool) (val : List (List δ)) (A : Lil δ) (hne : val ≠ [])
      (h : Lil.ofDense keep val = .ok A) : ReachM A
  | call {δ : Type} (A : Lil δ) (c : Spec.MatCall δ) (h : ReachM A) : ReachM (A.call c).2
  | build {δ : Type} (A : Lil δ) (dup : δ → δ → δ) (ts : List (Nat × Nat × δ)) (h : ReachM A) :
      ReachM (A.build dup ts).2
  | op {γ τ ζ μ : Type} (c : MCall γ τ ζ) (o : MOut γ τ ζ μ) (C' : Lil γ) (hC : ReachM o.C)
      (hM : ∀ k M, o.M = some (k, M) → ReachM M)
      (hA : ∀ δ (X : Lil δ), (⟨δ, X⟩ : Σ δ : Type, Lil δ) ∈ c.mats → ReachM X)
      (hl : c.Lists o.C.nrows o.C.ncols) (h : c.run o = .done C') : ReachM C'
  | assignCol {γ τ ζ μ : Type} [Inhabited γ] (o : LOut γ τ ζ μ) (keep : γ → ζ) (u : BVec τ) (ri : Idx)
      (j : Nat) (C' : Lil γ) (hC : ReachM o.C) (hm : ∀ k m, o.m = some (k, m) → ReachV m)
      (hu : ReachV u) (hn : ri.nodup) (ha : ri = .all → u.size ≤ o.C.nrows)
      (h : assignCol o keep u ri j = .done C') : ReachM C'
  | assignRow {γ τ ζ μ : Type} [Inhabited γ] (o : LOut γ τ ζ μ) (keep : γ → ζ) (u : BVec τ) (i : Nat)
      (ci : Idx) (C' : Lil γ) (hC : ReachM o.C) (hm : ∀ k m, o.m = some (k, m) → ReachV m)
      (hu : ReachV u) (hn : ci.nodup) (ha : ci = .all → u.size ≤ o.C.ncols)
      (h : assignRow o keep u i ci = .done C') : ReachM C'

/-- A vector a program can have built. (`build` on vectors with a repeated index and
`Vector(count, value)` are left out: their element count is wrong, see C03, C42.) -/
inductive ReachV : {δ : Type} → BVec δ → Prop
  | new {δ : Type} [Inhabited δ] (n : Nat) (v : BVec δ) (h : BVec.new n = .ok v) : ReachV v
  | dense {δ : Type} (xs : List δ) (v : BVec δ) (h : BVec.ofDense xs = .ok v) : ReachV v
  | call {δ : Type} [Inhabited δ] (v : BVec δ) (c : Spec.VecCall δ) (h : ReachV v) : ReachV (v.call c).2
  | build {δ : Type} [Inhabited δ] (v : BVec δ) (dup : δ → δ → δ) (ts : List (Nat × δ)) (h : ReachV v)
      (hd : (ts.map Prod.fst).Nodup) : ReachV (v.build dup ts).2
  | op {γ τ ζ μ : Type} (c : VCall γ τ ζ) (o : VOut γ τ ζ μ) (w' : BVec γ) (hw : ReachV o.w)
      (hm : ∀ k m, o.m = some (k, m) → ReachV m)
      (hA : ∀ δ (X : Lil δ), (⟨δ, X⟩ : Σ δ : Type, Lil δ) ∈ c.mats → ReachM X)
      (hu : ∀ δ (x : BVec δ), (⟨δ, x⟩ : Σ δ : Type, BVec δ) ∈ c.vecs → ReachV x)
      (hl : c.Lists o.w.size) (h : c.run o = .done w') : ReachV w'

end

/-- A matrix is consistent: there is a finite map such that every sequence of method
calls is answered as by that map, `extractTuples` lists exactly that map, each
element once, and `nvals` counts it. -/
def Lil.Consistent {δ : Type} (A : Lil δ) : Prop :=
  ∃ f : Spec.Mat δ,
    (∀ calls, (Spec.runCalls Lil.call A calls).1
      = (Spec.runCalls Spec.AMat.step ⟨A.nrows, A.ncols, f⟩ calls).1) ∧
    (∀ i j x, f i j = some x → i < A.nrows ∧ j < A.ncols) ∧
    (∀ i j x, (i, j, x) ∈ A.extractTuples ↔ f i j = some x) ∧
    A.extractTuples.Pairwise (fun p q => p.1 < q.1 ∨ (p.1 = q.1 ∧ p.2.1 < q.2.1)) ∧
    A.nvals = Spec.Mat.count A.nrows A.ncols f

/-- The same for vectors. -/
def BVec.Consistent {δ : Type} [Inhabited δ] (v : BVec δ) : Prop :=
  ∃ (f : Spec.Vec δ) (ts : List (Nat × δ)),
    (∀ calls, (Spec.runCalls BVec.call v calls).1
      = (Spec.runCalls Spec.AVec.step ⟨v.size, f⟩ calls).1) ∧
    (∀ i x, f i = some x → i < v.size) ∧
    v.extractTuples = .ok ts ∧ (∀ i x, (i, x) ∈ ts ↔ f i = some x) ∧
    ts.Pairwise (fun p q => p.1 < q.1) ∧ v.nvals = Spec.Vec.count v.size f

end GBTL

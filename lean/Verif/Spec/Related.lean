import Verif.Spec.Frontend
/-
Two calls of the same operation whose arguments are related element by element.
-/
namespace GBTL
open Spec (Outp MaskKind Accum)

variable {α α' β β' γ γ' τ τ' ζ ζ' μ μ' : Type}

/-- Both positions are empty, or both hold an element and the elements are related. -/
def RelO (R : α → α' → Prop) : Option α → Option α' → Prop
  | none, none => True
  | some a, some b => R a b
  | _, _ => False

/-- Functions that take related arguments to related results. -/
def Rel1 (R : α → α' → Prop) (S : τ → τ' → Prop) (f : α → τ) (f' : α' → τ') : Prop := ∀ a a', R a a' → S (f a) (f' a')
def Rel2 (R : α → α' → Prop) (Q : β → β' → Prop) (S : τ → τ' → Prop) (f : α → β → τ) (f' : α' → β' → τ') : Prop :=
  ∀ a a' b b', R a a' → Q b b' → S (f a b) (f' a' b')

/-- Containers of the same shape, with elements at the same positions, that are related. -/
structure Lil.Related (R : α → α' → Prop) (A : Lil α) (A' : Lil α') : Prop where
  wf : A.WF
  wf' : A'.WF
  nrows : A'.nrows = A.nrows
  ncols : A'.ncols = A.ncols
  get : ∀ i j, RelO R (A.get i j) (A'.get i j)

structure BVec.Related (R : α → α' → Prop) (u : BVec α) (u' : BVec α') : Prop where
  wf : u.WF
  wf' : u'.WF
  size : u'.size = u.size
  get : ∀ i, RelO R (u.get i) (u'.get i)

inductive Operand.Related (R : α → α' → Prop) : Operand α → Operand α' → Prop
  | plain {A : Lil α} {A' : Lil α'} : A.Related R A' → Operand.Related R (.plain A) (.plain A')
  | tr {A : Lil α} {A' : Lil α'} : A.Related R A' → Operand.Related R (.tr A) (.tr A')

inductive AccRelated (C : γ → γ' → Prop) (T : τ → τ' → Prop) (Z : ζ → ζ' → Prop) : Accum γ τ ζ → Accum γ' τ' ζ' → Prop
  | none {f : τ → ζ} {f' : τ' → ζ'} : Rel1 T Z f f' → AccRelated C T Z (.none f) (.none f')
  | some {f : γ → τ → ζ} {f' : γ' → τ' → ζ'} {c c' t t'} : Rel2 C T Z f f' → Rel1 C Z c c' → Rel1 T Z t t' →
      AccRelated C T Z (.some f c t) (.some f' c' t')

/-- Outputs that are related, with masks that allow writing to the same positions, related accumulators and conversions, and the same
output control. -/
structure MOut.Related (C : γ → γ' → Prop) (T : τ → τ' → Prop) (Z : ζ → ζ' → Prop) (o : MOut γ τ ζ μ) (o' : MOut γ' τ' ζ' μ') : Prop where
  out : o.C.Related C o'.C
  mask : o.M.WF
  mask' : o'.M.WF
  fits : o.M.Fits o.C.nrows o.C.ncols
  fits' : o'.M.Fits o'.C.nrows o'.C.ncols
  allows : ∀ i j, o'.M.allows o'.truthy i j = o.M.allows o.truthy i j
  acc : AccRelated C T Z o.acc o'.acc
  cast : Rel1 Z C o.castZ o'.castZ
  outp : o'.outp = o.outp

structure VOut.Related (C : γ → γ' → Prop) (T : τ → τ' → Prop) (Z : ζ → ζ' → Prop) (o : VOut γ τ ζ μ) (o' : VOut γ' τ' ζ' μ') : Prop where
  out : o.w.Related C o'.w
  mask : o.m.WF
  mask' : o'.m.WF
  fits : o.m.Fits o.w.size
  fits' : o'.m.Fits o'.w.size
  allows : ∀ i, o'.m.allows o'.truthy i = o.m.allows o.truthy i
  acc : AccRelated C T Z o.acc o'.acc
  cast : Rel1 Z C o.castZ o'.castZ
  outp : o'.outp = o.outp

/-- The operators of two semiring arguments. -/
structure SR.Related (R : α → α' → Prop) (Q : β → β' → Prop) (T : τ → τ' → Prop) (s : SR α β τ) (s' : SR α' β' τ') : Prop where
  add : Rel2 T T T s.add s'.add
  mult : Rel2 R Q T s.mult s'.mult
  swap : Rel2 Q R T s.multSwap s'.multSwap

/-- The operator and conversions of two element-wise calls. -/
structure EW.Related (R : α → α' → Prop) (Q : β → β' → Prop) (T : τ → τ' → Prop) (f : EW α β τ) (f' : EW α' β' τ') : Prop where
  op : Rel2 R Q T f.op f'.op
  c1 : Rel1 R T f.c1 f'.c1
  c2 : Rel1 Q T f.c2 f'.c2
  castBA : Rel1 Q R f.castBA f'.castBA
  opA : Rel2 R R T f.opA f'.opA
  c2A : Rel1 R T f.c2A f'.c2A

end GBTL

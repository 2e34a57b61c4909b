import Verif.Spec.Program
/-
What is asked of a program (`Verif/Spec/Program.lean`) that is to run on the
`optimized_sequential` backend.
-/
namespace GBTL
open Spec (Outp MaskKind Accum)

/-- The conversions that the compiler inserts in the kernels of the
`optimized_sequential` backend and not in those of the `sequential` backend: `castT`
converts a product to the output's type, `accC` is the accumulator called with such a
product, `castBA` converts `B`'s scalar type to `A`'s and `multA` is the multiply called
on two values of `A`'s type. -/
structure OptConv (α β γ τ ζ : Type) where
  multA : α → α → τ
  castBA : β → α
  castT : τ → γ
  accC : γ → γ → ζ

/-- These conversions for every call of `mxm` with output `x` and operands `a` and `b`. -/
structure Convs (tm : Nat → Type) where
  conv : ∀ {τ ζ : Type} (x a b : Nat), SR (tm a) (tm b) τ → Accum (tm x) τ ζ → OptConv (tm a) (tm b) (tm x) τ ζ

variable {tm tv : Nat → Type} {τ ζ α ρ : Type}

/-- The mask stores nothing. -/
def AStore.maskEmpty (a : AStore tm tv) (mask : MaskArg tm) : Prop :=
  ∃ q, mask = some q ∧ ∀ i j, (a.mat q.2.1).map i j = none

/-- What the `optimized_sequential` backend asks of a call of `mxm`. `cast` to `multA`:
the conversions lose nothing that the other backend keeps. `stale`: without mask and
accumulator, for `A * transpose(B)`, the rows of the output are empty where those of `A`
are, or `B` is the output. -/
structure MxmOptHandled (K : Convs tm) (a : AStore tm tv) (x : Nat) (mask : MaskArg tm) (acc : Accum (tm x) τ ζ)
    (castZ : ζ → tm x) (outp : Outp) (A B : Ref) (sr : SR (tm A.x) (tm B.x) τ) : Prop where
  cast : ∀ c, acc = .none c → ∀ t, castZ (c t) = (K.conv x A.x B.x sr acc).castT t
  old : ∀ op cC cT, acc = .some op cC cT → mask = none → ∀ c, castZ (cC c) = c
  new : ∀ op cC cT, acc = .some op cC cT → mask = none → ∀ t, castZ (cT t) = (K.conv x A.x B.x sr acc).castT t
  both : ∀ op cC cT, acc = .some op cC cT → mask = none → ∀ c t,
    castZ ((K.conv x A.x B.x sr acc).accC c ((K.conv x A.x B.x sr acc).castT t)) = castZ (op c t)
  skip : ∀ op cC cT, acc = .some op cC cT → outp = .replace → a.maskEmpty mask →
    (∀ i j, (a.mat A.x).map i j = none) ∨ (∀ i j, (a.mat B.x).map i j = none) → ∀ c, castZ (cC c) = c
  multA : A.tr → B.tr → ∀ p q,
    (K.conv x A.x B.x sr acc).multA ((K.conv x A.x B.x sr acc).castBA q) p = sr.multSwap q p
  stale : mask = none → (∃ c, acc = .none c) → A.tr = false → B.tr = true → B.x = x ∨
    ∀ i, (∀ j, (a.mat A.x).map i j = none) → ∀ j, (a.mat x).map i j = none

/-- The same for every call; only `mxm` differs. -/
def Stmt.optHandled (K : Convs tm) (a : AStore tm tv) : Stmt tm tv α → Prop
  | .opM x mask acc castZ outp (.mxm A B sr _) => MxmOptHandled K a x mask acc castZ outp A B sr
  | _ => True

/-- The same for every call the program makes. -/
def Program.optHandled (K : Convs tm) (a : AStore tm tv) : Program tm tv ρ → Prop
  | .ret _ => True
  | .step s k => s.optHandled K a ∧ (k (s.spec a).1).optHandled K (s.spec a).2

/-! ### Programs with one scalar type -/

/-- All types of a call of `mxm` are `T`, so that nothing is converted. -/
inductive MxmOneType {T : Type} : {τ ζ : Type} → Accum T τ ζ → (ζ → T) → SR T T τ → Prop where
  | noAccum (sr : SR T T T) (h : sr.multSwap = sr.mult) : MxmOneType (.none id) id sr
  | accum (op : T → T → T) (sr : SR T T T) (h : sr.multSwap = sr.mult) : MxmOneType (.some op id id) id sr

/-- Nothing is converted between `T` and itself. -/
structure Convs.Trivial {T : Type} (K : Convs fun _ => T) : Prop where
  noAccum : ∀ x a b (sr : SR T T T), ∃ f, K.conv x a b sr (.none (id : T → T)) = ⟨sr.mult, id, id, f⟩
  accum : ∀ x a b (sr : SR T T T) (op : T → T → T), K.conv x a b sr (.some op id id) = ⟨sr.mult, id, id, op⟩

/-- A call in a program with one scalar type: `mxm` is called with operators of that type,
and without mask and accumulator it is not called for `A * transpose(B)`, or the rows of
the output are empty where those of `A` are, or `B` is the output. -/
def Stmt.oneType {T : Type} (a : AStore (fun _ => T) tv) : Stmt (fun _ => T) tv α → Prop
  | .opM x mask acc castZ _ (.mxm A B sr _) => MxmOneType acc castZ sr ∧
    (mask = none → (∃ c, acc = .none c) → A.tr = false → B.tr = true → B.x = x ∨
      ∀ i, (∀ j, (a.mat A.x).map i j = none) → ∀ j, (a.mat x).map i j = none)
  | _ => True

def Program.oneType {T : Type} (a : AStore (fun _ => T) tv) : Program (fun _ => T) tv ρ → Prop
  | .ret _ => True
  | .step s k => s.oneType a ∧ (k (s.spec a).1).oneType (s.spec a).2

end GBTL

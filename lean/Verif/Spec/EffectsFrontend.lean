import Verif.Model.Effects
import Verif.Spec.Frontend
/-
What the theorems about operators with effects refer to besides `Verif.Spec.Effects`.
-/
namespace GBTL
open Spec (Outp MaskKind Accum Op EAccum Vec vecCalls matCalls resultAt callAll stored storedMat accum)

variable {ω χ X α β γ τ ζ μ : Type}

instance haltDecEq [DecidableEq X] [DecidableEq α] : DecidableEq (Except (Halt X) α) := fun a b =>
  match a, b with
  | .ok x, .ok y => if h : x = y then isTrue (by rw [h]) else isFalse (by intro h'; cases h'; exact h rfl)
  | .error x, .error y => if h : x = y then isTrue (by rw [h]) else isFalse (by intro h'; cases h'; exact h rfl)
  | .ok _, .error _ => isFalse (by intro h; cases h)
  | .error _, .ok _ => isFalse (by intro h; cases h)

/-- Output, mask and the arguments that control the write, for a result that is
accumulated already; `VOut.Holds` then says what the masked write leaves. -/
def EVOut.at (o : EVOut ω X γ τ ζ μ) (w : BVec γ) : VOut γ ζ ζ μ :=
  { w := w, m := o.m, truthy := o.truthy, acc := .none id, castZ := o.castZ, outp := o.outp }

/-- The same for matrices. -/
def EMOut.at (o : EMOut ω X γ τ ζ μ) (C : Lil γ) : MOut γ ζ ζ μ :=
  { C := C, M := o.M, truthy := o.truthy, acc := .none id, castZ := o.castZ, outp := o.outp }

/-- The arguments of the call with functions for operators. -/
def EVOut.with (o : EVOut ω X γ τ ζ μ) (w : BVec γ) (acc : Accum γ τ ζ) : VOut γ τ ζ μ :=
  { w := w, m := o.m, truthy := o.truthy, acc := acc, castZ := o.castZ, outp := o.outp }

/-- The same for matrices. -/
def EMOut.with (o : EMOut ω X γ τ ζ μ) (C : Lil γ) (acc : Accum γ τ ζ) : MOut γ τ ζ μ :=
  { C := C, M := o.M, truthy := o.truthy, acc := acc, castZ := o.castZ, outp := o.outp }

/-- The output argument of a row or column assignment, for an output container and an
accumulator without effects. -/
def EVOut.line (o : EVOut ω X γ τ ζ μ) (C : Lil γ) (acc : Accum γ τ ζ) : LOut γ τ ζ μ :=
  { C := C, m := o.m, truthy := o.truthy, acc := acc, castZ := o.castZ, outp := o.outp }

/-- A call with effects ended as the call with functions does: it returned, with the same
output, or threw the same exception, with the same output. -/
def EndsAs (r : Except (Halt X) Unit × (ω × χ)) : Outcome χ → Prop
  | .done c => ∃ w, r = (.ok (), (w, c))
  | .threw e c => ∃ w, r = (.error (.lib e), (w, c))
  | .midway e => ∃ s, r = (.error (.lib e), s)
  | .ub => ∃ s, r = (.error (.lib .ub), s)

/-- If the call ends with an exception, of the library or of an operator, the output
container is as it was. -/
def AllOrNothing (x : Act ω χ X Unit) : Prop :=
  ∀ w c e w' c', x (w, c) = (.error e, (w', c')) → c' = c

/-- Every operator of a semiring argument always returns the value of the function. -/
structure ESR.Returns (s : ESR ω X α β τ) (f : SR α β τ) : Prop where
  add : ∀ x y, Spec.Returns (s.add x y) (f.add x y)
  mult : ∀ x y, Spec.Returns (s.mult x y) (f.mult x y)
  multSwap : ∀ x y, Spec.Returns (s.multSwap x y) (f.multSwap x y)

/-- The same for the operator of an element-wise operation; the conversions are functions
already. -/
structure EEW.Returns (s : EEW ω X α β τ) (f : EW α β τ) : Prop where
  op : ∀ x y, Spec.Returns (s.op x y) (f.op x y)
  opA : ∀ x y, Spec.Returns (s.opA x y) (f.opA x y)
  c1 : s.c1 = f.c1
  c2 : s.c2 = f.c2
  castBA : s.castBA = f.castBA
  c2A : s.c2A = f.c2A

/-- The same for the operator of a reduction. -/
structure ERedOp.Returns (s : ERedOp ω X α τ) (f : RedOp α τ) : Prop where
  op : ∀ x y, Spec.Returns (s.op x y) (f.op x y)
  op' : ∀ x y, Spec.Returns (s.op' x y) (f.op' x y)
  opT : ∀ x y, Spec.Returns (s.opT x y) (f.opT x y)
  first : s.first = f.first

/-- The call `x` of a vector operation makes the calls of `t` in ascending order, then
those of the accumulator. If one throws, it is the last one made, the exception reaches the
caller and the output is as before; otherwise the output holds their results. -/
def EVOut.Makes (o : EVOut ω X γ τ ζ μ) (t : Vec (Op ω X τ)) (w : ω) (c : BVec γ)
    (x : Act ω (BVec γ) X Unit) : Prop :=
  match vecCalls c.size o.acc c.get t w with
  | (.error e, w') => x (w, c) = (.error (.op e), (w', c))
  | (.ok zs, w') => ∃ c', x (w, c) = (.ok (), (w', c')) ∧ (o.at c).Holds (resultAt zs) c'

/-- The same for a matrix operation, which makes the calls `T` in the order of the list. -/
def EMOut.Makes (o : EMOut ω X γ τ ζ μ) (T : List ((Nat × Nat) × Op ω X τ)) (w : ω) (C : Lil γ)
    (x : Act ω (Lil γ) X Unit) : Prop :=
  match matCalls C.nrows C.ncols o.acc C.get T w with
  | (.error e, w') => x (w, C) = (.error (.op e), (w', C))
  | (.ok zs, w') => ∃ C', x (w, C) = (.ok (), (w', C')) ∧
      (o.at C).Holds (fun i j => resultAt zs (i, j)) C'

/-- The call `x` of a vector operation makes the calls of `t`, which end in the result before
accumulation, then those of the accumulator in ascending order. If one throws, it is the last
one made, the exception reaches the caller and the output is as before. -/
def EVOut.MakesThen (o : EVOut ω X γ τ ζ μ) (t : Op ω X (Vec τ)) (w : ω) (c : BVec γ)
    (x : Act ω (BVec γ) X Unit) : Prop :=
  match t.andThen (fun t => callAll (stored c.size fun i => accum o.acc.calls (c.get i) (t i))) w with
  | (.error e, w') => x (w, c) = (.error (.op e), (w', c))
  | (.ok zs, w') => ∃ c', x (w, c) = (.ok (), (w', c')) ∧ (o.at c).Holds (resultAt zs) c'

/-- The same for a matrix operation. -/
def EMOut.MakesThen (o : EMOut ω X γ τ ζ μ) (T : Op ω X (Nat × Nat → Option τ)) (w : ω) (C : Lil γ)
    (x : Act ω (Lil γ) X Unit) : Prop :=
  match T.andThen (fun T => callAll (storedMat C.nrows C.ncols fun i j =>
      accum o.acc.calls (C.get i j) (T (i, j)))) w with
  | (.error e, w') => x (w, C) = (.error (.op e), (w', C))
  | (.ok zs, w') => ∃ C', x (w, C) = (.ok (), (w', C')) ∧
      (o.at C).Holds (fun i j => resultAt zs (i, j)) C'

/-- The call `x` of a column assignment makes the accumulator's calls for column `j` of the
output and the new elements `t`, in ascending order. If one throws, it is the last one made,
the exception reaches the caller and the output is as before. (The accumulator given to
`line` has no part in `HoldsCol`.) -/
def EVOut.MakesCol (o : EVOut ω X γ τ ζ μ) (op : γ → τ → Op ω X ζ) (cC : γ → ζ) (cT : τ → ζ) (j : Nat)
    (t : Vec τ) (w : ω) (C : Lil γ) (x : Act ω (Lil γ) X Unit) : Prop :=
  match callAll (stored C.nrows fun i => accum (EAccum.some op cC cT).calls (C.get i j) (t i)) w with
  | (.error e, w') => x (w, C) = (.error (.op e), (w', C))
  | (.ok zs, w') => ∃ C', x (w, C) = (.ok (), (w', C')) ∧
      (o.line C (.none cT)).HoldsCol j (resultAt zs) C'

/-- The same for row `i`. -/
def EVOut.MakesRow (o : EVOut ω X γ τ ζ μ) (op : γ → τ → Op ω X ζ) (cC : γ → ζ) (cT : τ → ζ) (i : Nat)
    (t : Vec τ) (w : ω) (C : Lil γ) (x : Act ω (Lil γ) X Unit) : Prop :=
  match callAll (stored C.ncols fun j => accum (EAccum.some op cC cT).calls (C.get i j) (t j)) w with
  | (.error e, w') => x (w, C) = (.error (.op e), (w', C))
  | (.ok zs, w') => ∃ C', x (w, C) = (.ok (), (w', C')) ∧
      (o.line C (.none cT)).HoldsRow i (resultAt zs) C'

/-- The end of a reduction to a scalar: the accumulator, if there is one, takes the old
value and the new one. -/
def scalarEnd (acc : EAccum ω X γ τ ζ) (val : γ) (t : τ) : Op ω X ζ :=
  match acc with
  | .none cast => .ret (cast t)
  | .some op _ _ => op val t

/-- The call `x` of a reduction to a scalar makes the calls of `f`. If one throws, the
exception reaches the caller and the scalar is as before; otherwise it is the result. -/
def MakesScalar (castZ : ζ → γ) (f : Op ω X ζ) (w : ω) (val : γ) (x : Act ω γ X Unit) : Prop :=
  match f w with
  | (.error e, w') => x (w, val) = (.error (.op e), (w', val))
  | (.ok z, w') => x (w, val) = (.ok (), (w', castZ z))

end GBTL

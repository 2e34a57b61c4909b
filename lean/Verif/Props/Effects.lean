import Verif.Spec.EffectsFrontend
import Verif.Lemmas.EffectsFrontend
import Verif.Lemmas.EffectsSum
import Verif.Lemmas.EffectsState
import Verif.Props.Products
/-
C96: operators that have effects or throw.
-/
namespace GBTL
open Spec (Outp MaskKind Accum Op EAccum Vec Returns ReturnsOrThrows vecCalls matCalls resultAt
  stored storedMat storedCols sumCalls reduceCalls callAll foldAll)
open Act (call lib output store)

variable {ω χ X α β γ τ ζ μ : Type}

/-! ### Operators for the examples -/

/-- An operator that adds and throws as soon as the result is above 9; the state counts the
calls. -/
def addUpTo9 (x y : Nat) : Op Nat String Nat := fun n =>
  if x + y ≤ 9 then (.ok (x + y), n + 1) else (.error "too big", n + 1)

/-- The same for products. -/
def mulUpTo9 (x y : Nat) : Op Nat String Nat := fun n =>
  if x * y ≤ 9 then (.ok (x * y), n + 1) else (.error "too big", n + 1)

/-- An operator that adds and writes down its arguments. -/
def addLogged (x y : Nat) : Op (List (Nat × Nat)) String Nat := fun l => (.ok (x + y), l ++ [(x, y)])

/-- The same for products. -/
def mulLogged (x y : Nat) : Op (List (Nat × Nat)) String Nat := fun l => (.ok (x * y), l ++ [(x, y)])

theorem addLogged_returns (x y : Nat) : Returns (addLogged x y) (x + y) := fun _ => ⟨_, rfl⟩
theorem mulLogged_returns (x y : Nat) : Returns (mulLogged x y) (x * y) := fun _ => ⟨_, rfl⟩

/-- The arguments of `Ex.oM` and `Ex.oV` but for the output, with the operator `f` to accumulate. -/
def effM (f : Nat → Nat → Op ω X Nat) : EMOut ω X Nat Nat Nat Nat :=
  { M := some (.comp, Ex.B), truthy := fun x => x ≠ 0, acc := .some f id id, castZ := id, outp := .replace }

def effV (f : Nat → Nat → Op ω X Nat) : EVOut ω X Nat Nat Nat Nat :=
  { m := none, truthy := fun x => x ≠ 0, acc := .some f id id, castZ := id, outp := .merge }

def effEW (f : Nat → Nat → Op ω X Nat) : EEW ω X Nat Nat Nat := ⟨f, id, id, id, f, id⟩

/-! ### The output after an exception -/

/-- `mxm`: if an operator throws, `C` is as before. -/
theorem C96_mxm_unchanged (o : EMOut ω X γ τ ζ μ) (sr : ESR ω X α β τ) (via : τ → τ) (A : Operand α) (B : Operand β) :
    AllOrNothing (mxmE o sr via A B) := by
  refine allOrNothing (EMOut.op_strong fun C => ?_)
  cases A <;> cases B
  · exact mxmABE_keeps C _ _ _ _
  · exact mxmABTE_keeps C _ _ _ _
  · exact mxmATBE_keeps C _ _ _ _
  · exact mxmATBTE_keeps C _ _ _ _ _

/-- `vxm`. -/
theorem C96_vxm_unchanged (o : EVOut ω X γ τ ζ μ) (sr : ESR ω X α β τ) (u : BVec α) (A : Operand β) :
    AllOrNothing (vxmE o sr u A) := by
  refine allOrNothing (EVOut.op_strong fun c => ?_)
  cases A
  · exact vxmAE_keeps _ _ _ _
  · exact vxmATE_keeps c _ _ _ _

/-- `mxv`. -/
theorem C96_mxv_unchanged (o : EVOut ω X γ τ ζ μ) (sr : ESR ω X α β τ) (A : Operand α) (u : BVec β) :
    AllOrNothing (mxvE o sr A u) := by
  refine allOrNothing (EVOut.op_strong fun c => ?_)
  cases A
  · exact mxvAE_keeps c _ _ _ _
  · exact vxmAE_keeps _ _ _ _

/-- `eWiseAdd` on vectors. -/
theorem C96_eWiseAddV_unchanged (o : EVOut ω X γ τ ζ μ) (f : EEW ω X α β τ) (u : BVec α) (v : BVec β) :
    AllOrNothing (eWiseAddVE o f u v) := by
  refine allOrNothing (EVOut.op_strong fun c => ?_)
  exact ewiseAddVecE_keeps _ _ _ _ _

/-- `eWiseAdd` on matrices. -/
theorem C96_eWiseAddM_unchanged (o : EMOut ω X γ τ ζ μ) (f : EEW ω X α β τ) (A : Operand α) (B : Operand β) :
    AllOrNothing (eWiseAddME o f A B) := by
  refine allOrNothing (EMOut.op_strong fun C => ?_)
  cases A <;> cases B
  · exact ewiseAddMatE_keeps _ _ _ _ _
  · exact .bind (.lib _) fun _ => ewiseAddMatE_keeps _ _ _ _ _
  · exact .bind (.lib _) fun _ => ewiseAddMatE_keeps _ _ _ _ _
  · exact ewiseAddATBTE_keeps _ _ _ _ _

/-- `eWiseMult` on vectors. -/
theorem C96_eWiseMultV_unchanged (o : EVOut ω X γ τ ζ μ) (f : EEW ω X α β τ) (u : BVec α) (v : BVec β) :
    AllOrNothing (eWiseMultVE o f u v) := by
  refine allOrNothing (EVOut.op_strong fun c => ?_)
  exact ewiseMultVecE_keeps _ _ _

/-- `eWiseMult` on matrices. -/
theorem C96_eWiseMultM_unchanged (o : EMOut ω X γ τ ζ μ) (f : EEW ω X α β τ) (A : Operand α) (B : Operand β) :
    AllOrNothing (eWiseMultME o f A B) := by
  refine allOrNothing (EMOut.op_strong fun C => ?_)
  cases A <;> cases B
  · exact ewiseMultMatE_keeps _ _ _
  · exact .bind (.lib _) fun _ => ewiseMultMatE_keeps _ _ _
  · exact .bind (.lib _) fun _ => ewiseMultMatE_keeps _ _ _
  · exact ewiseMultATBTE_keeps _ _ _

/-- `apply` on a vector. -/
theorem C96_applyV_unchanged (o : EVOut ω X γ τ ζ μ) (f : α → Op ω X τ) (u : BVec α) :
    AllOrNothing (applyVE o f u) := by
  refine allOrNothing (EVOut.op_strong fun c => ?_)
  exact applyVecE_keeps _ _

/-- `apply` on a matrix. -/
theorem C96_applyM_unchanged (o : EMOut ω X γ τ ζ μ) (f : α → Op ω X τ) (A : Operand α) :
    AllOrNothing (applyME o f A) := by
  refine allOrNothing (EMOut.op_strong fun C => ?_)
  cases A
  · exact applyMatE_keeps _ _
  · exact applyMatTE_keeps _ _

/-- `reduce` of a matrix to a vector. -/
theorem C96_reduceMV_unchanged (o : EVOut ω X γ τ ζ μ) (r : ERedOp ω X α τ) (A : Operand α) :
    AllOrNothing (reduceMVE o r A) := by
  refine allOrNothing (EVOut.op_strong fun c => ?_)
  cases A
  · exact reduceRowsE_keeps _ _ _ _
  · exact reduceColsE_keeps _ _ _

/-- `reduce` of a vector to a scalar. -/
theorem C96_reduceVS_unchanged (castZ : ζ → γ) (acc : EAccum ω X γ τ ζ) (r : ERedOp ω X α τ) (e : τ)
    (u : BVec α) :
    AllOrNothing (reduceVSE castZ acc r e u) := by
  refine allOrNothing (.bind (reduceVecE_keeps _ _ _ _ _) fun t => .bind .output fun v => ?_)
  cases acc with
  | none cast => exact .bind (.pure _) fun z => .store _
  | some op cC cT => exact .bind (.call _) fun z => .store _

/-- `reduce` of a matrix to a scalar. -/
theorem C96_reduceMS_unchanged (castZ : ζ → γ) (acc : EAccum ω X γ τ ζ) (r : ERedOp ω X α τ) (e : τ)
    (A : Lil α) :
    AllOrNothing (reduceMSE castZ acc r e A) := by
  refine allOrNothing (.bind (reduceMatE_keeps _ _ _ _ _ _) fun t => .bind .output fun v => ?_)
  cases acc with
  | none cast => exact .bind (.pure _) fun z => .store _
  | some op cC cT => exact .bind (.call _) fun z => .store _

/-- `kronecker`. -/
theorem C96_kronecker_unchanged (o : EMOut ω X γ τ ζ μ) (f : α → β → Op ω X τ) (A : Operand α) (B : Operand β) :
    AllOrNothing (kroneckerE o f A B) := by
  refine allOrNothing (EMOut.op_strong fun C => ?_)
  cases A <;> cases B
  · exact kronABE_keeps C _ _ _
  · exact kronABTE_keeps C _ _ _
  · exact kronATBE_keeps C _ _ _
  · exact kronATBTE_keeps C _ _ _

/-- `extract` of a vector; the only operator is the accumulator. -/
theorem C96_extractV_unchanged (o : EVOut ω X γ α ζ μ) (u : BVec α) (ix : Idx) :
    AllOrNothing (extractVE o u ix) := by
  refine allOrNothing (EVOut.op_strong fun c => ?_)
  exact .lib _

/-- `extract` of a matrix. -/
theorem C96_extractM_unchanged (o : EMOut ω X γ α ζ μ) (A : Operand α) (ri ci : Idx) :
    AllOrNothing (extractME o A ri ci) := by
  refine allOrNothing (EMOut.op_strong fun C => ?_)
  exact .lib _

/-- `transpose`. -/
theorem C96_transpose_unchanged (o : EMOut ω X γ α ζ μ) (A : Operand α) :
    AllOrNothing (transposeME o A) := by
  refine allOrNothing (EMOut.op_strong fun C => ?_)
  exact .lib _

/-- `assign` of a vector. -/
theorem C96_assignV_unchanged (o : EVOut ω X γ α ζ μ) (keep : γ → ζ) (u : BVec α) (ix : Idx) :
    AllOrNothing (assignVE o keep u ix) := by
  exact allOrNothing (EVOut.opStencil_strong fun c => .lib _)

/-- `assign` of a matrix. -/
theorem C96_assignM_unchanged (o : EMOut ω X γ α ζ μ) (keep : γ → ζ) (A : Operand α) (ri ci : Idx) :
    AllOrNothing (assignME o keep A ri ci) := by
  exact allOrNothing (EMOut.opStencil_strong fun C => .lib _)

/-- `Vector::build`: if `dup` throws, the vector is as before. -/
theorem C96_vecBuild_unchanged [Inhabited α] (dup : α → α → Op ω X α) (ts : List (Nat × α)) :
    AllOrNothing (vecBuildE dup ts) := by
  exact allOrNothing (.bind .output fun v => .bind (vecBuildLoopE_keeps _ _ _ _ _) fun r =>
    .bind .output fun v => .store _)

/-- The full claim is that every call that takes an operator leaves its output as it was if
an operator throws. It holds of the operations of the `sequential` backend and of
`Vector::build`. Missing: `Matrix::build` and `mxm` of the `optimized_sequential` backend, for
which it is wrong. -/
theorem C96_output_unchanged_partial (oM : EMOut ω X γ τ ζ μ) (oV : EVOut ω X γ τ ζ μ)
    (sr : ESR ω X α β τ) (via : τ → τ) (ew : EEW ω X α β τ) (un : α → Op ω X τ) (red : ERedOp ω X α τ)
    (kr : α → β → Op ω X τ) (castZ : ζ → γ) (acc : EAccum ω X γ τ ζ) (e : τ)
    (A : Operand α) (B : Operand β) (M : Lil α) (u : BVec α) (v : BVec β) :
    AllOrNothing (mxmE oM sr via A B) ∧ AllOrNothing (vxmE oV sr u B) ∧ AllOrNothing (mxvE oV sr A v) ∧
    AllOrNothing (eWiseAddVE oV ew u v) ∧ AllOrNothing (eWiseAddME oM ew A B) ∧
    AllOrNothing (eWiseMultVE oV ew u v) ∧ AllOrNothing (eWiseMultME oM ew A B) ∧
    AllOrNothing (applyVE oV un u) ∧ AllOrNothing (applyME oM un A) ∧
    AllOrNothing (reduceMVE oV red A) ∧ AllOrNothing (reduceVSE castZ acc red e u) ∧
    AllOrNothing (reduceMSE castZ acc red e M) ∧ AllOrNothing (kroneckerE oM kr A B) :=
  ⟨C96_mxm_unchanged _ _ _ _ _, C96_vxm_unchanged _ _ _ _, C96_mxv_unchanged _ _ _ _, C96_eWiseAddV_unchanged _ _ _ _,
    C96_eWiseAddM_unchanged _ _ _ _, C96_eWiseMultV_unchanged _ _ _ _, C96_eWiseMultM_unchanged _ _ _ _,
    C96_applyV_unchanged _ _ _, C96_applyM_unchanged _ _ _, C96_reduceMV_unchanged _ _ _,
    C96_reduceVS_unchanged _ _ _ _ _, C96_reduceMS_unchanged _ _ _ _ _, C96_kronecker_unchanged _ _ _ _⟩

/-- Operators that throw, in the middle of the work. -/
example : mxmE (effM addUpTo9) ⟨addUpTo9, mulUpTo9, fun y x => mulUpTo9 x y⟩ id (.plain Ex.A) (.plain Ex.B)
      (0, Ex.A) = (.error (.op "too big"), (2, Ex.A)) ∧
    eWiseAddME (effM addUpTo9) (effEW addUpTo9) (.plain Ex.B) (.plain Ex.B) (0, Ex.A) =
      (.error (.op "too big"), (1, Ex.A)) ∧
    applyVE (effV addUpTo9) (mulUpTo9 4) Ex.u (0, Ex.u) = (.error (.op "too big"), (1, Ex.u)) ∧
    vecBuildE addUpTo9 [(0, 5), (1, 2), (1, 3), (0, 7)] (0, Ex.u) = (.error (.op "too big"), (2, Ex.u)) := by
  decide +kernel

/-! ### Operators that return -/

/-- `mxm`: with operators that always return, whatever else they do, the call ends as the
functional one that C13 is about. -/
theorem C96_mxm_as_function {o : EMOut ω X γ τ ζ μ} {f : Accum γ τ ζ} (hf : o.acc.Returns f)
    {sr : ESR ω X α β τ} {g : SR α β τ} (hs : sr.Returns g) (via : τ → τ) (A : Operand α)
    (B : Operand β) (C : Lil γ) (w : ω) :
    EndsAs (mxmE o sr via A B (w, C))
      (mxm (o.with C f) g via A B) := by
  refine EMOut.op_endsAs hf ?_ w
  cases A <;> cases B
  · exact mxmABE_agrees C hs.add hs.mult _ _
  · exact mxmABTE_agrees C hs.add hs.mult _ _
  · exact mxmATBE_agrees C hs.add hs.mult _ _
  · exact mxmATBTE_agrees C hs.add hs.multSwap _ _ _

/-- `vxm`. -/
theorem C96_vxm_as_function {o : EVOut ω X γ τ ζ μ} {f : Accum γ τ ζ} (hf : o.acc.Returns f)
    {sr : ESR ω X α β τ} {g : SR α β τ} (hs : sr.Returns g) (u : BVec α) (A : Operand β)
    (c : BVec γ) (w : ω) :
    EndsAs (vxmE o sr u A (w, c))
      (vxm (o.with c f) g u A) := by
  refine EVOut.op_endsAs hf ?_ w
  cases A
  · exact vxmAE_agrees hs.add hs.mult _ _
  · exact vxmATE_agrees c hs.add hs.mult _ _

/-- `mxv`. -/
theorem C96_mxv_as_function {o : EVOut ω X γ τ ζ μ} {f : Accum γ τ ζ} (hf : o.acc.Returns f)
    {sr : ESR ω X α β τ} {g : SR α β τ} (hs : sr.Returns g) (A : Operand α) (u : BVec β)
    (c : BVec γ) (w : ω) :
    EndsAs (mxvE o sr A u (w, c))
      (mxv (o.with c f) g A u) := by
  refine EVOut.op_endsAs hf ?_ w
  cases A
  · exact mxvAE_agrees c hs.add hs.mult _ _
  · exact vxmAE_agrees hs.add hs.multSwap _ _

/-- `eWiseAdd` on vectors. -/
theorem C96_eWiseAddV_as_function {o : EVOut ω X γ τ ζ μ} {f : Accum γ τ ζ} (hf : o.acc.Returns f)
    {s : EEW ω X α β τ} {g : EW α β τ} (hs : s.Returns g) (u : BVec α) (v : BVec β)
    (c : BVec γ) (w : ω) :
    EndsAs (eWiseAddVE o s u v (w, c))
      (eWiseAddV (o.with c f) g u v) := by
  refine EVOut.op_endsAs hf ?_ w
  show Act.Agrees c (ewiseAddVecE s.op s.c1 s.c2 u v) _
  rw [hs.c1, hs.c2]
  exact ewiseAddVecE_agrees hs.op _ _ _ _

/-- `eWiseAdd` on matrices. -/
theorem C96_eWiseAddM_as_function {o : EMOut ω X γ τ ζ μ} {f : Accum γ τ ζ} (hf : o.acc.Returns f)
    {s : EEW ω X α β τ} {g : EW α β τ} (hs : s.Returns g) (A : Operand α) (B : Operand β)
    (C : Lil γ) (w : ω) :
    EndsAs (eWiseAddME o s A B (w, C))
      (eWiseAddM (o.with C f) g A B) := by
  refine EMOut.op_endsAs hf ?_ w
  cases s; cases g
  obtain ⟨op, opA, h1, h2, h3, h4⟩ := hs
  cases h1; cases h2; cases h3; cases h4
  cases A <;> cases B
  · exact ewiseAddMatE_agrees op _ _ _ _
  · exact .bind (.lib _) fun _ _ => ewiseAddMatE_agrees opA _ _ _ _
  · exact .bind (.lib _) fun _ _ => ewiseAddMatE_agrees op _ _ _ _
  · exact ewiseAddATBTE_agrees op _ _ _ _

/-- `eWiseMult` on vectors. -/
theorem C96_eWiseMultV_as_function {o : EVOut ω X γ τ ζ μ} {f : Accum γ τ ζ} (hf : o.acc.Returns f)
    {s : EEW ω X α β τ} {g : EW α β τ} (hs : s.Returns g) (u : BVec α) (v : BVec β)
    (c : BVec γ) (w : ω) :
    EndsAs (eWiseMultVE o s u v (w, c))
      (eWiseMultV (o.with c f) g u v) := by
  refine EVOut.op_endsAs hf ?_ w
  show Act.Agrees c (ewiseMultVecE s.op u v) _
  exact ewiseMultVecE_agrees hs.op _ _

/-- `eWiseMult` on matrices. -/
theorem C96_eWiseMultM_as_function {o : EMOut ω X γ τ ζ μ} {f : Accum γ τ ζ} (hf : o.acc.Returns f)
    {s : EEW ω X α β τ} {g : EW α β τ} (hs : s.Returns g) (A : Operand α) (B : Operand β)
    (C : Lil γ) (w : ω) :
    EndsAs (eWiseMultME o s A B (w, C))
      (eWiseMultM (o.with C f) g A B) := by
  refine EMOut.op_endsAs hf ?_ w
  cases s; cases g
  obtain ⟨op, opA, h1, h2, h3, h4⟩ := hs
  cases h1; cases h2; cases h3; cases h4
  cases A <;> cases B
  · exact ewiseMultMatE_agrees op _ _
  · exact .bind (.lib _) fun _ _ => ewiseMultMatE_agrees opA _ _
  · exact .bind (.lib _) fun _ _ => ewiseMultMatE_agrees op _ _
  · exact ewiseMultATBTE_agrees op _ _

/-- `apply` on a vector. -/
theorem C96_applyV_as_function {o : EVOut ω X γ τ ζ μ} {f : Accum γ τ ζ} (hf : o.acc.Returns f)
    {op : α → Op ω X τ} {g : α → τ} (h : ∀ x, Returns (op x) (g x)) (u : BVec α) (c : BVec γ) (w : ω) :
    EndsAs (applyVE o op u (w, c))
      (applyV (o.with c f) g u) := by
  refine EVOut.op_endsAs hf ?_ w
  exact applyVecE_agrees h _

/-- `apply` on a matrix. -/
theorem C96_applyM_as_function {o : EMOut ω X γ τ ζ μ} {f : Accum γ τ ζ} (hf : o.acc.Returns f)
    {op : α → Op ω X τ} {g : α → τ} (h : ∀ x, Returns (op x) (g x)) (A : Operand α) (C : Lil γ) (w : ω) :
    EndsAs (applyME o op A (w, C))
      (applyM (o.with C f) g A) := by
  refine EMOut.op_endsAs hf ?_ w
  cases A
  · exact applyMatE_agrees h _
  · exact applyMatTE_agrees h _

/-- `reduce` of a matrix to a vector. -/
theorem C96_reduceMV_as_function {o : EVOut ω X γ τ ζ μ} {f : Accum γ τ ζ} (hf : o.acc.Returns f)
    {r : ERedOp ω X α τ} {g : RedOp α τ} (hr : r.Returns g) (A : Operand α) (c : BVec γ)
    (w : ω) :
    EndsAs (reduceMVE o r A (w, c))
      (reduceMV (o.with c f) g A) := by
  refine EVOut.op_endsAs hf ?_ w
  obtain ⟨h1, h2, h3, h4⟩ := hr
  cases A <;> dsimp only <;> rw [h4]
  · exact reduceRowsE_agrees h1 h2 _ _
  · exact reduceColsE_agrees h2 _ _

/-- `reduce` of a vector to a scalar. -/
theorem C96_reduceVS_as_function (castZ : ζ → γ) {acc : EAccum ω X γ τ ζ} {f : Accum γ τ ζ} (hf : acc.Returns f)
    {r : ERedOp ω X α τ} {g : RedOp α τ} (hr : r.Returns g) (e : τ) (u : BVec α)
    (val : γ) (w : ω) :
    EndsAs (reduceVSE castZ acc r e u (w, val))
      (reduceVS castZ f g e val u) := by
  obtain ⟨h1, h2, h3, h4⟩ := hr
  refine reduceScalar_endsAs hf ?_ w
  rw [h4]
  exact reduceVecE_agrees h1 h2 _ _ _

/-- `reduce` of a matrix to a scalar. -/
theorem C96_reduceMS_as_function (castZ : ζ → γ) {acc : EAccum ω X γ τ ζ} {f : Accum γ τ ζ} (hf : acc.Returns f)
    {r : ERedOp ω X α τ} {g : RedOp α τ} (hr : r.Returns g) (e : τ) (A : Lil α)
    (val : γ) (w : ω) :
    EndsAs (reduceMSE castZ acc r e A (w, val))
      (reduceMS castZ f g e val (.plain A)) := by
  obtain ⟨h1, h2, h3, h4⟩ := hr
  refine reduceScalar_endsAs hf ?_ w
  rw [h4]
  exact reduceMatE_agrees h1 h2 h3 _ _ _

/-- `kronecker`. -/
theorem C96_kronecker_as_function {o : EMOut ω X γ τ ζ μ} {f : Accum γ τ ζ} (hf : o.acc.Returns f)
    {op : α → β → Op ω X τ} {g : α → β → τ} (h : ∀ x y, Returns (op x y) (g x y)) (A : Operand α)
    (B : Operand β) (C : Lil γ) (w : ω) :
    EndsAs (kroneckerE o op A B (w, C))
      (kronecker (o.with C f) g A B) := by
  refine EMOut.op_endsAs hf ?_ w
  cases A <;> cases B
  · exact kronABE_agrees C h _ _
  · exact kronABTE_agrees C h _ _
  · exact kronATBE_agrees C h _ _
  · exact kronATBTE_agrees C h _ _

/-- `extract` of a vector. -/
theorem C96_extractV_as_function {o : EVOut ω X γ α ζ μ} {f : Accum γ α ζ} (hf : o.acc.Returns f)
    (u : BVec α) (ix : Idx) (c : BVec γ) (w : ω) :
    EndsAs (extractVE o u ix (w, c))
      (extractV (o.with c f) u ix) := by
  refine EVOut.op_endsAs hf ?_ w
  exact .lib _

/-- `extract` of a matrix. -/
theorem C96_extractM_as_function {o : EMOut ω X γ α ζ μ} {f : Accum γ α ζ} (hf : o.acc.Returns f)
    (A : Operand α) (ri ci : Idx) (C : Lil γ) (w : ω) :
    EndsAs (extractME o A ri ci (w, C))
      (extractM (o.with C f) A ri ci) := by
  refine EMOut.op_endsAs hf ?_ w
  exact .lib _

/-- `transpose`. -/
theorem C96_transpose_as_function {o : EMOut ω X γ α ζ μ} {f : Accum γ α ζ} (hf : o.acc.Returns f)
    (A : Operand α) (C : Lil γ) (w : ω) :
    EndsAs (transposeME o A (w, C))
      (transposeM (o.with C f) A) := by
  refine EMOut.op_endsAs hf ?_ w
  exact .lib _

/-- `assign` of a vector. -/
theorem C96_assignV_as_function {o : EVOut ω X γ α ζ μ} {f : Accum γ α ζ} (hf : o.acc.Returns f)
    (keep : γ → ζ) (u : BVec α) (ix : Idx) (c : BVec γ) (w : ω) :
    EndsAs (assignVE o keep u ix (w, c))
      (assignV (o.with c f) keep u ix) := by
  exact EVOut.opStencil_endsAs hf keep _ (.lib _) w

/-- `assign` of a matrix. -/
theorem C96_assignM_as_function {o : EMOut ω X γ α ζ μ} {f : Accum γ α ζ} (hf : o.acc.Returns f)
    (keep : γ → ζ) (A : Operand α) (ri ci : Idx) (C : Lil γ)
    (w : ω) :
    EndsAs (assignME o keep A ri ci (w, C))
      (assignM (o.with C f) keep A ri ci) := by
  exact EMOut.opStencil_endsAs hf keep _ _ (.lib _) w
/-- `Vector::build`. -/
theorem C96_vecBuild_as_function [Inhabited α] {dup : α → α → Op ω X α} {f : α → α → α}
    (h : ∀ x y, Returns (dup x y) (f x y)) (ts : List (Nat × α)) (v : BVec α) (w : ω) :
    ∃ w', vecBuildE dup ts (w, v) = match v.build f ts with
      | (.ok (), v') => (.ok (), (w', v'))
      | (.error e, v') => (.error (.lib e), (w', v')) := by
  obtain ⟨w', e⟩ := vecBuildE_as h v ts w
  refine ⟨w', ?_⟩
  rw [e]
  cases v.build f ts with | mk r v' => cases r <;> rfl

/-- `Matrix::build`. -/
theorem C96_matBuild_as_function {dup : α → α → Op ω X α} {f : α → α → α}
    (h : ∀ x y, Returns (dup x y) (f x y)) (ts : List (Nat × Nat × α)) (A : Lil α) (w : ω) :
    ∃ w', matBuildE dup ts (w, A) = match A.build f ts with
      | (.ok (), A') => (.ok (), (w', A'))
      | (.error e, A') => (.error (.lib e), (w', A')) := by
  obtain ⟨w', e⟩ := matBuildE_as h ts A w
  refine ⟨w', ?_⟩
  rw [e]
  cases A.build f ts with | mk r v' => cases r <;> rfl

example : (effM addLogged).acc.Returns (.some (· + ·) id id) ∧ (effV addLogged).acc.Returns (.some (· + ·) id id) ∧
    ESR.Returns ⟨addLogged, mulLogged, fun y x => mulLogged x y⟩ ⟨(· + ·), (· * ·), fun y x => x * y⟩ ∧
    EEW.Returns (effEW addLogged) ⟨(· + ·), id, id, id, (· + ·), id⟩ ∧
    ERedOp.Returns ⟨addLogged, addLogged, addLogged, id⟩ ⟨(· + ·), (· + ·), (· + ·), id⟩ :=
  ⟨⟨addLogged_returns, rfl, rfl⟩, ⟨addLogged_returns, rfl, rfl⟩,
    ⟨addLogged_returns, mulLogged_returns, fun y x => mulLogged_returns x y⟩,
    ⟨addLogged_returns, addLogged_returns, rfl, rfl, rfl, rfl⟩,
    ⟨addLogged_returns, addLogged_returns, addLogged_returns, rfl⟩⟩

/-- The log of a product: four multiplications and additions, then the accumulator. -/
example : mxmE (effM addLogged) ⟨addLogged, mulLogged, fun y x => mulLogged x y⟩ id (.plain Ex.A) (.plain Ex.B)
    ([], Ex.A) = (.ok (), ([(1, 5), (2, 7), (3, 7), (1, 14), (2, 5)], ⟨2, 2, 2, [[(0, 15)], [(1, 3)]]⟩)) := by
  decide +kernel

end GBTL

import Verif.Lemmas.Effects
/-
When every operator always returns the value of a function, the code with effects ends
as the code of `Verif.Model.Ops`, `Verif.Model.Mxm` and `Verif.Model.Frontend` does with
those functions.
-/
namespace GBTL
open Spec (Outp MaskKind Accum Op Returns EAccum)
open Act (call lib output store)

variable {ω χ X α β γ δ τ ζ μ σ : Type}

/-- The same end, among the ends of code with effects. -/
def toHalt : Except Err τ → Except (Halt X) τ
  | .ok a => .ok a
  | .error e => .error (.lib e)

/-- With output `c`, the code ends as `m` does and leaves the output alone. -/
structure Act.Agrees (c : χ) (x : Act ω χ X τ) (m : Except Err τ) : Prop where
  out : ∀ w, ∃ w', x (w, c) = (toHalt m, (w', c))

namespace Act.Agrees

variable {c : χ}

theorem ret (a : τ) : Act.Agrees c (pure a : Act ω χ X τ) (.ok a) := ⟨fun w => ⟨w, rfl⟩⟩

theorem bind {x : Act ω χ X σ} {f : σ → Act ω χ X τ} {m : Except Err σ} {g : σ → Except Err τ}
    (hx : Act.Agrees c x m) (hf : ∀ a, m = .ok a → Act.Agrees c (f a) (g a)) :
    Act.Agrees c (x >>= f) (m >>= g) := by
  refine ⟨fun w => ?_⟩
  obtain ⟨w1, h1⟩ := hx.out w
  show ∃ w', Act.andThen x f (w, c) = _
  unfold Act.andThen
  rw [h1]
  cases hm : m with
  | error e => exact ⟨w1, rfl⟩
  | ok a => exact (hf a hm).out w1

theorem okBind {x : Act ω χ X σ} {f : σ → Act ω χ X τ} {v : σ} {m : Except Err τ}
    (hx : Act.Agrees c x (.ok v)) (hf : Act.Agrees c (f v) m) : Act.Agrees c (x >>= f) m :=
  Act.Agrees.bind (g := fun _ => m) hx fun a h => by cases h; exact hf

theorem lib (m : Except Err τ) : Act.Agrees c (Act.lib m : Act ω χ X τ) m := by
  refine ⟨fun w => ⟨w, ?_⟩⟩
  cases m <;> rfl

theorem call {f : Op ω X τ} {v : τ} (h : Returns f v) :
    Act.Agrees c (Act.call f : Act ω χ X τ) (.ok v) := by
  refine ⟨fun w => ?_⟩
  obtain ⟨w', hw⟩ := h w
  refine ⟨w', ?_⟩
  show (match f w with | (.ok a, w) => _ | (.error x, w) => _) = _
  rw [hw]; rfl

theorem ite {p : Prop} [Decidable p] {x y : Act ω χ X τ} {m n : Except Err τ}
    (h1 : p → Act.Agrees c x m) (h2 : ¬ p → Act.Agrees c y n) :
    Act.Agrees c (if p then x else y) (if p then m else n) := by
  split
  · next h => exact h1 h
  · next h => exact h2 h

theorem fold {f : σ → α → Act ω χ X σ} {g : σ → α → Except Err σ}
    (h : ∀ s a, Act.Agrees c (f s a) (g s a)) :
    ∀ (l : List α) (s : σ), Act.Agrees c (l.foldlM f s) (l.foldlM g s)
  | [], s => Act.Agrees.ret s
  | a :: l, s => by
    show Act.Agrees c (f s a >>= fun s' => l.foldlM f s') (g s a >>= fun s' => l.foldlM g s')
    exact Act.Agrees.bind (h s a) fun s' _ => fold h l s'

theorem forA {n : Nat} {s : σ} {b : Nat → σ → Act ω χ X σ} {g : Nat → σ → Except Err σ}
    (h : ∀ i s, Act.Agrees c (b i s) (g i s)) : Act.Agrees c (forA n s b) (forN n s g) :=
  fold (fun s i => h i s) _ _

end Act.Agrees

/-! ### Rows -/

variable {c : χ}

theorem mapRowE_agrees {op : α → Op ω X τ} {f : α → τ} (h : ∀ x, Returns (op x) (f x)) :
    ∀ r : Row α, Act.Agrees c (mapRowE op r) (.ok (Row.cast f r))
  | [] => Act.Agrees.ret _
  | (i, x) :: r => by
    unfold mapRowE
    exact .okBind (.call (h x)) (.okBind (mapRowE_agrees h r) (.ret _))

theorem ewiseOrE_agrees {op : α → β → Op ω X δ} {f : α → β → δ}
    (h : ∀ x y, Returns (op x y) (f x y)) (c1 : α → δ) (c2 : β → δ) (r : Row α) (s : Row β) :
    Act.Agrees c (ewiseOrE op c1 c2 r s) (.ok (ewiseOr f c1 c2 r s)) := by
  fun_induction ewiseOr f c1 c2 r s with
  | case1 => unfold ewiseOrE; exact .ret _
  | case2 i x r ih => unfold ewiseOrE; exact .okBind ih (.ret _)
  | case3 j y s ih => unfold ewiseOrE; exact .okBind ih (.ret _)
  | case4 x r j y s ih =>
    unfold ewiseOrE; rw [if_pos rfl]; exact .okBind (.call (h _ _)) (.okBind ih (.ret _))
  | case5 i x r j y s h1 h2 ih =>
    unfold ewiseOrE; rw [if_neg h1, if_pos h2]; exact .okBind ih (.ret _)
  | case6 i x r j y s h1 h2 ih =>
    unfold ewiseOrE; rw [if_neg h1, if_neg h2]; exact .okBind ih (.ret _)

theorem ewiseAndE_agrees {op : α → β → Op ω X δ} {f : α → β → δ}
    (h : ∀ x y, Returns (op x y) (f x y)) (r : Row α) (s : Row β) :
    Act.Agrees c (ewiseAndE op r s) (.ok (ewiseAnd f r s)) := by
  fun_induction ewiseAnd f r s with
  | case1 x r j y s ih =>
    unfold ewiseAndE; rw [if_pos rfl]; exact .okBind (.call (h _ _)) (.okBind ih (.ret _))
  | case2 i x r j y s h1 h2 ih => unfold ewiseAndE; rw [if_neg h1, if_pos h2]; exact ih
  | case3 i x r j y s h1 h2 ih => unfold ewiseAndE; rw [if_neg h1, if_neg h2]; exact ih
  | case4 => unfold ewiseAndE; exact .ret _
  | case5 r hr => cases r with
    | nil => unfold ewiseAndE; exact .ret _
    | cons a r => unfold ewiseAndE; exact .ret _

theorem dotLoopE_agrees {add : τ → τ → Op ω X τ} {mult : α → β → Op ω X τ} {fa : τ → τ → τ}
    {fm : α → β → τ} (ha : ∀ x y, Returns (add x y) (fa x y))
    (hm : ∀ x y, Returns (mult x y) (fm x y)) (r : Row α) (s : Row β) (ans : Option τ) :
    Act.Agrees c (dotLoopE add mult r s ans) (.ok (dotLoop fa fm r s ans)) := by
  fun_induction dotLoop fa fm r s ans with
  | case1 x r j y s ans ih =>
    unfold dotLoopE; rw [if_pos rfl]
    refine .okBind (.call (hm _ _)) ?_
    cases ans with
    | none => exact ih
    | some a => exact .okBind (.call (ha _ _)) ih
  | case2 i x r j y s ans h1 h2 ih => unfold dotLoopE; rw [if_neg h1, if_pos h2]; exact ih
  | case3 i x r j y s ans h1 h2 ih => unfold dotLoopE; rw [if_neg h1, if_neg h2]; exact ih
  | case4 => unfold dotLoopE; exact .ret _
  | case5 r ans hr => cases r with
    | nil => unfold dotLoopE; exact .ret _
    | cons a r => unfold dotLoopE; exact .ret _

theorem dotE_agrees {add : τ → τ → Op ω X τ} {mult : α → β → Op ω X τ} {fa : τ → τ → τ}
    {fm : α → β → τ} (ha : ∀ x y, Returns (add x y) (fa x y))
    (hm : ∀ x y, Returns (mult x y) (fm x y)) (r : Row α) (s : Row β) :
    Act.Agrees c (dotE add mult r s) (.ok (dot fa fm r s)) := by
  unfold dotE dot
  split
  · exact .ret _
  · exact dotLoopE_agrees ha hm _ _ _

theorem dotRevE_agrees {add : τ → τ → Op ω X τ} {mult : α → β → Op ω X τ} {fa : τ → τ → τ}
    {fm : α → β → τ} (ha : ∀ x y, Returns (add x y) (fa x y))
    (hm : ∀ x y, Returns (mult x y) (fm x y)) (r : Row α) (s : Row β) :
    Act.Agrees c (dotRevE add mult r s) (.ok (dotRev fa fm r s)) := by
  unfold dotRevE dotRev
  split
  · exact .ret _
  · exact dotLoopE_agrees ha (fun x y => hm y x) _ _ _

theorem foldE_agrees {op : τ → α → Op ω X τ} {f : τ → α → τ} (h : ∀ x y, Returns (op x y) (f x y)) :
    ∀ (r : Row α) (t : τ), Act.Agrees c (r.foldlM (fun t p => call (op t p.2)) t)
      (.ok (r.foldl (fun t p => f t p.2) t))
  | [], t => .ret _
  | p :: r, t => by
    show Act.Agrees c (call (op t p.2) >>= fun t => r.foldlM (fun t p => call (op t p.2)) t) _
    exact .okBind (.call (h _ _)) (foldE_agrees h r _)

theorem reductionE_agrees {op : α → α → Op ω X τ} {op' : τ → α → Op ω X τ} {f : α → α → τ}
    {f' : τ → α → τ} (h : ∀ x y, Returns (op x y) (f x y)) (h' : ∀ x y, Returns (op' x y) (f' x y))
    (cast1 : α → τ) : ∀ r : Row α,
    Act.Agrees c (reductionE op op' cast1 r) (.ok (reduction f f' cast1 id r))
  | [] => .ret _
  | [(_, x)] => .ret _
  | (_, x) :: (_, y) :: r => by
    unfold reductionE
    exact .okBind (.call (h _ _)) (.okBind (foldE_agrees h' r _) (.ret _))

theorem axpyE_agrees {add : τ → τ → Op ω X τ} {mult : α → β → Op ω X τ} {fa : τ → τ → τ}
    {fm : α → β → τ} (ha : ∀ x y, Returns (add x y) (fa x y))
    (hm : ∀ x y, Returns (mult x y) (fm x y)) (a : α) : ∀ (b : Row β) (t : Row τ),
    Act.Agrees c (axpyE add mult a t b) (.ok (axpy fa fm a t b))
  | [], t => by unfold axpyE axpy; exact .ret _
  | (j, y) :: bs, t => by
    unfold axpyE axpy
    refine .okBind (.call (hm _ _)) ?_
    dsimp only
    cases headIs j (dropBelow j t) with
    | some x => exact .okBind (.call (ha _ _)) (.okBind (axpyE_agrees ha hm a bs _) (.ret _))
    | none => exact .okBind (axpyE_agrees ha hm a bs _) (.ret _)

theorem xpeyE_agrees {op : α → β → Op ω X α} {f : α → β → α} (h : ∀ x y, Returns (op x y) (f x y))
    (cast : β → α) : ∀ (s : Row β) (t : Row α),
    Act.Agrees c (xpeyE op cast t s) (.ok (xpey f cast t s))
  | [], t => by unfold xpeyE xpey; exact .ret _
  | (j, y) :: bs, t => by
    unfold xpeyE xpey
    dsimp only
    cases headIs j (dropBelow j t) with
    | some x => exact .okBind (.call (h _ _)) (.okBind (xpeyE_agrees h cast bs _) (.ret _))
    | none => exact .okBind (xpeyE_agrees h cast bs _) (.ret _)

/-! ### The intermediate result -/

theorem ewiseAddRowE_agrees {op : α → β → Op ω X τ} {f : α → β → τ}
    (h : ∀ x y, Returns (op x y) (f x y)) (c1 : α → τ) (c2 : β → τ) (a : Row α) (b : Row β) :
    Act.Agrees c (ewiseAddRowE op c1 c2 a b) (.ok (ewiseAddRow f c1 c2 a b)) := by
  unfold ewiseAddRowE ewiseAddRow
  split
  · exact .ret _
  · split
    · exact .ret _
    · exact ewiseOrE_agrees h _ _ _ _

theorem reduceStepE_agrees {opT : τ → τ → Op ω X τ} {fT : τ → τ → τ}
    (hT : ∀ x y, Returns (opT x y) (fT x y)) (t : τ) (r : Option τ) :
    Act.Agrees c (reduceStepE opT t r) (.ok (reduceStep fT t r)) := by
  cases r with
  | none => exact .ret _
  | some x => exact .call (hT _ _)

/-- Walk through two kernels side by side. -/
macro "agrees" : tactic => `(tactic|
  repeat' first
    | exact Act.Agrees.ret _
    | exact Act.Agrees.lib _
    | (exact Act.Agrees.call (by solve_by_elim))
    | (exact mapRowE_agrees (by assumption) _)
    | (exact ewiseOrE_agrees (by assumption) _ _ _ _)
    | (exact ewiseAndE_agrees (by assumption) _ _)
    | (exact axpyE_agrees (by assumption) (by assumption) _ _ _)
    | (exact xpeyE_agrees (by assumption) _ _ _)
    | (exact ewiseAddRowE_agrees (by assumption) _ _ _ _)
    | (exact reduceStepE_agrees (by assumption) _ _)
    | apply Act.Agrees.forA
    | apply Act.Agrees.fold
    | (refine Act.Agrees.okBind (mapRowE_agrees (by assumption) _) ?_)
    | (refine Act.Agrees.okBind (ewiseOrE_agrees (by assumption) _ _ _ _) ?_)
    | (refine Act.Agrees.okBind (ewiseAddRowE_agrees (by assumption) _ _ _ _) ?_)
    | (refine Act.Agrees.okBind (ewiseAndE_agrees (by assumption) _ _) ?_)
    | (refine Act.Agrees.okBind (dotE_agrees (by assumption) (by assumption) _ _) ?_)
    | (refine Act.Agrees.okBind (dotRevE_agrees (by assumption) (by assumption) _ _) ?_)
    | (refine Act.Agrees.okBind (reductionE_agrees (by assumption) (by assumption) _ _) ?_)
    | (refine Act.Agrees.okBind (axpyE_agrees (by assumption) (by assumption) _ _ _) ?_)
    | (refine Act.Agrees.okBind (Act.Agrees.call (by solve_by_elim)) ?_)
    | apply Act.Agrees.bind
    | apply Act.Agrees.ite
    | intro _)

theorem applyVecE_agrees {op : α → Op ω X τ} {f : α → τ} (h : ∀ x, Returns (op x) (f x))
    (u : BVec α) :
    Act.Agrees c (applyVecE op u) (applyVec f u) := by
  unfold applyVecE applyVec
  agrees

theorem applyMatE_agrees {op : α → Op ω X τ} {f : α → τ} (h : ∀ x, Returns (op x) (f x))
    (A : Lil α) :
    Act.Agrees c (applyMatE op A) (applyMat f A) := by
  unfold applyMatE applyMat
  agrees

theorem applyMatTE_agrees {op : α → Op ω X τ} {f : α → τ} (h : ∀ x, Returns (op x) (f x))
    (A : Lil α) :
    Act.Agrees c (applyMatTE op A) (applyMatT f A) := by
  unfold applyMatTE applyMatT pushColsE pushCols
  agrees

theorem ewiseAddVecE_agrees {op : α → β → Op ω X τ} {f : α → β → τ}
    (h : ∀ x y, Returns (op x y) (f x y)) (c1 : α → τ) (c2 : β → τ) (u : BVec α) (v : BVec β) :
    Act.Agrees c (ewiseAddVecE op c1 c2 u v) (ewiseAddVec f c1 c2 u v) := by
  unfold ewiseAddVecE ewiseAddVec
  agrees

theorem ewiseAddMatE_agrees {op : α → β → Op ω X τ} {f : α → β → τ}
    (h : ∀ x y, Returns (op x y) (f x y)) (c1 : α → τ) (c2 : β → τ) (A : Lil α) (B : Lil β) :
    Act.Agrees c (ewiseAddMatE op c1 c2 A B) (ewiseAddMat f c1 c2 A B) := by
  unfold ewiseAddMatE ewiseAddMat
  agrees

theorem ewiseAddATBTE_agrees {op : α → β → Op ω X τ} {f : α → β → τ}
    (h : ∀ x y, Returns (op x y) (f x y)) (c1 : α → τ) (c2 : β → τ) (A : Lil α) (B : Lil β) :
    Act.Agrees c (ewiseAddATBTE op c1 c2 A B) (ewiseAddATBT f c1 c2 A B) := by
  unfold ewiseAddATBTE ewiseAddATBT pushColsE pushCols
  agrees

theorem ewiseMultVecE_agrees {op : α → β → Op ω X τ} {f : α → β → τ}
    (h : ∀ x y, Returns (op x y) (f x y)) (u : BVec α) (v : BVec β) :
    Act.Agrees c (ewiseMultVecE op u v) (ewiseMultVec f u v) := by
  unfold ewiseMultVecE ewiseMultVec
  agrees

theorem ewiseMultMatE_agrees {op : α → β → Op ω X τ} {f : α → β → τ}
    (h : ∀ x y, Returns (op x y) (f x y)) (A : Lil α) (B : Lil β) :
    Act.Agrees c (ewiseMultMatE op A B) (ewiseMultMat f A B) := by
  unfold ewiseMultMatE ewiseMultMat
  agrees

theorem ewiseMultATBTE_agrees {op : α → β → Op ω X τ} {f : α → β → τ}
    (h : ∀ x y, Returns (op x y) (f x y)) (A : Lil α) (B : Lil β) :
    Act.Agrees c (ewiseMultATBTE op A B) (ewiseMultATBT f A B) := by
  unfold ewiseMultATBTE ewiseMultATBT pushColsE pushCols
  agrees

theorem reduceRowsE_agrees {op : α → α → Op ω X τ} {op' : τ → α → Op ω X τ} {f : α → α → τ}
    {f' : τ → α → τ} (h : ∀ x y, Returns (op x y) (f x y)) (h' : ∀ x y, Returns (op' x y) (f' x y))
    (cast1 : α → τ) (A : Lil α) :
    Act.Agrees c (reduceRowsE op op' cast1 A) (reduceRows f f' cast1 A) := by
  unfold reduceRowsE reduceRows
  agrees

theorem reduceColsE_agrees {op' : τ → α → Op ω X τ} {f' : τ → α → τ}
    (h' : ∀ x y, Returns (op' x y) (f' x y)) (cast1 : α → τ) (A : Lil α) :
    Act.Agrees c (reduceColsE op' cast1 A) (reduceCols f' cast1 A) := by
  unfold reduceColsE reduceCols
  agrees

theorem reduceVecE_agrees {op : α → α → Op ω X τ} {op' : τ → α → Op ω X τ} {f : α → α → τ}
    {f' : τ → α → τ} (h : ∀ x y, Returns (op x y) (f x y)) (h' : ∀ x y, Returns (op' x y) (f' x y))
    (cast1 : α → τ) (e : τ) (u : BVec α) :
    Act.Agrees c (reduceVecE op op' cast1 e u) (reduceVec f f' cast1 e u) := by
  unfold reduceVecE reduceVec
  agrees

theorem reduceMatE_agrees {op : α → α → Op ω X τ} {op' : τ → α → Op ω X τ} {f : α → α → τ}
    {f' : τ → α → τ} (h : ∀ x y, Returns (op x y) (f x y)) (h' : ∀ x y, Returns (op' x y) (f' x y))
    {opT : τ → τ → Op ω X τ} {fT : τ → τ → τ} (hT : ∀ x y, Returns (opT x y) (fT x y))
    (cast1 : α → τ) (e : τ) (A : Lil α) :
    Act.Agrees c (reduceMatE op op' opT cast1 e A) (reduceMat f f' fT cast1 e A) := by
  unfold reduceMatE reduceMat
  agrees

theorem mxmABE_agrees (C : Lil γ) {add : τ → τ → Op ω X τ} {mult : α → β → Op ω X τ}
    {fa : τ → τ → τ} {fm : α → β → τ} (ha : ∀ x y, Returns (add x y) (fa x y))
    (hm : ∀ x y, Returns (mult x y) (fm x y))
    (A : Lil α) (B : Lil β) :
    Act.Agrees c (mxmABE C add mult A B) (mxmAB C fa fm A B) := by
  unfold mxmABE mxmAB
  agrees

theorem mxmATBE_agrees (C : Lil γ) {add : τ → τ → Op ω X τ} {mult : α → β → Op ω X τ}
    {fa : τ → τ → τ} {fm : α → β → τ} (ha : ∀ x y, Returns (add x y) (fa x y))
    (hm : ∀ x y, Returns (mult x y) (fm x y))
    (A : Lil α) (B : Lil β) :
    Act.Agrees c (mxmATBE C add mult A B) (mxmATB C fa fm A B) := by
  unfold mxmATBE mxmATB
  agrees

theorem mxmABTE_agrees (C : Lil γ) {add : τ → τ → Op ω X τ} {mult : α → β → Op ω X τ}
    {fa : τ → τ → τ} {fm : α → β → τ} (ha : ∀ x y, Returns (add x y) (fa x y))
    (hm : ∀ x y, Returns (mult x y) (fm x y))
    (A : Lil α) (B : Lil β) :
    Act.Agrees c (mxmABTE C add mult A B) (mxmABT C fa fm A B) := by
  unfold mxmABTE mxmABT
  agrees

theorem mxmATBTE_agrees (C : Lil γ) {add : τ → τ → Op ω X τ} {mult : β → α → Op ω X τ}
    {fa : τ → τ → τ} {fm : β → α → τ} (ha : ∀ x y, Returns (add x y) (fa x y))
    (hm : ∀ x y, Returns (mult x y) (fm x y))
    (via : τ → τ) (A : Lil α) (B : Lil β) :
    Act.Agrees c (mxmATBTE C add mult via A B) (mxmATBT C fa fm via A B) := by
  unfold mxmATBTE mxmATBT
  agrees

theorem mxvAE_agrees (w : BVec γ) {add : τ → τ → Op ω X τ} {mult : α → β → Op ω X τ}
    {fa : τ → τ → τ} {fm : α → β → τ} (ha : ∀ x y, Returns (add x y) (fa x y))
    (hm : ∀ x y, Returns (mult x y) (fm x y))
    (A : Lil α) (u : BVec β) :
    Act.Agrees c (mxvAE w add mult A u) (mxvA w fa fm A u) := by
  unfold mxvAE mxvA
  agrees

theorem vxmAE_agrees {add : τ → τ → Op ω X τ} {mult : β → α → Op ω X τ}
    {fa : τ → τ → τ} {fm : β → α → τ} (ha : ∀ x y, Returns (add x y) (fa x y))
    (hm : ∀ x y, Returns (mult x y) (fm x y))
    (u : BVec β) (A : Lil α) :
    Act.Agrees c (vxmAE add mult u A) (vxmA fa fm u A) := by
  unfold vxmAE vxmA
  agrees

theorem vxmATE_agrees (w : BVec γ) {add : τ → τ → Op ω X τ} {mult : β → α → Op ω X τ}
    {fa : τ → τ → τ} {fm : β → α → τ} (ha : ∀ x y, Returns (add x y) (fa x y))
    (hm : ∀ x y, Returns (mult x y) (fm x y))
    (u : BVec β) (A : Lil α) :
    Act.Agrees c (vxmATE w add mult u A) (vxmAT w fa fm u A) := by
  unfold vxmATE vxmAT
  agrees

theorem kronABE_agrees (C : Lil γ) {op : α → β → Op ω X τ} {f : α → β → τ}
    (h : ∀ x y, Returns (op x y) (f x y)) (A : Lil α) (B : Lil β) :
    Act.Agrees c (kronABE C op A B) (kronAB C f A B) := by
  unfold kronABE kronAB
  agrees

theorem kronATBE_agrees (C : Lil γ) {op : α → β → Op ω X τ} {f : α → β → τ}
    (h : ∀ x y, Returns (op x y) (f x y)) (A : Lil α) (B : Lil β) :
    Act.Agrees c (kronATBE C op A B) (kronATB C f A B) := by
  unfold kronATBE kronATB
  agrees

theorem kronABTE_agrees (C : Lil γ) {op : α → β → Op ω X τ} {f : α → β → τ}
    (h : ∀ x y, Returns (op x y) (f x y)) (A : Lil α) (B : Lil β) :
    Act.Agrees c (kronABTE C op A B) (kronABT C f A B) := by
  unfold kronABTE kronABT
  agrees

theorem kronATBTE_agrees (C : Lil γ) {op : α → β → Op ω X τ} {f : α → β → τ}
    (h : ∀ x y, Returns (op x y) (f x y)) (A : Lil α) (B : Lil β) :
    Act.Agrees c (kronATBTE C op A B) (kronATBT C f A B) := by
  unfold kronATBTE kronATBT
  agrees

end GBTL

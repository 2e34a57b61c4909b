import Verif.Model.Effects
/-
Lemmas about code that calls operators with effects: what keeps the output container as
it is, and what the code does when the operators always return the value of a function.
-/
namespace GBTL
open Spec (Outp MaskKind Accum Op Returns EAccum)
open Act (call lib output store)

variable {ω χ X α β γ δ τ ζ μ σ : Type}

/-! ### Code that leaves the output alone -/

/-- Whatever the operators do, the output container is the same after the code. -/
structure Act.Keeps (x : Act ω χ X τ) : Prop where
  out : ∀ s, (x s).2.2 = s.2

theorem Act.Keeps.pure (a : τ) : Act.Keeps (Pure.pure a : Act ω χ X τ) := ⟨fun _ => rfl⟩

theorem Act.Keeps.bind {x : Act ω χ X σ} {f : σ → Act ω χ X τ} (hx : Act.Keeps x)
    (hf : ∀ a, Act.Keeps (f a)) : Act.Keeps (x >>= f) := by
  refine ⟨fun s => ?_⟩
  have h := hx.out s
  show (Act.andThen x f s).2.2 = s.2
  unfold Act.andThen
  split
  · next a s1 e => rw [e] at h; rw [(hf a).out s1]; exact h
  · next a s1 e => rw [e] at h; exact h

theorem Act.Keeps.call (f : Op ω X τ) : Act.Keeps (Act.call f : Act ω χ X τ) := by
  refine ⟨fun s => ?_⟩; unfold Act.call; split <;> rfl

theorem Act.Keeps.lib (m : Except Err τ) : Act.Keeps (Act.lib m : Act ω χ X τ) := by
  refine ⟨fun s => ?_⟩; unfold Act.lib; split <;> rfl

theorem Act.Keeps.output : Act.Keeps (Act.output : Act ω χ X χ) := ⟨fun _ => rfl⟩

theorem Act.Keeps.fold {f : σ → α → Act ω χ X σ} (hf : ∀ s a, Act.Keeps (f s a)) :
    ∀ (l : List α) (s : σ), Act.Keeps (l.foldlM f s)
  | [], s => Act.Keeps.pure s
  | a :: l, s => by
    show Act.Keeps (f s a >>= fun s' => l.foldlM f s')
    exact Act.Keeps.bind (hf s a) fun s' => Act.Keeps.fold hf l s'

theorem Act.Keeps.forA {n : Nat} {s : σ} {b : Nat → σ → Act ω χ X σ}
    (hb : ∀ i s, Act.Keeps (b i s)) : Act.Keeps (forA n s b) :=
  Act.Keeps.fold (fun s i => hb i s) _ _

/-- Walk through the code. -/
macro "keeps" : tactic => `(tactic|
  repeat' first
    | assumption
    | exact Act.Keeps.pure _
    | exact Act.Keeps.call _
    | exact Act.Keeps.lib _
    | exact Act.Keeps.output
    | apply Act.Keeps.bind
    | apply Act.Keeps.forA
    | apply Act.Keeps.fold
    | intro _
    | split)

theorem mapRowE_keeps (op : α → Op ω X τ) : ∀ r : Row α, Act.Keeps (mapRowE op r : Act ω χ X _)
  | [] => Act.Keeps.pure _
  | (i, x) :: r => by
    have := mapRowE_keeps op r
    unfold mapRowE; keeps

theorem ewiseOrE_keeps (op : α → β → Op ω X δ) (c1 : α → δ) (c2 : β → δ) (r : Row α) (s : Row β) :
    Act.Keeps (ewiseOrE op c1 c2 r s : Act ω χ X _) := by
  fun_induction ewiseOrE (χ := χ) op c1 c2 r s <;> keeps

theorem ewiseAndE_keeps (op : α → β → Op ω X δ) (r : Row α) (s : Row β) :
    Act.Keeps (ewiseAndE op r s : Act ω χ X _) := by
  fun_induction ewiseAndE (χ := χ) op r s <;> keeps

theorem dotLoopE_keeps (add : τ → τ → Op ω X τ) (mult : α → β → Op ω X τ) (r : Row α) (s : Row β)
    (ans : Option τ) : Act.Keeps (dotLoopE add mult r s ans : Act ω χ X _) := by
  fun_induction dotLoopE (χ := χ) add mult r s ans <;> keeps <;> solve_by_elim

theorem dotE_keeps (add : τ → τ → Op ω X τ) (mult : α → β → Op ω X τ) (r : Row α) (s : Row β) :
    Act.Keeps (dotE add mult r s : Act ω χ X _) := by
  unfold dotE
  have := dotLoopE_keeps (χ := χ) add mult r s none
  keeps

theorem dotRevE_keeps (add : τ → τ → Op ω X τ) (mult : α → β → Op ω X τ) (r : Row α) (s : Row β) :
    Act.Keeps (dotRevE add mult r s : Act ω χ X _) := by
  unfold dotRevE
  have := dotLoopE_keeps (χ := χ) add (fun b a => mult a b) s r none
  keeps

theorem reductionE_keeps (op : α → α → Op ω X τ) (op' : τ → α → Op ω X τ) (cast1 : α → τ)
    (r : Row α) : Act.Keeps (reductionE op op' cast1 r : Act ω χ X _) := by
  unfold reductionE; keeps

theorem axpyE_keeps (add : τ → τ → Op ω X τ) (mult : α → β → Op ω X τ) (a : α) :
    ∀ (b : Row β) (c : Row τ), Act.Keeps (axpyE add mult a c b : Act ω χ X _)
  | [], c => by unfold axpyE; keeps
  | (j, y) :: bs, c => by
    have := axpyE_keeps add mult a bs
    unfold axpyE; keeps <;> exact this _

theorem xpeyE_keeps (op : α → β → Op ω X α) (cast : β → α) :
    ∀ (s : Row β) (v : Row α), Act.Keeps (xpeyE op cast v s : Act ω χ X _)
  | [], c => by unfold xpeyE; keeps
  | (j, y) :: bs, c => by
    have := xpeyE_keeps op cast bs
    unfold xpeyE; keeps <;> exact this _

/-- Walk through a kernel. -/
macro "keepsK" : tactic => `(tactic|
  repeat' first
    | exact Act.Keeps.pure _
    | exact Act.Keeps.call _
    | exact Act.Keeps.lib _
    | exact Act.Keeps.output
    | exact mapRowE_keeps _ _
    | exact ewiseOrE_keeps _ _ _ _ _
    | exact ewiseAndE_keeps _ _ _
    | exact dotE_keeps _ _ _ _
    | exact dotRevE_keeps _ _ _ _
    | exact reductionE_keeps _ _ _ _
    | exact axpyE_keeps _ _ _ _ _
    | exact xpeyE_keeps _ _ _ _
    | apply Act.Keeps.bind
    | apply Act.Keeps.forA
    | apply Act.Keeps.fold
    | intro _
    | split)

theorem accumMatE_keeps (C : Lil γ) (acc : EAccum ω X γ τ ζ) (T : Lil τ) :
    Act.Keeps (accumMatE C acc T : Act ω χ X _) := by unfold accumMatE; keepsK

theorem accumVecE_keeps (w : BVec γ) (acc : EAccum ω X γ τ ζ) (t : Row τ) :
    Act.Keeps (accumVecE w acc t : Act ω χ X _) := by unfold accumVecE; keepsK

theorem accumStencilE_keeps (keep : γ → ζ) (C : Lil γ) (acc : EAccum ω X γ τ ζ) (T : Lil τ)
    (ri ci : Idx) : Act.Keeps (accumStencilE keep C acc T ri ci : Act ω χ X _) := by
  unfold accumStencilE; keepsK

theorem accumStencil1DE_keeps (keep : γ → ζ) (w : BVec γ) (acc : EAccum ω X γ τ ζ) (t : Row τ)
    (ix : Idx) : Act.Keeps (accumStencil1DE keep w acc t ix : Act ω χ X _) := by
  unfold accumStencil1DE; keepsK

/-- If the code ends with an exception the output container is the same. -/
structure Act.Strong (x : Act ω χ X τ) : Prop where
  out : ∀ s h s', x s = (.error h, s') → s'.2 = s.2

theorem Act.Keeps.strong {x : Act ω χ X τ} (hx : Act.Keeps x) : Act.Strong x := by
  refine ⟨fun s h s' e => ?_⟩
  have := hx.out s
  rw [e] at this; exact this

theorem Act.Strong.bind {x : Act ω χ X σ} {f : σ → Act ω χ X τ} (hx : Act.Keeps x)
    (hf : ∀ a, Act.Strong (f a)) : Act.Strong (x >>= f) := by
  refine ⟨fun s h s' e => ?_⟩
  have hk := hx.out s
  have e' : Act.andThen x f s = (.error h, s') := e
  unfold Act.andThen at e'
  split at e'
  · next a s1 e1 => rw [e1] at hk; rw [(hf a).out s1 h s' e']; exact hk
  · next a s1 e1 => rw [e1] at hk; cases e'; exact hk

theorem Act.Strong.store (c : χ) : Act.Strong (Act.store c : Act ω χ X Unit) := by
  exact ⟨fun s h s' e => by cases e⟩

/-- The last step of an operation: everything before it keeps the output. -/
macro "strong" : tactic => `(tactic|
  repeat' first
    | exact Act.Strong.store _
    | apply Act.Strong.bind
    | exact Act.Keeps.output
    | exact Act.Keeps.lib _
    | exact accumMatE_keeps _ _ _
    | exact accumVecE_keeps _ _ _
    | exact accumStencilE_keeps _ _ _ _ _ _
    | exact accumStencil1DE_keeps _ _ _ _ _
    | intro _)

theorem EMOut.op_strong {o : EMOut ω X γ τ ζ μ} {checks : Lil γ → Except Err Unit}
    {T : Lil γ → Act ω (Lil γ) X (Lil τ)} (hT : ∀ C, Act.Keeps (T C)) :
    Act.Strong (o.op checks T) := by
  unfold EMOut.op
  strong
  exact hT _

theorem EVOut.op_strong {o : EVOut ω X γ τ ζ μ} {checks : BVec γ → Except Err Unit}
    {t : BVec γ → Act ω (BVec γ) X (Row τ)} (hT : ∀ w, Act.Keeps (t w)) :
    Act.Strong (o.op checks t) := by
  unfold EVOut.op
  strong
  exact hT _

theorem EMOut.opStencil_strong {o : EMOut ω X γ τ ζ μ} {keep : γ → ζ} {ri ci : List Nat}
    {checks : Lil γ → Except Err Unit}
    {T : Lil γ → Act ω (Lil γ) X (Lil τ)} (hT : ∀ C, Act.Keeps (T C)) :
    Act.Strong (o.opStencil keep ri ci checks T) := by
  unfold EMOut.opStencil
  strong
  exact hT _

theorem EVOut.opStencil_strong {o : EVOut ω X γ τ ζ μ} {keep : γ → ζ} {ix : List Nat}
    {checks : BVec γ → Except Err Unit}
    {t : BVec γ → Act ω (BVec γ) X (Row τ)} (hT : ∀ w, Act.Keeps (t w)) :
    Act.Strong (o.opStencil keep ix checks t) := by
  unfold EVOut.opStencil
  strong
  exact hT _

theorem applyVecE_keeps (op : α → Op ω X τ) (u : BVec α) :
    Act.Keeps (applyVecE op u : Act ω χ X _) := by
  unfold applyVecE; keepsK

theorem applyMatE_keeps (op : α → Op ω X τ) (A : Lil α) :
    Act.Keeps (applyMatE op A : Act ω χ X _) := by
  unfold applyMatE; keepsK

theorem applyMatTE_keeps (op : α → Op ω X τ) (A : Lil α) :
    Act.Keeps (applyMatTE op A : Act ω χ X _) := by
  unfold applyMatTE pushColsE; keepsK

theorem ewiseAddVecE_keeps (op : α → β → Op ω X τ) (c1 : α → τ) (c2 : β → τ) (u : BVec α)
    (v : BVec β) :
    Act.Keeps (ewiseAddVecE op c1 c2 u v : Act ω χ X _) := by
  unfold ewiseAddVecE; keepsK

theorem ewiseAddMatE_keeps (op : α → β → Op ω X τ) (c1 : α → τ) (c2 : β → τ) (A : Lil α)
    (B : Lil β) :
    Act.Keeps (ewiseAddMatE op c1 c2 A B : Act ω χ X _) := by
  unfold ewiseAddMatE ewiseAddRowE; keepsK

theorem ewiseAddATBTE_keeps (op : α → β → Op ω X τ) (c1 : α → τ) (c2 : β → τ) (A : Lil α)
    (B : Lil β) :
    Act.Keeps (ewiseAddATBTE op c1 c2 A B : Act ω χ X _) := by
  unfold ewiseAddATBTE ewiseAddRowE pushColsE; keepsK

theorem ewiseMultVecE_keeps (op : α → β → Op ω X τ) (u : BVec α) (v : BVec β) :
    Act.Keeps (ewiseMultVecE op u v : Act ω χ X _) := by
  unfold ewiseMultVecE; keepsK

theorem ewiseMultMatE_keeps (op : α → β → Op ω X τ) (A : Lil α) (B : Lil β) :
    Act.Keeps (ewiseMultMatE op A B : Act ω χ X _) := by
  unfold ewiseMultMatE; keepsK

theorem ewiseMultATBTE_keeps (op : α → β → Op ω X τ) (A : Lil α) (B : Lil β) :
    Act.Keeps (ewiseMultATBTE op A B : Act ω χ X _) := by
  unfold ewiseMultATBTE pushColsE; keepsK

theorem reduceRowsE_keeps (op : α → α → Op ω X τ) (op' : τ → α → Op ω X τ) (cast1 : α → τ)
    (A : Lil α) :
    Act.Keeps (reduceRowsE op op' cast1 A : Act ω χ X _) := by
  unfold reduceRowsE; keepsK

theorem reduceColsE_keeps (op' : τ → α → Op ω X τ) (cast1 : α → τ) (A : Lil α) :
    Act.Keeps (reduceColsE op' cast1 A : Act ω χ X _) := by
  unfold reduceColsE; keepsK

theorem reduceVecE_keeps (op : α → α → Op ω X τ) (op' : τ → α → Op ω X τ) (cast1 : α → τ) (e : τ)
    (u : BVec α) :
    Act.Keeps (reduceVecE op op' cast1 e u : Act ω χ X _) := by
  unfold reduceVecE; keepsK

theorem reduceMatE_keeps (op : α → α → Op ω X τ) (op' : τ → α → Op ω X τ) (opT : τ → τ → Op ω X τ)
    (cast1 : α → τ) (e : τ) (A : Lil α) :
    Act.Keeps (reduceMatE op op' opT cast1 e A : Act ω χ X _) := by
  unfold reduceMatE reduceStepE; keepsK

theorem mxmABE_keeps (C : Lil γ) (add : τ → τ → Op ω X τ) (mult : α → β → Op ω X τ)
    (A : Lil α) (B : Lil β) :
    Act.Keeps (mxmABE C add mult A B : Act ω χ X _) := by
  unfold mxmABE; keepsK

theorem mxmATBE_keeps (C : Lil γ) (add : τ → τ → Op ω X τ) (mult : α → β → Op ω X τ)
    (A : Lil α) (B : Lil β) :
    Act.Keeps (mxmATBE C add mult A B : Act ω χ X _) := by
  unfold mxmATBE; keepsK

theorem mxmABTE_keeps (C : Lil γ) (add : τ → τ → Op ω X τ) (mult : α → β → Op ω X τ)
    (A : Lil α) (B : Lil β) :
    Act.Keeps (mxmABTE C add mult A B : Act ω χ X _) := by
  unfold mxmABTE; keepsK

theorem mxmATBTE_keeps (C : Lil γ) (add : τ → τ → Op ω X τ) (mult : β → α → Op ω X τ)
    (via : τ → τ) (A : Lil α) (B : Lil β) :
    Act.Keeps (mxmATBTE C add mult via A B : Act ω χ X _) := by
  unfold mxmATBTE; keepsK

theorem mxvAE_keeps (w : BVec γ) (add : τ → τ → Op ω X τ) (mult : α → β → Op ω X τ)
    (A : Lil α) (u : BVec β) :
    Act.Keeps (mxvAE w add mult A u : Act ω χ X _) := by
  unfold mxvAE; keepsK

theorem vxmAE_keeps (add : τ → τ → Op ω X τ) (mult : β → α → Op ω X τ) (u : BVec β)
    (A : Lil α) :
    Act.Keeps (vxmAE add mult u A : Act ω χ X _) := by
  unfold vxmAE; keepsK

theorem vxmATE_keeps (w : BVec γ) (add : τ → τ → Op ω X τ) (mult : β → α → Op ω X τ)
    (u : BVec β) (A : Lil α) :
    Act.Keeps (vxmATE w add mult u A : Act ω χ X _) := by
  unfold vxmATE; keepsK

theorem kronABE_keeps (C : Lil γ) (op : α → β → Op ω X τ) (A : Lil α) (B : Lil β) :
    Act.Keeps (kronABE C op A B : Act ω χ X _) := by
  unfold kronABE; keepsK

theorem kronATBE_keeps (C : Lil γ) (op : α → β → Op ω X τ) (A : Lil α) (B : Lil β) :
    Act.Keeps (kronATBE C op A B : Act ω χ X _) := by
  unfold kronATBE; keepsK

theorem kronABTE_keeps (C : Lil γ) (op : α → β → Op ω X τ) (A : Lil α) (B : Lil β) :
    Act.Keeps (kronABTE C op A B : Act ω χ X _) := by
  unfold kronABTE; keepsK

theorem kronATBTE_keeps (C : Lil γ) (op : α → β → Op ω X τ) (A : Lil α) (B : Lil β) :
    Act.Keeps (kronATBTE C op A B : Act ω χ X _) := by
  unfold kronATBTE; keepsK

theorem vecBuildLoopE_keeps (size : Nat) (dup : α → α → Op ω X α) :
    ∀ (ts : List (Nat × α)) (vals : List α) (bitmap : List Bool),
    Act.Keeps (vecBuildLoopE size dup ts vals bitmap : Act ω χ X _)
  | [], vals, bitmap => .pure _
  | (i, x) :: ts, vals, bitmap => by
    unfold vecBuildLoopE
    split
    · exact .lib _
    · refine .bind (.lib _) fun b => ?_
      split
      · exact .bind (.lib _) fun _ => .bind (.call _) fun _ => .bind (.lib _) fun _ =>
          vecBuildLoopE_keeps size dup ts _ _
      · exact .bind (.lib _) fun _ => .bind (.lib _) fun _ => vecBuildLoopE_keeps size dup ts _ _

end GBTL

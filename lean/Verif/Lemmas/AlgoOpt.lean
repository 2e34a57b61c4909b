import Verif.Model.AlgoOpt
import Verif.Props.Backends
import Verif.Props.General
import Verif.Lemmas.Algo
/-
Rules for comparing a program on both backends: a call of `mxm` is the same on consistent
arguments, every call returns consistent containers.
-/
namespace GBTL
open Spec (Outp MaskKind Accum)

variable {α β γ δ τ ζ μ σ ρ T : Type}

/-! ### Results -/

/-- Whatever the program returns satisfies `P`. -/
def Ret (m : Prog σ) (P : σ → Prop) : Prop := ∀ s, m = .ok s → P s

theorem Ret.ok {P : σ → Prop} {s : σ} (h : P s) : Ret (.ok s) P := fun _ e => by cases e; exact h

theorem Ret.error {P : σ → Prop} {e : Stop} : Ret (.error e : Prog σ) P := fun _ h => by cases h

theorem Ret.bind {m : Prog σ} {f : σ → Prog ρ} {P : σ → Prop} {Q : ρ → Prop} (hm : Ret m P)
    (hf : ∀ s, P s → Ret (f s) Q) : Ret (m >>= f) Q := by
  intro r e
  cases m with
  | error x => cases e
  | ok s => exact hf s (hm s rfl) r e

theorem bind_eq {m m' : Prog σ} {f g : σ → Prog ρ} (P : σ → Prop) (h : m = m') (hP : Ret m' P)
    (hf : ∀ s, P s → f s = g s) : (m >>= f) = (m' >>= g) := by
  subst h
  cases m with
  | error x => rfl
  | ok s => exact hf s (hP s rfl)

theorem Ret.lift {x : Except Err σ} {P : σ → Prop} (h : ∀ s, x = .ok s → P s) : Ret (lift x) P := by
  intro s e
  cases x with
  | error _ => cases e
  | ok s' => cases e; exact h _ rfl

theorem Ret.method {x : Except Err Unit × σ} {P : σ → Prop} (h : P x.2) : Ret (GBTL.lift (GBTL.method x)) P := by
  obtain ⟨r, s⟩ := x
  cases r with
  | error _ => exact Ret.error
  | ok _ => exact Ret.ok h

theorem forP_eq {n : Nat} {b b' : Nat → σ → Prog σ} (I : σ → Prop) (hb : ∀ i s, I s → b i s = b' i s)
    (hI : ∀ i s, I s → Ret (b' i s) I) {s : σ} (hs : I s) : forP n s b = forP n s b' := by
  unfold forP
  generalize List.range n = l
  induction l generalizing s with
  | nil => rfl
  | cons i l ih =>
    simp only [List.foldlM_cons]
    exact bind_eq I (hb i s hs) (hI i s hs) fun s' h' => ih h'

theorem forP_ret {n : Nat} {b : Nat → σ → Prog σ} (I : σ → Prop)
    (hI : ∀ i s, I s → Ret (b i s) I) {s : σ} (hs : I s) : Ret (forP n s b) I := by
  unfold forP
  generalize List.range n = l
  induction l generalizing s with
  | nil => exact Ret.ok hs
  | cons i l ih =>
    simp only [List.foldlM_cons]
    exact (hI i s hs).bind fun s' h' => ih h'

theorem loop_eq {c : σ → Bool} {b b' : σ → Prog σ} (I : σ → Prop) (hb : ∀ s, I s → b s = b' s)
    (hI : ∀ s, I s → Ret (b' s) I) : ∀ (fuel : Nat) {s : σ}, I s → loop c b fuel s = loop c b' fuel s
  | 0, _, _ => rfl
  | fuel + 1, s, hs => by
    unfold loop
    split
    · exact bind_eq I (hb s hs) (hI s hs) fun s' h' => loop_eq I hb hI fuel h'
    · rfl

theorem loop_ret {c : σ → Bool} {b : σ → Prog σ} (I : σ → Prop)
    (hI : ∀ s, I s → Ret (b s) I) : ∀ (fuel : Nat) {s : σ}, I s → Ret (loop c b fuel s) I
  | 0, s, hs => by
    unfold loop
    split
    · exact Ret.error
    · exact Ret.ok hs
  | fuel + 1, s, hs => by
    unfold loop
    split
    · exact (hI s hs).bind fun s' h' => loop_ret I hI fuel h'
    · exact Ret.ok hs

/-! ### Every call returns a consistent container -/

theorem exec_ok {x : Outcome σ} {s : σ} (h : exec x = .ok s) : x = .done s := by
  cases x <;> first | (cases h; done) | (cases h; rfl)

theorem MCall.ret (c : MCall γ τ ζ) (o : MOut γ τ ζ μ) (ho : o.WF) (hg : c.Good o.C.nrows o.C.ncols) :
    Ret (exec (c.run o)) fun C' => C'.WF ∧ C'.nrows = o.C.nrows ∧ C'.ncols = o.C.ncols := by
  intro C' e
  rcases C08_matrix_call_returns_or_throws_partial c o ho hg with ⟨C'', e', h⟩ | ⟨x, _, e'⟩
  · rw [exec_ok e] at e'; cases e'; exact h
  · rw [exec_ok e] at e'; cases e'

theorem VCall.ret (c : VCall γ τ ζ) (o : VOut γ τ ζ μ) (ho : o.WF) (hg : c.Good o.w.size) :
    Ret (exec (c.run o)) fun w' => w'.WF ∧ w'.size = o.w.size := by
  intro C' e
  rcases C08_vector_call_returns_or_throws_partial c o ho hg with ⟨C'', e', h⟩ | ⟨x, _, e'⟩
  · rw [exec_ok e] at e'; cases e'; exact h
  · rw [exec_ok e] at e'; cases e'

theorem Ret.imp {m : Prog σ} {P Q : σ → Prop} (h : Ret m P) (hi : ∀ s, P s → Q s) : Ret m Q :=
  fun s e => hi s (h s e)

theorem BVec.new_ret [Inhabited α] (n : Nat) : Ret (lift (BVec.new n : Except Err (BVec α))) BVec.WF :=
  Ret.lift fun _ e => (ReachV.wf (.new n _ e)).1

theorem setElement_ret (A : Lil α) (i j : Nat) (x : α) (hA : A.WF) :
    Ret (lift (method (A.setElement i j x))) Lil.WF := by
  refine Ret.method ?_
  have := (msim_step (a := ⟨A.nrows, A.ncols, A.get⟩) ⟨hA, rfl, rfl, fun _ _ => rfl⟩ (.set i j x)).2.wf
  simp only [Lil.call] at this
  generalize A.setElement i j x = y at *
  obtain ⟨r, B⟩ := y
  cases r <;> exact this

theorem buildArrays_ret (A : Lil α) (dup : α → α → α) (is js : List Nat) (xs : List α) (hA : A.WF) :
    Ret (lift (method (A.buildArrays dup is js xs))) Lil.WF := by
  refine Ret.method ?_
  unfold Lil.buildArrays
  repeat (first | split | exact hA | exact build_wf _ _ _ hA)

theorem diag_ret [Inhabited α] (c : α → β) (v : BVec α) : Ret (lift (diag c v)) Lil.WF := by
  unfold diag
  cases vecTuples v with
  | error e => exact Ret.error
  | ok ts => exact Ret.method (build_wf _ _ _ (Lil.new_wf _ _))

theorem scaledIdentity_ret (n : Nat) (x : α) : Ret (lift (scaledIdentity n x)) Lil.WF :=
  buildArrays_ret _ _ _ _ _ (Lil.new_wf _ _)

theorem split_ret [Inhabited α] (A L U : Lil α) (hL : L.WF) (hU : U.WF) :
    Ret (lift (split A L U)) fun q => q.1.WF ∧ q.2.WF := by
  unfold split
  cases matTuples A with
  | error e => exact Ret.error
  | ok ts =>
    have h1 := build_wf (fun _ y => y) (splitLoop ts).1 L hL
    have h2 := build_wf (fun _ y => y) (splitLoop ts).2 U hU
    show Ret (lift (method (L.build (fun _ y => y) (splitLoop ts).1) >>= fun L =>
      method (U.build (fun _ y => y) (splitLoop ts).2) >>= fun U => .ok (L, U))) _
    generalize L.build (fun _ y => y) (splitLoop ts).1 = x at *
    generalize U.build (fun _ y => y) (splitLoop ts).2 = y at *
    obtain ⟨r1, L1⟩ := x
    obtain ⟨r2, U1⟩ := y
    cases r1 with
    | error e1 => exact Ret.error
    | ok _ =>
      cases r2 with
      | error e2 => exact Ret.error
      | ok _ => exact Ret.ok ⟨h1, h2⟩

/-! ### `mxm` on both backends -/

namespace Opt

theorem maskArg_at (M : MMask μ) (C : Lil γ) : (maskArg M : ArgMask γ μ).at C = M := by
  rcases M with _ | ⟨k, M⟩ <;> rfl

/-- One of the operands is not a transpose view, and for `A * transpose(B)` without mask
the rows of `C` are empty where those of `A` are. -/
structure Easy (C : Lil γ) (M : ArgMask γ μ) (A : ArgOperand γ α) (B : ArgOperand γ β) : Prop where
  one : (A.at C).isTr → (B.at C).isTr → False
  stale : M = none → ∀ a b, A = .plain a → B = .tr b → b.isC = true ∨
    ∀ i, (∀ j, (a.at C).get i j = none) → ∀ j, C.get i j = none

theorem Easy.plain {C : Lil γ} {M : ArgMask γ μ} {A : ArgOperand γ α} {b : Arg γ β} : Easy C M A (.plain b) :=
  ⟨fun _ h => h.elim, fun _ _ _ _ e => by cases e⟩

theorem Easy.masked {C : Lil γ} {M : ArgMask γ μ} {a : Arg γ α} {B : ArgOperand γ β} (hM : M ≠ none) :
    Easy C M (.plain a) B := ⟨fun h => h.elim, fun h => (hM h).elim⟩

theorem Easy.same {C : Lil γ} {M : ArgMask γ μ} {B : ArgOperand γ β} : Easy C M (.plain .same) B :=
  ⟨fun h => h.elim, fun _ _ _ e _ => by cases e; exact .inr fun i h => h⟩

theorem mxm_eq [Inhabited α] [Inhabited τ] [Inhabited ζ] {o : MOut γ τ ζ μ} {sr : SR α β τ} {via : τ → τ}
    {A : ArgOperand γ α} {B : ArgOperand γ β} {M : ArgMask γ μ} {c : τ → ζ} (hc : o.acc = .none c)
    (hM : M.at o.C = o.M) (ho : o.WF) (hA : (A.at o.C).WF) (hB : (B.at o.C).WF) (he : Easy o.C M A B) :
    Opt.mxm o sr via A B M = GBTL.mxm o sr via (A.at o.C) (B.at o.C) := by
  obtain ⟨C, M', truthy, acc, castZ, outp⟩ := o
  cases hc
  dsimp only at hM
  subst hM
  unfold Opt.mxm
  rw [C28_backends_agree_partial (cast := c) (sr := sr) (via := via)
    ⟨fun _ _ => rfl, fun _ _ h => (by cases h), fun _ _ h => (by cases h), fun _ _ h => (by cases h),
      fun _ _ _ _ h => (by cases h)⟩ ho.out ho.mask hA hB (fun h _ => he.stale h) rfl rfl
    (fun h1 h2 => (he.one h1 h2).elim), mxmShared_eq ho.out ho.mask hA hB]
  rfl

theorem mxmAcc_eq [Inhabited T] {o : MOut T T T μ} {acc : T → T → T} {sr : SR T T T} {via : T → T}
    {A B : ArgOperand T T} {M : ArgMask T μ} (hc : o.acc = .some acc id id) (hz : o.castZ = id)
    (hM : M.at o.C = o.M) (ho : o.WF) (hA : (A.at o.C).WF) (hB : (B.at o.C).WF) (he : Easy o.C M A B) :
    Opt.mxmAcc o acc sr A B M = GBTL.mxm o sr via (A.at o.C) (B.at o.C) := by
  obtain ⟨C, M', truthy, acc', castZ, outp⟩ := o
  cases hc
  cases hz
  dsimp only at hM
  subst hM
  unfold Opt.mxmAcc
  rw [C28_backends_agree_partial (cast := id) (sr := sr) (via := via)
    ⟨fun h => (by cases h), fun _ a h => (by cases h; exact fun _ => rfl), fun _ a h => (by cases h; exact fun _ => rfl),
      fun _ a h => (by cases h; exact fun _ _ => rfl), fun _ _ a _ h => (by cases h; exact fun _ _ _ _ => rfl)⟩
    ho.out ho.mask hA hB (fun _ h => by cases h) rfl rfl
    (fun h1 h2 => (he.one h1 h2).elim), mxmShared_eq ho.out ho.mask hA hB]
  rfl

end Opt
end GBTL

namespace GBTL
open Spec (Outp MaskKind Accum)

variable {α β γ τ ζ μ : Type}

theorem MOut.WF.of0 {o : MOut γ τ ζ μ} (h : o.C.WF) (e : o.M = none) : o.WF :=
  ⟨h, fun k M e' => by rw [e] at e'; cases e'⟩

theorem MOut.WF.of1 {o : MOut γ τ ζ μ} {k : MaskKind} {M : Lil μ} (h : o.C.WF) (e : o.M = some (k, M)) (hM : M.WF) :
    o.WF := ⟨h, fun k M e' => by rw [e] at e'; cases e'; exact hM⟩

theorem VOut.WF.of0 {o : VOut γ τ ζ μ} (h : o.w.WF) (e : o.m = none) : o.WF :=
  ⟨h, fun k M e' => by rw [e] at e'; cases e'⟩

theorem VOut.WF.of1 {o : VOut γ τ ζ μ} {k : MaskKind} {m : BVec μ} (h : o.w.WF) (e : o.m = some (k, m)) (hM : m.WF) :
    o.WF := ⟨h, fun k M e' => by rw [e] at e'; cases e'; exact hM⟩

/-! The calls of the algorithms return consistent containers. -/

theorem mxm_ret {o : MOut γ τ ζ μ} {sr : SR α β τ} {via : τ → τ} {A : Operand α} {B : Operand β} (ho : o.WF)
    (hA : A.WF) (hB : B.WF) : Ret (exec (mxm o sr via A B)) Lil.WF :=
  (MCall.ret (.mxm sr via A B) o ho ⟨hA, hB⟩).imp fun _ h => h.1

theorem eWiseAddM_ret {o : MOut γ τ ζ μ} {f : EW α β τ} {A : Operand α} {B : Operand β} (ho : o.WF)
    (hA : A.WF) (hB : B.WF) : Ret (exec (eWiseAddM o f A B)) Lil.WF :=
  (MCall.ret (.eWiseAdd f A B) o ho ⟨hA, hB⟩).imp fun _ h => h.1

theorem eWiseMultM_ret {o : MOut γ τ ζ μ} {f : EW α β τ} {A : Operand α} {B : Operand β} (ho : o.WF)
    (hA : A.WF) (hB : B.WF) : Ret (exec (eWiseMultM o f A B)) Lil.WF :=
  (MCall.ret (.eWiseMult f A B) o ho ⟨hA, hB⟩).imp fun _ h => h.1

theorem applyM_ret {o : MOut γ τ ζ μ} {f : α → τ} {A : Operand α} (ho : o.WF) (hA : A.WF) :
    Ret (exec (applyM o f A)) Lil.WF :=
  (MCall.ret (.apply f A) o ho hA).imp fun _ h => h.1

theorem extractM_ret {o : MOut γ τ ζ μ} {A : Operand τ} {ri ci : Idx} (ho : o.WF) (hA : A.WF) :
    Ret (exec (extractM o A ri ci)) Lil.WF :=
  (MCall.ret (.extract A ri ci) o ho hA).imp fun _ h => h.1

theorem assignConstM_ret {o : MOut γ τ ζ μ} {keep : γ → ζ} {x : τ} (ho : o.WF) :
    Ret (exec (assignConstM o keep x .all .all)) Lil.WF :=
  (MCall.ret (.assignConst keep x .all .all) o ho trivial).imp fun _ h => h.1

theorem vxm_ret {o : VOut γ τ ζ μ} {sr : SR α β τ} {u : BVec α} {A : Operand β} (ho : o.WF)
    (hu : u.WF) (hA : A.WF) : Ret (exec (vxm o sr u A)) BVec.WF :=
  (VCall.ret (.vxm sr u A) o ho ⟨hu, hA⟩).imp fun _ h => h.1

theorem mxv_ret {o : VOut γ τ ζ μ} {sr : SR α β τ} {A : Operand α} {u : BVec β} (ho : o.WF)
    (hA : A.WF) (hu : u.WF) : Ret (exec (mxv o sr A u)) BVec.WF :=
  (VCall.ret (.mxv sr A u) o ho ⟨hA, hu⟩).imp fun _ h => h.1

theorem eWiseAddV_ret {o : VOut γ τ ζ μ} {f : EW α β τ} {u : BVec α} {v : BVec β} (ho : o.WF)
    (hu : u.WF) (hv : v.WF) : Ret (exec (eWiseAddV o f u v)) BVec.WF :=
  (VCall.ret (.eWiseAdd f u v) o ho ⟨hu, hv⟩).imp fun _ h => h.1

theorem eWiseMultV_ret {o : VOut γ τ ζ μ} {f : EW α β τ} {u : BVec α} {v : BVec β} (ho : o.WF)
    (hu : u.WF) (hv : v.WF) : Ret (exec (eWiseMultV o f u v)) BVec.WF :=
  (VCall.ret (.eWiseMult f u v) o ho ⟨hu, hv⟩).imp fun _ h => h.1

theorem applyV_ret {o : VOut γ τ ζ μ} {f : α → τ} {u : BVec α} (ho : o.WF) (hu : u.WF) :
    Ret (exec (applyV o f u)) BVec.WF :=
  (VCall.ret (.apply f u) o ho hu).imp fun _ h => h.1

theorem reduceMV_ret {o : VOut γ τ ζ μ} {r : RedOp α τ} {A : Operand α} (ho : o.WF) (hA : A.WF)
    (hr : ∀ x y, r.op x y = r.op' (r.first x) y) : Ret (exec (reduceMV o r A)) BVec.WF :=
  (VCall.ret (.reduce r A) o ho ⟨hA, hr⟩).imp fun _ h => h.1

theorem extractC_ret {o : VOut γ τ ζ μ} {A : Operand τ} {ri : Idx} {j : Nat} (ho : o.WF) (hA : A.WF) :
    Ret (exec (extractC o A ri j)) BVec.WF :=
  (VCall.ret (.extractCol A ri j) o ho hA).imp fun _ h => h.1

theorem assignConstV_ret {o : VOut γ τ ζ μ} {keep : γ → ζ} {x : τ} {ix : Idx} (ho : o.WF) (hi : ix.ascending) :
    Ret (exec (assignConstV o keep x ix)) BVec.WF :=
  (VCall.ret (.assignConst keep x ix) o ho hi).imp fun _ h => h.1

end GBTL

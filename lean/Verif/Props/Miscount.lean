import Verif.Spec.Miscount
import Verif.Props.General
import Verif.Props.Shapes
import Verif.Model.Utils
/-
**C95** What operations do with vectors that report a wrong number of elements.
-/
namespace GBTL
open Spec (Outp MaskKind Accum VecCall Ans AVec runCalls overReport)

variable {α β γ τ ζ μ : Type}

/-! ### the count is not looked at -/

theorem BVec.Sized.recount_wf {v : BVec α} (h : v.Sized) : v.recount.WF :=
  ⟨h.vlen, h.blen, (BVec.countBits_eq_count h.vlen h.blen).symm⟩

theorem BVec.Sized.clear_wf {v : BVec α} (h : v.Sized) : v.clear.WF := BVec.clear_wf h.vlen

@[simp] theorem BVec.get_recount (v : BVec α) (i : Nat) : v.recount.get i = v.get i := rfl
@[simp] theorem BVec.size_recount (v : BVec α) : v.recount.size = v.size := rfl

theorem BVec.contentsLoop_recount (v : BVec α) : ∀ is, BVec.contentsLoop v.recount is = BVec.contentsLoop v is
  | [] => rfl
  | i :: is => by
    rw [BVec.contentsLoop, BVec.contentsLoop, contentsLoop_recount v is]
    rfl

theorem BVec.getContents_recount (v : BVec α) : v.recount.getContents = v.getContents :=
  BVec.contentsLoop_recount v _

theorem BVec.setContents_recount (v : BVec α) (cast : β → α) (z : Row β) : v.recount.setContents cast z = v.setContents cast z := rfl

theorem write_recount (truthy : μ → Bool) (castZ : ζ → γ) (w : BVec γ) (z : Row ζ) (m : VMask μ) (outp : Outp) :
    writeWithOptMask1D truthy castZ w.recount z (VMask.recount m) outp = writeWithOptMask1D truthy castZ w z m outp := by
  cases m with
  | none => rfl
  | some p =>
    show (do
      let c ← w.recount.getContents
      let mc ← p.2.recount.getContents
      w.recount.setContents id (applyWithMask id castZ outp c z (maskRow truthy p.1 p.2.recount.size mc))) = _
    rw [BVec.getContents_recount, BVec.getContents_recount]
    rfl

theorem accum_recount (w : BVec γ) (t : Row τ) (acc : Accum γ τ ζ) : ewiseOrOptAccum1D w.recount t acc = ewiseOrOptAccum1D w t acc := by
  cases acc with
  | some op cC cT => unfold ewiseOrOptAccum1D; rw [BVec.getContents_recount]
  | none cs => rfl

theorem stencil_recount (keep : γ → ζ) (w : BVec γ) (t : Row τ) (ix : Idx) (acc : Accum γ τ ζ) :
    ewiseOrStencilOptAccum1D keep w.recount t ix acc = ewiseOrStencilOptAccum1D keep w t ix acc := by
  cases acc <;> (unfold ewiseOrStencilOptAccum1D; rw [BVec.getContents_recount])

theorem sizeCheck_recount (m : VMask μ) (n : Nat) : (VMask.recount m).sizeCheck n = m.sizeCheck n := by
  cases m <;> rfl

/-- The outcome with `w` for the object that is left after an exception. -/
def Outcome.keeping {σ : Type} (w : σ) : Outcome σ → Outcome σ
  | .threw e _ => .threw e w
  | r => r

theorem call_keeping {σ : Type} (w : σ) (r : Outcome σ) : call (r.keeping w) = call r := by cases r <;> rfl

theorem call_run_congr {ρ σ : Type} {s s' : σ} {pre pre' : Except Err ρ} {post post' : ρ → Except Err σ} (h : pre = pre') (h' : post = post') :
    run s pre post = (run s' pre' post').keeping s := by
  subst h h'
  cases pre with
  | ok z =>
    show finish (post z) = (finish (post z)).keeping s
    cases post z with
    | ok _ => rfl
    | error e => cases e <;> rfl
  | error e => cases e <;> rfl

theorem op_recount (o : VOut γ τ ζ μ) {c : Except Err Unit} {t t' : Except Err (Row τ)} (h : c = .ok () → t = t') :
    o.op c t = (o.recount.op c t').keeping o.w := by
  unfold VOut.op
  refine call_run_congr ?_ ?_
  · cases c with
    | error e => rfl
    | ok _ =>
      rw [h rfl]
      simp only [bind, Except.bind]
      cases t' with
      | error e => rfl
      | ok t => exact (accum_recount o.w t o.acc).symm
  · funext z
    exact (write_recount o.truthy o.castZ o.w z o.m o.outp).symm

theorem opStencil_recount (o : VOut γ τ ζ μ) (keep : γ → ζ) (ix : List Nat) {c : Except Err Unit} {t t' : Except Err (Row τ)}
    (h : t = t') : o.opStencil keep ix c t = (o.recount.opStencil keep ix c t').keeping o.w := by
  subst h
  unfold VOut.opStencil
  refine call_run_congr ?_ ?_
  · cases c with
    | error e => rfl
    | ok _ =>
      simp only [bind, Except.bind]
      cases t with
      | error e => rfl
      | ok t => exact (stencil_recount keep o.w t _ o.acc).symm
  · funext z
    exact (write_recount o.truthy o.castZ o.w z o.m o.outp).symm

/-! ### a vector without elements that reports some -/

theorem BVec.none_of_count {v : BVec α} (h : v.Sized) (h0 : Spec.Vec.count v.size v.get = 0) (i : Nat) : v.get i = none := by
  by_cases hi : i < v.size
  · rw [Spec.Vec.count, List.length_eq_zero_iff, List.filter_eq_nil_iff] at h0
    have := h0 i (List.mem_range.2 hi)
    cases hg : v.get i with
    | none => rfl
    | some x => rw [hg] at this; exact absurd rfl this
  · exact h.recount_wf.get_none (v := v.recount) (by simpa using hi)

theorem BVec.contents_of_count {v : BVec α} (h : v.Sized) (h0 : Spec.Vec.count v.size v.get = 0) : v.getContents = .ok [] := by
  rw [BVec.getContents, BVec.contentsLoop_eq h.vlen h.blen _ fun i hi => List.mem_range.1 hi]
  congr 1
  rw [List.filterMap_eq_nil_iff]
  intro i _
  rw [BVec.none_of_count h h0]; rfl

theorem BVec.contents_clear {v : BVec α} (h : v.Sized) : v.clear.getContents = .ok [] := by
  have := BVec.getContents_eq h.clear_wf
  rw [this]
  congr 1
  rw [Row.ofFun, List.filterMap_eq_nil_iff]
  intro i _
  rw [BVec.get_clear]; rfl

theorem forN_id {σ : Type} {n : Nat} {s : σ} {b : Nat → σ → Except Err σ} (h : ∀ i, i < n → b i s = .ok s) : forN n s b = .ok s := by
  obtain ⟨s', e, rfl⟩ := forN_inv (n := n) (s := s) (body := b) (fun _ t => t = s) rfl
    (fun i t hi ht => ⟨s, by rw [ht]; exact h i hi, rfl⟩)
  exact e

theorem BVec.size_believed (v : BVec α) : v.believed.size = v.size := by
  unfold BVec.believed; split <;> rfl

theorem BVec.believed_wf {v : BVec α} (h : v.Sized) : v.believed.WF := by
  unfold BVec.believed
  split
  · exact h.clear_wf
  · exact h.recount_wf

/-- How a vector is believed: nothing is reported, or there is nothing, or there is something
and it is reported. -/
theorem BVec.believed_cases (v : BVec α) :
    (v.nvals = 0 ∧ v.believed = v.clear) ∨ (0 < v.nvals ∧ v.believed = v.recount ∧ Spec.Vec.count v.size v.get = 0) ∨
    (0 < v.nvals ∧ v.believed = v.recount ∧ 0 < Spec.Vec.count v.size v.get) := by
  unfold BVec.believed
  by_cases h : v.nvals = 0
  · exact .inl ⟨h, if_pos h⟩
  · rw [if_neg h]
    by_cases h0 : Spec.Vec.count v.size v.get = 0
    · exact .inr (.inl ⟨by omega, rfl, h0⟩)
    · exact .inr (.inr ⟨by omega, rfl, by omega⟩)

theorem vxmA_believed (add : τ → τ → τ) (mult : β → α → τ) {u : BVec β} (hu : u.Sized) (A : Lil α) :
    vxmA add mult u.believed A = vxmA add mult u A := by
  unfold vxmA
  rcases u.believed_cases with ⟨h, e⟩ | ⟨h, e, h0⟩ | ⟨h, e, h0⟩
  · rw [e, if_neg (by simp [BVec.clear]), if_neg (by simp [h])]
  · rw [e, if_neg (by simp [BVec.recount, h0])]
    by_cases hA : A.nvals > 0
    · rw [if_pos (by simp [h, hA])]
      refine (forN_id fun i hi => ?_).symm
      have hb : u.hasElement i = .ok false := by
        rw [BVec.hasElement, if_neg (by omega), BVec.rd_bitmap hu.vlen hu.blen hi, BVec.none_of_count hu h0]; rfl
      rw [hb]; rfl
    · rw [if_neg (by simp [hA])]
  · rw [e]
    have : (decide (A.nvals > 0) && decide (u.recount.nvals > 0)) = (decide (A.nvals > 0) && decide (u.nvals > 0)) := by
      simp [BVec.recount, h, h0]
    rw [this]
    rfl

theorem mxvA_believed {w : BVec γ} (add : τ → τ → τ) (mult : α → β → τ) {A : Lil α} {u : BVec β} (hu : u.Sized) (hA : A.WF)
    (hw : w.size = A.nrows) : mxvA w.recount add mult A u.believed = mxvA w add mult A u := by
  unfold mxvA
  rcases u.believed_cases with ⟨h, e⟩ | ⟨h, e, h0⟩ | ⟨h, e, h0⟩
  · rw [e, if_neg (by simp [BVec.clear]), if_neg (by simp [h])]
  · rw [e, if_neg (by simp [BVec.recount, h0])]
    by_cases hA' : A.nvals > 0
    · rw [if_pos (by simp [h, hA']), BVec.contents_of_count hu h0]
      refine (forN_id fun i hi => ?_).symm
      rw [hA.toWFr.row_ok (by omega)]
      simp [bind, Except.bind, dotRev, emplaceIf1D]
    · rw [if_neg (by simp [hA'])]
  · rw [e, BVec.getContents_recount]
    have : (decide (A.nvals > 0) && decide (u.recount.nvals > 0)) = (decide (A.nvals > 0) && decide (u.nvals > 0)) := by
      simp [BVec.recount, h, h0]
    rw [this]
    rfl

theorem vxmAT_believed {w : BVec γ} (add : τ → τ → τ) (mult : β → α → τ) {A : Lil α} {u : BVec β} (hu : u.Sized) (hA : A.WF)
    (hw : w.size = A.nrows) : vxmAT w.recount add mult u.believed A = vxmAT w add mult u A := by
  unfold vxmAT
  rcases u.believed_cases with ⟨h, e⟩ | ⟨h, e, h0⟩ | ⟨h, e, h0⟩
  · rw [e, if_neg (by simp [BVec.clear]), if_neg (by simp [h])]
  · rw [e, if_neg (by simp [BVec.recount, h0])]
    by_cases hA' : A.nvals > 0
    · rw [if_pos (by simp [h, hA']), BVec.contents_of_count hu h0]
      refine (forN_id fun i hi => ?_).symm
      rw [hA.toWFr.row_ok (by omega)]
      simp [bind, Except.bind, dot, emplaceIf1D]
    · rw [if_neg (by simp [hA'])]
  · rw [e, BVec.getContents_recount]
    have : (decide (A.nvals > 0) && decide (u.recount.nvals > 0)) = (decide (A.nvals > 0) && decide (u.nvals > 0)) := by
      simp [BVec.recount, h, h0]
    rw [this]
    rfl

theorem applyVec_believed (op : α → τ) {u : BVec α} (hu : u.Sized) : applyVec op u.believed = applyVec op u := by
  unfold applyVec
  rcases u.believed_cases with ⟨h, e⟩ | ⟨h, e, h0⟩ | ⟨h, e, h0⟩
  · rw [e, if_neg (by simp [BVec.clear]), if_neg (by simp [h])]
  · rw [e, if_neg (by simp [BVec.recount, h0]), if_pos h, BVec.contents_of_count hu h0]; rfl
  · rw [e, BVec.getContents_recount, if_pos h, if_pos (by simpa [BVec.recount] using h0)]

theorem ewiseMultVec_believed (op : α → β → τ) {u : BVec α} {v : BVec β} (hu : u.Sized) (hv : v.Sized) :
    ewiseMultVec op u.believed v.believed = ewiseMultVec op u v := by
  have hnil1 : ∀ r : Row β, ewiseAnd op [] r = [] := fun r => by rw [ewiseAnd]
  have hnil2 : ∀ r : Row α, ewiseAnd op r [] = [] := fun r => by cases r <;> rw [ewiseAnd]; simp
  unfold ewiseMultVec
  rcases u.believed_cases with ⟨h, e⟩ | ⟨h, e, h0⟩ | ⟨h, e, h0⟩
  · rw [e, if_neg (by simp [BVec.clear]), if_neg (by simp [h])]
  · rw [e, if_neg (by simp [BVec.recount, h0])]
    split
    · rw [BVec.contents_of_count hu h0]
      obtain ⟨r, er, -⟩ := BVec.getContents_spec hv.recount_wf
      rw [BVec.getContents_recount] at er
      rw [er]
      simp only [bind, Except.bind, hnil1]
    · rfl
  · rw [e]
    rcases v.believed_cases with ⟨k, e'⟩ | ⟨k, e', k0⟩ | ⟨k, e', k0⟩
    · rw [e', if_neg (by simp [BVec.clear]), if_neg (by simp [k])]
    · rw [e', if_neg (by simp [BVec.recount, k0]), if_pos (by simp [h, k]), BVec.contents_of_count hv k0]
      obtain ⟨r, er, -⟩ := BVec.getContents_spec hu.recount_wf
      rw [BVec.getContents_recount] at er
      rw [er]
      simp only [bind, Except.bind, hnil2]
    · rw [e', if_pos (by simpa [BVec.recount] using ⟨h0, k0⟩), if_pos (by simp [h, k]), BVec.getContents_recount, BVec.getContents_recount]

theorem ewiseAddVec_recount (op : α → β → τ) (c1 : α → τ) (c2 : β → τ) {u : BVec α} {v : BVec β} (hu : u.Sized) (hv : v.Sized)
    (h : ¬ (u.nvals = 0 ∧ v.nvals = 0)) : ewiseAddVec op c1 c2 u.recount v.recount = ewiseAddVec op c1 c2 u v := by
  unfold ewiseAddVec
  rw [if_pos (show (decide (u.nvals > 0) || decide (v.nvals > 0)) = true by simp; omega), BVec.getContents_recount, BVec.getContents_recount]
  split
  · rfl
  · next h' =>
    simp only [BVec.recount, gt_iff_lt, Bool.or_eq_true, decide_eq_true_eq, not_or, Nat.not_lt, Nat.le_zero] at h'
    rw [BVec.contents_of_count hu h'.1, BVec.contents_of_count hv h'.2]
    simp only [bind, Except.bind, ewiseOr]

theorem reduceVec_believed (op : α → α → τ) (op' : τ → α → τ) (cast1 : α → τ) (e : τ) {u : BVec α} (hu : u.Sized) :
    reduceVec op op' cast1 e u.believed = reduceVec op op' cast1 e u := by
  unfold reduceVec
  rcases u.believed_cases with ⟨h, e⟩ | ⟨h, e, h0⟩ | ⟨h, e, h0⟩
  · rw [e, if_neg (by simp [BVec.clear]), if_neg (by simp [h])]
  · rw [e, if_neg (by simp [BVec.recount, h0]), if_pos h, BVec.contents_of_count hu h0]; rfl
  · rw [e, BVec.getContents_recount, if_pos h, if_pos (by simpa [BVec.recount] using h0)]

/-! ### every operation -/

theorem vcall_run_recount (c : VCall γ τ ζ) (o : VOut γ τ ζ μ) (hc : c.Sized) :
    c.run o = (c.asSeen.run o.recount).keeping o.w := by
  have hm := sizeCheck_recount o.m o.w.size
  cases c with
  | vxm sr u A =>
    show vxm o sr u A = (vxm o.recount sr u.believed A).keeping o.w
    unfold vxm
    rw [show (VOut.recount o).m.sizeCheck (VOut.recount o).w.size = o.m.sizeCheck o.w.size from hm, BVec.size_believed]
    refine op_recount o fun h => ?_
    have hs : VxmShapes o u A := Classical.byContradiction fun hs => by rw [(dim_vxm o u A).err hs] at h; cases h
    cases A with
    | plain A => exact (vxmA_believed _ _ hc.1 A).symm
    | tr A => exact (vxmAT_believed _ _ hc.1 hc.2 hs.out).symm
  | mxv sr A u =>
    show mxv o sr A u = (mxv o.recount sr A u.believed).keeping o.w
    unfold mxv
    rw [show (VOut.recount o).m.sizeCheck (VOut.recount o).w.size = o.m.sizeCheck o.w.size from hm, BVec.size_believed]
    refine op_recount o fun h => ?_
    have hs : MxvShapes o A u := Classical.byContradiction fun hs => by rw [(dim_mxv o A u).err hs] at h; cases h
    cases A with
    | plain A => exact (mxvA_believed _ _ hc.1 hc.2 hs.out).symm
    | tr A => exact (vxmA_believed _ _ hc.1 A).symm
  | eWiseAdd f u v =>
    by_cases h : u.nvals = 0 ∧ v.nvals = 0
    · rw [show (VCall.eWiseAdd f u v : VCall γ τ ζ).asSeen = .eWiseAdd f u.clear v.clear from if_pos h]
      show eWiseAddV o f u v = (eWiseAddV o.recount f u.clear v.clear).keeping o.w
      unfold eWiseAddV VOut.checks2
      rw [show (VOut.recount o).m.sizeCheck (VOut.recount o).w.size = o.m.sizeCheck o.w.size from hm]
      refine op_recount o fun _ => ?_
      unfold ewiseAddVec
      rw [if_neg (by simp [h.1, h.2]), if_neg (by simp [BVec.clear])]
    · rw [show (VCall.eWiseAdd f u v : VCall γ τ ζ).asSeen = .eWiseAdd f u.recount v.recount from if_neg h]
      show eWiseAddV o f u v = (eWiseAddV o.recount f u.recount v.recount).keeping o.w
      unfold eWiseAddV VOut.checks2
      rw [show (VOut.recount o).m.sizeCheck (VOut.recount o).w.size = o.m.sizeCheck o.w.size from hm]
      exact op_recount o fun _ => (ewiseAddVec_recount _ _ _ hc.1 hc.2 h).symm
  | eWiseMult f u v =>
    show eWiseMultV o f u v = (eWiseMultV o.recount f u.believed v.believed).keeping o.w
    unfold eWiseMultV VOut.checks2
    rw [show (VOut.recount o).m.sizeCheck (VOut.recount o).w.size = o.m.sizeCheck o.w.size from hm, BVec.size_believed, BVec.size_believed]
    exact op_recount o fun _ => (ewiseMultVec_believed _ hc.1 hc.2).symm
  | apply f u =>
    show applyV o f u = (applyV o.recount f u.believed).keeping o.w
    unfold applyV
    rw [show (VOut.recount o).m.sizeCheck (VOut.recount o).w.size = o.m.sizeCheck o.w.size from hm, BVec.size_believed]
    exact op_recount o fun _ => (applyVec_believed _ hc).symm
  | reduce r A =>
    show reduceMV o r A = (reduceMV o.recount r A).keeping o.w
    unfold reduceMV
    rw [show (VOut.recount o).m.sizeCheck (VOut.recount o).w.size = o.m.sizeCheck o.w.size from hm]
    exact op_recount o fun _ => rfl
  | extract u ix =>
    show extractV o u ix = (extractV o.recount u.recount ix).keeping o.w
    unfold extractV extractVec
    rw [show (VOut.recount o).m.sizeCheck (VOut.recount o).w.size = o.m.sizeCheck o.w.size from hm, BVec.getContents_recount]
    exact op_recount o fun _ => rfl
  | extractCol A ri j =>
    show extractC o A ri j = (extractC o.recount A ri j).keeping o.w
    unfold extractC
    rw [show (VOut.recount o).m.sizeCheck (VOut.recount o).w.size = o.m.sizeCheck o.w.size from hm]
    refine op_recount o fun _ => ?_
    cases A <;> rfl
  | assign keep u ix =>
    show assignV o keep u ix = (assignV o.recount keep u.recount ix).keeping o.w
    unfold assignV assignVec
    rw [show (VOut.recount o).m.sizeCheck (VOut.recount o).w.size = o.m.sizeCheck o.w.size from hm, BVec.getContents_recount]
    exact opStencil_recount o keep _ rfl
  | assignConst keep x ix =>
    show assignConstV o keep x ix = (assignConstV o.recount keep x ix).keeping o.w
    unfold assignConstV
    rw [show (VOut.recount o).m.sizeCheck (VOut.recount o).w.size = o.m.sizeCheck o.w.size from hm]
    exact opStencil_recount o keep _ rfl

/-- **C95** Every operation on vectors, with any mask and any accumulator, does exactly what it
does with the vectors that its operands are taken for, which report the right number of
elements: the same vector is returned, or the same exception thrown; after an exception, the
output is as it was. -/
theorem C95_every_operation (c : VCall γ τ ζ) (o : VOut γ τ ζ μ) (hc : c.Sized) :
    call (c.run o) = call (c.asSeen.run o.recount) ∧ ∀ e w, c.run o = .threw e w → w = o.w := by
  rw [vcall_run_recount c o hc]
  refine ⟨call_keeping _ _, fun e w h => ?_⟩
  cases hr : c.asSeen.run o.recount <;> rw [hr] at h <;> cases h
  rfl

/-- **C95** The reduction of a vector to a scalar, likewise. -/
theorem C95_reduce_scalar (castZ : ζ → γ) (acc : Accum γ τ ζ) (r : RedOp α τ) (e : τ) (val : γ) {u : BVec α} (hu : u.Sized) :
    reduceVS castZ acc r e val u = reduceVS castZ acc r e val u.believed := by
  unfold reduceVS
  rw [reduceVec_believed _ _ _ _ hu]

/-- **C95** Assignments to a column and to a row take the vector and the mask for what they
store. -/
theorem C95_assign_column_row [Inhabited γ] (o : LOut γ α ζ μ) (keep : γ → ζ) (u : BVec α) (ix : Idx) (j : Nat) :
    assignCol o keep u ix j = assignCol { o with m := VMask.recount o.m } keep u.recount ix j ∧
    assignRow o keep u j ix = assignRow { o with m := VMask.recount o.m } keep u.recount j ix := by
  have hb : ∀ w, assignBackend o.truthy o.castZ keep o.acc w (VMask.recount o.m) u.recount ix o.outp =
      assignBackend o.truthy o.castZ keep o.acc w o.m u ix o.outp := by
    intro w
    unfold assignBackend assignVec
    rw [BVec.getContents_recount]
    simp only [BVec.size_recount]
    congr 1
    funext t
    congr 1
    funext z
    cases hm : o.m with
    | none => rfl
    | some p =>
      show (do
        let c ← w.getContents
        let mc ← p.2.recount.getContents
        w.setContents id (applyWithMask id o.castZ o.outp c z (maskRow o.truthy p.1 p.2.recount.size mc))) = _
      rw [BVec.getContents_recount]
      rfl
  unfold assignCol assignRow
  dsimp only
  simp only [hb, sizeCheck_recount]
  exact ⟨rfl, rfl⟩

/-- The vectors that the operands are taken for are consistent, if there is a value and a bit
for every index. -/
theorem C95_believed_consistent {v : BVec α} (h : v.Sized) :
    v.recount.WF ∧ v.believed.WF ∧ (∀ i, v.recount.get i = v.get i) ∧
    (∀ i, v.believed.get i = if v.nvals = 0 then none else v.get i) := by
  refine ⟨h.recount_wf, v.believed_wf h, fun _ => rfl, fun i => ?_⟩
  unfold BVec.believed
  split
  · exact BVec.get_clear v i
  · rfl

theorem VCall.asSeen_good {c : VCall γ τ ζ} {n : Nat} (hc : c.Sized) (hl : c.Lists n) : c.asSeen.Good n := by
  cases c with
  | vxm sr u A => exact ⟨u.believed_wf hc.1, hc.2⟩
  | mxv sr A u => exact ⟨hc.2, u.believed_wf hc.1⟩
  | eWiseAdd f u v =>
    by_cases h : u.nvals = 0 ∧ v.nvals = 0
    · rw [show (VCall.eWiseAdd f u v : VCall γ τ ζ).asSeen = .eWiseAdd f u.clear v.clear from if_pos h]
      exact ⟨hc.1.clear_wf, hc.2.clear_wf⟩
    · rw [show (VCall.eWiseAdd f u v : VCall γ τ ζ).asSeen = .eWiseAdd f u.recount v.recount from if_neg h]
      exact ⟨hc.1.recount_wf, hc.2.recount_wf⟩
  | eWiseMult f u v => exact ⟨u.believed_wf hc.1, v.believed_wf hc.2⟩
  | apply f u => exact u.believed_wf hc
  | reduce r A => exact ⟨hc, hl⟩
  | extract u ix => exact hc.recount_wf
  | extractCol A ri j => exact hc
  | assign keep u ix => exact ⟨hc.recount_wf, hl⟩
  | assignConst keep x ix => exact hl

/-- **C95** What an operation returns reports the right number of elements, whatever its
operands, its mask and the vector it wrote to reported. -/
theorem C95_operation_repairs {c : VCall γ τ ζ} {o : VOut γ τ ζ μ} {w' : BVec γ} (hc : c.Sized) (hl : c.Lists o.w.size)
    (hw : o.w.Sized) (hm : ∀ k m, o.m = some (k, m) → m.Sized) (h : c.run o = .done w') :
    c.asSeen.run o.recount = .done w' ∧ w'.WF ∧ w'.nvals = Spec.Vec.count w'.size w'.get := by
  have e := (C95_every_operation c o hc).1
  have hdone : c.asSeen.run o.recount = .done w' := by
    rw [h] at e
    cases hr : c.asSeen.run o.recount with
    | done s => rw [hr] at e; injection e with e; rw [e]
    | threw x s => rw [hr] at e; cases e
    | midway x => rw [hr] at e; cases e
    | ub => rw [hr] at e; cases e
  have hwf : o.recount.WF := by
    refine ⟨hw.recount_wf, fun k m hkm => ?_⟩
    cases hq : o.m with
    | none =>
      have : VMask.recount o.m = some (k, m) := hkm
      rw [hq] at this; cases this
    | some p =>
      have : VMask.recount o.m = some (k, m) := hkm
      rw [hq] at this
      injection this with this
      injection this with h1 h2
      rw [← h2]
      exact (hm p.1 p.2 hq).recount_wf
  obtain ⟨F, -, hF⟩ := c.asSeen.main o.w.size (VCall.asSeen_good hc hl)
  have hh := VCall.of_done (hF μ o.recount hwf rfl) hdone
  exact ⟨hdone, hh.wf, hh.wf.nvals_eq⟩

/-! ### methods -/

/-- A vector that reports `d` elements too many. -/
def BVec.bump (d : Nat) (v : BVec α) : BVec α := { v with nvals := v.nvals + d }

/-- What is left of the surplus after a call. -/
def _root_.Spec.VecCall.surplus (d : Nat) : VecCall α → Nat
  | .clear => 0
  | _ => d

/-- The answer with the surplus. -/
def _root_.Spec.VecCall.over (d : Nat) : VecCall α → Except Err (Ans α) → Except Err (Ans α)
  | .nvals, .ok (.num k) => .ok (.num (k + d))
  | _, a => a

theorem bump_call [Inhabited α] (d : Nat) {v : BVec α} (hv : v.WF) (c : VecCall α) :
    (v.bump d).call c = (c.over d (v.call c).1, ((v.call c).2).bump (c.surplus d)) := by
  obtain ⟨sz, nv, vs, bs⟩ := v
  have hcount : nv = BVec.countBits bs := hv.count
  show BVec.call ⟨sz, nv + d, vs, bs⟩ c = _
  cases c with
  | set i x =>
    simp only [BVec.call, BVec.setElement, BVec.bump, VecCall.over, VecCall.surplus]
    by_cases hi : sz ≤ i
    · rw [if_pos hi, if_pos hi]
    · rw [if_neg hi, if_neg hi]
      cases wr vs i x with
      | error e => rfl
      | ok vals =>
        dsimp only
        cases rd bs i with
        | error e => rfl
        | ok b =>
          cases b
          · simp only [Nat.add_right_comm]
          · rfl
  | remove i =>
    simp only [BVec.call, BVec.removeElement, BVec.bump, VecCall.over, VecCall.surplus]
    by_cases hi : sz ≤ i
    · rw [if_pos hi, if_pos hi]
    · rw [if_neg hi, if_neg hi]
      cases hb : rd bs i with
      | error e => rfl
      | ok b =>
        cases b
        · rfl
        · have h1 : bs[i]? = some true := by
            unfold rd at hb
            split at hb
            · next h => injection hb with hb; rw [h, hb]
            · cases hb
          have h2 := BVec.countBits_set_false h1
          have : nv + d - 1 = nv - 1 + d := by omega
          simp only [this]
  | clear => simp only [BVec.call, BVec.clear, BVec.bump, VecCall.over, VecCall.surplus, Nat.add_zero]
  | resize n =>
    simp only [BVec.call, BVec.resize, BVec.bump, VecCall.over, VecCall.surplus]
    by_cases hn : n = 0
    · rw [if_pos hn, if_pos hn]
    · rw [if_neg hn, if_neg hn]
      simp only [BVec.resizeBackend]
      by_cases h1 : n < sz
      · rw [if_pos h1, if_pos h1]
        dsimp only
        rw [if_neg (show ¬ n < n / 2 by omega), if_neg (show ¬ n < n / 2 by omega)]
        have h2 := BVec.countBits_append (bs.take n) (bs.drop n)
        rw [List.take_append_drop] at h2
        have : nv + d - BVec.countBits (bs.drop n) = nv - BVec.countBits (bs.drop n) + d := by omega
        rw [this]
      · rw [if_neg h1, if_neg h1]
        by_cases h2 : sz < n
        · rw [if_pos h2, if_pos h2]
        · rw [if_neg h2, if_neg h2]
  | has i =>
    simp only [BVec.call, BVec.hasElement, BVec.bump, VecCall.over, VecCall.surplus]
    split <;> rfl
  | extract i =>
    simp only [BVec.call, BVec.extractElement, BVec.bump, VecCall.over, VecCall.surplus]
    split <;> rfl
  | nvals => rfl
  | size => rfl

theorem overReport_cons (d : Nat) (c : VecCall α) (cs : List (VecCall α)) (a : Except Err (Ans α)) (as : List (Except Err (Ans α))) :
    overReport d (c :: cs) (a :: as) = c.over d a :: overReport (c.surplus d) cs as := by
  cases c <;> try rfl
  rcases a with _ | ⟨_ | _ | _ | _⟩ <;> rfl

theorem bump_calls [Inhabited α] : ∀ (cs : List (VecCall α)) (d : Nat) (v : BVec α) (s : AVec α), VSim v s →
    (runCalls BVec.call (v.bump d) cs).1 = overReport d cs (runCalls AVec.step s cs).1
  | [], _, _, _, _ => by rfl
  | c :: cs, d, v, s, h => by
    obtain ⟨h1, h2⟩ := vsim_step h c
    rw [runCalls, runCalls, bump_call d h.wf c]
    dsimp only
    rw [overReport_cons, bump_calls cs _ _ _ h2, h1]

/-- **C95** After `build` with repeated indices, every sequence of method calls is answered as
if each index had been given once with its combined value, except that `nvals` reports as many
elements too many as there were repetitions, until the vector is cleared. -/
theorem C95_methods_after_build [Inhabited α] (v : BVec α) (dup : α → α → α) (ts : List (Nat × α)) (hts : ∀ t ∈ ts, t.1 < v.size)
    (calls : List (VecCall α)) :
    ∃ w, v.build dup ts = (.ok (), w) ∧ w.Sized ∧ Spec.Vec.count w.size w.get ≤ ts.length ∧
      (runCalls BVec.call w calls).1 =
        overReport (ts.length - Spec.Vec.count w.size w.get) calls (runCalls AVec.step ⟨v.size, Spec.combined dup ts⟩ calls).1 := by
  obtain ⟨w, e, hs, l1, l2, hn, hg⟩ := BVec.build_spec v dup ts hts
  have hz : w.Sized := ⟨l1, l2⟩
  have hle : Spec.Vec.count w.size w.get ≤ ts.length := by
    rw [Spec.Vec.count, ← List.length_map (f := Prod.fst) (as := ts)]
    refine List.Nodup.length_le_of_subset (List.Pairwise.filter _ List.nodup_range) fun i hi => ?_
    have hi := (List.mem_filter.1 hi).2
    refine Classical.byContradiction fun hn => ?_
    have hnone : Spec.combined dup ts i = none :=
      combinedFrom_not_mem dup none ts i fun t ht he => hn (List.mem_map.2 ⟨t, ht, he⟩)
    rw [hg, hnone] at hi
    cases hi
  refine ⟨w, e, hz, hle, ?_⟩
  have hw : w = w.recount.bump (ts.length - Spec.Vec.count w.size w.get) := by
    have : w.nvals = Spec.Vec.count w.size w.get + (ts.length - Spec.Vec.count w.size w.get) := by omega
    simp only [BVec.bump, BVec.recount, ← this]
  have := bump_calls calls (ts.length - Spec.Vec.count w.size w.get) w.recount ⟨v.size, Spec.combined dup ts⟩
    ⟨hz.recount_wf, hs, hg⟩
  rw [← hw] at this
  exact this

/-- **C95** A vector made from a size and a value reports no elements. Multiplication,
element-wise multiplication, `apply` and reduction take it for a vector without any. -/
theorem C95_fill_believed_empty {n : Nat} {x : α} {v : BVec α} (h : BVec.newFill n x = .ok v) :
    v.Sized ∧ v.believed = v.clear ∧ (∀ i, v.believed.get i = none) ∧ ∀ i, i < n → v.recount.get i = some x := by
  obtain ⟨v', e, hs, hg⟩ := C42_vector_fill_partial n x
  rw [h] at e
  cases e
  have h0 : v.nvals = 0 := by cases h; rfl
  have hb : v.believed = v.clear := if_pos h0
  refine ⟨?_, hb, fun i => by rw [hb]; exact BVec.get_clear v i, fun i hi => ?_⟩
  · cases h
    exact ⟨by simp, by simp⟩
  · rw [BVec.get_recount, hg, if_pos hi]

/-! ### a vector built with a repeated index, and one made from a size and a value -/

/-- `build` of the tuples (1, 3) and (1, 4), which reports two elements. -/
def misBuilt : BVec Nat := ⟨2, 2, [0, 7], [false, true]⟩
/-- `Vector(2, 5)`, which reports none. -/
def misFilled : BVec Nat := ⟨2, 0, [5, 5], [true, true]⟩
/-- A new vector of two elements. -/
def misNew : BVec Nat := ⟨2, 0, [0, 0], [false, false]⟩
/-- Output to it, without mask and accumulator. -/
def misOut (w : BVec Nat) : VOut Nat Nat Nat Nat := ⟨w, none, fun _ => true, .none id, id, .merge⟩

example : (BVec.build misNew (· + ·) [(1, 3), (1, 4)]) = (.ok (), misBuilt) ∧ BVec.newFill 2 5 = .ok misFilled := by decide

/-- The hypotheses hold of both, and the conclusions are about different vectors: `apply`
makes of the one its element and of the other nothing; element-wise addition takes both in
full. -/
example : (VCall.apply (fun x => x + 1) misBuilt : VCall Nat Nat Nat).Sized ∧
    (VCall.apply (fun x => x + 1) misBuilt : VCall Nat Nat Nat).run (misOut misFilled) = .done ⟨2, 1, [5, 8], [false, true]⟩ ∧
    (VCall.apply (fun x => x + 1) misFilled : VCall Nat Nat Nat).run (misOut misBuilt) = .done ⟨2, 0, [0, 7], [false, false]⟩ ∧
    (VCall.eWiseAdd ⟨(· + ·), id, id, id, (· + ·), id⟩ misFilled misBuilt : VCall Nat Nat Nat).run (misOut misNew) =
      .done ⟨2, 2, [5, 12], [true, true]⟩ :=
  ⟨⟨rfl, rfl⟩, by decide +kernel, by decide +kernel, by decide +kernel⟩

/-- One of the answers is wrong, until the vector is cleared. -/
example : (runCalls BVec.call misBuilt [.nvals, .set 0 1, .nvals, .remove 1, .has 1, .nvals, .clear, .nvals]).1 =
    [.ok (.num 2), .ok .unit, .ok (.num 3), .ok .unit, .ok (.bool false), .ok (.num 2), .ok .unit, .ok (.num 0)] := by decide

end GBTL

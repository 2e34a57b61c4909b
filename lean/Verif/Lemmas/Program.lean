import Verif.Model.Program
import Verif.Lemmas.Calls
import Verif.Props.Containers
import Verif.Props.Shapes
/- Programs: each call refines its meaning. -/
namespace GBTL
open Spec (Outp MaskKind Accum MatCall VecCall Ans AMat AVec)

variable {tm tv : Nat → Type} {γ ζ τ α ρ μ : Type}

/-! ### sharing -/

theorem forN_congr_inv {σ : Type} {n : Nat} {s : σ} {f g : Nat → σ → Except Err σ} (P : Nat → σ → Prop)
    (h0 : P 0 s) (heq : ∀ i s, i < n → P i s → f i s = g i s)
    (hstep : ∀ i s s', i < n → P i s → g i s = .ok s' → P (i + 1) s') : forN n s f = forN n s g := by
  unfold forN
  suffices ∀ m k s, m + k = n → P m s → (List.range' m k).foldlM (fun s i => f i s) s
      = (List.range' m k).foldlM (fun s i => g i s) s by
    rw [List.range_eq_range']; exact this 0 n s (by omega) h0
  intro m k
  induction k generalizing m with
  | zero => intros; rfl
  | succ k ih =>
    intro s hn hp
    rw [List.range'_succ, List.foldlM_cons, List.foldlM_cons, heq m s (by omega) hp]
    cases hg : g m s with
    | error e => rfl
    | ok s' => exact ih (m + 1) s' (by omega) (hstep m s s' (by omega) hp hg)

theorem setRow_rows {A B : Lil α} {i : Nat} {r : Row τ} {cast : τ → α} (h : A.setRow i cast r = .ok B) :
    B.ncols = A.ncols ∧ B.nrows = A.nrows ∧ ∀ k, k ≠ i → B.rows[k]? = A.rows[k]? := by
  simp only [Lil.setRow] at h
  cases h1 : A.row i with
  | error e => rw [h1] at h; cases h
  | ok old =>
    rw [h1] at h
    cases h2 : wr A.rows i (r.cast cast) with
    | error e => rw [show (Except.ok old >>= _) = _ from rfl, h2] at h; cases h
    | ok rows =>
      rw [show (Except.ok old >>= _) = _ from rfl, h2] at h
      cases h
      refine ⟨rfl, rfl, fun k hk => ?_⟩
      simp only [wr] at h2
      split at h2
      · cases h2
        simp [List.getElem?_set, Ne.symm hk]
      · cases h2

/-- The mask's row `i` is read before row `i` of the output is written. -/
theorem writeShared_at (truthy : μ → Bool) (castZ : ζ → γ) (C : Lil γ) (Z : Lil ζ) (M : ArgMask γ μ)
    (outp : Outp) : writeShared truthy castZ C Z M outp = writeWithOptMask truthy castZ C Z (M.at C) outp := by
  rcases M with _ | ⟨k, m⟩
  · rfl
  · cases m with
    | obj A => rfl
    | same =>
      show forN C.nrows C _ = forN C.nrows C _
      refine forN_congr_inv (fun i D => D.ncols = C.ncols ∧ ∀ j, i ≤ j → D.rows[j]? = C.rows[j]?)
        ⟨rfl, fun _ _ => rfl⟩ ?_ ?_
      · rintro i D - ⟨h1, h2⟩
        have hr : C.row i = D.row i := by
          simp only [Lil.row, rd, h2 i (Nat.le_refl i)]
        simp only [Arg.at, h1, hr]
      · rintro i D D' - ⟨h1, h2⟩ h
        have : ∃ r : Row γ, D.setRow i id r = .ok D' := by
          cases e1 : D.row i with
          | error e => rw [e1] at h; cases h
          | ok c =>
            cases e2 : Z.row i with
            | error e => rw [e1, e2] at h; cases h
            | ok z =>
              cases e3 : (Arg.at Arg.same C).row i with
              | error e => rw [e1, e2, e3] at h; cases h
              | ok w => rw [e1, e2, e3] at h; exact ⟨_, h⟩
        obtain ⟨r, hr⟩ := this
        obtain ⟨a1, -, a3⟩ := setRow_rows hr
        exact ⟨a1.trans h1, fun j hj => (a3 j (by omega)).trans (h2 j (by omega))⟩

theorem MCall.run_eq_pre (c : MCall γ τ ζ) (o : MOut γ τ ζ μ) :
    c.run o = GBTL.run o.C (c.pre o) fun Z => writeWithOptMask o.truthy o.castZ o.C Z o.M o.outp := by
  cases c <;>
    simp only [MCall.run, MCall.pre, GBTL.mxm, eWiseAddM, eWiseMultM, applyM, extractM, transposeM,
      GBTL.kronecker, assignM, assignConstM, MOut.op, MOut.opStencil, bind_assoc]

/-- A mask that is the output itself makes no difference. -/
theorem MCall.runShared_eq (c : MCall γ τ ζ) (C : Lil γ) (M : ArgMask γ μ) (truthy : μ → Bool)
    (acc : Accum γ τ ζ) (castZ : ζ → γ) (outp : Outp) :
    c.runShared C M truthy acc castZ outp = c.run ⟨C, M.at C, truthy, acc, castZ, outp⟩ := by
  rw [MCall.run_eq_pre, MCall.runShared]
  congr 1
  funext Z
  exact writeShared_at ..

theorem matMask_at (s : Store tm tv) (x : Nat) (k : MaskKind) (z : Nat) :
    (matMask s x k z).at (s.mat x) = some (k, s.mat z) := by
  unfold matMask
  by_cases h : z = x
  · subst h; simp [ArgMask.at, Arg.at]
  · simp [h, ArgMask.at, Arg.at]

/-! ### stores -/

theorem upd_same {F : Nat → Type} (f : ∀ x, F x) (x : Nat) (v : F x) : upd f x v x = v := by
  simp [upd]

theorem upd_ne {F : Nat → Type} (f : ∀ x, F x) {x y : Nat} (v : F x) (h : y ≠ x) : upd f x v y = f y := by
  simp [upd, h]

theorem upd_self {F : Nat → Type} (f : ∀ x, F x) (x : Nat) : upd f x (f x) = f := by
  funext y
  by_cases h : y = x
  · subst h; simp [upd]
  · simp [upd, h]

theorem Store.setM_self (s : Store tm tv) (x : Nat) : s.setM x (s.mat x) = s := by
  simp [Store.setM, upd_self]
theorem Store.setV_self (s : Store tm tv) (x : Nat) : s.setV x (s.vec x) = s := by
  simp [Store.setV, upd_self]
theorem AStore.setM_self (s : AStore tm tv) (x : Nat) : s.setM x (s.mat x) = s := by
  simp [AStore.setM, upd_self]
theorem AStore.setV_self (s : AStore tm tv) (x : Nat) : s.setV x (s.vec x) = s := by
  simp [AStore.setV, upd_self]

theorem Store.abs_setM (s : Store tm tv) (x : Nat) (v : Lil (tm x)) :
    (s.setM x v).abs = s.abs.setM x ⟨v.nrows, v.ncols, v.get⟩ := by
  simp only [Store.abs, Store.setM, AStore.setM, AStore.mk.injEq, and_true]
  funext y
  by_cases h : y = x
  · subst h; simp [upd]
  · simp [upd, h]

theorem Store.abs_setV (s : Store tm tv) (x : Nat) (v : BVec (tv x)) :
    (s.setV x v).abs = s.abs.setV x ⟨v.size, v.get⟩ := by
  simp only [Store.abs, Store.setV, AStore.setV, AStore.mk.injEq, true_and]
  funext y
  by_cases h : y = x
  · subst h; simp [upd]
  · simp [upd, h]

theorem Store.WF.setM {s : Store tm tv} (hs : s.WF) {x : Nat} {v : Lil (tm x)} (hv : v.WF) :
    (s.setM x v).WF := by
  refine ⟨fun y => ?_, hs.vec⟩
  by_cases h : y = x
  · subst h; simpa [Store.setM, upd] using hv
  · simpa [Store.setM, upd, h] using hs.mat y

theorem Store.WF.setV {s : Store tm tv} (hs : s.WF) {x : Nat} {v : BVec (tv x)} (hv : v.WF)
    (h0 : 0 < v.size) : (s.setV x v).WF := by
  refine ⟨hs.mat, fun y => ?_⟩
  by_cases h : y = x
  · subst h; simpa [Store.setV, upd] using ⟨hv, h0⟩
  · simpa [Store.setV, upd, h] using hs.vec y

/-! ### operands -/

theorem Ref.val_abs (s : Store tm tv) (r : Ref) :
    r.val s.abs = ⟨(r.operand s).nrows, (r.operand s).ncols, (r.operand s).get⟩ := by
  unfold Ref.val Ref.operand
  by_cases h : r.tr
  · rw [if_pos h, if_pos h]; rfl
  · rw [if_neg h, if_neg h]; rfl

theorem Ref.operand_wf {s : Store tm tv} (hs : s.WF) (r : Ref) : (r.operand s).WF := by
  unfold Ref.operand
  by_cases h : r.tr
  · rw [if_pos h]; exact hs.mat _
  · rw [if_neg h]; exact hs.mat _

theorem Ref.operand_isTr (s : Store tm tv) (r : Ref) : (r.operand s).isTr ↔ r.tr = true := by
  unfold Ref.operand
  by_cases h : r.tr
  · rw [if_pos h]; simp [Operand.isTr, h]
  · rw [if_neg h]; simp [Operand.isTr, h]

theorem Indices.len_idx (ix : Indices) (n : Nat) : ix.idx.len n = ix.len n := by cases ix <;> rfl
theorem Indices.sel_idx (ix : Indices) : ix.idx.sel = ix := by cases ix <;> rfl
theorem Indices.below_idx (ix : Indices) (n : Nat) : ix.idx.below n ↔ ix.below n := by
  cases ix <;> simp [Indices.idx, Idx.below, Indices.below]
theorem Indices.nodup_idx (ix : Indices) : ix.idx.nodup ↔ ix.nodup := by
  cases ix <;> simp [Indices.idx, Idx.nodup, Indices.nodup]
theorem Indices.ascending_idx (ix : Indices) : ix.idx.ascending ↔ ix.ascending := by
  cases ix <;> simp [Indices.idx, Idx.ascending, Indices.ascending]
theorem Indices.inside_idx {ix : Indices} {n m : Nat} (ha : ix.allFits m n) (hb : ix.below m) :
    ix.idx.inside n m := by
  cases ix with
  | some l => simpa [Indices.idx, Idx.inside, Indices.below] using hb
  | none => simp only [Indices.idx, Idx.inside]; have := ha rfl; omega
/-- With `AllIndices` and equal lengths, the code's length rule is the length rule. -/
theorem Indices.len_fits {ix : Indices} {m n : Nat} (ha : ix.allFits m n) :
    ix.idx.len m = m ↔ m = ix.len n := by
  cases ix with
  | some l => simp only [Indices.idx, Idx.len, Indices.len, Option.map_some, Option.getD_some]; omega
  | none =>
    have := ha rfl
    exact ⟨fun _ => this, fun _ => rfl⟩
theorem Indices.selected_fits {ix : Indices} {m n : Nat} (ha : ix.allFits m n) :
    Spec.selected ix.idx.sel n = Spec.selected ix m := by
  rw [Indices.sel_idx]
  cases ix with
  | some l => rfl
  | none => rw [ha rfl]
theorem Indices.posOf_fits {ix : Indices} {m n : Nat} (ha : ix.allFits m n) :
    Spec.posOf ix.idx.sel n = Spec.posOf ix m := by
  rw [Indices.sel_idx]
  cases ix with
  | some l => rfl
  | none => rw [ha rfl]

theorem assignAt_const {keep : γ → ζ} {acc : Accum γ τ ζ} {b : Bool} {c : Option γ} {x : τ} :
    Spec.assignAt keep acc b c (if b then some x else none) = Spec.assignAt keep acc b c (some x) := by
  cases b <;> rfl

/-! ### operations -/

/-- What an operation does, in three cases. -/
structure Does {σ : Type} (out : Outcome σ) (s : σ) (shapes line range : Prop) (Q : σ → Prop) : Prop where
  bad : ¬ shapes → out = .threw .dimension s
  badLine : shapes → ¬ line → out = .threw .invalidIndex s
  badIndex : shapes → line → ¬ range → out = .threw .indexOutOfBounds s
  good : shapes → line → range → ∃ s', out = .done s' ∧ Q s'

theorem MOp.does {s : Store tm tv} (hs : s.WF) (e : MOp tm γ ζ τ) (o : MOut γ τ ζ μ) (ho : o.WF)
    (hh : e.handled s.abs o.C.nrows o.C.ncols) :
    Does ((e.call s).run o) o.C (o.M.Fits o.C.nrows o.C.ncols ∧ e.shapes s.abs o.C.nrows o.C.ncols) True
      (e.inRange s.abs o.C.nrows o.C.ncols)
      (o.Holds (e.content s.abs o.acc o.C.nrows o.C.ncols o.C.get)) := by
  cases e with
  | mxm A B sr via =>
    simp only [MOp.shapes, MOp.inRange, MOp.content, MOp.handled, Ref.val_abs] at hh ⊢
    refine ⟨fun h => MOut.op_threw (by simp) ((dim_mxm o _ _).err fun k =>
      h ⟨k.mask, k.rows, k.cols, k.inner⟩), by simp, by simp, ?_⟩
    rintro ⟨hm, h1, h2, h3⟩ - -
    exact C10_mxm_transposed_partial ho (A.operand_wf hs) (B.operand_wf hs) ⟨hm, h1, h2, h3⟩
      (fun ha hb => hh ((A.operand_isTr s).1 ha) ((B.operand_isTr s).1 hb))
  | eWiseAdd A B f =>
    simp only [MOp.shapes, MOp.inRange, MOp.content, MOp.handled, Ref.val_abs] at hh ⊢
    refine ⟨fun h => MOut.op_threw (by simp) ((dim_same2 o _ _).err fun k =>
      h ⟨k.mask, k.rows, k.cols, k.rows.trans k.rows2, k.cols.trans k.cols2⟩), by simp, by simp, ?_⟩
    rintro ⟨hm, h1, h2, h3, h4⟩ - -
    exact C13_eWiseAdd_matrix_partial ho (A.operand_wf hs) (B.operand_wf hs)
      ⟨hm, h2, h1, h2.symm.trans h4, h1.symm.trans h3⟩
      (fun ha hb => hh (fun h => ha ((A.operand_isTr s).2 h)) ((B.operand_isTr s).1 hb))
  | eWiseMult A B f =>
    simp only [MOp.shapes, MOp.inRange, MOp.content, MOp.handled, Ref.val_abs] at hh ⊢
    refine ⟨fun h => MOut.op_threw (by simp) ((dim_same2 o _ _).err fun k =>
      h ⟨k.mask, k.rows, k.cols, k.rows.trans k.rows2, k.cols.trans k.cols2⟩), by simp, by simp, ?_⟩
    rintro ⟨hm, h1, h2, h3, h4⟩ - -
    exact C14_eWiseMult_matrix_partial ho (A.operand_wf hs) (B.operand_wf hs)
      ⟨hm, h2, h1, h2.symm.trans h4, h1.symm.trans h3⟩
      (fun ha hb => hh (fun h => ha ((A.operand_isTr s).2 h)) ((B.operand_isTr s).1 hb))
  | apply A f =>
    simp only [MOp.shapes, MOp.inRange, MOp.content, Ref.val_abs]
    refine ⟨fun h => MOut.op_threw (by simp) ((dim_same o _).err fun k =>
      h ⟨k.mask, k.rows, k.cols⟩), by simp, by simp, ?_⟩
    rintro ⟨hm, h1, h2⟩ - -
    exact C15_apply_matrix ho (A.operand_wf hs) ⟨hm, h2, h1⟩
  | extract A ri ci =>
    simp only [MOp.shapes, MOp.inRange, MOp.content, MOp.handled, Ref.val_abs] at hh ⊢
    obtain ⟨hr, hc⟩ := hh
    refine ⟨fun h => MOut.op_threw (by simp) ((dim_select o _ _ _ _).err fun k =>
      h ⟨k.1, (Indices.len_fits hr).1 k.2.1, (Indices.len_fits hc).1 k.2.2⟩), by simp, ?_, ?_⟩
    · rintro ⟨hm, h1, h2⟩ - hb
      refine C27_extract_matrix hm ((Indices.len_fits hr).2 h1) ((Indices.len_fits hc).2 h2) ?_
      rw [Indices.below_idx, Indices.below_idx]; exact hb
    · rintro ⟨hm, h1, h2⟩ - ⟨h3, h4⟩
      have := C18_extract_matrix (ri := ri.idx) (ci := ci.idx) ho (A.operand_wf hs) hm
        ((Indices.len_fits hr).2 h1) ((Indices.len_fits hc).2 h2)
        ((Indices.below_idx _ _).2 h3) ((Indices.below_idx _ _).2 h4)
      rw [Indices.sel_idx, Indices.sel_idx] at this
      exact this
  | transpose A =>
    simp only [MOp.shapes, MOp.inRange, MOp.content, Ref.val_abs]
    refine ⟨fun h => MOut.op_threw (by simp) ((dim_transpose o _).err fun k =>
      h ⟨k.mask, k.rows.symm, k.cols⟩), by simp, by simp, ?_⟩
    rintro ⟨hm, h1, h2⟩ - -
    exact C21_transpose ho (A.operand_wf hs) ⟨hm, h2, h1.symm⟩
  | kronecker A B f =>
    simp only [MOp.shapes, MOp.inRange, MOp.content, MOp.handled, Ref.val_abs] at hh ⊢
    obtain ⟨hr, hc⟩ := hh
    refine ⟨fun h => (C26_kronecker_partial ho (A.operand_wf hs) (B.operand_wf hs) hr hc).1 fun k =>
      h ⟨k.mask, k.rows, k.cols⟩, by simp, by simp, ?_⟩
    rintro ⟨hm, h1, h2⟩ - -
    exact C22_kronecker_partial ho (A.operand_wf hs) (B.operand_wf hs) ⟨hm, h2, h1⟩ (h1 ▸ hr) (h2 ▸ hc)
  | assign keep A ri ci =>
    simp only [MOp.shapes, MOp.inRange, MOp.content, MOp.handled, Ref.val_abs] at hh ⊢
    obtain ⟨hrn, hcn, hr, hc⟩ := hh
    have hr' : ri.allFits (A.operand s).nrows o.C.nrows := fun h => (hr h).symm
    have hc' : ci.allFits (A.operand s).ncols o.C.ncols := fun h => (hc h).symm
    refine ⟨fun h => MOut.stencil_threw (by simp) ((dim_select o _ _ _ _).err fun k =>
      h ⟨k.1, (Indices.len_fits hr').1 k.2.1, (Indices.len_fits hc').1 k.2.2⟩), by simp, ?_, ?_⟩
    · rintro ⟨hm, h1, h2⟩ - hb
      refine C27_assign_matrix hm ((Indices.len_fits hr').2 h1) ((Indices.len_fits hc').2 h2) ?_
      rw [Indices.below_idx, Indices.below_idx]; exact hb
    · rintro ⟨hm, h1, h2⟩ - ⟨h3, h4⟩
      have := C19_assign_matrix (keep := keep) (ri := ri.idx) (ci := ci.idx) ho (A.operand_wf hs) hm
        ((Indices.len_fits hr').2 h1) ((Indices.len_fits hc').2 h2) (Indices.inside_idx hr h3)
        (Indices.inside_idx hc h4) ((Indices.nodup_idx _).2 hrn) ((Indices.nodup_idx _).2 hcn)
      rw [Indices.selected_fits hr, Indices.selected_fits hc] at this
      simp only [Spec.assignSrcMat, Indices.posOf_fits hr, Indices.posOf_fits hc] at this
      exact this
  | assignConst keep v ri ci =>
    simp only [MOp.shapes, MOp.inRange, MOp.content, MOp.handled] at hh ⊢
    refine ⟨fun h => MOut.stencil_threw (by simp) ((dim_constM o _ _).err fun k =>
      h ⟨k.mask, Indices.len_idx .. ▸ k.rows, Indices.len_idx .. ▸ k.cols⟩), by simp, ?_, ?_⟩
    · rintro ⟨hm, h1, h2⟩ - hb
      refine C27_assign_const_matrix ⟨hm, (Indices.len_idx ..).symm ▸ h1, (Indices.len_idx ..).symm ▸ h2⟩ ?_
      rw [Indices.below_idx, Indices.below_idx]; exact hb
    · rintro ⟨hm, h1, h2⟩ - ⟨h3, h4⟩
      have := C20_assign_const_matrix_partial (keep := keep) (x := v) (ri := ri.idx) (ci := ci.idx) ho
        ⟨hm, (Indices.len_idx ..).symm ▸ h1, (Indices.len_idx ..).symm ▸ h2⟩
        ((Indices.below_idx _ _).2 h3) ((Indices.below_idx _ _).2 h4) ((Indices.ascending_idx _).2 hh)
      simp only [Indices.sel_idx, assignAt_const] at this
      exact this

theorem VOp.does {s : Store tm tv} (hs : s.WF) (e : VOp tm tv γ ζ τ) (o : VOut γ τ ζ μ) (ho : o.WF)
    (hh : e.handled s.abs o.w.size) :
    Does ((e.call s).run o) o.w (o.m.Fits o.w.size ∧ e.shapes s.abs o.w.size) (e.lineOk s.abs)
      (e.inRange s.abs o.w.size) (o.Holds (e.content s.abs o.acc o.w.size o.w.get)) := by
  cases e with
  | vxm u A sr =>
    simp only [VOp.shapes, VOp.lineOk, VOp.inRange, VOp.content, Ref.val_abs]
    refine ⟨fun h => VOut.op_threw (by simp) ((dim_vxm o _ _).err fun k =>
      h ⟨k.mask, k.out, k.inner⟩), by simp, by simp, ?_⟩
    rintro ⟨hm, h1, h2⟩ - -
    exact C11_vxm ho (hs.vec u).1 (A.operand_wf hs) ⟨hm, h1, h2⟩
  | mxv A u sr =>
    simp only [VOp.shapes, VOp.lineOk, VOp.inRange, VOp.content, VOp.handled, Ref.val_abs] at hh ⊢
    refine ⟨fun h => VOut.op_threw (by simp) ((dim_mxv o _ _).err fun k =>
      h ⟨k.mask, k.out, k.inner⟩), by simp, by simp, ?_⟩
    rintro ⟨hm, h1, h2⟩ - -
    exact C12_mxv_partial ho (hs.vec u).1 (A.operand_wf hs) ⟨hm, h1, h2⟩
      (fun ha => hh ((A.operand_isTr s).1 ha))
  | eWiseAdd u v f =>
    simp only [VOp.shapes, VOp.lineOk, VOp.inRange, VOp.content]
    refine ⟨fun h => VOut.op_threw (by simp) ((dim_same2V o _ _).err fun k =>
      h ⟨k.mask, k.size, k.size.trans k.size2⟩), by simp, by simp, ?_⟩
    rintro ⟨hm, h1, h2⟩ - -
    exact C13_eWiseAdd_vector ho (hs.vec u).1 (hs.vec v).1 ⟨hm, h1, h1.symm.trans h2⟩
  | eWiseMult u v f =>
    simp only [VOp.shapes, VOp.lineOk, VOp.inRange, VOp.content]
    refine ⟨fun h => VOut.op_threw (by simp) ((dim_same2V o _ _).err fun k =>
      h ⟨k.mask, k.size, k.size.trans k.size2⟩), by simp, by simp, ?_⟩
    rintro ⟨hm, h1, h2⟩ - -
    exact C14_eWiseMult_vector ho (hs.vec u).1 (hs.vec v).1 ⟨hm, h1, h1.symm.trans h2⟩
  | apply u f =>
    simp only [VOp.shapes, VOp.lineOk, VOp.inRange, VOp.content]
    refine ⟨fun h => VOut.op_threw (by simp) ((dim_sameV o _).err fun k =>
      h ⟨k.mask, k.size⟩), by simp, by simp, ?_⟩
    rintro ⟨hm, h1⟩ - -
    exact C15_apply_vector ho (hs.vec u).1 ⟨hm, h1⟩
  | reduce A f c =>
    simp only [VOp.shapes, VOp.lineOk, VOp.inRange, VOp.content, Ref.val_abs]
    refine ⟨fun h => VOut.op_threw (by simp) ((dim_reduce o _).err fun k =>
      h ⟨k.mask, k.out⟩), by simp, by simp, ?_⟩
    rintro ⟨hm, h1⟩ - -
    exact C16_reduce_rows_op ho (A.operand_wf hs) ⟨hm, h1⟩
  | extract u ix =>
    simp only [VOp.shapes, VOp.lineOk, VOp.inRange, VOp.content, VOp.handled] at hh ⊢
    refine ⟨fun h => VOut.op_threw (by simp) ((dim_extractV o _ _).err fun k =>
      h ⟨k.1, (Indices.len_fits hh).1 k.2⟩), by simp, ?_, ?_⟩
    · rintro ⟨hm, h1⟩ - hb
      refine C27_extract_vector hm ((Indices.len_fits hh).2 h1) ?_
      rw [Indices.below_idx]; exact hb
    · rintro ⟨hm, h1⟩ - h3
      have := C18_extract_vector (ix := ix.idx) ho (hs.vec u).1 hm ((Indices.len_fits hh).2 h1)
        ((Indices.below_idx _ _).2 h3)
      rw [Indices.sel_idx] at this
      exact this
  | extractCol A ri j =>
    simp only [VOp.shapes, VOp.lineOk, VOp.inRange, VOp.content, VOp.handled, Ref.val_abs] at hh ⊢
    refine ⟨fun h => ?_, ?_, ?_, ?_⟩
    · refine VOut.op_threw (by simp) ?_
      by_cases h1 : o.m.Fits o.w.size
      · rw [(dim_size _ _).ok h1, (dim_len _ _).err fun h2 => h ⟨h1, (Indices.len_fits hh).1 h2⟩]; rfl
      · rw [(dim_size _ _).err h1]; rfl
    · rintro ⟨hm, h1⟩ hj
      refine VOut.op_threw (by simp) ?_
      rw [(dim_size _ _).ok hm, (dim_len _ _).ok ((Indices.len_fits hh).2 h1), indexCheck_err hj]; rfl
    · rintro ⟨hm, h1⟩ hj hb
      refine C27_extract_column hm ((Indices.len_fits hh).2 h1) hj ?_
      rw [Indices.below_idx]; exact hb
    · rintro ⟨hm, h1⟩ hj h3
      have := C18_extract_column (ri := ri.idx) ho (A.operand_wf hs) hm ((Indices.len_fits hh).2 h1)
        ((Indices.below_idx _ _).2 h3) hj
      rw [Indices.sel_idx] at this
      exact this
  | assign keep u ix =>
    simp only [VOp.shapes, VOp.lineOk, VOp.inRange, VOp.content, VOp.handled] at hh ⊢
    obtain ⟨hn, hr⟩ := hh
    have hr' : ix.allFits (s.abs.vec u).size o.w.size := fun h => (hr h).symm
    refine ⟨fun h => VOut.stencil_threw (by simp) ((dim_extractV o _ _).err fun k =>
      h ⟨k.1, (Indices.len_fits hr').1 k.2⟩), by simp, ?_, ?_⟩
    · rintro ⟨hm, h1⟩ - hb
      refine C27_assign_vector hm ((Indices.len_fits hr').2 h1) ?_
      rw [Indices.below_idx]; exact hb
    · rintro ⟨hm, h1⟩ - h3
      have := C19_assign_vector (keep := keep) (ix := ix.idx) ho (hs.vec u).1 hm
        ((Indices.len_fits hr').2 h1) (Indices.inside_idx hr h3) ((Indices.nodup_idx _).2 hn)
      have e1 := Indices.selected_fits hr
      have e2 := Indices.posOf_fits hr
      simp only [Store.abs] at e1 e2
      simp only [Spec.assignSrc, e1, e2] at this
      exact this
  | assignConst keep v ix =>
    simp only [VOp.shapes, VOp.lineOk, VOp.inRange, VOp.content, VOp.handled] at hh ⊢
    refine ⟨fun h => VOut.stencil_threw (by simp) ((dim_constV o _).err fun k =>
      h ⟨k.mask, Indices.len_idx .. ▸ k.len⟩), by simp, ?_, ?_⟩
    · rintro ⟨hm, h1⟩ - hb
      refine C27_assign_const_vector ⟨hm, (Indices.len_idx ..).symm ▸ h1⟩ ?_
      rw [Indices.below_idx]; exact hb
    · rintro ⟨hm, h1⟩ - h3
      have := C20_assign_const_vector_partial (keep := keep) (x := v) (ix := ix.idx) ho
        ⟨hm, (Indices.len_idx ..).symm ▸ h1⟩
        ((Indices.below_idx _ _).2 h3) ((Indices.ascending_idx _).2 hh)
      simp only [Indices.sel_idx, assignAt_const] at this
      exact this

/-! ### calls -/

/-- The call returns or throws what its meaning says, and leaves what it says. -/
def Refines (s : Store tm tv) (c : Option (Except Err α × Store tm tv)) (m : Except Err α × AStore tm tv) :
    Prop := ∃ s', c = some (m.1, s') ∧ s'.WF ∧ s'.abs = m.2

theorem guarded_eq {σ : Type} (s : σ) {p q r : Prop} {s' : σ} :
    (¬ p → guarded s p q r s' = (.error .dimension, s)) ∧
    (p → ¬ q → guarded s p q r s' = (.error .invalidIndex, s)) ∧
    (p → q → ¬ r → guarded s p q r s' = (.error .indexOutOfBounds, s)) ∧
    (p → q → r → guarded s p q r s' = (.ok (), s')) := by
  refine ⟨fun h => ?_, fun h h' => ?_, fun h h' h'' => ?_, fun h h' h'' => ?_⟩ <;> simp [guarded, *]

theorem refines_of_does {s : Store tm tv} (hs : s.WF) {σ : Type} {put : σ → Store tm tv} {out : Outcome σ}
    {v : σ} {p q r : Prop} {Q : σ → Prop} {a : AStore tm tv} (hput : put v = s) (h : Does out v p q r Q)
    (hq : q → ∀ v', Q v' → (put v').WF ∧ (put v').abs = a) :
    Refines s (observeOut put out) (guarded s.abs p q r a) := by
  obtain ⟨g1, g2, g3, g4⟩ := guarded_eq (p := p) (q := q) (r := r) s.abs (s' := a)
  by_cases hp : p
  · by_cases hq' : q
    · by_cases hr : r
      · obtain ⟨v', e, h'⟩ := h.good hp hq' hr
        rw [e, g4 hp hq' hr]
        exact ⟨_, rfl, hq hq' v' h'⟩
      · rw [h.badIndex hp hq' hr, g3 hp hq' hr]
        exact ⟨_, rfl, hput ▸ hs, by rw [hput]⟩
    · rw [h.badLine hp hq', g2 hp hq']
      exact ⟨_, rfl, hput ▸ hs, by rw [hput]⟩
  · rw [h.bad hp, g1 hp]
    exact ⟨_, rfl, hput ▸ hs, by rw [hput]⟩

theorem Lil.get_out {A : Lil α} (h : A.WF) {i j : Nat} (hij : ¬ (i < A.nrows ∧ j < A.ncols)) :
    A.get i j = none := h.toWFr.get_none (by omega)

theorem list_eq_of_sorted {R : α → α → Prop} (hirr : ∀ x, ¬ R x x) (hasym : ∀ x y, R x y → ¬ R y x)
    {l k : List α} (hl : l.Pairwise R) (hk : k.Pairwise R) (h : ∀ x, x ∈ l ↔ x ∈ k) : l = k := by
  have nd : ∀ {l : List α}, l.Pairwise R → l.Nodup := fun hl =>
    List.Pairwise.imp (S := (· ≠ ·)) (fun {a b} hab (e : a = b) => hirr b (by rw [e] at hab; exact hab)) hl
  exact ((List.perm_ext_iff_of_nodup (nd hl) (nd hk)).2 h).eq_of_pairwise
    (fun a b _ _ h1 h2 => absurd h2 (hasym a b h1)) hl hk

theorem filterMap_range_sorted {n : Nat} {f : Nat → Option α} {g : α → Nat} (hf : ∀ i x, f i = some x → g x = i) :
    ((List.range n).filterMap f).Pairwise fun x y => g x < g y := by
  rw [List.pairwise_filterMap]
  refine List.pairwise_lt_range.imp ?_
  intro a b hab x hx y hy
  rw [hf a x hx, hf b y hy]; exact hab

theorem flatMap_sorted {R : α → α → Prop} {l : List Nat} {f : Nat → List α} {g : α → Nat}
    (hl : l.Pairwise (· < ·)) (hg : ∀ i x, x ∈ f i → g x = i) (hR : ∀ x y, g x < g y → R x y)
    (hf : ∀ i, (f i).Pairwise R) : (l.flatMap f).Pairwise R := by
  rw [List.pairwise_flatMap]
  refine ⟨fun i _ => hf i, hl.imp ?_⟩
  intro a b hab x hx y hy
  exact hR x y (by rw [hg a x hx, hg b y hy]; exact hab)

theorem BVec.tuples_abs {v : BVec α} (h : v.WF) : v.extractTuples = .ok (AVec.tuples ⟨v.size, v.get⟩) := by
  obtain ⟨ts, e, hs, hm, -⟩ := C07_vector_tuples v h
  rw [e]
  congr 1
  refine list_eq_of_sorted (R := fun p q => p.1 < q.1) (fun _ => Nat.lt_irrefl _) (fun _ _ => Nat.lt_asymm)
    hs (filterMap_range_sorted (g := Prod.fst) ?_) ?_
  · intro i x hx
    simp only [Option.map_eq_some_iff] at hx
    obtain ⟨_, _, rfl⟩ := hx; rfl
  · rintro ⟨i, x⟩
    rw [hm]
    simp only [AVec.tuples, List.mem_filterMap, List.mem_range, Option.map_eq_some_iff, Prod.mk.injEq]
    constructor
    · intro hx
      refine ⟨i, ?_, x, hx, rfl, rfl⟩
      exact Classical.byContradiction fun hc => by rw [h.get_none (by omega)] at hx; cases hx
    · rintro ⟨_, _, _, hx, rfl, rfl⟩; exact hx

theorem Lil.tuples_abs {A : Lil α} (h : A.WF) : A.extractTuples = AMat.tuples ⟨A.nrows, A.ncols, A.get⟩ := by
  obtain ⟨hs, hm, -⟩ := C07_matrix_tuples A h
  refine list_eq_of_sorted (R := fun p q => p.1 < q.1 ∨ (p.1 = q.1 ∧ p.2.1 < q.2.1)) (fun _ => by omega)
    (fun _ _ => by omega) hs (flatMap_sorted (g := Prod.fst) List.pairwise_lt_range ?_ (fun _ _ h => .inl h) ?_) ?_
  · intro i x hx
    simp only [List.mem_filterMap, Option.map_eq_some_iff] at hx
    obtain ⟨_, _, _, _, rfl⟩ := hx; rfl
  · intro i
    rw [List.pairwise_filterMap]
    refine List.pairwise_lt_range.imp ?_
    intro a b hab x hx y hy
    simp only [Option.map_eq_some_iff] at hx hy
    obtain ⟨_, _, rfl⟩ := hx
    obtain ⟨_, _, rfl⟩ := hy
    exact .inr ⟨rfl, hab⟩
  · rintro ⟨i, j, x⟩
    rw [hm]
    simp only [AMat.tuples, List.mem_flatMap, List.mem_filterMap, List.mem_range, Option.map_eq_some_iff,
      Prod.mk.injEq]
    constructor
    · intro hx
      have hb : i < A.nrows ∧ j < A.ncols := Classical.byContradiction fun hc => by
        rw [Lil.get_out h hc] at hx; cases hx
      exact ⟨i, hb.1, j, hb.2, x, hx, rfl, rfl, rfl⟩
    · rintro ⟨_, _, _, _, _, hx, rfl, rfl, rfl⟩; exact hx

/-! masks -/

theorem abs_maskFits (s : Store tm tv) (m n : Nat) (mask : MaskArg tm) (k : MaskKind) (z : Nat)
    (t : tm z → Bool) (h : mask = some (k, ⟨z, t⟩)) :
    s.abs.maskFits mask m n ↔ MMask.Fits (some (k, s.mat z)) m n := by
  subst h
  constructor
  · intro h k' A e; cases e; exact h
  · intro h; exact h _ _ rfl

theorem abs_maskFitsV (s : Store tm tv) (n : Nat) (mask : MaskArg tv) (k : MaskKind) (z : Nat)
    (t : tv z → Bool) (h : mask = some (k, ⟨z, t⟩)) :
    s.abs.maskFitsV mask n ↔ VMask.Fits (some (k, s.vec z)) n := by
  subst h
  constructor
  · intro h k' A e; cases e; exact h
  · intro h; exact h _ _ rfl

theorem Does.iff {σ : Type} {out : Outcome σ} {v : σ} {p q r p' : Prop} {Q : σ → Prop}
    (h : Does out v p q r Q) (hp : p ↔ p') : Does out v p' q r Q := by
  have : p = p' := propext hp
  rwa [this] at h

theorem MOut.Holds.put {s : Store tm tv} (hs : s.WF) {x : Nat} {o : MOut (tm x) τ ζ μ} (ho : o.C = s.mat x)
    {Z : Spec.Mat ζ} {C' : Lil (tm x)} (h : o.Holds Z C') {al : Nat → Nat → Bool}
    (ha : ∀ i j, o.M.allows o.truthy i j = al i j) :
    (s.setM x C').WF ∧ (s.setM x C').abs = s.abs.setM x ((s.abs.mat x).write o.castZ al o.outp Z) := by
  refine ⟨hs.setM h.wf, ?_⟩
  rw [Store.abs_setM]
  congr 1
  simp only [AMat.write, Store.abs, AMat.mk.injEq, ← ho]
  refine ⟨h.nrows, h.ncols, ?_⟩
  funext i j
  by_cases hij : i < o.C.nrows ∧ j < o.C.ncols
  · rw [if_pos hij, h.get i j hij.1 hij.2, ha]
  · rw [if_neg hij, Lil.get_out h.wf (by rw [h.nrows, h.ncols]; exact hij)]

theorem VOut.Holds.put {s : Store tm tv} (hs : s.WF) {x : Nat} {o : VOut (tv x) τ ζ μ} (ho : o.w = s.vec x)
    {Z : Spec.Vec ζ} {C' : BVec (tv x)} (h : o.Holds Z C') {al : Nat → Bool}
    (ha : ∀ i, o.m.allows o.truthy i = al i) :
    (s.setV x C').WF ∧ (s.setV x C').abs = s.abs.setV x ((s.abs.vec x).write o.castZ al o.outp Z) := by
  refine ⟨hs.setV h.wf (by rw [h.size, ho]; exact (hs.vec x).2), ?_⟩
  rw [Store.abs_setV]
  congr 1
  simp only [AVec.write, Store.abs, AVec.mk.injEq, ← ho]
  refine ⟨h.size, ?_⟩
  funext i
  by_cases hi : i < o.w.size
  · rw [if_pos hi, h.get i hi, ha]
  · rw [if_neg hi, h.wf.get_none (by rw [h.size]; omega)]

theorem LOut.HoldsCol.put {s : Store tm tv} (hs : s.WF) {x j : Nat} {o : LOut (tm x) τ ζ μ}
    (ho : o.C = s.mat x) {z : Spec.Vec ζ} {C' : Lil (tm x)} (h : o.HoldsCol j z C') {al : Nat → Bool}
    (ha : ∀ i, o.m.allows o.truthy i = al i) (hj : j < o.C.ncols) :
    (s.setM x C').WF ∧ (s.setM x C').abs = s.abs.setM x
      ((s.abs.mat x).setCol j (((s.abs.mat x).col j).write o.castZ al o.outp z).map) := by
  refine ⟨hs.setM h.wf, ?_⟩
  rw [Store.abs_setM]
  congr 1
  simp only [AMat.setCol, AMat.col, AVec.write, Store.abs, AMat.mk.injEq, ← ho]
  refine ⟨h.nrows, h.ncols, ?_⟩
  funext i k
  by_cases hij : i < o.C.nrows ∧ k < o.C.ncols
  · rw [h.get i k hij.1 hij.2, if_pos hij.1, ha]
  · rw [Lil.get_out h.wf (by rw [h.nrows, h.ncols]; exact hij)]
    by_cases hk : k = j
    · rw [if_pos hk, if_neg (by omega)]
    · rw [if_neg hk, ho, Lil.get_out (hs.mat x) (by rw [← ho]; exact hij)]

theorem LOut.HoldsRow.put {s : Store tm tv} (hs : s.WF) {x i : Nat} {o : LOut (tm x) τ ζ μ}
    (ho : o.C = s.mat x) {z : Spec.Vec ζ} {C' : Lil (tm x)} (h : o.HoldsRow i z C') {al : Nat → Bool}
    (ha : ∀ i, o.m.allows o.truthy i = al i) (hi : i < o.C.nrows) :
    (s.setM x C').WF ∧ (s.setM x C').abs = s.abs.setM x
      ((s.abs.mat x).setRow i (((s.abs.mat x).row i).write o.castZ al o.outp z).map) := by
  refine ⟨hs.setM h.wf, ?_⟩
  rw [Store.abs_setM]
  congr 1
  simp only [AMat.setRow, AMat.row, AVec.write, Store.abs, AMat.mk.injEq, ← ho]
  refine ⟨h.nrows, h.ncols, ?_⟩
  funext k j
  by_cases hij : k < o.C.nrows ∧ j < o.C.ncols
  · rw [h.get k j hij.1 hij.2, if_pos hij.2, ha]
  · rw [Lil.get_out h.wf (by rw [h.nrows, h.ncols]; exact hij)]
    by_cases hk : k = i
    · rw [if_pos hk, if_neg (by omega)]
    · rw [if_neg hk, ho, Lil.get_out (hs.mat x) (by rw [← ho]; exact hij)]

/-! assignment to a column or row -/

theorem assignCol_does [Inhabited γ] {o : LOut γ α ζ μ} {keep : γ → ζ} {u : BVec α} {ri : Indices} {j : Nat}
    (ho : o.WF) (hu : u.WF) (h0 : 0 < u.size) (hn : ri.nodup) (hr : ri.allFits o.C.nrows u.size) :
    Does (GBTL.assignCol o keep u ri.idx j) o.C (o.m.Fits o.C.nrows ∧ u.size = ri.len o.C.nrows) (j < o.C.ncols)
      (ri.below o.C.nrows)
      (o.HoldsCol j fun i => Spec.assignAt keep o.acc (Spec.selected ri o.C.nrows i) (o.C.get i j)
        (Spec.assignSrc o.C.nrows ri u.get i)) := by
  have hr' : ri.allFits u.size o.C.nrows := fun h => (hr h).symm
  refine ⟨fun h => ?_, ?_, ?_, ?_⟩
  · refine run_threw (by simp) ?_
    by_cases h1 : o.m.Fits o.C.nrows
    · rw [(dim_size _ _).ok h1, (dim_len _ u.size).err fun h2 => h ⟨h1, (Indices.len_fits hr').1 h2⟩]; rfl
    · rw [(dim_size _ _).err h1]; rfl
  · rintro ⟨hm, h1⟩ hj
    refine run_threw (by simp) ?_
    rw [(dim_size _ _).ok hm, (dim_len _ _).ok ((Indices.len_fits hr').2 h1), indexCheck_err hj]; rfl
  · rintro ⟨hm, h1⟩ hj hb
    refine C27_assign_column hm ((Indices.len_fits hr').2 h1) hj ?_
    rw [Indices.below_idx]; exact hb
  · rintro ⟨hm, h1⟩ hj hb
    have := C19_assign_column (keep := keep) (ri := ri.idx) ho hu h0 hm ((Indices.len_fits hr').2 h1)
      (Indices.inside_idx hr hb) ((Indices.nodup_idx _).2 hn) hj
    simp only [Spec.assignSrc, Indices.selected_fits hr, Indices.posOf_fits hr] at this
    exact this

theorem assignRow_does [Inhabited γ] {o : LOut γ α ζ μ} {keep : γ → ζ} {u : BVec α} {ci : Indices} {i : Nat}
    (ho : o.WF) (hu : u.WF) (h0 : 0 < u.size) (hn : ci.nodup) (hr : ci.allFits o.C.ncols u.size) :
    Does (GBTL.assignRow o keep u i ci.idx) o.C (o.m.Fits o.C.ncols ∧ u.size = ci.len o.C.ncols) (i < o.C.nrows)
      (ci.below o.C.ncols)
      (o.HoldsRow i fun j => Spec.assignAt keep o.acc (Spec.selected ci o.C.ncols j) (o.C.get i j)
        (Spec.assignSrc o.C.ncols ci u.get j)) := by
  have hr' : ci.allFits u.size o.C.ncols := fun h => (hr h).symm
  refine ⟨fun h => ?_, ?_, ?_, ?_⟩
  · refine run_threw (by simp) ?_
    by_cases h1 : o.m.Fits o.C.ncols
    · rw [(dim_size _ _).ok h1, (dim_len _ u.size).err fun h2 => h ⟨h1, (Indices.len_fits hr').1 h2⟩]; rfl
    · rw [(dim_size _ _).err h1]; rfl
  · rintro ⟨hm, h1⟩ hj
    refine run_threw (by simp) ?_
    rw [(dim_size _ _).ok hm, (dim_len _ _).ok ((Indices.len_fits hr').2 h1), indexCheck_err hj]; rfl
  · rintro ⟨hm, h1⟩ hj hb
    refine C27_assign_row hm ((Indices.len_fits hr').2 h1) hj ?_
    rw [Indices.below_idx]; exact hb
  · rintro ⟨hm, h1⟩ hj hb
    have := C19_assign_row (keep := keep) (ci := ci.idx) ho hu h0 hm ((Indices.len_fits hr').2 h1)
      (Indices.inside_idx hr hb) ((Indices.nodup_idx _).2 hn) hj
    simp only [Spec.assignSrc, Indices.selected_fits hr, Indices.posOf_fits hr] at this
    exact this

end GBTL

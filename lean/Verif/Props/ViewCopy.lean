import Verif.Spec.Views
import Verif.Lemmas.Laws
import Verif.Lemmas.OptDispatch
import Verif.Lemmas.BetweennessCalls
import Verif.Lemmas.Algo
import Verif.Props.Blocks
/-
C107: a transposed view as an operand is as good as a transposed copy.
-/
namespace GBTL
open Spec (Outp MaskKind Accum osum both either)

variable {α β γ ζ τ μ : Type} {A A' : Operand α} {B B' : Operand β}

theorem Materialized.facts (h : Materialized A A') :
    A.WF ∧ A'.WF ∧ A'.nrows = A.nrows ∧ A'.ncols = A.ncols ∧ A'.get = A.get ∧ (A'.isTr → A.isTr) := by
  cases h with
  | same A hA => exact ⟨hA, hA, rfl, rfl, rfl, id⟩
  | copy U D X outp hU hD e =>
    obtain ⟨Y, e', i⟩ := into_transpose (outp := outp) hD (Lil.Of.plain (X := U) ⟨hU, rfl, rfl⟩)
    cases e.symm.trans e'
    refine ⟨hU, i.wf, i.nrows, i.ncols, ?_, fun h => absurd h (by simp [Operand.isTr])⟩
    funext a b
    by_cases h : a < U.ncols ∧ b < U.nrows
    · exact i.get a b h.1 h.2
    · show X.get a b = U.get b a
      rw [Sh.out (r := U.ncols) (c := U.nrows) ⟨i.wf, i.nrows, i.ncols⟩ h,
        Sh.out (r := U.nrows) (c := U.ncols) ⟨hU, rfl, rfl⟩ fun hc => h ⟨hc.2, hc.1⟩]

theorem VOut.Yields.same {o : VOut γ τ ζ μ} {t : Spec.Vec τ} {w w' : BVec γ} (h : o.Yields t w) (h' : o.Yields t w') :
    w.Same w' :=
  BVec.Con.same (n := o.w.size) (f := w.get) (g := w'.get) ⟨⟨h.wf, h.size⟩, fun _ _ => rfl⟩ ⟨⟨h'.wf, h'.size⟩, fun _ _ => rfl⟩
    fun i hi => (h.get i hi).trans (h'.get i hi).symm

/-- **C107** `mxm`, for either operand or both. -/
theorem C107_mxm_partial {o : MOut γ τ ζ μ} {sr : SR α β τ} {via : τ → τ} (hA : Materialized A A') (hB : Materialized B B')
    (ho : o.WF) (hs : MxmShapes o A B) (hsw : A.isTr → B.isTr → (∀ a b, sr.multSwap b a = sr.mult a b) ∧ ∀ x, via x = x) :
    ∃ Z, mxm o sr via A B = .done Z ∧ mxm o sr via A' B' = .done Z := by
  obtain ⟨a1, a2, a3, a4, a5, a6⟩ := hA.facts
  obtain ⟨b1, b2, b3, b4, b5, b6⟩ := hB.facts
  obtain ⟨Z, e, i⟩ := C10_mxm_transposed_partial ho a1 b1 hs hsw
  obtain ⟨Z', e', i'⟩ := C10_mxm_transposed_partial (A := A') (B := B') ho a2 b2
    ⟨hs.mask, hs.rows.trans a3.symm, hs.cols.trans b4.symm, a4.trans (hs.inner.trans b3.symm)⟩ fun h h' => hsw (a6 h) (b6 h')
  rw [a4, a5, b5] at i'
  exact ⟨Z, e, i.unique i' ▸ e'⟩

/-- **C107** `vxm`. -/
theorem C107_vxm {o : VOut γ τ ζ μ} {sr : SR α β τ} {u : BVec α} (hB : Materialized B B') (ho : o.WF) (hu : u.WF)
    (hs : VxmShapes o u B) : ∃ z z', vxm o sr u B = .done z ∧ vxm o sr u B' = .done z' ∧ z.Same z' := by
  obtain ⟨b1, b2, b3, b4, b5, -⟩ := hB.facts
  obtain ⟨z, e, i⟩ := C11_vxm (sr := sr) ho hu b1 hs
  obtain ⟨z', e', i'⟩ := C11_vxm (sr := sr) (A := B') ho hu b2 ⟨hs.mask, hs.out.trans b4.symm, hs.inner.trans b3.symm⟩
  rw [b5] at i'
  exact ⟨z, z', e, e', i.same i'⟩

/-- **C107** `mxv`. -/
theorem C107_mxv_partial {o : VOut γ τ ζ μ} {sr : SR α β τ} {u : BVec β} (hA : Materialized A A') (ho : o.WF) (hu : u.WF)
    (hs : MxvShapes o A u) (hsw : A.isTr → ∀ a b, sr.multSwap b a = sr.mult a b) :
    ∃ z z', mxv o sr A u = .done z ∧ mxv o sr A' u = .done z' ∧ z.Same z' := by
  obtain ⟨a1, a2, a3, a4, a5, a6⟩ := hA.facts
  obtain ⟨z, e, i⟩ := C12_mxv_partial ho hu a1 hs hsw
  obtain ⟨z', e', i'⟩ := C12_mxv_partial (A := A') ho hu a2 ⟨hs.mask, hs.out.trans a3.symm, hs.inner.trans a4.symm⟩ fun h => hsw (a6 h)
  rw [a4, a5] at i'
  exact ⟨z, z', e, e', i.same i'⟩

/-- **C107** The element-wise operations, for either operand or both, of one scalar type. -/
theorem C107_eWise_partial {B B' : Operand α} {o : MOut γ τ ζ μ} {op : α → α → τ} {c1 c2 : α → τ} (hA : Materialized A A')
    (hB : Materialized B B') (ho : o.WF) (hs : SameShape2 o A B) :
    (∃ Z, eWiseAddM o ⟨op, c1, c2, id, op, c2⟩ A B = .done Z ∧ eWiseAddM o ⟨op, c1, c2, id, op, c2⟩ A' B' = .done Z) ∧
      ∃ Z, eWiseMultM o ⟨op, c1, c2, id, op, c2⟩ A B = .done Z ∧ eWiseMultM o ⟨op, c1, c2, id, op, c2⟩ A' B' = .done Z := by
  obtain ⟨a1, a2, a3, a4, a5, -⟩ := hA.facts
  obtain ⟨b1, b2, b3, b4, b5, -⟩ := hB.facts
  have hs' : SameShape2 o A' B' := ⟨hs.mask, hs.cols.trans a4.symm, hs.rows.trans a3.symm, a4.trans (hs.cols2.trans b4.symm),
    a3.trans (hs.rows2.trans b3.symm)⟩
  constructor
  · obtain ⟨Z, e, i⟩ := C13_eWiseAdd_same_type (op := op) (c1 := c1) (c2 := c2) ho a1 b1 hs
    obtain ⟨Z', e', i'⟩ := C13_eWiseAdd_same_type (op := op) (c1 := c1) (c2 := c2) ho a2 b2 hs'
    rw [a5, b5] at i'
    exact ⟨Z, e, i.unique i' ▸ e'⟩
  · obtain ⟨Z, e, i⟩ := C14_eWiseMult_same_type (op := op) (c1 := c1) (c2 := c2) ho a1 b1 hs
    obtain ⟨Z', e', i'⟩ := C14_eWiseMult_same_type (op := op) (c1 := c1) (c2 := c2) ho a2 b2 hs'
    rw [a5, b5] at i'
    exact ⟨Z, e, i.unique i' ▸ e'⟩

/-- **C107** `apply`. -/
theorem C107_apply {o : MOut γ τ ζ μ} {f : α → τ} (hA : Materialized A A') (ho : o.WF) (hs : SameShape o A) :
    ∃ Z, applyM o f A = .done Z ∧ applyM o f A' = .done Z := by
  obtain ⟨a1, a2, a3, a4, a5, -⟩ := hA.facts
  obtain ⟨Z, e, i⟩ := C15_apply_matrix (f := f) ho a1 hs
  obtain ⟨Z', e', i'⟩ := C15_apply_matrix (f := f) (A := A') ho a2 ⟨hs.mask, hs.cols.trans a4.symm, hs.rows.trans a3.symm⟩
  rw [a5] at i'
  exact ⟨Z, e, i.unique i' ▸ e'⟩

/-- **C107** `reduce` to a vector. -/
theorem C107_reduce {o : VOut γ τ ζ μ} {r : RedOp α τ} (hA : Materialized A A') (ho : o.WF) (hs : ReduceShapes o A)
    (hop : ∀ x y, r.op x y = r.op' (r.first x) y) :
    ∃ z z', reduceMV o r A = .done z ∧ reduceMV o r A' = .done z' ∧ z.Same z' := by
  obtain ⟨a1, a2, a3, a4, a5, -⟩ := hA.facts
  obtain ⟨z, e, i⟩ := C16_reduce_rows ho a1 hs hop
  obtain ⟨z', e', i'⟩ := C16_reduce_rows (A := A') ho a2 ⟨hs.mask, hs.out.trans a3.symm⟩ hop
  rw [a4, a5] at i'
  exact ⟨z, z', e, e', i.same i'⟩

/-- **C107** `extract` of a matrix and of a column. -/
theorem C107_extract {o : MOut γ α ζ μ} {ri ci : Idx} (hA : Materialized A A') (ho : o.WF) (hm : o.M.Fits o.C.nrows o.C.ncols)
    (h1 : ri.len o.C.nrows = o.C.nrows) (h2 : ci.len o.C.ncols = o.C.ncols) (hr : ri.below A.nrows) (hc : ci.below A.ncols) :
    ∃ Z, extractM o A ri ci = .done Z ∧ extractM o A' ri ci = .done Z := by
  obtain ⟨a1, a2, a3, a4, a5, -⟩ := hA.facts
  obtain ⟨Z, e, i⟩ := C18_extract_matrix ho a1 hm h1 h2 hr hc
  obtain ⟨Z', e', i'⟩ := C18_extract_matrix (A := A') (ri := ri) (ci := ci) ho a2 hm h1 h2 (a3 ▸ hr) (a4 ▸ hc)
  rw [a3, a4, a5] at i'
  exact ⟨Z, e, i.unique i' ▸ e'⟩

theorem C107_extract_column {o : VOut γ α ζ μ} {ri : Idx} {j : Nat} (hA : Materialized A A') (ho : o.WF) (hm : o.m.Fits o.w.size)
    (hl : ri.len o.w.size = o.w.size) (hr : ri.below A.nrows) (hj : j < A.ncols) :
    ∃ z z', extractC o A ri j = .done z ∧ extractC o A' ri j = .done z' ∧ z.Same z' := by
  obtain ⟨a1, a2, a3, a4, a5, -⟩ := hA.facts
  obtain ⟨z, e, i⟩ := C18_extract_column ho a1 hm hl hr hj
  obtain ⟨z', e', i'⟩ := C18_extract_column (A := A') (ri := ri) (j := j) ho a2 hm hl (a3 ▸ hr) (a4 ▸ hj)
  rw [a3, a5] at i'
  exact ⟨z, z', e, e', i.same i'⟩

/-- **C107** `assign`. -/
theorem C107_assign {o : MOut γ α ζ μ} {keep : γ → ζ} {ri ci : Idx} (hA : Materialized A A') (ho : o.WF)
    (hm : o.M.Fits o.C.nrows o.C.ncols) (hlr : ri.len A.nrows = A.nrows) (hlc : ci.len A.ncols = A.ncols)
    (hr : ri.inside A.nrows o.C.nrows) (hc : ci.inside A.ncols o.C.ncols) (hrn : ri.nodup) (hcn : ci.nodup) :
    ∃ Z, assignM o keep A ri ci = .done Z ∧ assignM o keep A' ri ci = .done Z := by
  obtain ⟨a1, a2, a3, a4, a5, -⟩ := hA.facts
  obtain ⟨Z, e, i⟩ := C19_assign_matrix (keep := keep) ho a1 hm hlr hlc hr hc hrn hcn
  obtain ⟨Z', e', i'⟩ := C19_assign_matrix (keep := keep) (A := A') (ri := ri) (ci := ci) ho a2 hm (a3 ▸ hlr) (a4 ▸ hlc) (a3 ▸ hr) (a4 ▸ hc)
    hrn hcn
  rw [a3, a4, a5] at i'
  have : Z = Z' := Lil.ext_get i.wf i'.wf (i.nrows.trans i'.nrows.symm) (i.ncols.trans i'.ncols.symm) fun a b ha hb => by
    rw [i.nrows] at ha
    rw [i.ncols] at hb
    rw [i.get a b ha hb, i'.get a b ha hb]
  exact ⟨Z, e, this ▸ e'⟩

/-- **C107** `transpose` of a view. -/
theorem C107_transpose {o : MOut γ α ζ μ} (hA : Materialized A A') (ho : o.WF) (hs : TransposeShapes o A) :
    ∃ Z, transposeM o A = .done Z ∧ transposeM o A' = .done Z := by
  obtain ⟨a1, a2, a3, a4, a5, -⟩ := hA.facts
  obtain ⟨Z, e, i⟩ := C21_transpose ho a1 hs
  obtain ⟨Z', e', i'⟩ := C21_transpose (A := A') ho a2 ⟨hs.mask, hs.cols.trans a3.symm, a4.trans hs.rows⟩
  rw [a5] at i'
  exact ⟨Z, e, i.unique i' ▸ e'⟩

/-- **C107** `kronecker`. -/
theorem C107_kronecker_partial {o : MOut γ τ ζ μ} {f : α → β → τ} (hA : Materialized A A') (hB : Materialized B B') (ho : o.WF)
    (hs : KronShapes o A B) (hr : o.C.nrows < 2 ^ 64) (hc : o.C.ncols < 2 ^ 64) :
    ∃ Z, kronecker o f A B = .done Z ∧ kronecker o f A' B' = .done Z := by
  obtain ⟨a1, a2, a3, a4, a5, -⟩ := hA.facts
  obtain ⟨b1, b2, b3, b4, b5, -⟩ := hB.facts
  obtain ⟨Z, e, i⟩ := C22_kronecker_partial (f := f) ho a1 b1 hs hr hc
  obtain ⟨Z', e', i'⟩ := C22_kronecker_partial (f := f) (A := A') (B := B') ho a2 b2
    ⟨hs.mask, by rw [a4, b4]; exact hs.cols, by rw [a3, b3]; exact hs.rows⟩ hr hc
  rw [a5, b5, b3, b4] at i'
  exact ⟨Z, e, i.unique i' ▸ e'⟩

/-- A matrix of two rows and three columns, and the matrix `transpose` makes of it. -/
def Ex.wide : Lil Nat := ⟨2, 3, 3, [[(0, 5), (2, 7)], [(1, 6)]]⟩
def Ex.tall : Lil Nat := ⟨3, 2, 3, [[(0, 5)], [(1, 6)], [(0, 7)]]⟩

theorem Ex.tall_copies : Materialized (.tr Ex.wide) (.plain Ex.tall) :=
  .copy Ex.wide (Lil.new 3 2) Ex.tall .merge (Lil.wf_chk (by decide +kernel)) (Lil.new_of _ _) (by decide +kernel)

theorem Ex.one_copies (a : Nat) : Materialized (.tr (Ex.one a)) (.plain (Ex.one a)) :=
  .copy (Ex.one a) (Ex.one 0) (Ex.one a) .merge (Ex.one_wf a) ⟨Ex.one_wf 0, rfl, rfl⟩ rfl

/-- **C107, two views.** The product of two transposed views is not always that of the transposed copies: with (min, second) the code
returns `[[3]]` for the views of `[[3]]` and `[[8]]`, and `[[8]]` for their copies (C10). -/
theorem C107_mxm_wrong :
    ∃ (o : MOut Nat Nat Nat Nat) (sr : SR Nat Nat Nat) (A A' B B' : Operand Nat) (Z Z' : Lil Nat),
      Materialized A A' ∧ Materialized B B' ∧ o.WF ∧ MxmShapes o A B ∧ sr.multSwap = sr.mult ∧
      mxm o sr id A B = .done Z ∧ mxm o sr id A' B' = .done Z' ∧ Z.get 0 0 = some 3 ∧ Z'.get 0 0 = some 8 :=
  ⟨Ex.oN 1, ⟨min, fun _ b => b, fun _ b => b⟩, .tr (Ex.one 3), .plain (Ex.one 3), .tr (Ex.one 8), .plain (Ex.one 8), Ex.one 3, Ex.one 8,
    Ex.one_copies 3, Ex.one_copies 8, Ex.oN_wf 1, ⟨Ex.oN_fits 1 _ _, rfl, rfl, rfl⟩, rfl, by decide +kernel, by decide +kernel,
    by decide +kernel, by decide +kernel⟩

/-- **C107, a view and a vector.** Nor is the product of a transposed view and a vector that of the copy (C12). -/
theorem C107_mxv_wrong :
    ∃ (o : VOut Nat Nat Nat Nat) (sr : SR Nat Nat Nat) (A A' : Operand Nat) (u z z' : BVec Nat),
      Materialized A A' ∧ o.WF ∧ u.WF ∧ MxvShapes o A u ∧ sr.multSwap = sr.mult ∧
      mxv o sr A u = .done z ∧ mxv o sr A' u = .done z' ∧ z.get 0 = some 3 ∧ z'.get 0 = some 8 :=
  ⟨⟨⟨1, 0, [0], [false]⟩, none, fun x => x ≠ 0, .none id, id, .merge⟩, ⟨min, fun _ b => b, fun _ b => b⟩, .tr (Ex.one 3), .plain (Ex.one 3),
    ⟨1, 1, [8], [true]⟩, ⟨1, 1, [3], [true]⟩, ⟨1, 1, [8], [true]⟩, Ex.one_copies 3, ⟨⟨rfl, rfl, rfl⟩, by intro k M e; cases e⟩,
    ⟨rfl, rfl, rfl⟩, ⟨(by intro k M e; cases e), rfl, rfl⟩, rfl, by decide +kernel, by decide +kernel, by decide +kernel,
    by decide +kernel⟩

/-- The product of a view of a two by three matrix with the matrix itself, and the same with the copy. -/
example : ∃ Z, mxm (Ex.oN 3) ⟨(· + ·), (· * ·), (· * ·)⟩ id (.tr Ex.wide) (.plain Ex.wide) = .done Z ∧
    mxm (Ex.oN 3) ⟨(· + ·), (· * ·), (· * ·)⟩ id (.plain Ex.tall) (.plain Ex.wide) = .done Z :=
  C107_mxm_partial Ex.tall_copies (.same _ (Lil.wf_chk (by decide +kernel))) (Ex.oN_wf 3) ⟨Ex.oN_fits 3 _ _, rfl, rfl, rfl⟩
    fun _ h => absurd h (by simp [Operand.isTr])

/-- Part of a view, with its rows in another order, and the sums of its rows. -/
example : ∃ Z, extractM (Ex.oN 2) (.tr Ex.wide) (.list [2, 0]) .all = .done Z ∧
    extractM (Ex.oN 2) (.plain Ex.tall) (.list [2, 0]) .all = .done Z :=
  C107_extract Ex.tall_copies (Ex.oN_wf 2) (Ex.oN_fits 2 _ _) rfl rfl (by simp [Idx.below, Ex.wide, Operand.nrows]) (by simp [Idx.below])

example : ∃ z z', reduceMV (⟨⟨3, 0, [0, 0, 0], [false, false, false]⟩, none, fun x => x ≠ 0, .none id, id, .merge⟩ : VOut Nat Nat Nat Nat)
      ⟨(· + ·), (· + ·), (· + ·), id⟩ (.tr Ex.wide) = .done z ∧
    reduceMV (⟨⟨3, 0, [0, 0, 0], [false, false, false]⟩, none, fun x => x ≠ 0, .none id, id, .merge⟩ : VOut Nat Nat Nat Nat)
      ⟨(· + ·), (· + ·), (· + ·), id⟩ (.plain Ex.tall) = .done z' ∧ z.Same z' :=
  C107_reduce Ex.tall_copies ⟨⟨rfl, rfl, rfl⟩, by intro k M e; cases e⟩ ⟨(by intro k M e; cases e), rfl⟩ fun _ _ => rfl

/-- A view assigned to the first rows and columns of a larger matrix. -/
example : ∃ Z, assignM (Ex.oN 4) id (.tr Ex.wide) (.list [0, 1, 2]) (.list [0, 1]) = .done Z ∧
    assignM (Ex.oN 4) id (.plain Ex.tall) (.list [0, 1, 2]) (.list [0, 1]) = .done Z :=
  C107_assign Ex.tall_copies (Ex.oN_wf 4) (Ex.oN_fits 4 _ _) rfl rfl (by simp [Idx.inside, Ex.oN, Lil.new])
    (by simp [Idx.inside, Ex.oN, Lil.new]) (by simp [Idx.nodup]) (by simp [Idx.nodup])

end GBTL

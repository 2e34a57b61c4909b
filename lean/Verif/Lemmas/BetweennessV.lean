import Verif.Model.BetweennessV
import Verif.Lemmas.BetweennessBatch
import Verif.Props.Select
/-
What the calls of the vector versions of betweenness centrality compute.
-/
namespace GBTL
open Spec

variable {α τ γ μ : Type}

/-- A consistent vector of size `n`. -/
structure Sz (n : Nat) (v : BVec τ) : Prop where
  wf : v.WF
  sz : v.size = n

theorem Sz.out {n : Nat} {v : BVec τ} (h : Sz n v) {i : Nat} (hi : ¬ i < n) : v.get i = none := by
  have h1 := h.wf.blen
  have h2 := h.sz
  rw [BVec.get, List.getElem?_eq_none (by omega)]; simp

theorem Sz.none {n : Nat} {v : BVec τ} (h : Sz n v) (hz : ¬ 0 < v.nvals) (i : Nat) : v.get i = .none :=
  none_of_nvals h.wf (by omega) i

theorem Sz.some {n : Nat} {v : BVec τ} (h : Sz n v) (hz : 0 < v.nvals) : ∃ i, i < n ∧ v.get i ≠ .none := by
  obtain ⟨i, x, h1, h2⟩ := nonempty_of_nvals h.wf hz
  exact ⟨i, h.sz ▸ h1, by rw [h2]; simp⟩

theorem newV {n : Nat} [Inhabited τ] (hn : 0 < n) :
    ∃ v : BVec τ, BVec.new n = .ok v ∧ Sz n v ∧ ∀ i, v.get i = none := by
  obtain ⟨v, e, h1, h2, h3⟩ := BVec.new_spec (α := τ) (n := n) (by omega)
  exact ⟨v, e, ⟨h1, h2⟩, h3⟩

variable {n : Nat}

theorem vP_yields {cz : τ → γ} {w w' : BVec γ} {z : Vec τ} (hw : Sz n w) (y : (vPlain cz w).Yields z w') :
    Sz n w' ∧ ∀ i, i < n → w'.get i = (z i).map cz := by
  refine ⟨⟨y.wf, y.size.trans hw.sz⟩, fun i hi => ?_⟩
  rw [y.get i (by show i < w.size; rw [hw.sz]; exact hi)]
  simp [vPlain, VMask.allows, Spec.write, Spec.accum]

theorem vM_yields {w w' : BVec γ} {k : MaskKind} {truthy : μ → Bool} {m : BVec μ} {z : Vec γ} (hw : Sz n w)
    (y : (vMasked id w k truthy m .replace).Yields z w') :
    Sz n w' ∧ ∀ i, i < n → w'.get i = if Spec.allows truthy k (m.get i) then z i else none := by
  refine ⟨⟨y.wf, y.size.trans hw.sz⟩, fun i hi => ?_⟩
  rw [y.get i (by show i < w.size; rw [hw.sz]; exact hi)]
  simp [vMasked, VMask.allows, Spec.write, Spec.accum]

theorem vM_wf {w : BVec γ} {k : MaskKind} {truthy : μ → Bool} {m : BVec μ} (hw : Sz n w) (hm : Sz n m) :
    (vMasked id w k truthy m .replace).WF := ⟨hw.wf, maskOK hm.wf⟩

theorem vM_fits {w : BVec γ} {k : MaskKind} {truthy : μ → Bool} {m : BVec μ} (hw : Sz n w) (hm : Sz n m) :
    (vMasked id w k truthy m .replace).m.Fits w.size := maskFits (hm.sz.trans hw.sz.symm)

theorem onesV_ok {w : BVec τ} {x : τ} (hw : Sz n w) :
    ∃ w', exec (assignConstV (vPlain id w) id x .all) = .ok w' ∧ Sz n w' ∧ ∀ i, i < n → w'.get i = some x := by
  obtain ⟨w', e, y⟩ := C20_assign_const_vector_partial (o := vPlain (τ := τ) id w) (keep := id) (x := x) (ix := .all)
    (vPlain_wf hw.wf) ⟨vPlain_fits _, Nat.le_refl _⟩ trivial trivial
  refine ⟨w', by rw [e, exec_done], ⟨y.wf, y.size.trans hw.sz⟩, ?_⟩
  intro v hv
  rw [y.get v (by show v < w.size; rw [hw.sz]; exact hv)]
  have hsel : Spec.selected Idx.all.sel (vPlain (τ := τ) id w).w.size v = true :=
    selected_all (by show v < w.size; rw [hw.sz]; exact hv)
  rw [hsel]
  simp [vPlain, VMask.allows, Spec.write, Spec.assignAt, Spec.accum]

theorem addV_ok {w u v : BVec τ} {f : EW τ τ τ} (hw : Sz n w) (hu : Sz n u) (hv : Sz n v) :
    ∃ w', exec (eWiseAddV (vPlain id w) f u v) = .ok w' ∧ Sz n w' ∧
      ∀ i, i < n → w'.get i = either f.op f.c1 f.c2 (u.get i) (v.get i) := by
  obtain ⟨w', e, y⟩ := C13_eWiseAdd_vector (o := vPlain id w) (f := f) (u := u) (v := v) (vPlain_wf hw.wf) hu.wf hv.wf
    ⟨vPlain_fits _, hw.sz.trans hu.sz.symm, hu.sz.trans hv.sz.symm⟩
  obtain ⟨h1, h2⟩ := vP_yields hw y
  exact ⟨w', by rw [e, exec_done], h1, fun i hi => by rw [h2 i hi]; simp⟩

theorem multV_ok {w u v : BVec τ} {f : EW τ τ τ} (hw : Sz n w) (hu : Sz n u) (hv : Sz n v) :
    ∃ w', exec (eWiseMultV (vPlain id w) f u v) = .ok w' ∧ Sz n w' ∧
      ∀ i, i < n → w'.get i = both f.op (u.get i) (v.get i) := by
  obtain ⟨w', e, y⟩ := C14_eWiseMult_vector (o := vPlain id w) (f := f) (u := u) (v := v) (vPlain_wf hw.wf) hu.wf hv.wf
    ⟨vPlain_fits _, hw.sz.trans hu.sz.symm, hu.sz.trans hv.sz.symm⟩
  obtain ⟨h1, h2⟩ := vP_yields hw y
  exact ⟨w', by rw [e, exec_done], h1, fun i hi => by rw [h2 i hi]; simp⟩

theorem multVM_ok {w u v : BVec τ} {S : BVec Bool} {f : EW τ τ τ} (hw : Sz n w) (hS : Sz n S) (hu : Sz n u) (hv : Sz n v) :
    ∃ w', exec (eWiseMultV (vMasked id w .plain id S .replace) f u v) = .ok w' ∧ Sz n w' ∧
      ∀ i, i < n → w'.get i = if (S.get i).any id = true then both f.op (u.get i) (v.get i) else none := by
  obtain ⟨w', e, y⟩ := C14_eWiseMult_vector (o := vMasked id w .plain id S .replace) (f := f) (u := u) (v := v)
    (vM_wf hw hS) hu.wf hv.wf
    ⟨vM_fits hw hS, hw.sz.trans hu.sz.symm, hu.sz.trans hv.sz.symm⟩
  obtain ⟨h1, h2⟩ := vM_yields hw y
  refine ⟨w', by rw [e, exec_done], h1, fun i hi => ?_⟩
  rw [h2 i hi]
  cases hg : S.get i <;> simp [Spec.allows] <;> rfl

theorem applyVP_ok {w : BVec γ} {u : BVec α} {f : α → γ} (hw : Sz n w) (hu : Sz n u) :
    ∃ w', exec (applyV (vPlain id w) f u) = .ok w' ∧ Sz n w' ∧ ∀ i, i < n → w'.get i = (u.get i).map f := by
  obtain ⟨w', e, y⟩ := C15_apply_vector (o := vPlain id w) (f := f) (u := u) (vPlain_wf hw.wf) hu.wf
    ⟨vPlain_fits _, hw.sz.trans hu.sz.symm⟩
  obtain ⟨h1, h2⟩ := vP_yields hw y
  exact ⟨w', by rw [e, exec_done], h1, fun i hi => by rw [h2 i hi]; simp⟩

/-- A step of the search: `f<!p> = f +.* A`. -/
theorem stepV_ok {w p : BVec τ} {truthy : τ → Bool} {A : Lil α} {u : BVec τ} {sr : SR τ α τ} (hw : Sz n w) (hp : Sz n p)
    (hu : Sz n u) (hA : Sh n n A) :
    ∃ w', exec (vxm (vMasked id w .comp truthy p .replace) sr u (.plain A)) = .ok w' ∧ Sz n w' ∧
      ∀ v, v < n → w'.get v = if (p.get v).any truthy = true then none else
        osum sr.add ((List.range n).map fun i => both sr.mult (u.get i) (A.get i v)) := by
  obtain ⟨w', e, y⟩ := C11_vxm (o := vMasked id w .comp truthy p .replace) (sr := sr) (u := u) (A := .plain A)
    (vM_wf hw hp) hu.wf hA.wf ⟨vM_fits hw hp, hw.sz.trans hA.nc.symm, hu.sz.trans hA.nr.symm⟩
  obtain ⟨h1, h2⟩ := vM_yields hw y
  refine ⟨w', by rw [e, exec_done], h1, fun v hv => ?_⟩
  rw [h2 v hv, hu.sz]
  cases hg : p.get v with
  | none => simp [Spec.allows]; rfl
  | some x => cases hn : truthy x <;> simp [Spec.allows, hn]; rfl

/-- A step backwards: `w<S> = A +.* u`. -/
theorem backV_ok {w u : BVec τ} {S : BVec Bool} {A : Lil α} {sr : SR α τ τ} (hw : Sz n w) (hS : Sz n S)
    (hu : Sz n u) (hA : Sh n n A) :
    ∃ w', exec (mxv (vMasked id w .plain id S .replace) sr (.plain A) u) = .ok w' ∧ Sz n w' ∧
      ∀ v, v < n → w'.get v = if (S.get v).any id = true then
        osum sr.add ((List.range n).map fun i => both sr.mult (A.get v i) (u.get i)) else none := by
  obtain ⟨w', e, y⟩ := C12_mxv (o := vMasked id w .plain id S .replace) (sr := sr) (u := u) (A := A)
    (vM_wf hw hS) hu.wf hA.wf ⟨vM_fits hw hS, hw.sz.trans hA.nr.symm, hu.sz.trans hA.nc.symm⟩
  obtain ⟨h1, h2⟩ := vM_yields hw y
  refine ⟨w', by rw [e, exec_done], h1, fun v hv => ?_⟩
  rw [h2 v hv, hA.nc]
  cases hg : S.get v with
  | none => simp [Spec.allows]
  | some x => cases x <;> simp [Spec.allows]; rfl

theorem backVP_ok {w u : BVec τ} {A : Lil α} {sr : SR α τ τ} (hw : Sz n w) (hu : Sz n u) (hA : Sh n n A) :
    ∃ w', exec (mxv (vPlain id w) sr (.plain A) u) = .ok w' ∧ Sz n w' ∧
      ∀ v, v < n → w'.get v = osum sr.add ((List.range n).map fun i => both sr.mult (A.get v i) (u.get i)) := by
  obtain ⟨w', e, y⟩ := C12_mxv (o := vPlain id w) (sr := sr) (u := u) (A := A)
    (vPlain_wf hw.wf) hu.wf hA.wf ⟨vPlain_fits _, hw.sz.trans hA.nr.symm, hu.sz.trans hA.nc.symm⟩
  obtain ⟨h1, h2⟩ := vP_yields hw y
  refine ⟨w', by rw [e, exec_done], h1, fun v hv => ?_⟩
  rw [h2 v hv, hA.nc, Option.map_id, id]
  rfl

/-- `u += w .* p`. -/
theorem accV_ok {add : τ → τ → τ} {f : EW τ τ τ} {u w p : BVec τ} (hu : Sz n u) (hw : Sz n w) (hp : Sz n p) :
    ∃ u', exec (eWiseMultV
        { w := u, m := (none : VMask Bool), truthy := id, acc := .some add id id, castZ := id, outp := .replace } f w p) = .ok u' ∧
      Sz n u' ∧ ∀ i, i < n → u'.get i = match u.get i, both f.op (w.get i) (p.get i) with
        | some u, some w => some (add u w)
        | u, none => u
        | none, some w => some w := by
  obtain ⟨u', e, y⟩ := C14_eWiseMult_vector
    (o := { w := u, m := (none : VMask Bool), truthy := id, acc := .some add id id, castZ := id, outp := .replace })
    (f := f) (u := w) (v := p) ⟨hu.wf, noMaskOK⟩ hw.wf hp.wf
    ⟨noMaskFits, hu.sz.trans hw.sz.symm, hw.sz.trans hp.sz.symm⟩
  refine ⟨u', by rw [e, exec_done], ⟨y.wf, y.size.trans hu.sz⟩, ?_⟩
  intro i hi
  rw [y.get i (by show i < u.size; rw [hu.sz]; exact hi)]
  simp only [VMask.allows, Spec.write, Spec.accum, if_true]
  cases u.get i <;> cases both f.op (w.get i) (p.get i) <;> rfl

/-- Row `i` of a matrix, by extracting a column of its transpose. -/
theorem rowV_ok {w : BVec γ} {cz : α → γ} {A : Lil α} {m : Nat} {i : Nat} (hw : Sz n w) (hA : Sh m n A) (hi : i < m) :
    ∃ w', exec (extractC (vPlain cz w) (.tr A) .all i) = .ok w' ∧ Sz n w' ∧
      ∀ v, v < n → w'.get v = (A.get i v).map cz := by
  obtain ⟨w', e, y⟩ := C18_extract_column (o := vPlain cz w) (A := .tr A) (ri := .all) (j := i)
    (vPlain_wf hw.wf) hA.wf (vPlain_fits _) rfl trivial (by show i < A.nrows; rw [hA.nr]; exact hi)
  obtain ⟨h1, h2⟩ := vP_yields hw y
  refine ⟨w', by rw [e, exec_done], h1, fun v hv => ?_⟩
  rw [h2 v hv]
  show (Spec.extract A.ncols Option.none (fun k => A.get i k) v).map cz = _
  rw [hA.nc]
  simp [Spec.extract, Spec.nth, hv]

theorem setV_ok {v : BVec τ} (hv : Sz n v) {i : Nat} (hi : i < n) (x : τ) :
    ∃ w, method (v.setElement i x) = .ok w ∧ Sz n w ∧ ∀ k, w.get k = if k = i then some x else v.get k := by
  obtain ⟨w, e, h1, h2, h3⟩ := BVec.setElement_spec hv.wf (i := i) (by rw [hv.sz]; exact hi) x
  exact ⟨w, by rw [e]; rfl, ⟨h1, h2.trans hv.sz⟩, h3⟩

/-- A matrix row replaced. -/
theorem setRow_ok [Inhabited τ] {C : Lil τ} {u : BVec τ} {m d : Nat} (hn : 0 < n) (hC : Sh m n C) (hu : Sz n u) (hd : d < m) :
    ∃ C', exec (assignRow
        { C := C, m := (none : VMask Bool), truthy := id, acc := .none id, castZ := id, outp := .merge } id u d .all) = .ok C' ∧
      Sh m n C' ∧ ∀ i j, i < m → j < n → C'.get i j = if i = d then u.get j else C.get i j := by
  obtain ⟨C', e, y⟩ := C19_assign_row
    (o := { C := C, m := (none : VMask Bool), truthy := id, acc := .none id, castZ := id, outp := .merge })
    (keep := id) (u := u) (ci := .all) (i := d) ⟨hC.wf, noMaskOK⟩ hu.wf (by rw [hu.sz]; exact hn) noMaskFits rfl
    (by show u.size ≤ C.ncols; rw [hu.sz, hC.nc]; exact Nat.le_refl _) trivial (by show d < C.nrows; rw [hC.nr]; exact hd)
  refine ⟨C', by rw [e, exec_done], ⟨y.wf, y.nrows.trans hC.nr, y.ncols.trans hC.nc⟩, ?_⟩
  intro i j hi hj
  rw [y.get i j (by show i < C.nrows; rw [hC.nr]; exact hi) (by show j < C.ncols; rw [hC.nc]; exact hj)]
  by_cases hid : i = d
  · subst hid
    have hsel : Spec.selected Idx.all.sel u.size j = true := selected_all (by rw [hu.sz]; exact hj)
    simp only [if_true, hsel]
    simp [VMask.allows, Spec.write, Spec.assignAt, Spec.accum, Spec.assignSrc, Spec.posOf, Idx.sel, hu.sz, hj]
  · simp [hid]

end GBTL

import Verif.Model.Betweenness
import Verif.Lemmas.BetweennessSteps
import Verif.Props.BfsBatch
import Verif.Props.KTrussInc
/-
What the calls of the batch versions of betweenness centrality compute.
-/
namespace GBTL
open Spec

variable {α τ γ μ : Type}

/-- A consistent `r × c` matrix. -/
structure Sh (r c : Nat) (A : Lil τ) : Prop where
  wf : A.WF
  nr : A.nrows = r
  nc : A.ncols = c

theorem Sh.new (r c : Nat) : Sh r c (Lil.new r c : Lil τ) := ⟨Lil.new_wf r c, rfl, rfl⟩

theorem Sh.out {r c : Nat} {A : Lil τ} (h : Sh r c A) {i j : Nat} (hij : ¬ (i < r ∧ j < c)) : A.get i j = none := by
  cases hg : A.get i j with
  | none => rfl
  | some x =>
    have := some_lt h.wf (i := i) (j := j) (by rw [hg]; simp)
    rw [h.nr, h.nc] at this
    exact absurd this hij

variable {r c : Nat}

theorem mWhole_wf {cz : τ → γ} {C : Lil γ} {o : Outp} (h : C.WF) : (mWhole cz C o).WF := ⟨h, noMaskOKM⟩

theorem whole_yields {cz : τ → γ} {C C' : Lil γ} {o : Outp} {T : Mat τ} (hC : Sh r c C)
    (h : (mWhole cz C o).Yields T C') :
    Sh r c C' ∧ ∀ i j, i < r → j < c → C'.get i j = (T i j).map cz := by
  refine ⟨⟨h.wf, h.nrows.trans hC.nr, h.ncols.trans hC.nc⟩, ?_⟩
  intro i j hi hj
  rw [h.get i j (by show i < C.nrows; rw [hC.nr]; exact hi) (by show j < C.ncols; rw [hC.nc]; exact hj)]
  simp [mWhole, MMask.allows, Spec.write, Spec.accum]

theorem masked_yields {C C' : Lil γ} {k : MaskKind} {truthy : μ → Bool} {M : Lil μ} {T : Mat γ} (hC : Sh r c C)
    (h : (mMasked C k truthy M).Yields T C') :
    Sh r c C' ∧ ∀ i j, i < r → j < c → C'.get i j = if Spec.allows truthy k (M.get i j) then T i j else none := by
  refine ⟨⟨h.wf, h.nrows.trans hC.nr, h.ncols.trans hC.nc⟩, ?_⟩
  intro i j hi hj
  rw [h.get i j (by show i < C.nrows; rw [hC.nr]; exact hi) (by show j < C.ncols; rw [hC.nc]; exact hj)]
  simp [mMasked, MMask.allows, Spec.write, Spec.accum]

theorem bcSigma_ok {F : Lil Int} (hF : Sh r c F) :
    ∃ S, bcSigma r c F = .ok S ∧ Sh r c S ∧ ∀ i j, S.get i j = (F.get i j).map nonzero := by
  obtain ⟨S, e, y⟩ := C15_apply_matrix (o := mWhole id (Lil.new r c) .merge) (f := nonzero) (A := .plain F)
    (mWhole_wf (Lil.new_wf r c)) hF.wf ⟨noMaskFitsM, hF.nc.symm, hF.nr.symm⟩
  obtain ⟨h1, h2⟩ := whole_yields (Sh.new r c) y
  refine ⟨S, by rw [bcSigma, e, exec_done], h1, ?_⟩
  intro i j
  by_cases h : i < r ∧ j < c
  · rw [h2 i j h.1 h.2]; simp; rfl
  · rw [h1.out h, hF.out h]; rfl

theorem bcCount_ok {ov : Int → Int → Int} {P F : Lil Int} (hP : Sh r c P) (hF : Sh r c F) :
    ∃ P', bcCount ov P F = .ok P' ∧ Sh r c P' ∧
      ∀ i j, P'.get i j = either (ITy.i32.plusT ov) id id (P.get i j) (F.get i j) := by
  obtain ⟨S, e, y⟩ := C13_eWiseAdd_same_type (o := mWhole id P .merge) (op := ITy.i32.plusT ov) (c1 := id) (c2 := id)
    (A := .plain P) (B := .plain F)
    (mWhole_wf hP.wf) hP.wf hF.wf ⟨noMaskFitsM, rfl, rfl, hP.nc.trans hF.nc.symm, hP.nr.trans hF.nr.symm⟩
  obtain ⟨h1, h2⟩ := whole_yields hP y
  refine ⟨S, by rw [bcCount, e, exec_done], h1, ?_⟩
  intro i j
  by_cases h : i < r ∧ j < c
  · rw [h2 i j h.1 h.2]; simp; rfl
  · rw [h1.out h, hP.out h, hF.out h]; rfl

theorem bcInv_ok {P : Lil Int} {o : Outp} (hP : Sh r c P) :
    ∃ I, bcInv r c o P = .ok I ∧ Sh r c I ∧ ∀ i j, I.get i j = (P.get i j).map fun x : Int => 1 / (x : Rat) := by
  obtain ⟨S, e, y⟩ := C15_apply_matrix (o := mWhole id (Lil.new r c) o) (f := fun x : Int => 1 / (x : Rat)) (A := .plain P)
    (mWhole_wf (Lil.new_wf r c)) hP.wf ⟨noMaskFitsM, hP.nc.symm, hP.nr.symm⟩
  obtain ⟨h1, h2⟩ := whole_yields (Sh.new r c) y
  refine ⟨S, by rw [bcInv, e, exec_done], h1, ?_⟩
  intro i j
  by_cases h : i < r ∧ j < c
  · rw [h2 i j h.1 h.2]; simp; rfl
  · rw [h1.out h, hP.out h]; rfl

theorem selected_all {n i : Nat} (h : i < n) : Spec.selected Idx.all.sel n i = true := by
  simp [Spec.selected, Spec.posOf, Idx.sel, h]

theorem bcOnes_ok {o : Outp} :
    ∃ U, bcOnes r c o = .ok U ∧ Sh r c U ∧ ∀ i j, i < r → j < c → U.get i j = some 1 := by
  obtain ⟨S, e, y⟩ := C20_assign_const_matrix_partial (o := mWhole (γ := Rat) id (Lil.new r c) o) (keep := id) (x := (1 : Rat))
    (ri := .all) (ci := .all) (mWhole_wf (Lil.new_wf r c)) ⟨noMaskFitsM, Nat.le_refl _, Nat.le_refl _⟩
    trivial trivial trivial
  refine ⟨S, by rw [bcOnes, e, exec_done], ⟨y.wf, y.nrows, y.ncols⟩, ?_⟩
  intro i j hi hj
  rw [y.get i j hi hj]
  have h1 : Spec.selected Idx.all.sel (mWhole (γ := Rat) (τ := Rat) id (Lil.new r c) o).C.nrows i = true := selected_all hi
  have h2 : Spec.selected Idx.all.sel (mWhole (γ := Rat) (τ := Rat) id (Lil.new r c) o).C.ncols j = true := selected_all hj
  rw [h1, h2]
  simp [mWhole, MMask.allows, Spec.write, Spec.assignAt, Spec.accum]

theorem bcScale_ok {W I U : Lil Rat} {S : Lil Bool} (hW : Sh r c W) (hS : Sh r c S) (hI : Sh r c I) (hU : Sh r c U) :
    ∃ W', bcScale W S I U = .ok W' ∧ Sh r c W' ∧
      ∀ i j, i < r → j < c → W'.get i j =
        if (S.get i j).any id = true then both (· * ·) (I.get i j) (U.get i j) else none := by
  obtain ⟨X, e, y⟩ := C14_eWiseMult_same_type (o := mMasked W .plain id S) (op := fun x y : Rat => x * y) (c1 := id) (c2 := id)
    (A := .plain I) (B := .plain U)
    ⟨hW.wf, maskOKM hS.wf⟩ hI.wf hU.wf ⟨maskFitsM (hS.nr.trans hW.nr.symm) (hS.nc.trans hW.nc.symm),
      hW.nc.trans hI.nc.symm, hW.nr.trans hI.nr.symm, hI.nc.trans hU.nc.symm, hI.nr.trans hU.nr.symm⟩
  obtain ⟨h1, h2⟩ := masked_yields hW y
  refine ⟨X, by rw [bcScale, e, exec_done], h1, ?_⟩
  intro i j hi hj
  rw [h2 i j hi hj]
  cases hg : S.get i j <;> simp [Spec.allows] <;> rfl

theorem bcAdd_ok {W U : Lil Rat} {P : Lil Int} (hW : Sh r c W) (hP : Sh r c P) (hU : Sh r c U) :
    ∃ U', bcAdd U W P = .ok U' ∧ Sh r c U' ∧
      ∀ i j, i < r → j < c → U'.get i j =
        match U.get i j, both (fun w (p : Int) => w * (p : Rat)) (W.get i j) (P.get i j) with
        | some u, some w => some (u + w)
        | u, none => u
        | none, some w => some w := by
  obtain ⟨X, e, y⟩ := C14_eWiseMult_matrix_partial
    (o := { C := U, M := (none : MMask Bool), truthy := id, acc := .some (· + ·) id id, castZ := id, outp := .merge })
    (f := ⟨fun w p => w * ((p : Int) : Rat), id, fun p : Int => (p : Rat), fun p : Int => (p : Rat), (· * ·), id⟩)
    (A := .plain W) (B := .plain P)
    ⟨hU.wf, noMaskOKM⟩ hW.wf hP.wf ⟨noMaskFitsM,
      hU.nc.trans hW.nc.symm, hU.nr.trans hW.nr.symm, hW.nc.trans hP.nc.symm, hW.nr.trans hP.nr.symm⟩
    (fun _ h => h.elim)
  refine ⟨X, by rw [bcAdd, e, exec_done], ⟨y.wf, y.nrows.trans hU.nr, y.ncols.trans hU.nc⟩, ?_⟩
  intro i j hi hj
  rw [y.get i j (by show i < U.nrows; rw [hU.nr]; exact hi) (by show j < U.ncols; rw [hU.nc]; exact hj)]
  simp only [MMask.allows, Spec.write, Spec.accum, if_true, Operand.get]
  cases U.get i j <;> cases (both (fun w (p : Int) => w * (p : Rat)) (W.get i j) (P.get i j)) <;> simp

/-- `A`'s edges. -/
def edges (A : Lil α) (u v : Nat) : Bool := (A.get u v).isSome

theorem edges_in {A : Lil α} {n : Nat} (hA : Sh n n A) : EdgesIn n (edges A) := by
  intro u v h
  have := some_lt hA.wf (i := u) (j := v) (by intro h0; rw [edges, h0] at h; cases h)
  rw [hA.nr, hA.nc] at this
  exact this

theorem frontAF_ok {ov : Int → Int → Int} {gI : α → Int} {A : Lil α} {F P : Lil Int} {n m : Nat}
    (hA : Sh n n A) (hF : Sh n m F) (hP : Sh n m P) :
    ∃ F', exec (mxm (mMasked F .comp nonzero P) (pathsAF ov gI) id (.tr A) (.plain F)) = .ok F' ∧ Sh n m F' ∧
      ∀ v j, v < n → j < m → F'.get v j = if (P.get v j).any nonzero = true then none else
        osum (ITy.i32.plusT ov) ((List.range n).map fun u =>
          both (fun a f => ITy.i32.timesT ov (gI a) f) (A.get u v) (F.get u j)) := by
  obtain ⟨X, e, y⟩ := C10_mxm_ATB (o := mMasked F .comp nonzero P) (sr := pathsAF ov gI) (via := id) (A := A) (B := F)
    ⟨hF.wf, maskOKM hP.wf⟩ hA.wf hF.wf ⟨maskFitsM (hP.nr.trans hF.nr.symm) (hP.nc.trans hF.nc.symm),
      hF.nr.trans hA.nc.symm, rfl, hA.nr.trans hF.nr.symm⟩
  obtain ⟨h1, h2⟩ := masked_yields hF y
  refine ⟨X, by rw [e, exec_done], h1, ?_⟩
  intro v j hv hj
  rw [h2 v j hv hj, hA.nr]
  cases hg : P.get v j with
  | none => simp [Spec.allows]; rfl
  | some x => cases hn : nonzero x <;> simp [Spec.allows, hn]; rfl

theorem frontFA_ok {ov : Int → Int → Int} {gI : α → Int} {A : Lil α} {F P : Lil Int} {n m : Nat}
    (hA : Sh n n A) (hF : Sh m n F) (hP : Sh m n P) :
    ∃ F', exec (mxm (mMasked F .comp nonzero P) (pathsFA ov gI) id (.plain F) (.plain A)) = .ok F' ∧ Sh m n F' ∧
      ∀ j v, j < m → v < n → F'.get j v = if (P.get j v).any nonzero = true then none else
        osum (ITy.i32.plusT ov) ((List.range n).map fun u =>
          both (fun f a => ITy.i32.timesT ov f (gI a)) (F.get j u) (A.get u v)) := by
  obtain ⟨X, e, y⟩ := C09_mxm (o := mMasked F .comp nonzero P) (sr := pathsFA ov gI) (via := id) (A := F) (B := A)
    ⟨hF.wf, maskOKM hP.wf⟩ hF.wf hA.wf ⟨maskFitsM (hP.nr.trans hF.nr.symm) (hP.nc.trans hF.nc.symm),
      rfl, hF.nc.trans hA.nc.symm, hF.nc.trans hA.nr.symm⟩
  obtain ⟨h1, h2⟩ := masked_yields hF y
  refine ⟨X, by rw [e, exec_done], h1, ?_⟩
  intro v j hv hj
  rw [h2 v j hv hj, hF.nc]
  cases hg : P.get v j with
  | none => simp [Spec.allows]; rfl
  | some x => cases hn : nonzero x <;> simp [Spec.allows, hn]; rfl

theorem backAW_ok {gF : α → Rat} {A : Lil α} {W : Lil Rat} {S : Lil Bool} {n m : Nat}
    (hA : Sh n n A) (hW : Sh n m W) (hS : Sh n m S) :
    ∃ W', exec (mxm (mMasked W .plain id S) (flowAW gF) id (.plain A) (.plain W)) = .ok W' ∧ Sh n m W' ∧
      ∀ v j, v < n → j < m → W'.get v j = if (S.get v j).any id = true then
        osum (· + ·) ((List.range n).map fun w =>
          both (fun a x => gF a * x) (A.get v w) (W.get w j)) else none := by
  obtain ⟨X, e, y⟩ := C09_mxm (o := mMasked W .plain id S) (sr := flowAW gF) (via := id) (A := A) (B := W)
    ⟨hW.wf, maskOKM hS.wf⟩ hA.wf hW.wf ⟨maskFitsM (hS.nr.trans hW.nr.symm) (hS.nc.trans hW.nc.symm),
      hW.nr.trans hA.nr.symm, rfl, hA.nc.trans hW.nr.symm⟩
  obtain ⟨h1, h2⟩ := masked_yields hW y
  refine ⟨X, by rw [e, exec_done], h1, ?_⟩
  intro v j hv hj
  rw [h2 v j hv hj, hA.nc]
  cases hg : S.get v j with
  | none => simp [Spec.allows]
  | some x => cases x <;> simp [Spec.allows]; rfl

theorem backWA_ok {gF : α → Rat} {A : Lil α} {W : Lil Rat} {S : Lil Bool} {n m : Nat}
    (hA : Sh n n A) (hW : Sh m n W) (hS : Sh m n S) :
    ∃ W', exec (mxm (mMasked W .plain id S) (flowWA gF) id (.plain W) (.tr A)) = .ok W' ∧ Sh m n W' ∧
      ∀ j v, j < m → v < n → W'.get j v = if (S.get j v).any id = true then
        osum (· + ·) ((List.range n).map fun w =>
          both (fun x a => x * gF a) (W.get j w) (A.get v w)) else none := by
  obtain ⟨X, e, y⟩ := C10_mxm_ABT (o := mMasked W .plain id S) (sr := flowWA gF) (via := id) (A := W) (B := A)
    ⟨hW.wf, maskOKM hS.wf⟩ hW.wf hA.wf ⟨maskFitsM (hS.nr.trans hW.nr.symm) (hS.nc.trans hW.nc.symm),
      rfl, hW.nc.trans hA.nr.symm, hW.nc.trans hA.nc.symm⟩
  obtain ⟨h1, h2⟩ := masked_yields hW y
  refine ⟨X, by rw [e, exec_done], h1, ?_⟩
  intro v j hv hj
  rw [h2 v j hv hj, hW.nc]
  cases hg : S.get v j with
  | none => simp [Spec.allows]
  | some x => cases x <;> simp [Spec.allows]; rfl

/-! ### the result -/

theorem ofold_rat {m : Nat} {h : Nat → Option Rat} {g : Nat → Rat} (hm : 0 < m)
    (hh : ∀ k, k < m → h k = some (g k)) :
    ofold id (fun t y => t + id y) ((List.range m).map h) = some (rsum m g) := by
  induction m with
  | zero => omega
  | succ m ih =>
    rw [rsum, List.range_succ, List.map_append, List.map_cons, List.map_nil, hh m (by omega)]
    by_cases h0 : m = 0
    · subst h0
      show some (g 0) = some (0 + g 0)
      rw [Rat.zero_add]
    · have := ih (by omega) (fun k hk => hh k (by omega))
      simp only [ofold, List.foldl_append] at this ⊢
      rw [this]; rfl

theorem bcSum_ok {n m : Nat} (hn : 0 < n) (hm : 0 < m) {B : Operand Rat} (hB : B.WF) (h1 : B.nrows = n) (h2 : B.ncols = m)
    {g : Nat → Nat → Rat} (hg : ∀ v j, v < n → j < m → B.get v j = some (g v j)) :
    ∃ w, bcSum n m B = .ok w ∧ w.WF ∧ w.size = n ∧
      ∀ v, v < n → w.get v = some (-1 * (m : Rat) + rsum m (g v)) := by
  obtain ⟨u, e1, hu1, hu2, hu3⟩ := BVec.new_spec (α := Rat) (n := n) (by omega)
  obtain ⟨w1, e2, y2⟩ := C20_assign_const_vector_partial (o := vPlain (τ := Rat) id u) (keep := id) (x := -1 * (m : Rat)) (ix := .all)
    (vPlain_wf hu1) ⟨vPlain_fits _, Nat.le_refl _⟩ trivial trivial
  have hw1 : w1.size = n := y2.size.trans hu2
  have hg1 : ∀ v, v < n → w1.get v = some (-1 * (m : Rat)) := by
    intro v hv
    rw [y2.get v (by show v < u.size; rw [hu2]; exact hv)]
    have hsel : Spec.selected Idx.all.sel (vPlain (τ := Rat) id u).w.size v = true :=
      selected_all (by show v < u.size; rw [hu2]; exact hv)
    rw [hsel]
    simp [vPlain, VMask.allows, Spec.write, Spec.assignAt, Spec.accum]
  obtain ⟨w2, e3, y3⟩ := C16_reduce_rows_op
    (o := { w := w1, m := (none : VMask Bool), truthy := id, acc := .some (· + ·) id id, castZ := id, outp := .merge })
    (f := fun x y : Rat => x + y) (c := id) (A := B) ⟨y2.wf, noMaskOK⟩ hB ⟨noMaskFits, hw1.trans h1.symm⟩
  refine ⟨w2, ?_, y3.wf, y3.size.trans hw1, ?_⟩
  · unfold bcSum
    rw [e1]
    simp only [lift_ok, prog_bind_ok]
    rw [e2]
    simp only [exec_done, prog_bind_ok]
    rw [e3, exec_done]
  · intro v hv
    rw [y3.get v (by show v < w1.size; rw [hw1]; exact hv)]
    simp only [VMask.allows, Spec.write, Spec.accum, if_true]
    rw [hg1 v hv, h2, ofold_rat hm (fun j hj => hg v j hv hj)]
    simp

theorem bcToStd_ok {n : Nat} {w : BVec Rat} (hw : w.WF) (hn : w.size = n) {f : Nat → Rat}
    (h : ∀ v, v < n → w.get v = some (f v)) : bcToStd n w = .ok ((List.range n).map f) := by
  obtain ⟨l, e, hl⟩ := forP_inv (b := fun k (l : List Rat) => do
    let b ← lift (w.hasElement k)
    if b then do
      let x ← lift (w.extractElement k)
      .ok (l.set k x)
    else .ok l)
    (fun k l => l = (List.range n).map (fun v => if v < k then f v else 0)) n (List.replicate n 0)
    (by
      refine List.ext_getElem (by simp) ?_
      intro i h1 h2
      simp)
    (by
      rintro k l hk rfl
      refine ⟨_, ?_, rfl⟩
      simp only [BVec.hasElement_spec hw (show k < w.size by rw [hn]; exact hk), h k hk, Option.isSome_some, lift_ok,
        prog_bind_ok, if_true, BVec.extractElement_spec hw (show k < w.size by rw [hn]; exact hk) (h k hk)]
      congr 1
      refine List.ext_getElem (by simp) ?_
      intro i h1 h2
      simp only [List.getElem_set, List.getElem_map, List.getElem_range]
      by_cases hi : k = i
      · subst hi; rw [if_pos rfl, if_pos (by omega)]
      · rw [if_neg hi]
        by_cases hik : i < k
        · rw [if_pos hik, if_pos (by omega)]
        · rw [if_neg hik, if_neg (by omega)])
  unfold bcToStd
  rw [e, hl]
  congr 1
  refine List.map_congr_left ?_
  intro v hv
  rw [if_pos (List.mem_range.1 hv)]

end GBTL

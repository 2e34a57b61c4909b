import Verif.Lemmas.OptMxm
import Verif.Lemmas.Frontend
import Verif.Spec.Backends
/-
The dispatch of the `optimized_sequential` `mxm`, and the `sequential` one with
shared objects.
-/
namespace GBTL
open Spec (Outp MaskKind Accum)
open Row

variable {α β γ δ τ ζ μ ρ : Type}

theorem lets_plain {truthy : μ → Bool} {M : Lil μ} {i j : Nat} :
    lets false false truthy (M.rowD i) j = Spec.allows truthy .plain (M.get i j) := by
  simp [lets, Spec.allows, Lil.get]

theorem lets_comp {truthy : μ → Bool} {M : Lil μ} {i j : Nat} :
    lets false true truthy (M.rowD i) j = Spec.allows truthy .comp (M.get i j) := by
  simp [lets, Spec.allows, Lil.get]

theorem lets_struct {truthy : μ → Bool} {M : Lil μ} {i j : Nat} :
    lets true false truthy (M.rowD i) j = Spec.allows truthy .struct (M.get i j) := by
  simp only [lets, Spec.allows, Lil.get]
  cases get (M.rowD i) j <;> rfl

theorem lets_structComp {truthy : μ → Bool} {M : Lil μ} {i j : Nat} :
    lets true true truthy (M.rowD i) j = Spec.allows truthy .structComp (M.get i j) := by
  simp only [lets, Spec.allows, Lil.get]
  cases get (M.rowD i) j <;> rfl

section
variable {x : OptOps α β γ τ ζ μ} {cast : τ → ζ} {outp : Outp} {C : Lil γ} {R : Spec.Mat τ}

/-- `f` computes the GraphBLAS result for the product `R`. -/
def Good (x : OptOps α β γ τ ζ μ) (acc : Option (AccOp γ τ ζ)) (cast : τ → ζ) (outp : Outp)
    (C : Lil γ) (M : ArgMask γ μ) (R : Spec.Mat τ) (f : Except Err (Lil γ)) : Prop :=
  ∃ C', f = .ok C' ∧ (x.out acc cast outp C M).Yields R C'

theorem good_of_is {acc : Option (AccOp γ τ ζ)} {M : ArgMask γ μ} {f : Except Err (Lil γ)}
    {g : Nat → Nat → Option γ} (h : ∃ C', f = .ok C' ∧ C.Is g C')
    (hg : ∀ i j, g i j = Spec.write x.castZ ((M.at C).allows x.truthy i j) outp (C.get i j)
      (Spec.accum (accumOf acc cast) (C.get i j) (R i j))) : Good x acc cast outp C M R f := by
  obtain ⟨C', e, h⟩ := h
  exact ⟨C', e, h.wf, h.nrows, h.ncols, fun i j hi hj => by rw [h.get i j hi hj, hg]; rfl⟩

theorem good_set (hx : ∀ t, x.castZ (cast t) = x.castT t) {f : Except Err (Lil γ)} (h : ResSet x C R f) :
    Good x none cast outp C none R f := by
  refine good_of_is h fun i j => ?_
  show (R i j).map x.castT = Spec.write x.castZ true outp _ ((R i j).map cast)
  cases R i j with
  | none => rfl
  | some t => simp [Spec.write, hx]

theorem good_acc {acc : AccOp γ τ ζ} (hx : ∀ c, x.castZ (acc.cC c) = c)
    (hx' : ∀ t, x.castZ (acc.cT t) = x.castT t) {f : Except Err (Lil γ)}
    (h : ResAcc x acc C R f) : Good x (some acc) cast outp C none R f := by
  refine good_of_is h fun i j => ?_
  show Spec.accum _ (C.get i j) (R i j)
    = Spec.write x.castZ true outp _ (Spec.accum (.some acc.op acc.cC acc.cT) _ _)
  cases C.get i j <;> cases R i j <;>
    simp [Spec.write, Spec.accum, hx, hx']

theorem write_none_cast (hx : ∀ t, x.castZ (cast t) = x.castT t) {L : Bool} {c : Option γ} {t : Option τ} :
    Spec.write x.castT L outp c t = Spec.write x.castZ L outp c (t.map cast) := by
  cases L <;> cases outp <;> cases t <;> simp [Spec.write, hx]

theorem good_T (hx : ∀ t, x.castZ (cast t) = x.castT t) {k : MaskKind} {m : Arg γ μ}
    {mask comp : Bool → Except Err (Lil γ)}
    (h1 : ∀ sf, ResT x sf false outp C (m.at C) R (mask sf))
    (h2 : ∀ sf, ResT x sf true outp C (m.at C) R (comp sf)) :
    Good x none cast outp C (some (k, m)) R (optDispatch k mask comp) := by
  cases k
  · exact good_of_is (h1 false) fun i j => by rw [write_none_cast hx, lets_plain]; rfl
  · exact good_of_is (h2 false) fun i j => by rw [write_none_cast hx, lets_comp]; rfl
  · exact good_of_is (h1 true) fun i j => by rw [write_none_cast hx, lets_struct]; rfl
  · exact good_of_is (h2 true) fun i j => by rw [write_none_cast hx, lets_structComp]; rfl

theorem good_Z {acc : AccOp γ τ ζ} {k : MaskKind} {m : Arg γ μ}
    {mask comp : Bool → Except Err (Lil γ)}
    (h1 : ∀ sf, ResZ x acc sf false outp C (m.at C) R (mask sf))
    (h2 : ∀ sf, ResZ x acc sf true outp C (m.at C) R (comp sf)) :
    Good x (some acc) cast outp C (some (k, m)) R (optDispatch k mask comp) := by
  cases k
  · exact good_of_is (h1 false) fun i j => by rw [lets_plain]; rfl
  · exact good_of_is (h2 false) fun i j => by rw [lets_comp]; rfl
  · exact good_of_is (h1 true) fun i j => by rw [lets_struct]; rfl
  · exact good_of_is (h2 true) fun i j => by rw [lets_structComp]; rfl

end

theorem NoStale_of {A : Lil α} {C : Lil γ} (hC : C.WFr)
    (h : ∀ i, (∀ j, A.get i j = none) → ∀ j, C.get i j = none) : NoStale A C := by
  intro i _ hi
  have := h i (fun j => by rw [Lil.get, hi]; rfl)
  cases hr : C.rowD i with
  | nil => rfl
  | cons p r =>
    have := this p.1
    rw [Lil.get, get_of_mem (hC.rowD_ok i).sorted (i := p.1) (x := p.2)
      (by rw [hr]; exact List.mem_cons_self ..)] at this
    cases this

/-- The whole dispatch. -/
theorem optBackend_good {x : OptOps α β γ τ ζ μ} {acc : Option (AccOp γ τ ζ)} {cast : τ → ζ}
    {outp : Outp} {C : Lil γ} {M : ArgMask γ μ} {A : ArgOperand γ α} {B : ArgOperand γ β}
    (hx : x.Lossless acc cast outp (M.at C) (A.at C).get (B.at C).get) (ho : (x.out acc cast outp C M).WF) (hA : (A.at C).WF)
    (hB : (B.at C).WF) (hs : MxmShapes (x.out acc cast outp C M) (A.at C) (B.at C))
    (hst : NoStaleRows acc C M A B) :
    Good x acc cast outp C M (Spec.mxm (A.at C).ncols x.add (x.mulFor (A.at C) (B.at C))
      (A.at C).get (B.at C).get) (optMxmBackend x acc outp C M A B) := by
  obtain ⟨hC, hM⟩ := ho
  obtain ⟨s1, s2, s3, s4⟩ := hs
  have hC : C.WF := hC
  have hM' : ∀ k m, M = some (k, m) → (m.at C).WF ∧ (m.at C).nrows = C.nrows := by
    rintro k m rfl
    exact ⟨hM k _ rfl, (s1 k _ rfl).1⟩
  rcases A with a | a <;> rcases B with b | b
  · rcases M with _ | ⟨k, m⟩ <;> rcases acc with _ | acc
    · exact good_set (hx.plain rfl) (optNoMaskNoAccumAB_res hC hA hB s2 s3 s4)
    · exact good_acc (hx.old rfl _ rfl) (hx.new rfl _ rfl) (optNoMaskAccumAB_res hC hA hB s2 s3 s4 fun _ => hx.both rfl _ rfl)
    · obtain ⟨m1, m2⟩ := hM' k m rfl
      exact good_T (hx.plain rfl) (fun sf => optMaskNoAccumAB_res hC m1 m2 hA hB s2 s3 s4)
        (fun sf => optCompNoAccumAB_res hC m1 m2 hA hB s2 s3 s4)
    · obtain ⟨m1, m2⟩ := hM' k m rfl
      exact good_Z (fun sf => optMaskAccumAB_res hC m1 m2 hA hB s2 s3 s4)
        (fun sf => optCompAccumAB_res hC m1 m2 hA hB s2 s3 s4 (fun h1 h2 h3 => hx.skip _ _ _ rfl rfl h1
          (fun _ _ => m1.get_none_of_nvals h2 ..) (h3.imp (fun h _ _ => hA.get_none_of_nvals h ..)
            (fun h _ _ => hB.get_none_of_nvals h ..))))
  · rcases M with _ | ⟨k, m⟩ <;> rcases acc with _ | acc
    · refine good_set (hx.plain rfl) (optNoMaskNoAccumABT_res hC hA hB s2 s3 fun hbc => ?_)
      rcases hst rfl rfl a b rfl rfl with h | h
      · rw [h] at hbc; cases hbc
      · exact NoStale_of hC.toWFr h
    · exact good_acc (hx.old rfl _ rfl) (hx.new rfl _ rfl) (optNoMaskAccumABT_res hC hA hB s2 s3 fun _ => hx.both rfl _ rfl)
    · obtain ⟨m1, m2⟩ := hM' k m rfl
      exact good_T (hx.plain rfl) (fun sf => optMaskNoAccumABT_res hC m1 m2 hA hB s2 s3)
        (fun sf => optCompNoAccumABT_res hC m1 m2 hA hB s2 s3)
    · obtain ⟨m1, m2⟩ := hM' k m rfl
      exact good_Z (fun sf => optMaskAccumABT_res hC m1 m2 hA hB s2 s3)
        (fun sf => optCompAccumABT_res hC m1 m2 hA hB s2 s3)
  · rcases M with _ | ⟨k, m⟩ <;> rcases acc with _ | acc
    · exact good_set (hx.plain rfl) (optNoMaskNoAccumATB_res hC hA hB s2 s3 s4)
    · exact good_acc (hx.old rfl _ rfl) (hx.new rfl _ rfl) (optNoMaskAccumATB_res hC hA hB s2 s3 s4)
    · obtain ⟨m1, m2⟩ := hM' k m rfl
      exact good_T (hx.plain rfl) (fun sf => optMaskNoAccumATB_res hC m1 m2 hA hB s2 s3 s4)
        (fun sf => optCompNoAccumATB_res hC m1 m2 hA hB s2 s3 s4)
    · obtain ⟨m1, m2⟩ := hM' k m rfl
      exact good_Z (fun sf => optMaskAccumATB_res hC m1 m2 hA hB s2 s3 s4)
        (fun sf => optCompAccumATB_res hC m1 m2 hA hB s2 s3 s4 (fun h1 h2 h3 => hx.skip _ _ _ rfl rfl h1
          (fun _ _ => m1.get_none_of_nvals h2 ..) (h3.imp (fun h _ _ => hA.get_none_of_nvals h ..)
            (fun h _ _ => hB.get_none_of_nvals h ..))))
  · rcases M with _ | ⟨k, m⟩ <;> rcases acc with _ | acc
    · exact good_set (hx.plain rfl) (optNoMaskNoAccumATBT_res hC hA hB s2 s3 s4)
    · exact good_acc (hx.old rfl _ rfl) (hx.new rfl _ rfl) (optNoMaskAccumATBT_res hC hA hB s2 s3 s4)
    · obtain ⟨m1, m2⟩ := hM' k m rfl
      exact good_T (hx.plain rfl) (fun sf => optMaskNoAccumATBT_res hC hA hB s2 s3 s4 m1 m2)
        (fun sf => optCompNoAccumATBT_res hC hA hB s2 s3 s4 m1 m2)
    · obtain ⟨m1, m2⟩ := hM' k m rfl
      exact good_Z (fun sf => optMaskAccumATBT_res hC hA hB s2 s3 s4 m1 m2)
        (fun sf => optCompAccumATBT_res hC hA hB s2 s3 s4 m1 m2 (fun h1 h2 h3 => hx.skip _ _ _ rfl rfl h1
          (fun _ _ => m1.get_none_of_nvals h2 ..) (h3.imp (fun h _ _ => hA.get_none_of_nvals h ..)
            (fun h _ _ => hB.get_none_of_nvals h ..))))

theorem optMxm_spec {x : OptOps α β γ τ ζ μ} {acc : Option (AccOp γ τ ζ)} {cast : τ → ζ}
    {outp : Outp} {C : Lil γ} {M : ArgMask γ μ} {A : ArgOperand γ α} {B : ArgOperand γ β}
    (hx : x.Lossless acc cast outp (M.at C) (A.at C).get (B.at C).get) (ho : (x.out acc cast outp C M).WF) (hA : (A.at C).WF)
    (hB : (B.at C).WF) (hs : MxmShapes (x.out acc cast outp C M) (A.at C) (B.at C))
    (hst : NoStaleRows acc C M A B) :
    ∃ C', optMxm x acc outp C M A B = .done C' ∧ (x.out acc cast outp C M).Yields
      (Spec.mxm (A.at C).ncols x.add (x.mulFor (A.at C) (B.at C)) (A.at C).get (B.at C).get) C' := by
  obtain ⟨C', e, h⟩ := optBackend_good hx ho hA hB hs hst
  exact ⟨C', run_done ((dim_mxm (x.out acc cast outp C M) (A.at C) (B.at C)).ok hs) e, h⟩

/-! ### uniqueness of the result -/

theorem Lil.ext_get {A B : Lil α} (hA : A.WF) (hB : B.WF) (h1 : A.nrows = B.nrows)
    (h2 : A.ncols = B.ncols) (h : ∀ i j, i < A.nrows → j < A.ncols → A.get i j = B.get i j) : A = B := by
  have hr := Lil.rows_ext hA.toWFr hB.toWFr h1 fun i j => by
    by_cases hi : i < A.nrows
    · by_cases hj : j < A.ncols
      · exact h i j hi hj
      · rw [Lil.get, Lil.get, get_none_of_forall fun p hp => by have := (hA.rowD_ok i).bound p hp; omega,
          get_none_of_forall fun p hp => by have := (hB.rowD_ok i).bound p hp; omega]
    · rw [Lil.get, Lil.get, Lil.rowD_of_ge (A := A) (by rw [hA.len]; omega),
        Lil.rowD_of_ge (A := B) (by rw [hB.len]; omega)]
  have hn : A.nvals = B.nvals := by rw [hA.count, hB.count, hr]
  cases A; cases B; simp_all

theorem MOut.Yields.unique {o : MOut γ τ ζ μ} {T : Spec.Mat τ} {C' C'' : Lil γ} (h : o.Yields T C')
    (h' : o.Yields T C'') : C' = C'' := by
  apply Lil.ext_get h.wf h'.wf (by rw [h.nrows, h'.nrows]) (by rw [h.ncols, h'.ncols])
  intro i j hi hj
  rw [h.nrows] at hi
  rw [h.ncols] at hj
  rw [h.get i j hi hj, h'.get i j hi hj]

/-! ### the sequential backend with shared objects -/

theorem writeShared_eq (truthy : μ → Bool) (castZ : ζ → γ) {C : Lil γ} {Z : Lil ζ}
    (M : ArgMask γ μ) (outp : Outp) (hC : C.WF) (hZ : Z.WFr)
    (hZr : Z.nrows = C.nrows) (hZc : Z.ncols = C.ncols) (hM : (M.at C).OK C.nrows C.ncols) :
    writeShared truthy castZ C Z M outp = writeWithOptMask truthy castZ C Z (M.at C) outp := by
  rcases M with _ | ⟨k, m⟩
  · rfl
  · obtain ⟨D, h1, h2, h3, h4, h5⟩ := writeWithOptMask_spec truthy castZ (ArgMask.at C (some (k, m))) outp
      hC hZ hZr hZc hM
    obtain ⟨hMw, hMr, hMc⟩ : (m.at C).WF ∧ (m.at C).nrows = C.nrows ∧ (m.at C).ncols = C.ncols := hM
    have hrow := fun i => applyMaskRow_spec truthy castZ k outp (n := C.ncols) (hC.rowD_ok i)
      (by rw [← hZc]; exact hZ.rowD_ok i) (hMw.rowD_ok i).sorted
    obtain ⟨D', e, h⟩ := Lil.rowLoop_is hC (fun i j => get (applyWithMask id castZ outp (C.rowD i) (Z.rowD i)
        (maskRow truthy k C.ncols ((m.at C).rowD i))) j)
      (body := fun i C => do
        let c ← C.row i
        let z ← Z.row i
        let mr ← (m.at C).row i
        C.setRow i id (applyWithMask id castZ outp c z (maskRow truthy k (m.at C).ncols mr))) (by
        intro i C' hi hw hr hc hrow'
        left
        have hn : (m.at C').ncols = C.ncols := by
          cases m with
          | obj A => exact hMc
          | same => exact hc
        refine ⟨_, ?_, (hrow i).1, fun j _ => rfl⟩
        rw [m.row_at hMw.toWFr hw.toWFr hrow' hr (by omega), hw.row_ok (by omega), hZ.row_ok (by omega),
          hrow', hn]
        rfl)
    show forN C.nrows C _ = _
    rw [e, h1]
    congr 1
    refine Lil.ext_get h.wf h2 (by rw [h.nrows, h3]) (by rw [h.ncols, h4]) fun i j hi hj => ?_
    rw [h.nrows] at hi
    rw [h.ncols] at hj
    rw [h.get i j hi hj, h5, (hrow i).2]
    rfl

theorem mxmT_shape {o : MOut γ τ ζ μ} {sr : SR α β τ} {via : τ → τ} {A : Operand α} {B : Operand β}
    (hA : A.WF) (hB : B.WF) (hs : MxmShapes o A B) :
    ∃ T, mxmT o.C sr via A B = .ok T ∧ T.WFr ∧ T.nrows = o.C.nrows ∧ T.ncols = o.C.ncols := by
  rcases A with A | A <;> rcases B with B | B
  · obtain ⟨T, t1, t2, t3, t4, t5⟩ := mxmAB_spec sr.add sr.mult hA.toWFr hB.toWFr hs.rows hs.cols hs.inner
    exact ⟨T, t1, t2, t3, t4⟩
  · obtain ⟨T, t1, t2, t3, t4, t5⟩ := mxmABT_spec sr.add sr.mult hA hB hs.rows hs.cols
    exact ⟨T, t1, t2, t3, t4⟩
  · obtain ⟨T, t1, t2, t3, t4, t5⟩ := mxmATB_spec sr.add sr.mult hA.toWFr hB.toWFr hs.rows hs.cols hs.inner
    exact ⟨T, t1, t2, t3, t4⟩
  · obtain ⟨T, t1, t2, t3, t4, t5⟩ := mxmATBT_spec sr.add sr.multSwap via hA.toWFr hB.toWFr hs.rows hs.cols
      hs.inner
    exact ⟨T, t1, t2, t3, t4⟩

theorem mxmShared_eq {truthy : μ → Bool} {acc : Accum γ τ ζ} {castZ : ζ → γ} {outp : Outp} {C : Lil γ}
    {M : ArgMask γ μ} {sr : SR α β τ} {via : τ → τ} {A : ArgOperand γ α} {B : ArgOperand γ β}
    (hC : C.WF) (hM : (M.at C).WF) (hA : (A.at C).WF) (hB : (B.at C).WF) :
    mxmShared truthy acc castZ outp C M sr via A B
      = mxm { C := C, M := M.at C, truthy := truthy, acc := acc, castZ := castZ, outp := outp } sr via
          (A.at C) (B.at C) := by
  let o : MOut γ τ ζ μ :=
    { C := C, M := M.at C, truthy := truthy, acc := acc, castZ := castZ, outp := outp }
  by_cases hs : MxmShapes o (A.at C) (B.at C)
  · obtain ⟨T, t1, t2, t3, t4⟩ := mxmT_shape (o := o) (sr := sr) (via := via) hA hB hs
    obtain ⟨Z, C', z1, z2, _⟩ := matrix_tail (C := C) truthy castZ (M.at C) acc outp hC t2 t3 t4
      (MMask.ok_of hM hs.mask)
    obtain ⟨Z', e', w1, w2, w3, _⟩ := ewiseOrOptAccum_spec (Z := Lil.new C.nrows C.ncols) acc
      (Lil.new_wf _ _) hC.toWFr t2 rfl rfl t3 t4
    have hc := (dim_mxm o (A.at C) (B.at C)).ok hs
    have e1 : mxmShared truthy acc castZ outp C M sr via A B = .done C' := by
      refine run_done (z := Z) ?_ ?_
      · show (mxmChecks (M.at C) C (A.at C) (B.at C) >>= fun _ => _) = _
        rw [show mxmChecks (M.at C) C (A.at C) (B.at C) = .ok () from hc]
        show (mxmT C sr via (A.at C) (B.at C) >>= fun T => accumMat C acc T) = _
        rw [show mxmT C sr via (A.at C) (B.at C) = .ok T from t1]
        exact z1
      · rw [e'] at z1
        cases z1
        rw [writeShared_eq truthy castZ M outp hC w1.toWFr w2 w3 (MMask.ok_of hM hs.mask), z2]
    have e2 : mxm o sr via (A.at C) (B.at C) = .done C' :=
      run_done (z := Z) (by rw [hc, t1]; exact z1) z2
    rw [e1, e2]
  · have hc := (dim_mxm o (A.at C) (B.at C)).err hs
    have e1 : mxmShared truthy acc castZ outp C M sr via A B = .threw .dimension C := by
      refine run_threw (by simp) ?_
      show (mxmChecks (M.at C) C (A.at C) (B.at C) >>= fun _ => _) = _
      rw [show mxmChecks (M.at C) C (A.at C) (B.at C) = .error .dimension from hc]
      rfl
    have e2 : mxm o sr via (A.at C) (B.at C) = .threw .dimension C :=
      run_threw (by simp) (by rw [hc]; rfl)
    rw [e1, e2]

end GBTL

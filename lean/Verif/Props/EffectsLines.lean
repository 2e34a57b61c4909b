import Verif.Props.EffectsBuild
/-
C96: `extract` of a column, `assign` to a row or column and `assign` of a constant. Their only
operator is the accumulator.
-/
namespace GBTL
open Spec (Outp MaskKind Accum Op EAccum Vec stored storedMat callAll accum resultAt)
open Act (call lib output store)

variable {ω χ X α β γ τ ζ μ : Type}

/-! ### The output after an exception -/

/-- `extract` of a column. -/
theorem C96_extractC_unchanged (o : EVOut ω X γ α ζ μ) (A : Operand α) (ri : Idx) (j : Nat) :
    AllOrNothing (extractCE o A ri j) :=
  allOrNothing (EVOut.op_strong fun _ => .lib _)

/-- `assign` of a constant to a vector. -/
theorem C96_assignConstV_unchanged (o : EVOut ω X γ α ζ μ) (keep : γ → ζ) (x : α) (ix : Idx) :
    AllOrNothing (assignConstVE o keep x ix) :=
  allOrNothing (.bind .output fun _ => EVOut.opStencil_strong fun _ => .lib _)

/-- `assign` of a constant to a matrix. -/
theorem C96_assignConstM_unchanged (o : EMOut ω X γ α ζ μ) (keep : γ → ζ) (x : α) (ri ci : Idx) :
    AllOrNothing (assignConstME o keep x ri ci) :=
  allOrNothing (.bind .output fun _ => EMOut.opStencil_strong fun _ => .lib _)

theorem assignBackendE_keeps (o : EVOut ω X γ α ζ μ) (keep : γ → ζ) (v : BVec γ) (u : BVec α)
    (ix : Idx) : Act.Keeps (assignBackendE o keep v u ix : Act ω χ X _) :=
  .bind (.lib _) fun _ => .bind (accumStencil1DE_keeps _ _ _ _ _) fun _ => .lib _

/-- `assign` to a column. -/
theorem C96_assignCol_unchanged [Inhabited γ] (o : EVOut ω X γ α ζ μ) (keep : γ → ζ) (u : BVec α)
    (ri : Idx) (j : Nat) : AllOrNothing (assignColE o keep u ri j) := by
  refine allOrNothing ?_
  unfold assignColE
  strong
  exact assignBackendE_keeps _ _ _ _ _

/-- `assign` to a row. -/
theorem C96_assignRow_unchanged [Inhabited γ] (o : EVOut ω X γ α ζ μ) (keep : γ → ζ) (u : BVec α)
    (i : Nat) (ci : Idx) : AllOrNothing (assignRowE o keep u i ci) := by
  refine allOrNothing ?_
  unfold assignRowE
  strong
  exact assignBackendE_keeps _ _ _ _ _

/-! ### Operators that are functions -/

/-- `extract` of a column. -/
theorem C96_extractC_as_function {o : EVOut ω X γ α ζ μ} {f : Accum γ α ζ} (hf : o.acc.Returns f)
    (A : Operand α) (ri : Idx) (j : Nat) (c : BVec γ) (w : ω) :
    EndsAs (extractCE o A ri j (w, c)) (extractC (o.with c f) A ri j) :=
  EVOut.op_endsAs hf (.lib _) w

/-- `assign` of a constant to a vector. -/
theorem C96_assignConstV_as_function {o : EVOut ω X γ α ζ μ} {f : Accum γ α ζ} (hf : o.acc.Returns f)
    (keep : γ → ζ) (x : α) (ix : Idx) (c : BVec γ) (w : ω) :
    EndsAs (assignConstVE o keep x ix (w, c)) (assignConstV (o.with c f) keep x ix) := by
  unfold assignConstVE
  rw [Act.bind_output]
  exact EVOut.opStencil_endsAs hf keep _ (.lib _) w

/-- `assign` of a constant to a matrix. -/
theorem C96_assignConstM_as_function {o : EMOut ω X γ α ζ μ} {f : Accum γ α ζ} (hf : o.acc.Returns f)
    (keep : γ → ζ) (x : α) (ri ci : Idx) (C : Lil γ) (w : ω) :
    EndsAs (assignConstME o keep x ri ci (w, C)) (assignConstM (o.with C f) keep x ri ci) := by
  unfold assignConstME
  rw [Act.bind_output]
  exact EMOut.opStencil_endsAs hf keep _ _ (.lib _) w

theorem assignBackendE_agrees {o : EVOut ω X γ α ζ μ} {f : Accum γ α ζ} (hf : o.acc.Returns f)
    (keep : γ → ζ) (v : BVec γ) (u : BVec α) (ix : Idx) (c : χ) :
    Act.Agrees c (assignBackendE o keep v u ix)
      (assignBackend o.truthy o.castZ keep f v o.m u ix o.outp) :=
  .bind (.lib _) fun t _ => .bind (accumStencil1DE_agrees keep v hf t _) fun _ _ => .lib _

/-- `assign` to a column. -/
theorem C96_assignCol_as_function [Inhabited γ] {o : EVOut ω X γ α ζ μ} {f : Accum γ α ζ}
    (hf : o.acc.Returns f) (keep : γ → ζ) (u : BVec α) (ri : Idx) (j : Nat) (C : Lil γ) (w : ω) :
    EndsAs (assignColE o keep u ri j (w, C)) (assignCol (o.line C f) keep u ri j) := by
  have e : assignColE o keep u ri j (w, C) = ((do
      let v ← lib (do
        o.m.sizeCheck C.nrows
        ri.lenCheck u.size
        indexCheck j C.ncols
        checkIndexArrayContent ri C.nrows
        let col ← C.getCol j
        fillVec C.nrows col)
      let v ← assignBackendE o keep v u ri
      lib v.extractTuples) >>= fun col => output >>= fun C => lib (C.setCol j id col) >>= store) (w, C) := by
    simp only [Act.bind_assoc']
    rfl
  have e2 : assignCol (o.line C f) keep u ri j = run C (do
      let v ← (do
        o.m.sizeCheck C.nrows
        ri.lenCheck u.size
        indexCheck j C.ncols
        checkIndexArrayContent ri C.nrows
        let col ← C.getCol j
        fillVec C.nrows col)
      let v ← assignBackend o.truthy o.castZ keep f v o.m u ri o.outp
      v.extractTuples) fun col => C.setCol j id col := by
    unfold assignCol
    congr 1
    simp only [bind_assoc]
    rfl
  rw [e, e2]
  refine endsAs_run (.bind (.lib _) fun _ _ => .bind (assignBackendE_agrees hf keep _ u ri C) fun _ _ =>
    .lib _) (fun z w => ?_) w
  exact write_end (fun z (C : Lil γ) => C.setCol j id z) z w

/-- `assign` to a row. -/
theorem C96_assignRow_as_function [Inhabited γ] {o : EVOut ω X γ α ζ μ} {f : Accum γ α ζ}
    (hf : o.acc.Returns f) (keep : γ → ζ) (u : BVec α) (i : Nat) (ci : Idx) (C : Lil γ) (w : ω) :
    EndsAs (assignRowE o keep u i ci (w, C)) (assignRow (o.line C f) keep u i ci) := by
  have e : assignRowE o keep u i ci (w, C) = ((do
      let v ← lib (do
        o.m.sizeCheck C.ncols
        ci.lenCheck u.size
        indexCheck i C.nrows
        checkIndexArrayContent ci C.ncols
        let row ← C.row i
        fillVec C.ncols row)
      let v ← assignBackendE o keep v u ci
      lib v.extractTuples) >>= fun row => output >>= fun C => lib (C.setRow i id row) >>= store) (w, C) := by
    simp only [Act.bind_assoc']
    rfl
  have e2 : assignRow (o.line C f) keep u i ci = run C (do
      let v ← (do
        o.m.sizeCheck C.ncols
        ci.lenCheck u.size
        indexCheck i C.nrows
        checkIndexArrayContent ci C.ncols
        let row ← C.row i
        fillVec C.ncols row)
      let v ← assignBackend o.truthy o.castZ keep f v o.m u ci o.outp
      v.extractTuples) fun row => C.setRow i id row := by
    unfold assignRow
    congr 1
    simp only [bind_assoc]
    rfl
  rw [e, e2]
  refine endsAs_run (.bind (.lib _) fun _ _ => .bind (assignBackendE_agrees hf keep _ u ci C) fun _ _ =>
    .lib _) (fun z w => ?_) w
  exact write_end (fun z (C : Lil γ) => C.setRow i id z) z w

/-! ### The order of the calls -/

/-- `extract` of a column. -/
theorem C96_extractC_calls {o : EVOut ω X γ α ζ μ} {A : Operand α} {ri : Idx} {j : Nat} {c : BVec γ}
    (ho : (o.at c).WF) (hA : A.WF) (hm : o.m.Fits c.size) (hl : ri.len c.size = c.size)
    (hr : ri.below A.nrows) (hj : j < A.ncols) (w : ω) :
    o.MakesThen (.ret (Spec.extract A.nrows ri.sel fun i => A.get i j)) w c (extractCE o A ri j) := by
  have hk := extractC_checks (o := o.at c) hm hl hj
  have hT : ∃ t, extractColT' c A ri j = .ok t ∧ Row.OK c.size t ∧
      ∀ i, i < c.size → Row.get t i = Spec.extract A.nrows ri.sel (fun i => A.get i j) i := by
    rcases A with A | A
    · exact extractCol_spec (j := j) hA.toWFr hr hl
    · exact extractColT_spec hA.toWFr hr hj hl
  obtain ⟨t, t1, t2, t3⟩ := hT
  have h : o.MakesThen (.ret t.get) w c (extractCE o A ri j) :=
    EVOut.op_updates w ho.out ho.mask hm hk fun w' c' => ⟨t, Act.lib_ok t1, t2, fun _ => rfl⟩
  exact h.congr t3

/-- `assign` of a constant to a vector, with an accumulator. -/
theorem C96_assignConstV_calls {o : EVOut ω X γ α ζ μ} {op : γ → α → Op ω X ζ} {cC : γ → ζ} {cT : α → ζ}
    (h : o.acc = .some op cC cT) (keep : γ → ζ) (x : α) {ix : Idx} {c : BVec γ}
    (ho : (o.at c).WF) (hs : ConstVShapes (o.at c) ix) (hb : ix.below c.size) (ha : ix.ascending) (w : ω) :
    o.MakesThen (.ret fun i => if Spec.selected ix.sel c.size i then some x else none) w c
      (assignConstVE o keep x ix) := by
  obtain ⟨t, t1, t2, t3⟩ := assignConstVec_spec (w := c) x hb ha
  have e : assignConstVE o keep x ix (w, c) = o.op (fun w => do
      o.m.sizeCheck w.size
      ix.withinCheck w.size) (fun w => lib (assignConstVec w x ix)) (w, c) := by
    unfold assignConstVE
    rw [Act.bind_output, EVOut.opStencil_eq h]
  have h2 : o.MakesThen (.ret fun i => if Spec.selected ix.sel c.size i then some x else none) w c
      (o.op (fun w => do
        o.m.sizeCheck w.size
        ix.withinCheck w.size) (fun w => lib (assignConstVec w x ix))) :=
    EVOut.op_updates w ho.out ho.mask hs.mask ((dim_constV (o.at c) ix).ok hs)
      fun w' c' => ⟨t, Act.lib_ok t1, t2, t3⟩
  unfold EVOut.MakesThen at h2 ⊢
  rw [e]
  exact h2

/-- `assign` of a constant to a matrix, with an accumulator. -/
theorem C96_assignConstM_calls {o : EMOut ω X γ α ζ μ} {op : γ → α → Op ω X ζ} {cC : γ → ζ} {cT : α → ζ}
    (h : o.acc = .some op cC cT) (keep : γ → ζ) (x : α) {ri ci : Idx} {C : Lil γ}
    (ho : (o.at C).WF) (hs : ConstMShapes (o.at C) ri ci) (hr : ri.below C.nrows) (hc : ci.below C.ncols)
    (ha : ci.ascending) (w : ω) :
    o.MakesThen (.ret fun p => if Spec.selected ri.sel C.nrows p.1 && Spec.selected ci.sel C.ncols p.2
      then some x else none) w C (assignConstME o keep x ri ci) := by
  obtain ⟨T, t1, t2, t3, t4, t5⟩ := assignConstMat_spec (C := C) x hr hc ha
  have e : assignConstME o keep x ri ci (w, C) = o.op (fun C => do
      o.M.rowCheck C.nrows
      o.M.colCheck C.ncols
      ri.withinCheck C.nrows
      ci.withinCheck C.ncols) (fun C => lib (assignConstMat C x ri ci)) (w, C) := by
    unfold assignConstME
    rw [Act.bind_output, EMOut.opStencil_eq h]
  have h2 : o.MakesThen (.ret fun p => if Spec.selected ri.sel C.nrows p.1 && Spec.selected ci.sel C.ncols p.2
      then some x else none) w C (o.op (fun C => do
        o.M.rowCheck C.nrows
        o.M.colCheck C.ncols
        ri.withinCheck C.nrows
        ci.withinCheck C.ncols) (fun C => lib (assignConstMat C x ri ci))) :=
    EMOut.op_updates w ho.out ho.mask hs.mask ((dim_constM (o.at C) ri ci).ok hs)
      fun w' c' => ⟨T, Act.lib_ok t1, t2, t3, t4, t5⟩
  unfold EMOut.MakesThen at h2 ⊢
  rw [e]
  exact h2

theorem assignBackendE_calls {o : EVOut ω X γ α ζ μ} {op : γ → α → Op ω X ζ} {cC : γ → ζ} {cT : α → ζ}
    (h : o.acc = .some op cC cT) (keep : γ → ζ) {u : BVec α} {ix : Idx} {v : BVec γ} (hv : v.WF)
    (hu : u.WF) (hm : o.m.OK v.size) (hb : ix.below v.size) (hn : ix.nodup) (hf : ix.fits u.size v.size)
    (w : ω) (c : χ) :
    match callAll (stored v.size fun i => accum (EAccum.some op cC cT).calls (v.get i)
        (Spec.assignSrc u.size ix.sel u.get i)) w with
    | (.error e, w') => assignBackendE o keep v u ix (w, c) = (.error (.op e), (w', c))
    | (.ok zs, w') => ∃ v', assignBackendE o keep v u ix (w, c) = (.ok v', (w', c)) ∧ v'.WF ∧
        v'.size = v.size ∧ ∀ i, v'.get i =
          Spec.write o.castZ (o.m.allows o.truthy i) o.outp (v.get i) (resultAt zs i) := by
  obtain ⟨t, t1, t2, t3⟩ := assignVec_spec (w := v) hu hb hn hf
  have e : (accumStencil1DE keep v o.acc t (.list (setupIndices ix u.size)) : Act ω χ X _) =
      accumVecE v (.some op cC cT) t := by
    rw [h]; rfl
  unfold assignBackendE
  rw [Act.bind_ok (Act.lib_ok t1), e, accumVecE_eq hv _ t2]
  simp only [t3]
  cases h2 : callAll (stored v.size fun i => accum (EAccum.some op cC cT).calls (v.get i)
      (Spec.assignSrc u.size ix.sel u.get i)) w with
  | mk r w2 =>
    cases r with
    | error x =>
      dsimp only
      rw [Act.bind_error (Act.call_error h2)]
    | ok zs =>
      dsimp only
      have hzs : Row.OK v.size zs := callAll_ok h2 (Row.ofFun_ok _ _)
      obtain ⟨c', g1, g2, g3, g4⟩ := writeWithOptMask1D_spec o.truthy o.castZ o.m o.outp hv hzs hm
      rw [Act.bind_ok (Act.call_ok h2)]
      exact ⟨c', Act.lib_ok g1, g2, g3, fun i => by rw [resultAt_eq]; exact g4 i⟩

/-- `assign` to a column, with an accumulator. -/
theorem C96_assignCol_calls [Inhabited γ] {o : EVOut ω X γ α ζ μ} {op : γ → α → Op ω X ζ} {cC : γ → ζ}
    {cT : α → ζ} (h : o.acc = .some op cC cT) (keep : γ → ζ) {u : BVec α} {ri : Idx} {j : Nat} {C : Lil γ}
    (hC : C.WF) (hM : o.m.WF) (hu : u.WF) (h0 : 0 < u.size) (hm : o.m.Fits C.nrows)
    (hl : ri.len u.size = u.size) (hi : ri.inside u.size C.nrows) (hn : ri.nodup) (hj : j < C.ncols)
    (w : ω) :
    o.MakesCol op cC cT j (Spec.assignSrc u.size ri.sel u.get) w C (assignColE o keep u ri j) := by
  obtain ⟨col, c1, c2, c3⟩ := getCol_spec hC.toWFr j
  obtain ⟨v, v1, v2, v3, v4⟩ := fillVec_spec (Idx.pos_of_inside hl hi h0) c2
  have hb := assignBackendE_calls (χ := Lil γ) h keep v2 hu (VMask.ok_of hM (v3.symm ▸ hm))
    (v3.symm ▸ Idx.inside_below hi) hn (v3.symm ▸ Idx.inside_fits hi) w C
  have e : (do
      o.m.sizeCheck C.nrows
      ri.lenCheck u.size
      indexCheck j C.ncols
      checkIndexArrayContent ri C.nrows
      let col ← C.getCol j
      fillVec C.nrows col) = .ok v := by
    simp only [(dim_size _ _).ok hm, (dim_len _ _).ok hl, indexCheck_ok hj,
      checkIndex_ok (Idx.inside_below hi), c1, v1, Except.bind_ok']
  unfold EVOut.MakesCol assignColE
  rw [Act.bind_output, Act.bind_ok (Act.lib_ok e)]
  simp only [v4, c3, v3] at hb
  revert hb
  cases callAll (stored C.nrows fun i => accum (EAccum.some op cC cT).calls (C.get i j)
      (Spec.assignSrc u.size ri.sel u.get i)) w with
  | mk r w2 =>
    cases r with
    | error x =>
      intro hb
      dsimp only at hb ⊢
      rw [Act.bind_error hb]
    | ok zs =>
      intro hb
      dsimp only at hb ⊢
      obtain ⟨v', b1, b2, b3, b4⟩ := hb
      obtain ⟨r, r1, r2, r3⟩ := vec_tuples b2
      rw [b3] at r2
      obtain ⟨C', g1, g2, g3, g4, g5⟩ := setCol_spec id hC hj r2
      rw [Act.bind_ok b1, Act.bind_ok (Act.lib_ok r1), Act.bind_output, Act.bind_ok (Act.lib_ok g1)]
      refine ⟨C', rfl, g2, g3, g4, fun i k _ _ => ?_⟩
      rw [g5]
      split
      · rw [Option.map_id, id, r3, b4]; rfl
      · rfl

/-- `assign` to a row, with an accumulator. -/
theorem C96_assignRow_calls [Inhabited γ] {o : EVOut ω X γ α ζ μ} {op : γ → α → Op ω X ζ} {cC : γ → ζ}
    {cT : α → ζ} (h : o.acc = .some op cC cT) (keep : γ → ζ) {u : BVec α} {ci : Idx} {i : Nat} {C : Lil γ}
    (hC : C.WF) (hM : o.m.WF) (hu : u.WF) (h0 : 0 < u.size) (hm : o.m.Fits C.ncols)
    (hl : ci.len u.size = u.size) (hi : ci.inside u.size C.ncols) (hn : ci.nodup) (hi' : i < C.nrows)
    (w : ω) :
    o.MakesRow op cC cT i (Spec.assignSrc u.size ci.sel u.get) w C (assignRowE o keep u i ci) := by
  have c1 := hC.toWFr.row_ok hi'
  have c2 := hC.toWFr.rowD_ok i
  obtain ⟨v, v1, v2, v3, v4⟩ := fillVec_spec (Idx.pos_of_inside hl hi h0) c2
  have hb := assignBackendE_calls (χ := Lil γ) h keep v2 hu (VMask.ok_of hM (v3.symm ▸ hm))
    (v3.symm ▸ Idx.inside_below hi) hn (v3.symm ▸ Idx.inside_fits hi) w C
  have e : (do
      o.m.sizeCheck C.ncols
      ci.lenCheck u.size
      indexCheck i C.nrows
      checkIndexArrayContent ci C.ncols
      let row ← C.row i
      fillVec C.ncols row) = .ok v := by
    simp only [(dim_size _ _).ok hm, (dim_len _ _).ok hl, indexCheck_ok hi',
      checkIndex_ok (Idx.inside_below hi), c1, v1, Except.bind_ok']
  have hg : ∀ j, v.get j = C.get i j := v4
  unfold EVOut.MakesRow assignRowE
  rw [Act.bind_output, Act.bind_ok (Act.lib_ok e)]
  simp only [hg, v3] at hb
  revert hb
  cases callAll (stored C.ncols fun j => accum (EAccum.some op cC cT).calls (C.get i j)
      (Spec.assignSrc u.size ci.sel u.get j)) w with
  | mk r w2 =>
    cases r with
    | error x =>
      intro hb
      dsimp only at hb ⊢
      rw [Act.bind_error hb]
    | ok zs =>
      intro hb
      dsimp only at hb ⊢
      obtain ⟨v', b1, b2, b3, b4⟩ := hb
      obtain ⟨r, r1, r2, r3⟩ := vec_tuples b2
      rw [b3] at r2
      obtain ⟨C', g1, g2, g3, g4, g5, g6⟩ := Lil.setRow_spec (c := id) hC.toWFr hi' r2
      rw [Act.bind_ok b1, Act.bind_ok (Act.lib_ok r1), Act.bind_output, Act.bind_ok (Act.lib_ok g1)]
      refine ⟨C', rfl, g5 hC, g3, g4, fun k j _ _ => ?_⟩
      rw [Lil.get, g6]
      split
      · rw [Row.get_cast, Option.map_id, id, r3, b4]; rfl
      · rfl

example : assignColE (effV addLogged) id Ex.v (.list [1, 0]) 1 ([], Ex.A) =
      (.ok (), ([(2, 2), (3, 1)], ⟨2, 2, 3, [[(0, 1), (1, 4)], [(1, 4)]]⟩)) ∧
    assignRowE (effV addLogged) id Ex.v 0 .all ([], Ex.A) =
      (.ok (), ([(1, 1), (2, 2)], ⟨2, 2, 3, [[(0, 2), (1, 4)], [(1, 3)]]⟩)) ∧
    assignRowE (effV mulUpTo9) id Ex.v 0 .all (0, Ex.A) =
      (.ok (), (2, ⟨2, 2, 3, [[(0, 1), (1, 4)], [(1, 3)]]⟩)) := by
  decide +kernel

example : extractCE (effV addLogged) (.tr Ex.A) .all 0 ([], Ex.v) =
      (.ok (), ([(1, 1), (2, 2)], ⟨2, 2, [2, 4], [true, true]⟩)) ∧
    assignConstVE (effV addUpTo9) id 8 .all (0, Ex.v) = (.error (.op "too big"), (2, Ex.v)) ∧
    assignConstME (effB addLogged) id 8 .all (.list [1]) ([], Ex.A) =
      (.ok (), ([(2, 8), (3, 8)], ⟨2, 2, 3, [[(0, 1), (1, 10)], [(1, 11)]]⟩)) := by
  decide +kernel

end GBTL

import Verif.Lemmas.AssignWide
import Verif.Props.Shapes
import Verif.Lemmas.Algo

/-! # C26: what `assign` does when the source reaches past the end of the output

With `AllIndices`, `assign` checks no length, so the source may be larger than the output.
`Spec.assignSrc` and `Spec.assignSrcMat` say which element of the source each position is
assigned, inside the output and past its end. -/

namespace GBTL
open Spec (Outp MaskKind Accum)
open Row

variable {α γ ζ μ : Type}

/-- **C26**, `assign` to a vector, for a source of any size. It is undefined behaviour (a
write past the end of the output's arrays) exactly when there is no mask and the source has
an element past the end of the output. Otherwise the elements past the end are ignored. -/
theorem C26_assign_vector_actual {o : VOut γ α ζ μ} {keep : γ → ζ} {u : BVec α} {ix : Idx} (ho : o.WF)
    (hu : u.WF) (hm : o.m.Fits o.w.size) (hl : ix.len u.size = u.size) (hb : ix.below o.w.size)
    (hn : ix.nodup) :
    ((o.m = none ∧ ∃ i, o.w.size ≤ i ∧ Spec.assignSrc u.size ix.sel u.get i ≠ none) →
      assignV o keep u ix = .ub) ∧
    ((o.m ≠ none ∨ ∀ i, o.w.size ≤ i → Spec.assignSrc u.size ix.sel u.get i = none) →
      ∃ w', assignV o keep u ix = .done w' ∧
        o.Holds (fun i => Spec.assignAt keep o.acc (Spec.selected ix.sel u.size i) (o.w.get i)
          (Spec.assignSrc u.size ix.sel u.get i)) w') := by
  obtain ⟨t, t1, t2, t3⟩ := assignVec_wide (w := o.w) hu hb hn
  obtain ⟨z, z1, z2, z3⟩ := stencil1D_wide keep (.list (setupIndices ix u.size)) o.acc ho.out
    (Nat.le_max_left _ _) t2 (fun i h => (t3 i).trans (assignSrc_none h))
  have hk := (dim_extractV o ix u.size).ok ⟨hm, hl⟩
  have hrun : assignV o keep u ix
      = finish (writeWithOptMask1D o.truthy o.castZ o.w z o.m o.outp) := by
    simp only [assignV, VOut.opStencil, run]
    rw [hk, t1, Except.bind_ok', Except.bind_ok', z1]
  rw [hrun]
  have hz : ∀ i, get z i = Spec.assignAt keep o.acc (Spec.selected ix.sel u.size i) (o.w.get i)
      (Spec.assignSrc u.size ix.sel u.get i) := fun i => by rw [z3, t3, search_setup]
  have hbeyond : ∀ i, o.w.size ≤ i →
      (get z i = none ↔ Spec.assignSrc u.size ix.sel u.get i = none) := by
    intro i hi
    rw [hz, ho.out.get_none hi]
    exact assignAt_absent assignSrc_unselected
  constructor
  · rintro ⟨hnone, i, hi, hne⟩
    have hmem : ∃ p ∈ z, o.w.size ≤ p.1 := by
      obtain ⟨x, hx⟩ := Option.ne_none_iff_exists'.1 fun e => hne ((hbeyond i hi).1 e)
      exact ⟨(i, x), mem_of_get hx, hi⟩
    have hlen := BVec.clear_wf ho.out.vlen
    rw [hnone]
    simp only [writeWithOptMask1D, BVec.setContents]
    rw [setContentsLoop_beyond o.castZ z o.w.clear (by rw [hlen.blen]; exact hmem)
      (by rw [hlen.blen, hlen.vlen])]
    rfl
  · intro h
    obtain ⟨w', g1, g2, g3, g4⟩ : ∃ w', writeWithOptMask1D o.truthy o.castZ o.w z o.m o.outp = .ok w' ∧
        w'.WF ∧ w'.size = o.w.size ∧ ∀ i, i < o.w.size → w'.get i
          = Spec.write o.castZ (o.m.allows o.truthy i) o.outp (o.w.get i) (get z i) := by
      have hm' := VMask.ok_of ho.mask hm
      rcases hmk : o.m with _ | ⟨k, m⟩
      · have hz' : OK o.w.size z := by
          refine ⟨z2.sorted, fun p hp => ?_⟩
          apply Classical.byContradiction
          intro hge
          have hs := (hbeyond p.1 (by omega)).2 ((h.resolve_left fun h => h hmk) p.1 (by omega))
          rw [get_of_mem z2.sorted hp] at hs
          cases hs
        obtain ⟨w', g1, g2, g3, g4⟩ := writeWithOptMask1D_spec o.truthy o.castZ none o.outp ho.out hz'
          (by rw [hmk] at hm'; exact hm')
        exact ⟨w', g1, g2, g3, fun i _ => g4 i⟩
      · rw [hmk] at hm'
        obtain ⟨w', g1, g2, g3, g4⟩ := writeWithOptMask1D_spec o.truthy o.castZ (some (k, m)) o.outp ho.out
          (Row.upTo_ok o.w.size z2.sorted) hm'
        refine ⟨w', ?_, g2, g3, fun i hi => by rw [g4, Row.upTo_get _ z2.sorted, if_pos hi]⟩
        rw [← g1]
        obtain ⟨c, c1, c2, -⟩ := BVec.getContents_spec ho.out
        obtain ⟨mc, m1, m2, -⟩ := BVec.getContents_spec hm'.1
        simp only [writeWithOptMask1D, c1, m1, Except.bind_ok', hm'.2]
        rw [applyWithMask_upTo o.truthy o.castZ k o.outp c2 z2.sorted (hm'.2 ▸ m2)]
    refine ⟨w', by rw [g1]; rfl, g2, g3, fun i hi => ?_⟩
    rw [g4 i hi, hz]

theorem finish_done {σ : Type} {x : Except Err σ} {s : σ} (h : finish x = .done s) : x = .ok s := by
  cases x with
  | ok s' => simp only [finish, Outcome.done.injEq] at h; rw [h]
  | error e => cases e <;> simp [finish] at h

theorem finish_ub {σ : Type} {x : Except Err σ} (h : finish x = .ub) : x = .error .ub := by
  cases x with
  | ok s' => simp [finish] at h
  | error e => cases e <;> simp [finish] at h ⊢

/-- The vector assignment inside a row or column assignment. -/
theorem assignBackend_wide {truthy : μ → Bool} {castZ : ζ → γ} {keep : γ → ζ} {acc : Accum γ α ζ}
    {w : BVec γ} {m : VMask μ} {u : BVec α} {ix : Idx} {outp : Outp} (hw : w.WF) (hu : u.WF)
    (hmw : m.WF) (hm : m.Fits w.size) (hl : ix.len u.size = u.size) (hb : ix.below w.size) (hn : ix.nodup) :
    ((m = none ∧ ∃ i, w.size ≤ i ∧ Spec.assignSrc u.size ix.sel u.get i ≠ none) →
      assignBackend truthy castZ keep acc w m u ix outp = .error .ub) ∧
    ((m ≠ none ∨ ∀ i, w.size ≤ i → Spec.assignSrc u.size ix.sel u.get i = none) →
      ∃ w', assignBackend truthy castZ keep acc w m u ix outp = .ok w' ∧ w'.WF ∧ w'.size = w.size ∧
        ∀ i, i < w.size → w'.get i = Spec.write castZ (m.allows truthy i) outp (w.get i)
          (Spec.assignAt keep acc (Spec.selected ix.sel u.size i) (w.get i)
            (Spec.assignSrc u.size ix.sel u.get i))) := by
  have hV := C26_assign_vector_actual (o := ⟨w, m, truthy, acc, castZ, outp⟩) (keep := keep) (u := u) (ix := ix)
    ⟨hw, hmw⟩ hu hm hl hb hn
  obtain ⟨t, t1, t2, t3⟩ := assignVec_wide (w := w) hu hb hn
  obtain ⟨z, z1, z2, z3⟩ := stencil1D_wide keep (.list (setupIndices ix u.size)) acc hw
    (Nat.le_max_left _ _) t2 (fun i h => (t3 i).trans (assignSrc_none h))
  have hk := (dim_extractV (⟨w, m, truthy, acc, castZ, outp⟩ : VOut γ α ζ μ) ix u.size).ok ⟨hm, hl⟩
  have hrun : assignV ⟨w, m, truthy, acc, castZ, outp⟩ keep u ix
      = finish (writeWithOptMask1D truthy castZ w z m outp) := by
    simp only [assignV, VOut.opStencil, run]
    rw [hk, t1, Except.bind_ok', Except.bind_ok', z1]
  have hb' : assignBackend truthy castZ keep acc w m u ix outp
      = writeWithOptMask1D truthy castZ w z m outp := by
    simp only [assignBackend, t1, z1, Except.bind_ok']
  rw [hrun] at hV
  rw [hb']
  refine ⟨fun h => finish_ub (hV.1 h), fun h => ?_⟩
  obtain ⟨w', h1, h2⟩ := hV.2 h
  exact ⟨w', finish_done h1, h2.wf, h2.size, h2.get⟩

/-- **C26**, `assign` to a column, for a source of any size. -/
theorem C26_assign_column_actual [Inhabited γ] {o : LOut γ α ζ μ} {keep : γ → ζ} {u : BVec α} {ri : Idx}
    {j : Nat} (ho : o.WF) (hu : u.WF) (h0 : 0 < o.C.nrows) (hm : o.m.Fits o.C.nrows)
    (hl : ri.len u.size = u.size) (hb : ri.below o.C.nrows) (hn : ri.nodup) (hj : j < o.C.ncols) :
    ((o.m = none ∧ ∃ i, o.C.nrows ≤ i ∧ Spec.assignSrc u.size ri.sel u.get i ≠ none) →
      assignCol o keep u ri j = .ub) ∧
    ((o.m ≠ none ∨ ∀ i, o.C.nrows ≤ i → Spec.assignSrc u.size ri.sel u.get i = none) →
      ∃ C', assignCol o keep u ri j = .done C' ∧
        o.HoldsCol j (fun i => Spec.assignAt keep o.acc (Spec.selected ri.sel u.size i) (o.C.get i j)
          (Spec.assignSrc u.size ri.sel u.get i)) C') := by
  obtain ⟨col, c1, c2, c3⟩ := getCol_spec ho.out.toWFr j
  obtain ⟨v, v1, v2, v3, v4⟩ := fillVec_spec (by omega) c2
  have hB := assignBackend_wide (truthy := o.truthy) (castZ := o.castZ) (keep := keep)
    (acc := o.acc) (outp := o.outp) v2 hu ho.mask (v3.symm ▸ hm) hl (v3.symm ▸ hb) hn
  rw [v3] at hB
  refine ⟨fun h => ?_, fun h => ?_⟩
  · simp only [assignCol, (dim_size _ _).ok hm, (dim_len _ _).ok hl, indexCheck_ok hj,
      checkIndex_ok hb, c1, v1, hB.1 h, Except.bind_ok']
    rfl
  · obtain ⟨w, w1, w2, w3, w4⟩ := hB.2 h
    obtain ⟨r, r1, r2, r3⟩ := vec_tuples w2
    rw [w3] at r2
    obtain ⟨C', g1, g2, g3, g4, g5⟩ := setCol_spec id ho.out hj r2
    refine ⟨C', run_done (z := r) ?_ g1, g2, g3, g4, fun i k hi _ => ?_⟩
    · simp only [(dim_size _ _).ok hm, (dim_len _ _).ok hl, indexCheck_ok hj,
        checkIndex_ok hb, c1, v1, w1, Except.bind_ok']
      exact r1
    · rw [g5]
      split
      · rw [Option.map_id, id, r3, w4 i hi, v4, c3]
      · rfl

/-- **C26**, `assign` to a row, for a source of any size. -/
theorem C26_assign_row_actual [Inhabited γ] {o : LOut γ α ζ μ} {keep : γ → ζ} {u : BVec α} {ci : Idx}
    {i : Nat} (ho : o.WF) (hu : u.WF) (h0 : 0 < o.C.ncols) (hm : o.m.Fits o.C.ncols)
    (hl : ci.len u.size = u.size) (hb : ci.below o.C.ncols) (hn : ci.nodup) (hi' : i < o.C.nrows) :
    ((o.m = none ∧ ∃ j, o.C.ncols ≤ j ∧ Spec.assignSrc u.size ci.sel u.get j ≠ none) →
      assignRow o keep u i ci = .ub) ∧
    ((o.m ≠ none ∨ ∀ j, o.C.ncols ≤ j → Spec.assignSrc u.size ci.sel u.get j = none) →
      ∃ C', assignRow o keep u i ci = .done C' ∧
        o.HoldsRow i (fun j => Spec.assignAt keep o.acc (Spec.selected ci.sel u.size j) (o.C.get i j)
          (Spec.assignSrc u.size ci.sel u.get j)) C') := by
  have c1 := ho.out.toWFr.row_ok hi'
  have c2 := ho.out.toWFr.rowD_ok i
  obtain ⟨v, v1, v2, v3, v4⟩ := fillVec_spec (by omega) c2
  have hB := assignBackend_wide (truthy := o.truthy) (castZ := o.castZ) (keep := keep)
    (acc := o.acc) (outp := o.outp) v2 hu ho.mask (v3.symm ▸ hm) hl (v3.symm ▸ hb) hn
  rw [v3] at hB
  refine ⟨fun h => ?_, fun h => ?_⟩
  · simp only [assignRow, (dim_size _ _).ok hm, (dim_len _ _).ok hl, indexCheck_ok hi',
      checkIndex_ok hb, c1, v1, hB.1 h, Except.bind_ok']
    rfl
  · obtain ⟨w, w1, w2, w3, w4⟩ := hB.2 h
    obtain ⟨r, r1, r2, r3⟩ := vec_tuples w2
    rw [w3] at r2
    obtain ⟨C', g1, g2, g3, g4, g5, g6⟩ := Lil.setRow_spec (c := id) ho.out.toWFr hi' r2
    refine ⟨C', run_done (z := r) ?_ g1, g5 ho.out, g3, g4, fun k j _ hj => ?_⟩
    · simp only [(dim_size _ _).ok hm, (dim_len _ _).ok hl, indexCheck_ok hi',
        checkIndex_ok hb, c1, v1, w1, Except.bind_ok']
      exact r1
    · rw [Lil.get, g6]
      split
      · rw [Row.get_cast, Option.map_id, id, r3, w4 j hj, v4]; rfl
      · rfl

/-- The source of a matrix assignment, plain or transposed. -/
theorem assignT_wide {C : Lil γ} {A : Operand α} {ri ci : Idx} (hA : A.WF)
    (hr : ri.below C.nrows) (hc : ci.below C.ncols) (hrn : ri.nodup) (hcn : ci.nodup)
    (hrl : ri.len A.nrows = A.nrows) (hcl : ci.len A.ncols = A.ncols) :
    ((∀ i j, C.nrows ≤ i → Spec.assignSrcMat A.nrows A.ncols ri.sel ci.sel A.get i j = none) →
      ∃ T : Lil α, assignT C A ri ci = .ok (T.wide C.ncols) ∧ T.WFr ∧ T.nrows = C.nrows ∧
        T.ncols = max C.ncols A.ncols ∧
        ∀ i j, T.get i j = Spec.assignSrcMat A.nrows A.ncols ri.sel ci.sel A.get i j) ∧
    ((∃ i j, C.nrows ≤ i ∧ Spec.assignSrcMat A.nrows A.ncols ri.sel ci.sel A.get i j ≠ none) →
      assignT C A ri ci = .error .ub) := by
  rcases A with A | A
  · exact assignMat_wide hA.toWFr hr hc hrn hcn hrl
  · exact assignMatT_wide hA.toWFr hr hc hrn hcn hcl

/-- **C26**, `assign` to a matrix, plain or transposed, for a source of any shape.

* If the source has an element in a row past the last row of the output, the call is undefined
  behaviour, with or without a mask.
* Otherwise, with a mask, or if no element lies in a column past the last one, the call returns
  what it should, the elements past the end being ignored.
* Otherwise, without a mask, the elements in columns past the last are stored in the output:
  it is not a consistent matrix afterwards. -/
theorem C26_assign_matrix_actual {o : MOut γ α ζ μ} {keep : γ → ζ} {A : Operand α} {ri ci : Idx} (ho : o.WF)
    (hA : A.WF) (hm : o.M.Fits o.C.nrows o.C.ncols) (hlr : ri.len A.nrows = A.nrows)
    (hlc : ci.len A.ncols = A.ncols) (hr : ri.below o.C.nrows)
    (hc : ci.below o.C.ncols) (hrn : ri.nodup) (hcn : ci.nodup) :
    ((∃ i j, o.C.nrows ≤ i ∧ Spec.assignSrcMat A.nrows A.ncols ri.sel ci.sel A.get i j ≠ none) →
      assignM o keep A ri ci = .ub) ∧
    ((∀ i j, o.C.nrows ≤ i → Spec.assignSrcMat A.nrows A.ncols ri.sel ci.sel A.get i j = none) →
      (o.M ≠ none ∨
        ∀ i j, o.C.ncols ≤ j → Spec.assignSrcMat A.nrows A.ncols ri.sel ci.sel A.get i j = none) →
      ∃ C', assignM o keep A ri ci = .done C' ∧
        o.Holds (fun i j => Spec.assignAt keep o.acc
          (Spec.selected ri.sel A.nrows i && Spec.selected ci.sel A.ncols j) (o.C.get i j)
          (Spec.assignSrcMat A.nrows A.ncols ri.sel ci.sel A.get i j)) C') ∧
    ((∀ i j, o.C.nrows ≤ i → Spec.assignSrcMat A.nrows A.ncols ri.sel ci.sel A.get i j = none) →
      (o.M = none ∧
        ∃ i j, o.C.ncols ≤ j ∧ Spec.assignSrcMat A.nrows A.ncols ri.sel ci.sel A.get i j ≠ none) →
      ∃ C', assignM o keep A ri ci = .done C' ∧ ¬ C'.WF ∧ C'.nrows = o.C.nrows ∧ C'.ncols = o.C.ncols ∧
        ∀ i j, C'.get i j = (Spec.assignAt keep o.acc
          (Spec.selected ri.sel A.nrows i && Spec.selected ci.sel A.ncols j) (o.C.get i j)
          (Spec.assignSrcMat A.nrows A.ncols ri.sel ci.sel A.get i j)).map o.castZ) := by
  have hk := (dim_select o ri ci A.nrows A.ncols).ok ⟨hm, hlr, hlc⟩
  obtain ⟨hT1, hT2⟩ := assignT_wide (C := o.C) hA hr hc hrn hcn hlr hlc
  refine ⟨fun h => ?_, ?_⟩
  · simp only [assignM, MOut.opStencil, run]
    rw [hk, hT2 h]
    rfl
  have hmain : (∀ i j, o.C.nrows ≤ i → Spec.assignSrcMat A.nrows A.ncols ri.sel ci.sel A.get i j = none) →
      ∃ Z : Lil ζ, assignM o keep A ri ci
          = finish (writeWithOptMask o.truthy o.castZ o.C (Z.wide o.C.ncols) o.M o.outp) ∧
        Z.WF ∧ Z.nrows = o.C.nrows ∧ Z.ncols = max o.C.ncols A.ncols ∧
        ∀ i j, Z.get i j = Spec.assignAt keep o.acc
          (Spec.selected ri.sel A.nrows i && Spec.selected ci.sel A.ncols j) (o.C.get i j)
          (Spec.assignSrcMat A.nrows A.ncols ri.sel ci.sel A.get i j) := by
    intro h
    obtain ⟨T, t1, t2, t3, t4, t5⟩ := hT1 h
    have hCw : (o.C.wide (max o.C.ncols A.ncols)).WFr :=
      ⟨ho.out.len, fun r hr => ⟨(ho.out.rowOK r hr).sorted, fun p hp =>
        Nat.lt_of_lt_of_le ((ho.out.rowOK r hr).bound p hp) (Nat.le_max_left _ _)⟩⟩
    obtain ⟨Z, z1, z2, z3, z4, z5⟩ := stencil_spec (C := o.C.wide (max o.C.ncols A.ncols)) keep
      (.list (setupIndices ri A.nrows)) (.list (setupIndices ci A.ncols)) o.acc hCw t2 t3 t4
      (fun i j h => (t5 i j).trans (assignSrcMat_none h))
    refine ⟨Z, ?_, z2, z3, z4, fun i j => ?_⟩
    · have hz := stencil_wide keep o.C.ncols (max o.C.ncols A.ncols)
        (Lil.new o.C.nrows (max o.C.ncols A.ncols)) o.C T (.list (setupIndices ri A.nrows))
        (.list (setupIndices ci A.ncols)) o.acc
      rw [show Lil.new o.C.nrows (max o.C.ncols A.ncols)
        = Lil.new (o.C.wide (max o.C.ncols A.ncols)).nrows (o.C.wide (max o.C.ncols A.ncols)).ncols
        from rfl, z1] at hz
      simp only [assignM, MOut.opStencil, run]
      rw [hk, t1, Except.bind_ok', Except.bind_ok']
      rw [show Lil.new o.C.nrows o.C.ncols = (Lil.new (o.C.wide (max o.C.ncols A.ncols)).nrows
        (o.C.wide (max o.C.ncols A.ncols)).ncols : Lil ζ).wide o.C.ncols from rfl, hz]
      rfl
    · rw [z5, search_setup, search_setup, t5, Lil.wide_get]
  have hbeyond : ∀ i j, o.C.ncols ≤ j → (Spec.assignAt keep o.acc
      (Spec.selected ri.sel A.nrows i && Spec.selected ci.sel A.ncols j) (o.C.get i j)
      (Spec.assignSrcMat A.nrows A.ncols ri.sel ci.sel A.get i j) = none ↔
        Spec.assignSrcMat A.nrows A.ncols ri.sel ci.sel A.get i j = none) := by
    intro i j hj
    rw [ho.out.get_none (Or.inr hj)]
    exact assignAt_absent assignSrcMat_unselected
  -- without a mask
  have hnomask : (∀ i j, o.C.nrows ≤ i → Spec.assignSrcMat A.nrows A.ncols ri.sel ci.sel A.get i j = none) →
      o.M = none → ∃ C', assignM o keep A ri ci = .done C' ∧ C'.nrows = o.C.nrows ∧
        C'.ncols = o.C.ncols ∧ (C'.wide (max o.C.ncols A.ncols)).WF ∧
        ∀ i j, C'.get i j = (Spec.assignAt keep o.acc
          (Spec.selected ri.sel A.nrows i && Spec.selected ci.sel A.ncols j) (o.C.get i j)
          (Spec.assignSrcMat A.nrows A.ncols ri.sel ci.sel A.get i j)).map o.castZ := by
    intro h hnone
    obtain ⟨Z, z1, z2, z3, z4, z5⟩ := hmain h
    have hCw : (o.C.wide (max o.C.ncols A.ncols)).WFr :=
      ⟨ho.out.len, fun r hr => ⟨(ho.out.rowOK r hr).sorted, fun p hp =>
        Nat.lt_of_lt_of_le ((ho.out.rowOK r hr).bound p hp) (Nat.le_max_left _ _)⟩⟩
    obtain ⟨D, d1, d2, d3, d4, d5⟩ := sparseCopy_spec (cast := o.castZ) hCw z2.toWFr z3.symm z4.symm
    refine ⟨D.wide o.C.ncols, ?_, d3, rfl, ?_, fun i j => ?_⟩
    · rw [z1, hnone]
      simp only [writeWithOptMask]
      rw [sparseCopy_wide o.castZ o.C Z o.C.ncols (max o.C.ncols A.ncols) rfl, d1]
      rfl
    · have : (D.wide o.C.ncols).wide (max o.C.ncols A.ncols) = D := by
        rw [show max o.C.ncols A.ncols = D.ncols from d4.symm]; rfl
      rw [this]; exact d2
    · rw [Lil.wide_get, d5, z5]
  refine ⟨fun h hor => ?_, fun h hor => ?_⟩
  · rcases hmk : o.M with _ | ⟨k, M⟩
    · obtain ⟨C', c1, c2, c3, c4, c5⟩ := hnomask h hmk
      have hcols := hor.resolve_left fun h => h hmk
      have hwf : C'.WF := by
        refine ⟨⟨c4.len, fun r hr => ⟨(c4.rowOK r hr).sorted, fun p hp => ?_⟩⟩, c4.count⟩
        apply Classical.byContradiction
        intro hge
        rw [c3] at hge
        obtain ⟨i, hi, rfl⟩ := List.getElem_of_mem hr
        have hg : C'.get i p.1 = some p.2 := by
          rw [Lil.get, Lil.rowD_of_lt hi]
          exact get_of_mem (c4.rowOK _ hr).sorted hp
        rw [c5, (hbeyond i p.1 (by omega)).2 (hcols i p.1 (by omega))] at hg
        cases hg
      refine ⟨C', c1, hwf, c2, c3, fun i j _ _ => ?_⟩
      rw [c5, hmk]
      simp [MMask.allows, Spec.write]
    · obtain ⟨Z, z1, z2, z3, z4, z5⟩ := hmain h
      have hm' := MMask.ok_of ho.mask hm
      rw [hmk] at hm'
      have hup := Lil.upTo_wf o.C.ncols z2.toWFr
      obtain ⟨C', g1, g2, g3, g4, g5⟩ := writeWithOptMask_spec o.truthy o.castZ (some (k, M)) o.outp ho.out
        hup.toWFr (show (Z.upTo o.C.ncols).nrows = o.C.nrows from z3) rfl hm'
      refine ⟨C', ?_, g2, g3, g4, fun i j hi hj => ?_⟩
      · rw [z1, hmk, writeMask_upTo o.truthy o.castZ k o.outp o.C.ncols ho.out hm'.1 hm'.2.1 hm'.2.2
          z2.toWFr z3, g1]
        rfl
      · rw [g5, Lil.upTo_get _ z2.toWFr, if_pos hj, z5, hmk]
  · obtain ⟨hnone, i, j, hj, hne⟩ := hor
    obtain ⟨C', c1, c2, c3, c4, c5⟩ := hnomask h hnone
    refine ⟨C', c1, fun hwf => ?_, c2, c3, c5⟩
    have hg := hwf.toWFr.get_none (i := i) (j := j) (Or.inr (by rw [c3]; exact hj))
    rw [c5] at hg
    exact hne ((hbeyond i j hj).1 (by simpa using hg))

/-! ### instances -/

/-- An output of size 2 with an element and a mask that allows position 1 only. -/
def Ex.o2m : VOut Nat Nat Nat Nat :=
  ⟨⟨2, 1, [4, 0], [true, false]⟩, some (.plain, ⟨2, 1, [0, 1], [false, true]⟩), fun x => x ≠ 0, .none id, id, .merge⟩

theorem Ex.o2m_wf : Ex.o2m.WF := ⟨⟨rfl, rfl, rfl⟩, by intro k M e; cases e; exact ⟨rfl, rfl, rfl⟩⟩

/-- A source of size 3 for an output of size 2: without a mask the call is undefined behaviour,
with one it takes the elements the mask allows. -/
example : Ex.o2.WF ∧ Ex.o2m.WF ∧ Ex.u3.WF ∧ Ex.o2m.m.Fits 2 ∧ Idx.all.below 2 ∧ Idx.all.nodup ∧
    Spec.assignSrc 3 Idx.all.sel Ex.u3.get 2 = some 9 ∧
    assignV Ex.o2 id Ex.u3 .all = .ub ∧
    assignV Ex.o2m id Ex.u3 .all = .done ⟨2, 2, [4, 8], [true, true]⟩ :=
  ⟨Ex.o2_wf, Ex.o2m_wf, Ex.u3_wf, by intro k v e; cases e; rfl, trivial, trivial, by decide +kernel,
    by decide +kernel, by decide +kernel⟩

/-- A 1 by 3 matrix, a 3 by 1 matrix, and a 2 by 2 output with a mask that allows everything in
row 0. -/
def Ex.wide13 : Lil Nat := ⟨1, 3, 2, [[(0, 5), (2, 6)]]⟩
def Ex.tall31 : Lil Nat := ⟨3, 1, 1, [[], [], [(0, 7)]]⟩
def Ex.o22 : MOut Nat Nat Nat Nat :=
  ⟨⟨2, 2, 2, [[(1, 1)], [(0, 2)]]⟩, none, fun x => x ≠ 0, .none id, id, .merge⟩
def Ex.o22m : MOut Nat Nat Nat Nat :=
  { Ex.o22 with M := some (.plain, ⟨2, 2, 2, [[(0, 1), (1, 1)], []]⟩) }

theorem Ex.wide13_wf : Ex.wide13.WF := Lil.wf_chk (by decide)
theorem Ex.tall31_wf : Ex.tall31.WF := Lil.wf_chk (by decide)
theorem Ex.o22_wf : Ex.o22.WF := ⟨Lil.wf_chk (by decide), by intro k M e; cases e⟩
theorem Ex.o22m_wf : Ex.o22m.WF := ⟨Lil.wf_chk (by decide), by intro k M e; cases e; exact Lil.wf_chk (by decide)⟩

/-- A source that is too wide leaves an element in column 2 of a matrix with two columns, or is
cut by a mask; a source that is too tall is undefined behaviour with and without a mask. The
same holds for transposed sources. -/
example : Ex.o22.WF ∧ Ex.o22m.WF ∧ Ex.wide13.WF ∧ Ex.tall31.WF ∧ Ex.o22m.M.Fits 2 2 ∧
    assignM Ex.o22 id (.plain Ex.wide13) .all .all = .done ⟨2, 2, 3, [[(0, 5), (2, 6)], [(0, 2)]]⟩ ∧
    ¬ (⟨2, 2, 3, [[(0, 5), (2, 6)], [(0, 2)]]⟩ : Lil Nat).WF ∧
    assignM Ex.o22m id (.plain Ex.wide13) .all .all = .done ⟨2, 2, 2, [[(0, 5)], [(0, 2)]]⟩ ∧
    assignM Ex.o22 id (.plain Ex.tall31) .all .all = .ub ∧
    assignM Ex.o22m id (.plain Ex.tall31) .all .all = .ub ∧
    assignM Ex.o22 id (.tr Ex.tall31) .all .all = .done ⟨2, 2, 2, [[(2, 7)], [(0, 2)]]⟩ ∧
    assignM Ex.o22m id (.tr Ex.wide13) .all .all = .ub :=
  ⟨Ex.o22_wf, Ex.o22m_wf, Ex.wide13_wf, Ex.tall31_wf, by intro k v e; cases e; exact ⟨rfl, rfl⟩,
    by decide +kernel, fun h => absurd ((h.rowOK _ (List.mem_cons_self ..)).bound (2, 6) (by simp)) (by decide),
    by decide +kernel, by decide +kernel, by decide +kernel, by decide +kernel, by decide +kernel⟩

def Ex.oL22 : LOut Nat Nat Nat Nat := ⟨Ex.o22.C, none, fun x => x ≠ 0, .none id, id, .merge⟩
def Ex.oL22m : LOut Nat Nat Nat Nat := { Ex.oL22 with m := Ex.o2m.m }

example : Ex.oL22.WF ∧ Ex.oL22m.WF ∧ Ex.oL22m.m.Fits 2 ∧
    assignCol Ex.oL22 id Ex.u3 .all 0 = .ub ∧
    assignCol Ex.oL22m id Ex.u3 .all 0 = .done ⟨2, 2, 2, [[(1, 1)], [(0, 8)]]⟩ ∧
    assignRow Ex.oL22 id Ex.u3 1 .all = .ub ∧
    assignRow Ex.oL22m id Ex.u3 1 .all = .done ⟨2, 2, 3, [[(1, 1)], [(0, 2), (1, 8)]]⟩ :=
  ⟨⟨Ex.o22_wf.out, by intro k M e; cases e⟩, ⟨Ex.o22_wf.out, Ex.o2m_wf.mask⟩,
    by intro k v e; cases e; rfl, by decide +kernel, by decide +kernel, by decide +kernel, by decide +kernel⟩

end GBTL

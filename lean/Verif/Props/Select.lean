import Verif.Lemmas.Select
import Verif.Props.Products
/-
C18 (extract), C19 (assign), C20 (assign of a constant) and C27 (index out of range).
-/
namespace GBTL
open Spec (Outp MaskKind Accum both either)

variable {α β γ δ τ ζ μ : Type}

/-! ### extract -/

/-- **C18**, vectors. `hl`: an explicit list has as many indices as `w`; for
`AllIndices` nothing is asked (positions of `w` beyond `u` get nothing). -/
theorem C18_extract_vector {o : VOut γ α ζ μ} {u : BVec α} {ix : Idx} (ho : o.WF) (hu : u.WF)
    (hm : o.m.Fits o.w.size) (hl : ix.len o.w.size = o.w.size) (hb : ix.below u.size) :
    ∃ w', extractV o u ix = .done w' ∧ o.Yields (Spec.extract u.size ix.sel u.get) w' := by
  obtain ⟨t, t1, t2, t3⟩ := extractVec_spec hu hb hl
  exact VOut.op_ok ho hm ((dim_extractV o ix o.w.size).ok ⟨hm, hl⟩) t1 t2 t3

/-- **C18**, matrices, plain and transposed. -/
theorem C18_extract_matrix {o : MOut γ α ζ μ} {A : Operand α} {ri ci : Idx} (ho : o.WF) (hA : A.WF)
    (hm : o.M.Fits o.C.nrows o.C.ncols) (hlr : ri.len o.C.nrows = o.C.nrows)
    (hlc : ci.len o.C.ncols = o.C.ncols) (hr : ri.below A.nrows) (hc : ci.below A.ncols) :
    ∃ C', extractM o A ri ci = .done C' ∧
      o.Yields (Spec.extractMat A.nrows A.ncols ri.sel ci.sel A.get) C' := by
  have hk := (dim_select o ri ci o.C.nrows o.C.ncols).ok ⟨hm, hlr, hlc⟩
  rcases A with A | A
  · obtain ⟨T, t1, t2, t3, t4, t5⟩ := extractMat_spec hA.toWFr hr hc hlr hlc
    exact MOut.op_ok ho hm hk t1 t2 t3 t4 t5
  · obtain ⟨T, t1, t2, t3, t4, t5⟩ := extractMatT_spec hA.toWFr hr hc hlr hlc
    exact MOut.op_ok ho hm hk t1 t2 t3 t4 t5

theorem extractC_checks {o : VOut γ τ ζ μ} {ri : Idx} {j n : Nat}
    (hm : o.m.Fits o.w.size) (hl : ri.len o.w.size = o.w.size) (hj : j < n) :
    (do
      o.m.sizeCheck o.w.size
      ri.lenCheck o.w.size
      indexCheck j n) = (.ok () : Except Err Unit) := by
  rw [(dim_size _ _).ok hm, (dim_len _ _).ok hl, indexCheck_ok hj]; rfl

/-- **C18**, a column (a row, for a transposed matrix). -/
theorem C18_extract_column {o : VOut γ α ζ μ} {A : Operand α} {ri : Idx} {j : Nat} (ho : o.WF)
    (hA : A.WF) (hm : o.m.Fits o.w.size) (hl : ri.len o.w.size = o.w.size) (hr : ri.below A.nrows)
    (hj : j < A.ncols) :
    ∃ w', extractC o A ri j = .done w' ∧
      o.Yields (Spec.extract A.nrows ri.sel fun i => A.get i j) w' := by
  have hk := extractC_checks hm hl hj
  rcases A with A | A
  · obtain ⟨t, t1, t2, t3⟩ := extractCol_spec (j := j) hA.toWFr hr hl
    exact VOut.op_ok ho hm hk t1 t2 t3
  · obtain ⟨t, t1, t2, t3⟩ := extractColT_spec hA.toWFr hr hj hl
    exact VOut.op_ok ho hm hk t1 t2 t3

example : Ex.oV.WF ∧ Ex.u.WF ∧ Ex.oV.m.Fits Ex.oV.w.size ∧ (Idx.list [0, 0]).len 2 = 2 ∧
    (Idx.list [0, 0]).below Ex.u.size ∧
    extractV { Ex.oV with m := none } Ex.u (.list [0, 0])
      = .done { size := 2, nvals := 2, vals := [5, 6], bitmap := [true, true] } :=
  ⟨Ex.oV_wf, Ex.u_wf, Ex.oV_fits, rfl, by simp [Idx.below, Ex.u], by decide +kernel⟩

example : Ex.oM.WF ∧ Operand.WF (.tr Ex.A) ∧ Ex.oM.M.Fits 2 2 ∧ (Idx.list [1, 1]).below 2 ∧
    extractM (Ex.oN 2) (.tr Ex.A) (.list [1, 1]) (.list [1, 0])
      = .done { nrows := 2, ncols := 2, nvals := 4, rows := [[(0, 3), (1, 2)], [(0, 3), (1, 2)]] } :=
  ⟨Ex.oM_wf, Ex.A_wf, Ex.oM_fits, by simp [Idx.below], by decide +kernel⟩

example : Ex.oV.WF ∧ Operand.WF (.plain Ex.A) ∧ Ex.oV.m.Fits 2 ∧ Idx.all.below 2 ∧
    extractC { Ex.oV with m := none, acc := .none id } (.plain Ex.A) .all 0
      = .done { size := 2, nvals := 1, vals := [1, 2], bitmap := [true, false] } :=
  ⟨Ex.oV_wf, Ex.A_wf, Ex.oV_fits, trivial, by decide +kernel⟩

/-! ### assign -/

/-- **C19**, vectors. `hi`: listed indices are below `w`'s size (for `AllIndices`:
`u` is not longer than `w`); `hn`: no index is listed twice. -/
theorem C19_assign_vector {o : VOut γ α ζ μ} {keep : γ → ζ} {u : BVec α} {ix : Idx} (ho : o.WF)
    (hu : u.WF) (hm : o.m.Fits o.w.size) (hl : ix.len u.size = u.size) (hi : ix.inside u.size o.w.size)
    (hn : ix.nodup) :
    ∃ w', assignV o keep u ix = .done w' ∧
      o.Holds (fun i => Spec.assignAt keep o.acc (Spec.selected ix.sel u.size i) (o.w.get i)
        (Spec.assignSrc u.size ix.sel u.get i)) w' := by
  obtain ⟨t, t1, t2, t3⟩ := assignVec_spec (w := o.w) hu (Idx.inside_below hi) hn (Idx.inside_fits hi)
  obtain ⟨w', h1, h2⟩ := VOut.stencil_ok (keep := keep) ho hm
    ((dim_extractV o ix u.size).ok ⟨hm, hl⟩) t1 t2 (fun i h => (t3 i).trans (assignSrc_none h))
  refine ⟨w', h1, h2.wf, h2.size, fun i hi => ?_⟩
  rw [h2.get i hi, search_setup, t3]

/-- **C19**, matrices, plain and transposed. -/
theorem C19_assign_matrix {o : MOut γ α ζ μ} {keep : γ → ζ} {A : Operand α} {ri ci : Idx} (ho : o.WF)
    (hA : A.WF) (hm : o.M.Fits o.C.nrows o.C.ncols) (hlr : ri.len A.nrows = A.nrows)
    (hlc : ci.len A.ncols = A.ncols) (hr : ri.inside A.nrows o.C.nrows)
    (hc : ci.inside A.ncols o.C.ncols) (hrn : ri.nodup) (hcn : ci.nodup) :
    ∃ C', assignM o keep A ri ci = .done C' ∧
      o.Holds (fun i j => Spec.assignAt keep o.acc
        (Spec.selected ri.sel A.nrows i && Spec.selected ci.sel A.ncols j) (o.C.get i j)
        (Spec.assignSrcMat A.nrows A.ncols ri.sel ci.sel A.get i j)) C' := by
  have hk := (dim_select o ri ci A.nrows A.ncols).ok ⟨hm, hlr, hlc⟩
  have hT : ∃ T, assignT o.C A ri ci = .ok T ∧ T.WFr ∧ T.nrows = o.C.nrows ∧ T.ncols = o.C.ncols ∧
      ∀ i j, T.get i j = Spec.assignSrcMat A.nrows A.ncols ri.sel ci.sel A.get i j := by
    rcases A with A | A
    · exact assignMat_spec hA.toWFr (Idx.inside_below hr) (Idx.inside_below hc) hrn hcn hlr
        (Idx.inside_fits hr) (Idx.inside_fits hc)
    · exact assignMatT_spec hA.toWFr (Idx.inside_below hr) (Idx.inside_below hc) hrn hcn hlc
        (Idx.inside_fits hr) (Idx.inside_fits hc)
  obtain ⟨T, t1, t2, t3, t4, t5⟩ := hT
  obtain ⟨C', h1, h2⟩ := MOut.stencil_ok (keep := keep) ho hm hk t1 t2 t3 t4
    (fun i j h => (t5 i j).trans (assignSrcMat_none h))
  refine ⟨C', h1, h2.wf, h2.nrows, h2.ncols, fun i j hi hj => ?_⟩
  rw [h2.get i j hi hj, search_setup, search_setup, t5]

/-- A source of positive size selects at least one position. -/
theorem Idx.pos_of_inside {ix : Idx} {n m : Nat} (hl : ix.len n = n) (h : ix.inside n m) (hn : 0 < n) :
    m ≠ 0 := by
  cases ix with
  | list l =>
    cases l with
    | nil => simp only [Idx.len, List.length_nil] at hl; omega
    | cons i l => have := h i (by simp); omega
  | all => simp only [Idx.inside] at h; omega

/-- **C19**, a column. (`h0`: no constructor makes a vector of size 0.) -/
theorem C19_assign_column [Inhabited γ] {o : LOut γ α ζ μ} {keep : γ → ζ} {u : BVec α} {ri : Idx}
    {j : Nat} (ho : o.WF) (hu : u.WF) (h0 : 0 < u.size) (hm : o.m.Fits o.C.nrows)
    (hl : ri.len u.size = u.size) (hi : ri.inside u.size o.C.nrows) (hn : ri.nodup)
    (hj : j < o.C.ncols) :
    ∃ C', assignCol o keep u ri j = .done C' ∧
      o.HoldsCol j (fun i => Spec.assignAt keep o.acc (Spec.selected ri.sel u.size i) (o.C.get i j)
        (Spec.assignSrc u.size ri.sel u.get i)) C' := by
  obtain ⟨col, c1, c2, c3⟩ := getCol_spec ho.out.toWFr j
  obtain ⟨v, v1, v2, v3, v4⟩ := fillVec_spec (Idx.pos_of_inside hl hi h0) c2
  obtain ⟨w, w1, w2, w3, w4⟩ := assignBackend_spec (truthy := o.truthy) (castZ := o.castZ) (keep := keep)
    (acc := o.acc) (outp := o.outp) v2 hu
    (VMask.ok_of ho.mask (v3.symm ▸ hm)) (v3.symm ▸ Idx.inside_below hi) hn (v3.symm ▸ Idx.inside_fits hi)
  obtain ⟨r, r1, r2, r3⟩ := vec_tuples w2
  rw [w3, v3] at r2
  obtain ⟨C', g1, g2, g3, g4, g5⟩ := setCol_spec id ho.out hj r2
  refine ⟨C', run_done (z := r) ?_ g1, g2, g3, g4, fun i k _ _ => ?_⟩
  · simp only [(dim_size _ _).ok hm, (dim_len _ _).ok hl, indexCheck_ok hj,
      checkIndex_ok (Idx.inside_below hi), c1, v1, w1, Except.bind_ok']
    exact r1
  · rw [g5]
    split
    · rw [Option.map_id, id, r3, w4, v4, c3]
    · rfl

/-- **C19**, a row. -/
theorem C19_assign_row [Inhabited γ] {o : LOut γ α ζ μ} {keep : γ → ζ} {u : BVec α} {ci : Idx}
    {i : Nat} (ho : o.WF) (hu : u.WF) (h0 : 0 < u.size) (hm : o.m.Fits o.C.ncols)
    (hl : ci.len u.size = u.size) (hi : ci.inside u.size o.C.ncols) (hn : ci.nodup)
    (hi' : i < o.C.nrows) :
    ∃ C', assignRow o keep u i ci = .done C' ∧
      o.HoldsRow i (fun j => Spec.assignAt keep o.acc (Spec.selected ci.sel u.size j) (o.C.get i j)
        (Spec.assignSrc u.size ci.sel u.get j)) C' := by
  have c1 := ho.out.toWFr.row_ok hi'
  have c2 := ho.out.toWFr.rowD_ok i
  obtain ⟨v, v1, v2, v3, v4⟩ := fillVec_spec (Idx.pos_of_inside hl hi h0) c2
  obtain ⟨w, w1, w2, w3, w4⟩ := assignBackend_spec (truthy := o.truthy) (castZ := o.castZ) (keep := keep)
    (acc := o.acc) (outp := o.outp) v2 hu
    (VMask.ok_of ho.mask (v3.symm ▸ hm)) (v3.symm ▸ Idx.inside_below hi) hn (v3.symm ▸ Idx.inside_fits hi)
  obtain ⟨r, r1, r2, r3⟩ := vec_tuples w2
  rw [w3, v3] at r2
  obtain ⟨C', g1, g2, g3, g4, g5, g6⟩ := Lil.setRow_spec (c := id) ho.out.toWFr hi' r2
  refine ⟨C', run_done (z := r) ?_ g1, g5 ho.out, g3, g4, fun k j _ _ => ?_⟩
  · simp only [(dim_size _ _).ok hm, (dim_len _ _).ok hl, indexCheck_ok hi',
      checkIndex_ok (Idx.inside_below hi), c1, v1, w1, Except.bind_ok']
    exact r1
  · rw [Lil.get, g6]
    split
    · rw [Row.get_cast, Option.map_id, id, r3, w4, v4]; rfl
    · rfl

/-- Output matrix `A` with the vector mask `u` (structure), REPLACE, accumulator. -/
def Ex.oL : LOut Nat Nat Nat Nat :=
  { C := Ex.A, m := some (.struct, Ex.u), truthy := fun x => x ≠ 0, acc := .none id, castZ := id,
    outp := .replace }

theorem Ex.oL_wf : Ex.oL.WF := ⟨Ex.A_wf, by intro k M e; cases e; exact Ex.u_wf⟩

example : Ex.oV.WF ∧ Ex.v.WF ∧ Ex.oV.m.Fits 2 ∧ (Idx.list [1, 0]).inside 2 2 ∧ (Idx.list [1, 0]).nodup ∧
    assignV { Ex.oV with m := none } id Ex.v (.list [1, 0])
      = .done { size := 2, nvals := 2, vals := [3, 3], bitmap := [true, true] } :=
  ⟨Ex.oV_wf, Ex.v_wf, Ex.oV_fits, by simp [Idx.inside], by simp [Idx.nodup], by decide +kernel⟩

example : Ex.oM.WF ∧ Operand.WF (.tr Ex.A) ∧ (Idx.list [1, 0]).inside 2 2 ∧
    assignM { Ex.oM with M := none, acc := .none id } id (.tr Ex.A) (.list [1, 0]) .all
      = .done { nrows := 2, ncols := 2, nvals := 3, rows := [[(0, 2), (1, 3)], [(0, 1)]] } :=
  ⟨Ex.oM_wf, Ex.A_wf, by simp [Idx.inside], by decide +kernel⟩

example : Ex.oL.WF ∧ Ex.v.WF ∧ Ex.oL.m.Fits 2 ∧ (Idx.list [1, 0]).inside 2 2 ∧
    assignCol Ex.oL id Ex.v (.list [1, 0]) 1
      = .done { nrows := 2, ncols := 2, nvals := 2, rows := [[(0, 1), (1, 2)], []] } ∧
    assignRow { Ex.oL with outp := .merge } id Ex.v 1 (.list [1, 0])
      = .done { nrows := 2, ncols := 2, nvals := 4, rows := [[(0, 1), (1, 2)], [(0, 2), (1, 3)]] } :=
  ⟨Ex.oL_wf, Ex.v_wf, by intro k M e; cases e; rfl, by simp [Idx.inside],
    by decide +kernel, by decide +kernel⟩

/-! ### assign of a constant -/

/-- **C20**, vectors, for strictly ascending index lists and `AllIndices`. Missing:
false for other lists, see `C20_assign_const_vector_unsorted_wrong` and
`C20_assign_const_vector_repeat_wrong`. -/
theorem C20_assign_const_vector_partial {o : VOut γ α ζ μ} {keep : γ → ζ} {x : α} {ix : Idx} (ho : o.WF)
    (hs : ConstVShapes o ix) (hb : ix.below o.w.size) (ha : ix.ascending) :
    ∃ w', assignConstV o keep x ix = .done w' ∧
      o.Holds (fun i => Spec.assignAt keep o.acc (Spec.selected ix.sel o.w.size i) (o.w.get i)
        (if Spec.selected ix.sel o.w.size i then some x else none)) w' := by
  obtain ⟨t, t1, t2, t3⟩ := assignConstVec_spec (w := o.w) x hb ha
  obtain ⟨w', h1, h2⟩ := VOut.stencil_ok (keep := keep) (ix := setupIndices ix o.w.size) ho hs.mask
    ((dim_constV o ix).ok hs) t1 t2 (fun i h => by rw [t3, ← search_setup, h]; rfl)
  refine ⟨w', h1, h2.wf, h2.size, fun i hi => ?_⟩
  rw [h2.get i hi, search_setup, t3]

/-- **C20**, matrices: any list of rows, strictly ascending columns. Missing: false
for other column lists, see `C20_assign_const_matrix_wrong`. -/
theorem C20_assign_const_matrix_partial {o : MOut γ α ζ μ} {keep : γ → ζ} {x : α} {ri ci : Idx}
    (ho : o.WF) (hs : ConstMShapes o ri ci) (hr : ri.below o.C.nrows) (hc : ci.below o.C.ncols)
    (ha : ci.ascending) :
    ∃ C', assignConstM o keep x ri ci = .done C' ∧
      o.Holds (fun i j => Spec.assignAt keep o.acc
        (Spec.selected ri.sel o.C.nrows i && Spec.selected ci.sel o.C.ncols j) (o.C.get i j)
        (if Spec.selected ri.sel o.C.nrows i && Spec.selected ci.sel o.C.ncols j
          then some x else none)) C' := by
  obtain ⟨T, t1, t2, t3, t4, t5⟩ := assignConstMat_spec (C := o.C) x hr hc ha
  obtain ⟨C', h1, h2⟩ := MOut.stencil_ok (keep := keep) (ri := setupIndices ri o.C.nrows)
    (ci := setupIndices ci o.C.ncols) ho hs.mask ((dim_constM o ri ci).ok hs) t1 t2 t3 t4
    (fun i j h => by rw [t5, ← search_setup, ← search_setup, h]; rfl)
  refine ⟨C', h1, h2.wf, h2.nrows, h2.ncols, fun i j hi hj => ?_⟩
  rw [h2.get i j hi hj, search_setup, search_setup, t5]

/-- The output `w = [., 1, ., .]` with accumulator `+`. -/
def Ex.oW : VOut Nat Nat Nat Nat :=
  { w := { size := 4, nvals := 1, vals := [0, 1, 0, 0], bitmap := [false, true, false, false] },
    m := none, truthy := fun x => x ≠ 0, acc := .some (· + ·) id id, castZ := id, outp := .merge }

theorem Ex.oW_wf : Ex.oW.WF := ⟨⟨rfl, rfl, rfl⟩, by intro k M e; cases e⟩

/-- **C20 is false as stated** for unsorted lists: with `w = [., 1, ., .]`, accumulator
`+`, indices `[3, 1]` and the constant 5, position 1 ends up holding 5, not 6. -/
theorem C20_assign_const_vector_unsorted_wrong :
    ∃ (o : VOut Nat Nat Nat Nat) (ix : Idx), o.WF ∧ ConstVShapes o ix ∧ ix.below o.w.size ∧ ix.nodup ∧
      ¬ ∃ w', assignConstV o id 5 ix = .done w' ∧
        o.Holds (fun i => Spec.assignAt id o.acc (Spec.selected ix.sel o.w.size i) (o.w.get i)
          (if Spec.selected ix.sel o.w.size i then some 5 else none)) w' := by
  refine ⟨Ex.oW, .list [3, 1], Ex.oW_wf, ⟨(by intro k M e; cases e), by decide⟩,
    by simp [Idx.below, Ex.oW], by simp [Idx.nodup], ?_⟩
  rintro ⟨w', h1, h2⟩
  have h3 : assignConstV Ex.oW id 5 (.list [3, 1])
      = .done { size := 4, nvals := 3, vals := [0, 5, 0, 5], bitmap := [false, true, false, true] } := by
    decide +kernel
  rw [h3] at h1
  cases h1
  exact absurd (h2.get 1 (by decide)) (by decide)

/-- **C20 is false as stated** for repeated indices: the vector then reports the wrong
number of stored elements. -/
theorem C20_assign_const_vector_repeat_wrong :
    ∃ (o : VOut Nat Nat Nat Nat) (ix : Idx), o.WF ∧ ConstVShapes o ix ∧ ix.below o.w.size ∧
      ∃ w', assignConstV o id 5 ix = .done w' ∧ ¬ w'.WF := by
  refine ⟨{ Ex.oW with acc := .none id }, .list [2, 2], ⟨Ex.oW_wf.out, Ex.oW_wf.mask⟩,
    ⟨(by intro k M e; cases e), by decide⟩, by simp [Idx.below, Ex.oW],
    { size := 4, nvals := 3, vals := [0, 1, 5, 0], bitmap := [false, true, true, false] },
    by decide +kernel, ?_⟩
  intro h
  exact absurd h.count (by decide)

/-- **C20 is false as stated** for matrices: with an unsorted column list the matrix
afterwards has an unsorted row and does not compare equal to the matrix with the same
elements. -/
theorem C20_assign_const_matrix_wrong :
    ∃ (o : MOut Nat Nat Nat Nat) (ri ci : Idx), o.WF ∧ ConstMShapes o ri ci ∧ ri.below o.C.nrows ∧
      ci.below o.C.ncols ∧ ci.nodup ∧
      ∃ C', assignConstM o id 5 ri ci = .done C' ∧ ¬ C'.WF ∧
        C'.eq { nrows := 2, ncols := 2, nvals := 2, rows := [[(0, 5), (1, 5)], []] } = false := by
  refine ⟨Ex.oN 2, .list [0], .list [1, 0], Ex.oN_wf 2, ⟨Ex.oN_fits 2 _ _, by decide, by decide⟩,
    by simp [Idx.below, Ex.oN, Lil.new], by simp [Idx.below, Ex.oN, Lil.new], by simp [Idx.nodup],
    { nrows := 2, ncols := 2, nvals := 2, rows := [[(1, 5), (0, 5)], []] }, by decide +kernel, ?_,
    by decide +kernel⟩
  intro h
  have := (h.rowOK [(1, 5), (0, 5)] (by simp)).sorted
  simp [Row.Sorted] at this

example : Ex.oW.WF ∧ ConstVShapes Ex.oW (.list [1, 3]) ∧ (Idx.list [1, 3]).below 4 ∧
    (Idx.list [1, 3]).ascending ∧
    assignConstV Ex.oW id 5 (.list [1, 3])
      = .done { size := 4, nvals := 2, vals := [0, 6, 0, 5], bitmap := [false, true, false, true] } :=
  ⟨Ex.oW_wf, ⟨(by intro k M e; cases e), by decide⟩, by simp [Idx.below], by simp [Idx.ascending],
    by decide +kernel⟩

example : Ex.oM.WF ∧ ConstMShapes Ex.oM (.list [1, 1]) .all ∧
    assignConstM { Ex.oM with M := none } id 5 (.list [1, 1]) .all
      = .done { nrows := 2, ncols := 2, nvals := 4, rows := [[(0, 1), (1, 2)], [(0, 5), (1, 8)]] } :=
  ⟨Ex.oM_wf, ⟨Ex.oM_fits, by decide, by decide⟩, by decide +kernel⟩

/-! ### C27: an index out of range -/

section C27

/-- **C27**, `extract` of a vector. -/
theorem C27_extract_vector {o : VOut γ α ζ μ} {u : BVec α} {ix : Idx}
    (hm : o.m.Fits o.w.size) (hl : ix.len o.w.size = o.w.size) (hb : ¬ ix.below u.size) :
    extractV o u ix = .threw .indexOutOfBounds o.w :=
  VOut.op_threw' (by simp) ((dim_extractV o ix o.w.size).ok ⟨hm, hl⟩)
    (by rw [extractVec, checkIndex_err hb]; rfl)

theorem checkIndex2_err {ri ci : Idx} {m n : Nat} (hb : ¬ (ri.below m ∧ ci.below n)) (f : Except Err σ) :
    (do checkIndexArrayContent ri m; checkIndexArrayContent ci n; f) = .error .indexOutOfBounds := by
  by_cases hr : ri.below m
  · rw [checkIndex_ok hr, checkIndex_err fun hc => hb ⟨hr, hc⟩]; rfl
  · rw [checkIndex_err hr]; rfl

/-- **C27**, `extract` of a matrix. -/
theorem C27_extract_matrix {o : MOut γ α ζ μ} {A : Operand α} {ri ci : Idx}
    (hm : o.M.Fits o.C.nrows o.C.ncols) (hlr : ri.len o.C.nrows = o.C.nrows)
    (hlc : ci.len o.C.ncols = o.C.ncols) (hb : ¬ (ri.below A.nrows ∧ ci.below A.ncols)) :
    extractM o A ri ci = .threw .indexOutOfBounds o.C := by
  refine MOut.op_threw' (by simp) ((dim_select o ri ci o.C.nrows o.C.ncols).ok ⟨hm, hlr, hlc⟩) ?_
  rcases A with A | A <;> exact checkIndex2_err hb _

/-- **C27**, `extract` of a column. -/
theorem C27_extract_column {o : VOut γ α ζ μ} {A : Operand α} {ri : Idx} {j : Nat}
    (hm : o.m.Fits o.w.size) (hl : ri.len o.w.size = o.w.size) (hj : j < A.ncols)
    (hb : ¬ ri.below A.nrows) : extractC o A ri j = .threw .indexOutOfBounds o.w := by
  refine VOut.op_threw' (by simp) (extractC_checks hm hl hj) ?_
  rcases A with A | A
  · replace hb : ¬ ri.below A.nrows := hb
    show extractCol _ _ _ _ = _
    rw [extractCol, checkIndex_err hb]; rfl
  · replace hb : ¬ ri.below A.ncols := hb
    show extractColT _ _ _ _ = _
    rw [extractColT, checkIndex_err hb]; rfl

/-- **C27**, `assign` of a vector. -/
theorem C27_assign_vector {o : VOut γ α ζ μ} {keep : γ → ζ} {u : BVec α} {ix : Idx}
    (hm : o.m.Fits o.w.size) (hl : ix.len u.size = u.size) (hb : ¬ ix.below o.w.size) :
    assignV o keep u ix = .threw .indexOutOfBounds o.w :=
  VOut.stencil_threw' (by simp) ((dim_extractV o ix u.size).ok ⟨hm, hl⟩)
    (by rw [assignVec, checkIndex_err hb]; rfl)

/-- **C27**, `assign` of a matrix. -/
theorem C27_assign_matrix {o : MOut γ α ζ μ} {keep : γ → ζ} {A : Operand α} {ri ci : Idx}
    (hm : o.M.Fits o.C.nrows o.C.ncols) (hlr : ri.len A.nrows = A.nrows)
    (hlc : ci.len A.ncols = A.ncols) (hb : ¬ (ri.below o.C.nrows ∧ ci.below o.C.ncols)) :
    assignM o keep A ri ci = .threw .indexOutOfBounds o.C := by
  refine MOut.stencil_threw' (by simp) ((dim_select o ri ci A.nrows A.ncols).ok ⟨hm, hlr, hlc⟩) ?_
  rcases A with A | A <;> exact checkIndex2_err hb _

/-- **C27**, `assign` to a column. -/
theorem C27_assign_column [Inhabited γ] {o : LOut γ α ζ μ} {keep : γ → ζ} {u : BVec α} {ri : Idx}
    {j : Nat} (hm : o.m.Fits o.C.nrows) (hl : ri.len u.size = u.size) (hj : j < o.C.ncols)
    (hb : ¬ ri.below o.C.nrows) : assignCol o keep u ri j = .threw .indexOutOfBounds o.C := by
  refine run_threw (by simp) ?_
  rw [(dim_size _ _).ok hm, (dim_len _ _).ok hl, indexCheck_ok hj, checkIndex_err hb]; rfl

/-- **C27**, `assign` to a row. -/
theorem C27_assign_row [Inhabited γ] {o : LOut γ α ζ μ} {keep : γ → ζ} {u : BVec α} {ci : Idx}
    {i : Nat} (hm : o.m.Fits o.C.ncols) (hl : ci.len u.size = u.size) (hi : i < o.C.nrows)
    (hb : ¬ ci.below o.C.ncols) : assignRow o keep u i ci = .threw .indexOutOfBounds o.C := by
  refine run_threw (by simp) ?_
  rw [(dim_size _ _).ok hm, (dim_len _ _).ok hl, indexCheck_ok hi, checkIndex_err hb]; rfl

/-- **C27**, `assign` of a constant to a vector. -/
theorem C27_assign_const_vector {o : VOut γ α ζ μ} {keep : γ → ζ} {x : α} {ix : Idx}
    (hs : ConstVShapes o ix) (hb : ¬ ix.below o.w.size) :
    assignConstV o keep x ix = .threw .indexOutOfBounds o.w :=
  VOut.stencil_threw' (by simp) ((dim_constV o ix).ok hs) (by rw [assignConstVec, checkIndex_err hb]; rfl)

/-- **C27**, `assign` of a constant to a matrix. -/
theorem C27_assign_const_matrix {o : MOut γ α ζ μ} {keep : γ → ζ} {x : α} {ri ci : Idx}
    (hs : ConstMShapes o ri ci) (hb : ¬ (ri.below o.C.nrows ∧ ci.below o.C.ncols)) :
    assignConstM o keep x ri ci = .threw .indexOutOfBounds o.C :=
  MOut.stencil_threw' (by simp) ((dim_constM o ri ci).ok hs) (checkIndex2_err hb _)

example : Ex.oV.m.Fits 2 ∧ ¬ (Idx.list [0, 2]).below Ex.u.size ∧
    extractV Ex.oV Ex.u (.list [0, 2]) = .threw .indexOutOfBounds Ex.v ∧
    assignV Ex.oV id Ex.u (.list [0, 2]) = .threw .indexOutOfBounds Ex.v ∧
    assignConstM Ex.oM id 5 (.list [1, 2]) .all = .threw .indexOutOfBounds Ex.A :=
  ⟨Ex.oV_fits, by simp [Idx.below, Ex.u], by decide +kernel, by decide +kernel, by decide +kernel⟩

end C27

end GBTL

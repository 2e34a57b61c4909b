import Verif.Props.Indices
import Verif.Props.Shapes
import Verif.Lemmas.Algo
/- C68: index ranges as index arguments of the operations on a column or a row of a matrix. -/
namespace GBTL
open Spec (Outp MaskKind Accum)
variable {α γ ζ μ : Type}

/-- `extract` of a column with a range: element `i` of the result is element `(b + i, j)`; of a
transposed operand, `(j, b + i)`. -/
theorem C68_extract_column_slice {o : VOut γ α ζ μ} {A : Operand α} {r : IxRange} {j : Nat} (ho : o.WF) (hA : A.WF)
    (hr : r.Fits) (h : r.b ≤ r.e) (hA' : r.e ≤ A.nrows) (hj : j < A.ncols) (hm : o.m.Fits o.w.size)
    (hw : o.w.size = r.e - r.b) :
    ∃ w', extractC o A r.idx j = .done w' ∧ o.Yields (fun i => A.get (r.b + i) j) w' := by
  rw [IxRange.idx_le hr h]
  obtain ⟨w', e, y⟩ := C18_extract_column (ri := .list (Spec.interval r.b r.e)) ho hA hm
    (by rw [interval_len, hw]) (interval_below hA') hj
  refine ⟨w', e, y.congr fun i hi => ?_⟩
  simp only [Idx.sel, Spec.extract, interval_nth]
  rw [if_pos (hw ▸ hi)]; rfl

/-- `assign` to a column with a range writes the slice of it that starts at `b`. -/
theorem C68_assign_column_slice [Inhabited γ] {o : LOut γ α ζ μ} {keep : γ → ζ} {u : BVec α} {r : IxRange} {j : Nat}
    (ho : o.WF) (hu : u.WF) (h0 : 0 < u.size) (hr : r.Fits) (h : r.b ≤ r.e) (hm : o.m.Fits o.C.nrows)
    (hl : u.size = r.e - r.b) (hC : r.e ≤ o.C.nrows) (hj : j < o.C.ncols) :
    ∃ C', assignCol o keep u r.idx j = .done C' ∧
      o.HoldsCol j (fun i => Spec.assignAt keep o.acc (decide (r.b ≤ i ∧ i < r.e)) (o.C.get i j)
        (u.get (i - r.b))) C' := by
  rw [IxRange.idx_le hr h]
  obtain ⟨C', e, y⟩ := C19_assign_column (keep := keep) (ri := .list (Spec.interval r.b r.e)) ho hu h0 hm
    (by rw [interval_len, hl]) (interval_below hC) (interval_nodup ..) hj
  refine ⟨C', e, ?_⟩
  have e' : ∀ i, Spec.assignAt keep o.acc (Spec.selected (Idx.list (Spec.interval r.b r.e)).sel u.size i) (o.C.get i j)
      (Spec.assignSrc u.size (Idx.list (Spec.interval r.b r.e)).sel u.get i) =
      Spec.assignAt keep o.acc (decide (r.b ≤ i ∧ i < r.e)) (o.C.get i j) (u.get (i - r.b)) := fun i => by
    simp only [Idx.sel, interval_selected, Spec.assignSrc, interval_posOf]
    by_cases h : r.b ≤ i ∧ i < r.e
    · rw [if_pos h]; rfl
    · rw [show decide (r.b ≤ i ∧ i < r.e) = false by simpa using h]; rfl
  simpa only [e'] using y

/-- The same for a row. -/
theorem C68_assign_row_slice [Inhabited γ] {o : LOut γ α ζ μ} {keep : γ → ζ} {u : BVec α} {r : IxRange} {i : Nat}
    (ho : o.WF) (hu : u.WF) (h0 : 0 < u.size) (hr : r.Fits) (h : r.b ≤ r.e) (hm : o.m.Fits o.C.ncols)
    (hl : u.size = r.e - r.b) (hC : r.e ≤ o.C.ncols) (hi : i < o.C.nrows) :
    ∃ C', assignRow o keep u i r.idx = .done C' ∧
      o.HoldsRow i (fun j => Spec.assignAt keep o.acc (decide (r.b ≤ j ∧ j < r.e)) (o.C.get i j)
        (u.get (j - r.b))) C' := by
  rw [IxRange.idx_le hr h]
  obtain ⟨C', e, y⟩ := C19_assign_row (keep := keep) (ci := .list (Spec.interval r.b r.e)) ho hu h0 hm
    (by rw [interval_len, hl]) (interval_below hC) (interval_nodup ..) hi
  refine ⟨C', e, ?_⟩
  have e' : ∀ j, Spec.assignAt keep o.acc (Spec.selected (Idx.list (Spec.interval r.b r.e)).sel u.size j) (o.C.get i j)
      (Spec.assignSrc u.size (Idx.list (Spec.interval r.b r.e)).sel u.get j) =
      Spec.assignAt keep o.acc (decide (r.b ≤ j ∧ j < r.e)) (o.C.get i j) (u.get (j - r.b)) := fun j => by
    simp only [Idx.sel, interval_selected, Spec.assignSrc, interval_posOf]
    by_cases h : r.b ≤ j ∧ j < r.e
    · rw [if_pos h]; rfl
    · rw [show decide (r.b ≤ j ∧ j < r.e) = false by simpa using h]; rfl
  simpa only [e'] using y

/-- A reversed range is refused by every operation on a column or a row, and the output is
unchanged. -/
theorem C68_reversed_column [Inhabited γ] {o : VOut γ α ζ μ} {p : LOut γ α ζ μ} {keep : γ → ζ} {A : Operand α} {u : BVec α}
    {r : IxRange} {k : Nat} (hr : r.Fits) (h : r.e < r.b) (hA : A.nrows < 2 ^ 64)
    (hC : p.C.nrows < 2 ^ 64 ∧ p.C.ncols < 2 ^ 64) :
    (k < A.ncols → Refused (extractC o A r.idx k) o.w) ∧ (k < p.C.ncols → Refused (assignCol p keep u r.idx k) p.C) ∧
      (k < p.C.nrows → Refused (assignRow p keep u k r.idx) p.C) := by
  refine ⟨fun hk => ?_, fun hk => ?_, fun hk => ?_⟩
  · by_cases h1 : o.m.Fits o.w.size
    · by_cases h2 : r.idx.len o.w.size = o.w.size
      · exact .inr (C27_extract_column h1 h2 hk (reversed_not_below hr h hA))
      · exact .inl (VOut.op_threw (by simp) (by rw [(dim_size _ _).ok h1, (dim_len _ _).err h2]; rfl))
    · exact .inl (VOut.op_threw (by simp) (by rw [(dim_size _ _).err h1]; rfl))
  · by_cases h1 : p.m.Fits p.C.nrows
    · by_cases h2 : r.idx.len u.size = u.size
      · exact .inr (C27_assign_column h1 h2 hk (reversed_not_below hr h hC.1))
      · exact .inl (run_threw (by simp) (by rw [(dim_size _ _).ok h1, (dim_len _ _).err h2]; rfl))
    · exact .inl (run_threw (by simp) (by rw [(dim_size _ _).err h1]; rfl))
  · by_cases h1 : p.m.Fits p.C.ncols
    · by_cases h2 : r.idx.len u.size = u.size
      · exact .inr (C27_assign_row h1 h2 hk (reversed_not_below hr h hC.2))
      · exact .inl (run_threw (by simp) (by rw [(dim_size _ _).ok h1, (dim_len _ _).err h2]; rfl))
    · exact .inl (run_threw (by simp) (by rw [(dim_size _ _).err h1]; rfl))

/-! ### Concrete cases -/

/-- Column 1 of a matrix with three rows, from row 1 on, and an assignment of two elements to the end of a
column and of a row of it. -/
example : let A : Lil Nat := ⟨3, 3, 4, [[(1, 5)], [(1, 6), (2, 7)], [(0, 8)]]⟩
    let u : BVec Nat := ⟨2, 1, [9, 0], [true, false]⟩
    let o : LOut Nat Nat Nat Unit := ⟨A, none, fun _ => true, .none id, id, .replace⟩
    o.WF ∧ u.WF ∧ (⟨1, 3⟩ : IxRange).Fits ∧
    extractC (μ := Unit) ⟨⟨2, 0, [0, 0], [false, false]⟩, none, fun _ => true, .none id, id, .replace⟩ (.plain A) (IxRange.idx ⟨1, 3⟩) 1
      = .done ⟨2, 1, [6, 0], [true, false]⟩ ∧
    assignCol o id u (IxRange.idx ⟨1, 3⟩) 1 = .done ⟨3, 3, 4, [[(1, 5)], [(1, 9), (2, 7)], [(0, 8)]]⟩ ∧
    assignRow o id u 1 (IxRange.idx ⟨1, 3⟩) = .done ⟨3, 3, 3, [[(1, 5)], [(1, 9)], [(0, 8)]]⟩ :=
  ⟨⟨Lil.wf_chk (by decide +kernel), nofun⟩, ⟨rfl, rfl, by decide +kernel⟩, ⟨by decide, by decide⟩, by decide +kernel,
    by decide +kernel, by decide +kernel⟩

end GBTL

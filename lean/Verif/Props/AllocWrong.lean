import Verif.Props.Alloc
import Verif.Lemmas.AlgoOpt
/-
C98: where running out of memory breaks the matrix that is being written, and cases that
meet the hypotheses of the theorems.
-/
namespace GBTL
open Spec (Outp MaskKind Op)

/-! ### Witnesses -/

theorem Ended.ranOut_chk {χ : Type} [DecidableEq χ] {r : Ended χ} {c : χ}
    (h : (match r with | (.error (.op .badAlloc), (_, c')) => decide (c' = c) | _ => false) = true) :
    r.RanOut c := by
  rcases r with ⟨r | r, n, c'⟩
  · cases r with
    | op b => cases b; exact ⟨rfl, of_decide_eq_true h⟩
    | lib e => cases h
  · cases h

theorem Ended.returned_chk {χ : Type} [DecidableEq χ] {r : Ended χ} {c : χ}
    (h : (match r with | (.ok _, (_, c')) => decide (c' = c) | _ => false) = true) : r.Returned c := by
  rcases r with ⟨r | r, n, c'⟩
  · cases h
  · exact ⟨rfl, of_decide_eq_true h⟩

/-- A row of two elements that is copied, and the row it is copied over. -/
def Ex.am : MOut Nat Nat Nat Nat :=
  ⟨⟨1, 3, 1, [[(1, 9)]]⟩, none, fun x => x ≠ 0, .none id, id, .merge⟩
def Ex.amA : Lil Nat := ⟨1, 3, 2, [[(0, 5), (2, 7)]]⟩
def Ex.amC : MCall Nat Nat Nat := .apply id (.plain Ex.amA)

theorem Ex.am_wf : Ex.am.C.WF := Lil.wf_chk (by decide +kernel)
theorem Ex.amA_wf : Ex.amA.WF := Lil.wf_chk (by decide +kernel)
theorem Ex.am_done : Ex.amC.run Ex.am = .done Ex.amA := by decide +kernel

/-- A matrix operation that runs out of memory while it writes: the old element is gone,
one of two new ones is there, and `nvals` says two. -/
theorem C98_matrix_operation_wrong :
    ∃ (c : MCall Nat Nat Nat) (o : MOut Nat Nat Nat Nat) (C' left : Lil Nat) (mem : Nat),
      o.C.WF ∧ c.run o = .done C' ∧ Ended.RanOut (c.runL 0 (fun _ => 0) o (mem, o.C)) left ∧
      left ≠ o.C ∧ left ≠ C' ∧ left.nvals = 2 ∧ left.stored = 1 ∧ ¬ left.WF ∧
      ¬ WholeOrNone (c.runL 0 (fun _ => 0) o) o.C (.ok (), C') := by
  refine ⟨Ex.amC, Ex.am, Ex.amA, ⟨1, 3, 2, [[(0, 5)]]⟩, 1, Ex.am_wf, Ex.am_done, ⟨rfl, rfl⟩,
    by decide, by decide, rfl, rfl, fun h => absurd h.count (by decide), fun h => ?_⟩
  rcases h.1 1 with h | h
  · exact absurd h.1 (fun h => by cases h)
  · exact absurd h.2 (by decide +kernel)

/-- The same for the assignment of a row. -/
theorem C98_assign_row_wrong :
    ∃ (o : LOut Nat Nat Nat Nat) (u : BVec Nat) (C' left : Lil Nat) (mem : Nat),
      o.C.WF ∧ u.WF ∧ assignRow o id u 0 .all = .done C' ∧
      Ended.RanOut (assignRowL 0 o id u 0 .all (mem, o.C)) left ∧
      left.nvals = 2 ∧ left.stored = 1 ∧ ¬ left.WF := by
  refine ⟨⟨Ex.am.C, none, fun x => x ≠ 0, .none id, id, .merge⟩,
    ⟨3, 2, [5, 0, 7], [true, false, true]⟩, Ex.amA, ⟨1, 3, 2, [[(0, 5)]]⟩, 1, Ex.am_wf, ⟨rfl, rfl, rfl⟩,
    by decide +kernel, Ended.ranOut_chk (by decide +kernel), rfl, rfl, fun h => absurd h.count (by decide)⟩

/-- The same for copying a matrix into another: no element was copied, but `nvals` is
that of the source. -/
theorem C98_matrix_assign_wrong :
    ∃ (A rhs left : Lil Nat) (mem : Nat),
      A.WF ∧ rhs.WF ∧ Ended.RanOut (Lil.assignFromL rhs (mem, A)) left ∧
      left.rows = A.rows ∧ left.nvals = 2 ∧ left.stored = 1 ∧ ¬ left.WF :=
  ⟨Ex.am.C, Ex.amA, ⟨1, 3, 2, [[(1, 9)]]⟩, 0, Ex.am_wf, Ex.amA_wf, ⟨rfl, rfl⟩, rfl, rfl, rfl,
    fun h => absurd h.count (by decide)⟩

/-! ### Cases that meet the hypotheses -/

def Ex.av : VOut Nat Nat Nat Nat :=
  ⟨⟨3, 1, [0, 4, 0], [false, true, false]⟩, some (.plain, ⟨3, 2, [1, 1, 0], [true, true, false]⟩),
    fun x => x ≠ 0, .some (· + ·) id id, id, .merge⟩
def Ex.avU : BVec Nat := ⟨3, 2, [5, 6, 0], [true, true, false]⟩
def Ex.avC : VCall Nat Nat Nat := .apply id Ex.avU

/-- `C98_vector_operation`: the call needs memory, and with three requests it succeeds. -/
example : Ended.Returned (Ex.avC.runL 2 1 Ex.av (3, Ex.av.w)) ⟨3, 2, [5, 10, 0], [true, true, false]⟩ ∧
    Ended.RanOut (Ex.avC.runL 2 1 Ex.av (2, Ex.av.w)) Ex.av.w :=
  ⟨Ended.returned_chk (by decide +kernel), Ended.ranOut_chk (by decide +kernel)⟩
example : WholeOrNone (Ex.avC.runL 2 1 Ex.av) Ex.av.w (.ok (), ⟨3, 2, [5, 10, 0], [true, true, false]⟩) :=
  C98_vector_operation Ex.avC Ex.av _ ⟨rfl, rfl, rfl⟩ (by decide +kernel) 2 1

/-- `C98_vector_operation_throws`: an operand of another size. -/
example : WholeOrNone (VCall.runL 2 1 (.apply id ⟨2, 0, [0, 0], [false, false]⟩) Ex.av) Ex.av.w
    (.error .dimension, Ex.av.w) :=
  C98_vector_operation_throws _ Ex.av Ex.av.w .dimension (by decide +kernel) 2 1

/-- `C98_vector_build`, and a request that fails. -/
example : WholeOrNone (BVec.buildL (· + ·) [(0, 3), (2, 4)]) Ex.avU
    (.ok (), ⟨3, 2, [3, 0, 4], [true, false, true]⟩) :=
  C98_vector_build Ex.avU (· + ·) [(0, 3), (2, 4)]
example : Ended.RanOut (BVec.buildL (· + ·) [(0, 3), (2, 4)] (1, Ex.avU)) Ex.avU := ⟨rfl, rfl⟩

/-- `C98_vector_assign` and `C98_vector_clear`: not a single request. -/
example : Ended.Returned (BVec.assignFromL Ex.avU (0, Ex.av.w)) Ex.avU :=
  C98_vector_assign Ex.av.w Ex.avU ⟨rfl, rfl, rfl⟩ ⟨rfl, rfl, rfl⟩ 0
example : Ended.Returned (BVec.clearL (0, Ex.avU)) ⟨3, 0, [5, 6, 0], [false, false, false]⟩ :=
  C98_vector_clear Ex.avU ⟨rfl, rfl, rfl⟩ 0

/-- `C98_vector_resize`: the second request fails, and the array of values has grown. -/
example : Ended.RanOut (BVec.resizeL 4 (1, Ex.avU)) ⟨3, 2, [5, 6, 0, 0], [true, true, false]⟩ := ⟨rfl, rfl⟩
example : Ex.avU.WF := ⟨rfl, rfl, rfl⟩

/-- `C98_setElement`: a new position needs memory, an old one does not. -/
example : Ended.RanOut (Lil.setElementL 0 1 8 (0, Ex.amA)) Ex.amA ∧
    Ended.Returned (Lil.setElementL 0 2 8 (0, Ex.amA)) ⟨1, 3, 2, [[(0, 5), (2, 8)]]⟩ ∧
    Ended.Returned (Lil.setElementL 0 1 8 (1, Ex.amA)) ⟨1, 3, 3, [[(0, 5), (1, 8), (2, 7)]]⟩ :=
  ⟨⟨rfl, rfl⟩, ⟨rfl, rfl⟩, ⟨rfl, rfl⟩⟩

/-- `C98_matrix_resize`. -/
example : Ended.RanOut (Lil.resizeL 2 1 (0, Ex.amA)) Ex.amA ∧
    Ended.Returned (Lil.resizeL 1 1 (0, Ex.amA)) ⟨1, 1, 1, [[(0, 5)]]⟩ :=
  ⟨⟨rfl, rfl⟩, ⟨rfl, rfl⟩⟩

/-- `C98_matrix_build`: the second triple is not stored. -/
example : Ended.RanOut (Lil.buildL (· + ·) [(0, 1, 4), (0, 0, 6)] (1, Lil.new 1 3))
    ⟨1, 3, 1, [[(1, 4)]]⟩ := ⟨rfl, rfl⟩

/-- `C98_matrix_operation_throws`: an operand of another shape. -/
example : WholeOrNone (MCall.runL 2 (fun _ => 1) (.apply id (.plain (Lil.new 2 2))) Ex.am) Ex.am.C
    (.error .dimension, Ex.am.C) :=
  C98_matrix_operation_throws _ Ex.am Ex.am.C .dimension (by decide +kernel) 2 _

/-- `C98_matrix_operation_early`, `_actual` and `_partial`. -/
example : Ended.RanOut (Ex.amC.runL 2 (fun _ => 1) Ex.am (1, Ex.am.C)) Ex.am.C :=
  C98_matrix_operation_early Ex.amC Ex.am 2 _ 1 (by decide)
example : Ended.Returned (Ex.amC.runL 2 (fun _ => 1) Ex.am (5, Ex.am.C)) Ex.amA ∧
    Ended.RanOut (Ex.amC.runL 2 (fun _ => 1) Ex.am (4, Ex.am.C)) ⟨1, 3, 2, [[(0, 5)]]⟩ ∧
    Ended.RanOut (Ex.amC.runL 2 (fun _ => 1) Ex.am (2, Ex.am.C)) ⟨1, 3, 0, [[]]⟩ :=
  ⟨⟨rfl, rfl⟩, ⟨rfl, rfl⟩, ⟨rfl, rfl⟩⟩
example := C98_matrix_operation_actual Ex.amC Ex.am Ex.amA Ex.am_wf Ex.am_done 2 fun _ => 1
example := C98_matrix_operation_partial Ex.amC Ex.am Ex.amA (MOut.WF.of0 Ex.am_wf rfl) Ex.amA_wf Ex.am_done 2 fun _ => 1

/-- Assigning a column, a row. -/
def Ex.ac : LOut Nat Nat Nat Nat :=
  ⟨⟨2, 2, 1, [[(1, 9)], []]⟩, none, fun x => x ≠ 0, .none id, id, .merge⟩
def Ex.acU : BVec Nat := ⟨2, 2, [5, 6], [true, true]⟩

/-- `C98_assign_column`: the first row is done. -/
example : Ended.RanOut (assignColL 1 Ex.ac id Ex.acU .all 0 (2, Ex.ac.C)) ⟨2, 2, 2, [[(0, 5), (1, 9)], []]⟩ :=
  Ended.ranOut_chk (by decide +kernel)
example := C98_assign_column Ex.ac id Ex.acU .all 0 ⟨2, 2, 3, [[(0, 5), (1, 9)], [(0, 6)]]⟩
  (Lil.wf_chk (by decide +kernel)) (by decide +kernel) 1

/-- `C98_assign_row_actual`. -/
example := C98_assign_row_actual Ex.ac id Ex.acU 1 .all ⟨2, 2, 3, [[(1, 9)], [(0, 5), (1, 6)]]⟩
  (Lil.wf_chk (by decide +kernel)) (by decide +kernel) 1

/-- `C98_matrix_assign_actual`: the first of two rows is copied. -/
example : Ended.RanOut (Lil.assignFromL ⟨2, 2, 2, [[(0, 1)], [(0, 2)]]⟩ (1, Ex.ac.C))
    ⟨2, 2, 2, [[(0, 1)], []]⟩ := ⟨rfl, rfl⟩
example := C98_matrix_assign_actual Ex.am.C Ex.amA Ex.am_wf Ex.amA_wf

end GBTL

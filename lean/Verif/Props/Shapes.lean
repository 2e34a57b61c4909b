import Verif.Props.General
/-
C26: shape mismatches. For each operation: if the shapes violate the rule, the call
throws `DimensionException` and the output is as before; if not, it returns (or, for
`extract` and `assign`, fails for another reason only).
-/
namespace GBTL
open Spec (Outp MaskKind Accum)

variable {α β γ δ τ ζ μ σ : Type}

/-- Throws `DimensionException`, leaving the output at `s`, exactly when `P` fails, and
returns otherwise. -/
def ThrowsUnless (P : Prop) (r : Outcome σ) (s : σ) : Prop :=
  (¬ P → r = .threw .dimension s) ∧ (P → ∃ s', r = .done s')

/-- With index lists: the same, then `IndexOutOfBoundsException` exactly when `Q` fails
(see C27). -/
def ThrowsUnless2 (P Q : Prop) (r : Outcome σ) (s : σ) : Prop :=
  (¬ P → r = .threw .dimension s) ∧ (P → ¬ Q → r = .threw .indexOutOfBounds s) ∧
    (P → Q → ∃ s', r = .done s')

/-- With a row or column number as well: `InvalidIndexException` when `J` fails. -/
def ThrowsUnless3 (P J Q : Prop) (r : Outcome σ) (s : σ) : Prop :=
  (¬ P → r = .threw .dimension s) ∧ (P → ¬ J → r = .threw .invalidIndex s) ∧
    (P → J → ¬ Q → r = .threw .indexOutOfBounds s) ∧ (P → J → Q → ∃ s', r = .done s')

theorem MCall.returns {c : MCall γ τ ζ} {o : MOut γ τ ζ μ} (ho : o.WF) (hg : c.Good o.C.nrows o.C.ncols)
    (hm : o.M.Fits o.C.nrows o.C.ncols) (ha : c.Accepts o.C.nrows o.C.ncols) : ∃ C', c.run o = .done C' := by
  obtain ⟨F, -, h⟩ := c.main _ _ hg
  obtain ⟨C', h1, -⟩ := (h μ o ho rfl rfl).1 hm ha
  exact ⟨C', h1⟩

theorem VCall.returns {c : VCall γ τ ζ} {o : VOut γ τ ζ μ} (ho : o.WF) (hg : c.Good o.w.size)
    (hm : o.m.Fits o.w.size) (ha : c.Accepts o.w.size) : ∃ w', c.run o = .done w' := by
  obtain ⟨F, -, h⟩ := c.main _ hg
  obtain ⟨C', h1, -⟩ := (h μ o ho rfl).1 hm ha
  exact ⟨C', h1⟩

/-! ### Operations without index lists -/

theorem C26_mxm {o : MOut γ τ ζ μ} {sr : SR α β τ} {via : τ → τ} {A : Operand α} {B : Operand β}
    (ho : o.WF) (hA : A.WF) (hB : B.WF) : ThrowsUnless (MxmShapes o A B) (mxm o sr via A B) o.C :=
  ⟨fun h => MOut.op_threw (by simp) ((dim_mxm o A B).err h),
   fun h => MCall.returns (c := .mxm sr via A B) ho ⟨hA, hB⟩ h.mask ⟨h.rows, h.cols, h.inner⟩⟩

theorem C26_vxm {o : VOut γ τ ζ μ} {sr : SR α β τ} {u : BVec α} {A : Operand β}
    (ho : o.WF) (hu : u.WF) (hA : A.WF) : ThrowsUnless (VxmShapes o u A) (vxm o sr u A) o.w :=
  ⟨fun h => VOut.op_threw (by simp) ((dim_vxm o u A).err h),
   fun h => let ⟨w', h', _⟩ := C11_vxm ho hu hA h; ⟨w', h'⟩⟩

theorem C26_mxv {o : VOut γ τ ζ μ} {sr : SR α β τ} {A : Operand α} {u : BVec β}
    (ho : o.WF) (hA : A.WF) (hu : u.WF) : ThrowsUnless (MxvShapes o A u) (mxv o sr A u) o.w :=
  ⟨fun h => VOut.op_threw (by simp) ((dim_mxv o A u).err h),
   fun h => VCall.returns (c := .mxv sr A u) ho ⟨hA, hu⟩ h.mask ⟨h.out, h.inner⟩⟩

theorem C26_eWiseAdd_vector {o : VOut γ τ ζ μ} {f : EW α β τ} {u : BVec α} {v : BVec β}
    (ho : o.WF) (hu : u.WF) (hv : v.WF) : ThrowsUnless (SameSize2 o u v) (eWiseAddV o f u v) o.w :=
  ⟨fun h => VOut.op_threw (by simp) ((dim_same2V o u v).err h),
   fun h => let ⟨w', h', _⟩ := C13_eWiseAdd_vector ho hu hv h; ⟨w', h'⟩⟩

theorem C26_eWiseMult_vector {o : VOut γ τ ζ μ} {f : EW α β τ} {u : BVec α} {v : BVec β}
    (ho : o.WF) (hu : u.WF) (hv : v.WF) : ThrowsUnless (SameSize2 o u v) (eWiseMultV o f u v) o.w :=
  ⟨fun h => VOut.op_threw (by simp) ((dim_same2V o u v).err h),
   fun h => let ⟨w', h', _⟩ := C14_eWiseMult_vector ho hu hv h; ⟨w', h'⟩⟩

theorem C26_eWiseAdd_matrix {o : MOut γ τ ζ μ} {f : EW α β τ} {A : Operand α} {B : Operand β}
    (ho : o.WF) (hA : A.WF) (hB : B.WF) : ThrowsUnless (SameShape2 o A B) (eWiseAddM o f A B) o.C :=
  ⟨fun h => MOut.op_threw (by simp) ((dim_same2 o A B).err h),
   fun h => MCall.returns (c := .eWiseAdd f A B) ho ⟨hA, hB⟩ h.mask
    ⟨h.rows, h.cols, h.rows.trans h.rows2, h.cols.trans h.cols2⟩⟩

theorem C26_eWiseMult_matrix {o : MOut γ τ ζ μ} {f : EW α β τ} {A : Operand α} {B : Operand β}
    (ho : o.WF) (hA : A.WF) (hB : B.WF) : ThrowsUnless (SameShape2 o A B) (eWiseMultM o f A B) o.C :=
  ⟨fun h => MOut.op_threw (by simp) ((dim_same2 o A B).err h),
   fun h => MCall.returns (c := .eWiseMult f A B) ho ⟨hA, hB⟩ h.mask
    ⟨h.rows, h.cols, h.rows.trans h.rows2, h.cols.trans h.cols2⟩⟩

theorem C26_apply_vector {o : VOut γ τ ζ μ} {f : α → τ} {u : BVec α} (ho : o.WF) (hu : u.WF) :
    ThrowsUnless (SameSize o u) (applyV o f u) o.w :=
  ⟨fun h => VOut.op_threw (by simp) ((dim_sameV o u).err h),
   fun h => let ⟨w', h', _⟩ := C15_apply_vector ho hu h; ⟨w', h'⟩⟩

theorem C26_apply_matrix {o : MOut γ τ ζ μ} {f : α → τ} {A : Operand α} (ho : o.WF) (hA : A.WF) :
    ThrowsUnless (SameShape o A) (applyM o f A) o.C :=
  ⟨fun h => MOut.op_threw (by simp) ((dim_same o A).err h),
   fun h => let ⟨C', h', _⟩ := C15_apply_matrix ho hA h; ⟨C', h'⟩⟩

theorem C26_reduce {o : VOut γ τ ζ μ} {f : τ → τ → τ} {c : α → τ} {A : Operand α} (ho : o.WF) (hA : A.WF) :
    ThrowsUnless (ReduceShapes o A) (reduceMV o (.of f c) A) o.w :=
  ⟨fun h => VOut.op_threw (by simp) ((dim_reduce o A).err h),
   fun h => let ⟨w', h', _⟩ := C16_reduce_rows_op ho hA h; ⟨w', h'⟩⟩

theorem C26_transpose {o : MOut γ α ζ μ} {A : Operand α} (ho : o.WF) (hA : A.WF) :
    ThrowsUnless (TransposeShapes o A) (transposeM o A) o.C :=
  ⟨fun h => MOut.op_threw (by simp) ((dim_transpose o A).err h),
   fun h => let ⟨C', h', _⟩ := C21_transpose ho hA h; ⟨C', h'⟩⟩

/-- Missing: shapes whose product does not fit `IndexType`, see
`C22_kronecker_shape_wraps`. -/
theorem C26_kronecker_partial {o : MOut γ τ ζ μ} {f : α → β → τ} {A : Operand α} {B : Operand β}
    (ho : o.WF) (hA : A.WF) (hB : B.WF) (hr : A.nrows * B.nrows < 2 ^ 64)
    (hc : A.ncols * B.ncols < 2 ^ 64) : ThrowsUnless (KronShapes o A B) (kronecker o f A B) o.C := by
  constructor
  · intro h
    refine MOut.op_threw (by simp) ?_
    refine ((dim_rows _ _).seq ((dim_cols _ _).seq ((dim_eq _ _).seq (dim_eq _ _)))).err ?_
    rintro ⟨h1, h2, h3, h4⟩
    rw [mul64, Nat.mod_eq_of_lt hc] at h3
    rw [mul64, Nat.mod_eq_of_lt hr] at h4
    exact h ⟨fits_iff.2 ⟨h1, h2⟩, h3, h4⟩
  · intro h
    obtain ⟨C', h', -⟩ := C22_kronecker_partial (f := f) ho hA hB h (h.rows ▸ hr) (h.cols ▸ hc)
    exact ⟨C', h'⟩

/-! ### Operations with index lists

`AllIndices` is missing from these theorems: the code then checks no length, see
`C26_all_indices_wrong`. -/

theorem C26_extract_vector_partial {o : VOut γ α ζ μ} {u : BVec α} {l : List Nat} (ho : o.WF) (hu : u.WF) :
    ThrowsUnless2 (ExtractVShapes o u (.list l)) (∀ i ∈ l, i < u.size) (extractV o u (.list l)) o.w :=
  ⟨fun h => VOut.op_threw (by simp) ((dim_extractV o (.list l) o.w.size).err fun hs => h ⟨hs.1, hs.2⟩),
   fun h hq => C27_extract_vector h.mask h.len hq,
   fun h hq => VCall.returns (c := .extract u (.list l)) ho hu h.mask ⟨h.len, hq⟩⟩

theorem C26_extract_matrix_partial {o : MOut γ α ζ μ} {A : Operand α} {l k : List Nat} (ho : o.WF)
    (hA : A.WF) :
    ThrowsUnless2 (ExtractMShapes o A (.list l) (.list k))
      ((∀ i ∈ l, i < A.nrows) ∧ ∀ j ∈ k, j < A.ncols) (extractM o A (.list l) (.list k)) o.C :=
  ⟨fun h => MOut.op_threw (by simp) ((dim_select o (.list l) (.list k) o.C.nrows o.C.ncols).err
    fun hs => h ⟨hs.1, hs.2.1, hs.2.2⟩),
   fun h hq => C27_extract_matrix h.mask h.rows h.cols hq,
   fun h hq => MCall.returns (c := .extract A (.list l) (.list k)) ho hA h.mask
    ⟨h.rows, h.cols, hq.1, hq.2⟩⟩

theorem C26_extract_column_partial {o : VOut γ α ζ μ} {A : Operand α} {l : List Nat} {j : Nat} (ho : o.WF)
    (hA : A.WF) :
    ThrowsUnless3 (ExtractCShapes o A (.list l)) (j < A.ncols) (∀ i ∈ l, i < A.nrows)
      (extractC o A (.list l) j) o.w := by
  refine ⟨fun h => ?_, fun h hj => ?_, fun h hj hq => C27_extract_column h.mask h.len hj hq,
   fun h hj hq => VCall.returns (c := .extractCol A (.list l) j) ho hA h.mask ⟨h.len, hj, hq⟩⟩
  · refine VOut.op_threw (by simp) ?_
    by_cases h1 : o.m.Fits o.w.size
    · rw [(dim_size _ _).ok h1, (dim_len (.list l) o.w.size).err fun h2 => h ⟨h1, h2⟩]; rfl
    · rw [(dim_size _ _).err h1]; rfl
  · refine VOut.op_threw (by simp) ?_
    rw [(dim_size _ _).ok h.mask, (dim_len (.list l) o.w.size).ok h.len, indexCheck_err hj]; rfl

/-- Lists without repetitions: GraphBLAS leaves the others undefined. -/
theorem C26_assign_vector_partial {o : VOut γ α ζ μ} {keep : γ → ζ} {u : BVec α} {l : List Nat} (ho : o.WF)
    (hu : u.WF) (hn : l.Nodup) :
    ThrowsUnless2 (AssignVShapes o u (.list l)) (∀ i ∈ l, i < o.w.size) (assignV o keep u (.list l)) o.w :=
  ⟨fun h => VOut.stencil_threw (by simp) ((dim_extractV o (.list l) u.size).err fun hs => h ⟨hs.1, hs.2⟩),
   fun h hq => C27_assign_vector h.mask h.len hq,
   fun h hq => VCall.returns (c := .assign keep u (.list l)) ho ⟨hu, hn, by simp⟩ h.mask ⟨h.len, hq⟩⟩

theorem C26_assign_matrix_partial {o : MOut γ α ζ μ} {keep : γ → ζ} {A : Operand α} {l k : List Nat}
    (ho : o.WF) (hA : A.WF) (hl : l.Nodup) (hk : k.Nodup) :
    ThrowsUnless2 (AssignMShapes o A (.list l) (.list k))
      ((∀ i ∈ l, i < o.C.nrows) ∧ ∀ j ∈ k, j < o.C.ncols) (assignM o keep A (.list l) (.list k)) o.C :=
  ⟨fun h => MOut.stencil_threw (by simp) ((dim_select o (.list l) (.list k) A.nrows A.ncols).err
    fun hs => h ⟨hs.1, hs.2.1, hs.2.2⟩),
   fun h hq => C27_assign_matrix h.mask h.rows h.cols hq,
   fun h hq => MCall.returns (c := .assign keep A (.list l) (.list k)) ho
    ⟨hA, hl, hk, by simp, by simp⟩ h.mask ⟨h.rows, h.cols, hq.1, hq.2⟩⟩

theorem C26_assign_column_partial [Inhabited γ] {o : LOut γ α ζ μ} {keep : γ → ζ} {u : BVec α} {l : List Nat}
    {j : Nat} (ho : o.WF) (hu : u.WF) (h0 : 0 < u.size) (hn : l.Nodup) :
    ThrowsUnless3 (AssignColShapes o u (.list l)) (j < o.C.ncols) (∀ i ∈ l, i < o.C.nrows)
      (assignCol o keep u (.list l) j) o.C := by
  refine ⟨fun h => ?_, fun h hj => ?_, fun h hj hq => C27_assign_column h.mask h.len hj hq,
   fun h hj hq => let ⟨w', h', _⟩ := C19_assign_column (keep := keep) (ri := .list l) ho hu h0 h.mask h.len hq hn hj; ⟨w', h'⟩⟩
  · refine run_threw (by simp) ?_
    by_cases h1 : o.m.Fits o.C.nrows
    · rw [(dim_size _ _).ok h1, (dim_len (.list l) u.size).err fun h2 => h ⟨h1, h2⟩]; rfl
    · rw [(dim_size _ _).err h1]; rfl
  · refine run_threw (by simp) ?_
    rw [(dim_size _ _).ok h.mask, (dim_len (.list l) u.size).ok h.len, indexCheck_err hj]; rfl

theorem C26_assign_row_partial [Inhabited γ] {o : LOut γ α ζ μ} {keep : γ → ζ} {u : BVec α} {l : List Nat}
    {i : Nat} (ho : o.WF) (hu : u.WF) (h0 : 0 < u.size) (hn : l.Nodup) :
    ThrowsUnless3 (AssignRowShapes o u (.list l)) (i < o.C.nrows) (∀ j ∈ l, j < o.C.ncols)
      (assignRow o keep u i (.list l)) o.C := by
  refine ⟨fun h => ?_, fun h hj => ?_, fun h hj hq => C27_assign_row h.mask h.len hj hq,
   fun h hj hq => let ⟨w', h', _⟩ := C19_assign_row (keep := keep) (ci := .list l) ho hu h0 h.mask h.len hq hn hj; ⟨w', h'⟩⟩
  · refine run_threw (by simp) ?_
    by_cases h1 : o.m.Fits o.C.ncols
    · rw [(dim_size _ _).ok h1, (dim_len (.list l) u.size).err fun h2 => h ⟨h1, h2⟩]; rfl
    · rw [(dim_size _ _).err h1]; rfl
  · refine run_threw (by simp) ?_
    rw [(dim_size _ _).ok h.mask, (dim_len (.list l) u.size).ok h.len, indexCheck_err hj]; rfl

/-- Ascending lists and `AllIndices`; for other lists see C20. -/
theorem C26_assign_const_vector_partial {o : VOut γ α ζ μ} {keep : γ → ζ} {x : α} {ix : Idx} (ho : o.WF)
    (ha : ix.ascending) :
    ThrowsUnless2 (ConstVShapes o ix) (ix.below o.w.size) (assignConstV o keep x ix) o.w :=
  ⟨fun h => VOut.stencil_threw (by simp) ((dim_constV o ix).err h),
   fun h hq => C27_assign_const_vector h hq,
   fun h hq => let ⟨w', h', _⟩ := C20_assign_const_vector_partial (keep := keep) ho h hq ha; ⟨w', h'⟩⟩

theorem C26_assign_const_matrix_partial {o : MOut γ α ζ μ} {keep : γ → ζ} {x : α} {ri ci : Idx} (ho : o.WF)
    (ha : ci.ascending) :
    ThrowsUnless2 (ConstMShapes o ri ci) (ri.below o.C.nrows ∧ ci.below o.C.ncols)
      (assignConstM o keep x ri ci) o.C :=
  ⟨fun h => MOut.stencil_threw (by simp) ((dim_constM o ri ci).err h),
   fun h hq => C27_assign_const_matrix h hq,
   fun h hq => let ⟨w', h', _⟩ := C20_assign_const_matrix_partial (keep := keep) ho h hq.1 hq.2 ha; ⟨w', h'⟩⟩

/-! ### `AllIndices` -/

/-- A vector of three elements, with the output `w` of size 2 and no mask. -/
def Ex.u3 : BVec Nat := ⟨3, 3, [7, 8, 9], [true, true, true]⟩

theorem Ex.u3_wf : Ex.u3.WF := ⟨rfl, rfl, rfl⟩

def Ex.o2 : VOut Nat Nat Nat Nat :=
  ⟨⟨2, 0, [0, 0], [false, false]⟩, none, fun x => x ≠ 0, .none id, id, .merge⟩

theorem Ex.o2_wf : Ex.o2.WF := ⟨⟨rfl, rfl, rfl⟩, by intro k M e; cases e⟩

def Ex.o4 : VOut Nat Nat Nat Nat :=
  ⟨⟨4, 0, [0, 0, 0, 0], [false, false, false, false]⟩, none, fun x => x ≠ 0, .none id, id, .merge⟩

theorem Ex.o4_wf : Ex.o4.WF := ⟨⟨rfl, rfl, rfl⟩, by intro k M e; cases e⟩

/-- **C26 is false as stated** with `AllIndices`: extracting all of a vector of size 3
into one of size 2 throws nothing and silently drops an element; assigning it is
undefined behaviour (an access past the end of the output's arrays); assigning it to
all of a vector of size 4 silently leaves a position out. -/
theorem C26_all_indices_wrong :
    Ex.o2.WF ∧ Ex.o4.WF ∧ Ex.u3.WF ∧
    ¬ ExtractVShapes Ex.o2 Ex.u3 .all ∧
      extractV Ex.o2 Ex.u3 .all = .done ⟨2, 2, [7, 8], [true, true]⟩ ∧
    ¬ AssignVShapes Ex.o2 Ex.u3 .all ∧ assignV Ex.o2 id Ex.u3 .all = .ub ∧
    ¬ AssignVShapes Ex.o4 Ex.u3 .all ∧
      assignV Ex.o4 id Ex.u3 .all = .done ⟨4, 3, [7, 8, 9, 0], [true, true, true, false]⟩ :=
  ⟨Ex.o2_wf, Ex.o4_wf, Ex.u3_wf, fun h => absurd h.len (by decide), by decide +kernel,
    fun h => absurd h.len (by decide), by decide +kernel,
    fun h => absurd h.len (by decide), by decide +kernel⟩

example : Ex.o2.WF ∧ Ex.u3.WF ∧ ¬ SameSize Ex.o2 Ex.u3 ∧
    applyV Ex.o2 (fun x : Nat => x + 1) Ex.u3 = .threw .dimension Ex.o2.w ∧
    extractV Ex.o2 Ex.u3 (.list [2, 0]) = .done ⟨2, 2, [9, 7], [true, true]⟩ ∧
    extractV Ex.o2 Ex.u3 (.list [2, 0, 1]) = .threw .dimension Ex.o2.w ∧
    extractV Ex.o2 Ex.u3 (.list [2, 3]) = .threw .indexOutOfBounds Ex.o2.w :=
  ⟨Ex.o2_wf, Ex.u3_wf, fun h => absurd h.size (by decide), by decide +kernel, by decide +kernel,
    by decide +kernel, by decide +kernel⟩

end GBTL

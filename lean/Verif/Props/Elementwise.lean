import Verif.Props.Products
import Verif.Props.Containers
/-
C13-C17, C21, C22: element-wise operations, apply, reduce, transpose, kronecker.
-/
namespace GBTL
open Spec (Outp MaskKind Accum both either)

variable {α β γ δ τ ζ μ : Type}

/-! ### eWiseAdd -/

/-- **C13**, vectors. -/
theorem C13_eWiseAdd_vector {o : VOut γ τ ζ μ} {f : EW α β τ} {u : BVec α} {v : BVec β}
    (ho : o.WF) (hu : u.WF) (hv : v.WF) (hs : SameSize2 o u v) :
    ∃ w', eWiseAddV o f u v = .done w' ∧
      o.Yields (fun i => either f.op f.c1 f.c2 (u.get i) (v.get i)) w' := by
  obtain ⟨t, t1, t2, t3⟩ := ewiseAddVec_spec (n := o.w.size) f.op f.c1 f.c2 hu hv hs.size.symm
    (by rw [← hs.size2, hs.size])
  exact VOut.op_ok ho hs.mask ((dim_same2V o u v).ok hs) t1 t2 (fun i _ => t3 i)

/-- **C13**, matrices, every combination of plain and transposed operands. For
`A, transpose(B)` the code stores the transpose of `B` in `A`'s scalar type; the
statement is proved when that conversion makes no difference. Missing: it is false
otherwise, see `C13_eWiseAdd_ABT_wrong`. -/
theorem C13_eWiseAdd_matrix_partial {o : MOut γ τ ζ μ} {f : EW α β τ} {A : Operand α} {B : Operand β}
    (ho : o.WF) (hA : A.WF) (hB : B.WF) (hs : SameShape2 o A B)
    (hc : ¬ A.isTr → B.isTr → (∀ a b, f.opA a (f.castBA b) = f.op a b) ∧
      ∀ b, f.c2A (f.castBA b) = f.c2 b) :
    ∃ C', eWiseAddM o f A B = .done C' ∧
      o.Yields (fun i j => either f.op f.c1 f.c2 (A.get i j) (B.get i j)) C' := by
  have hk := (dim_same2 o A B).ok hs
  rcases A with A | A <;> rcases B with B | B
  · obtain ⟨T, t1, t2, t3, t4, t5⟩ := ewiseAddMat_spec f.op f.c1 f.c2 hA hB hs.rows2 hs.cols2
    exact MOut.op_ok ho hs.mask hk t1 t2.toWFr (t3.trans hs.rows.symm) (t4.trans hs.cols.symm)
      (fun i j _ _ => t5 i j)
  · obtain ⟨T, t1, t2, t3, t4, t5⟩ := ewiseAddABT_spec f.opA f.c1 f.c2A f.castBA hA hB hs.rows2 hs.cols2
    obtain ⟨h1, h2⟩ := hc (fun h => h) trivial
    refine MOut.op_ok ho hs.mask hk t1 t2.toWFr (t3.trans hs.rows.symm) (t4.trans hs.cols.symm)
      (fun i j _ _ => ?_)
    rw [t5]
    show either _ _ _ (A.get i j) _ = either _ _ _ (A.get i j) (B.get j i)
    cases A.get i j <;> cases B.get j i <;> simp [either, h1, h2]
  · obtain ⟨T, t1, t2, t3, t4, t5⟩ := ewiseAddATB_spec f.op f.c1 f.c2 hA hB hs.rows2 hs.cols2
    exact MOut.op_ok ho hs.mask hk t1 t2.toWFr (t3.trans hs.rows.symm) (t4.trans hs.cols.symm)
      (fun i j _ _ => t5 i j)
  · obtain ⟨T, t1, t2, t3, t4, t5⟩ := ewiseAddATBT_spec f.op f.c1 f.c2 hA hB hs.cols2 hs.rows2
    exact MOut.op_ok ho hs.mask hk t1 t2.toWFr (t3.trans hs.rows.symm) (t4.trans hs.cols.symm)
      (fun i j _ _ => t5 i j)

/-- **C13**, `A, transpose(B)` with operands of the same scalar type: no
hypothesis. -/
theorem C13_eWiseAdd_same_type {o : MOut γ τ ζ μ} {op : α → α → τ} {c1 c2 : α → τ} {A B : Operand α}
    (ho : o.WF) (hA : A.WF) (hB : B.WF) (hs : SameShape2 o A B) :
    ∃ C', eWiseAddM o ⟨op, c1, c2, id, op, c2⟩ A B = .done C' ∧
      o.Yields (fun i j => either op c1 c2 (A.get i j) (B.get i j)) C' :=
  C13_eWiseAdd_matrix_partial (f := ⟨op, c1, c2, id, op, c2⟩) ho hA hB hs
    (fun _ _ => ⟨fun _ _ => rfl, fun _ => rfl⟩)

/-- What `eWiseAdd(A, transpose(B))` computes: `B`'s elements pass through `A`'s
scalar type. -/
theorem C13_eWiseAdd_ABT_actual {o : MOut γ τ ζ μ} {f : EW α β τ} {A : Lil α} {B : Lil β}
    (ho : o.WF) (hA : A.WF) (hB : B.WF) (hs : SameShape2 o (.plain A) (.tr B)) :
    ∃ C', eWiseAddM o f (.plain A) (.tr B) = .done C' ∧
      o.Yields (fun i j => either f.opA f.c1 f.c2A (A.get i j) ((B.get j i).map f.castBA)) C' := by
  obtain ⟨T, t1, t2, t3, t4, t5⟩ := ewiseAddABT_spec f.opA f.c1 f.c2A f.castBA hA hB hs.rows2 hs.cols2
  exact MOut.op_ok ho hs.mask ((dim_same2 o (.plain A) (.tr B)).ok hs) t1 t2.toWFr
    (t3.trans hs.rows.symm) (t4.trans hs.cols.symm) (fun i j _ _ => t5 i j)

/-- The conversions of a C++ `+` on a `bool` matrix and an `unsigned` one. -/
def Ex.boolNat : EW Bool Nat Nat :=
  { op := fun a b => a.toNat + b, c1 := Bool.toNat, c2 := id, castBA := fun b => b ≠ 0,
    opA := fun a b => a.toNat + b.toNat, c2A := Bool.toNat }

/-- **C13 is false as stated** for `A, transpose(B)` when the scalar type of `A`
cannot hold `B`'s values: with a `bool` matrix `A` (empty) and an unsigned matrix
`B = [[5]]`, `eWiseAdd(A, transpose(B))` gives 1 instead of 5. -/
theorem C13_eWiseAdd_ABT_wrong :
    ∃ (o : MOut Nat Nat Nat Nat) (A : Lil Bool) (B : Lil Nat),
      o.WF ∧ A.WF ∧ B.WF ∧ SameShape2 o (.plain A) (.tr B) ∧
      ¬ ∃ C', eWiseAddM o Ex.boolNat (.plain A) (.tr B) = .done C' ∧
        o.Yields (fun i j => either (fun a b => a.toNat + b) Bool.toNat id (A.get i j) (B.get j i)) C' := by
  refine ⟨Ex.oN 1, Lil.new 1 1, Ex.one 5, Ex.oN_wf 1, Lil.new_wf 1 1, Ex.one_wf 5,
    ⟨Ex.oN_fits 1 _ _, rfl, rfl, rfl, rfl⟩, ?_⟩
  rintro ⟨C', h1, h2⟩
  have h3 : eWiseAddM (Ex.oN 1) Ex.boolNat (.plain (Lil.new 1 1)) (.tr (Ex.one 5)) = .done (Ex.one 1) := by
    decide +kernel
  rw [h3] at h1
  cases h1
  exact absurd (h2.get 0 0 (by decide) (by decide)) (by decide)

/-- `+` on unsigned matrices. -/
def Ex.plus : EW Nat Nat Nat := ⟨(· + ·), id, id, id, (· + ·), id⟩

example : Ex.oM.WF ∧ Ex.A.WF ∧ Ex.B.WF ∧ SameShape2 Ex.oM (.plain Ex.A) (.tr Ex.B) ∧
    ((∀ a b, Ex.plus.opA a (Ex.plus.castBA b) = Ex.plus.op a b) ∧
      ∀ b, Ex.plus.c2A (Ex.plus.castBA b) = Ex.plus.c2 b) ∧
    eWiseAddM Ex.oM Ex.plus (.plain Ex.A) (.tr Ex.B)
      = .done { nrows := 2, ncols := 2, nvals := 2, rows := [[(0, 2)], [(1, 6)]] } :=
  ⟨Ex.oM_wf, Ex.A_wf, Ex.B_wf, ⟨Ex.oM_fits, rfl, rfl, rfl, rfl⟩, ⟨fun _ _ => rfl, fun _ => rfl⟩,
    by decide +kernel⟩

example : Ex.oV.WF ∧ Ex.u.WF ∧ Ex.v.WF ∧ SameSize2 Ex.oV Ex.u Ex.v ∧
    eWiseAddV Ex.oV Ex.plus Ex.u Ex.v
      = .done { size := 2, nvals := 2, vals := [6, 2], bitmap := [true, true] } :=
  ⟨Ex.oV_wf, Ex.u_wf, Ex.v_wf, ⟨Ex.oV_fits, rfl, rfl⟩, by decide +kernel⟩

/-! ### eWiseMult -/

/-- **C14**, vectors. -/
theorem C14_eWiseMult_vector {o : VOut γ τ ζ μ} {f : EW α β τ} {u : BVec α} {v : BVec β}
    (ho : o.WF) (hu : u.WF) (hv : v.WF) (hs : SameSize2 o u v) :
    ∃ w', eWiseMultV o f u v = .done w' ∧
      o.Yields (fun i => both f.op (u.get i) (v.get i)) w' := by
  obtain ⟨t, t1, t2, t3⟩ := ewiseMultVec_spec (n := o.w.size) f.op hu hv hs.size.symm
  exact VOut.op_ok ho hs.mask ((dim_same2V o u v).ok hs) t1 t2 (fun i _ => t3 i)

/-- **C14**, matrices; as for `eWiseAdd`, `A, transpose(B)` passes `B`'s elements
through `A`'s scalar type. Missing: false when that changes a value, see
`C14_eWiseMult_ABT_wrong`. -/
theorem C14_eWiseMult_matrix_partial {o : MOut γ τ ζ μ} {f : EW α β τ} {A : Operand α} {B : Operand β}
    (ho : o.WF) (hA : A.WF) (hB : B.WF) (hs : SameShape2 o A B)
    (hc : ¬ A.isTr → B.isTr → ∀ a b, f.opA a (f.castBA b) = f.op a b) :
    ∃ C', eWiseMultM o f A B = .done C' ∧
      o.Yields (fun i j => both f.op (A.get i j) (B.get i j)) C' := by
  have hk := (dim_same2 o A B).ok hs
  rcases A with A | A <;> rcases B with B | B
  · obtain ⟨T, t1, t2, t3, t4, t5⟩ := ewiseMultMat_spec f.op hA hB hs.rows2
    exact MOut.op_ok ho hs.mask hk t1 t2.toWFr (t3.trans hs.rows.symm) (t4.trans hs.cols.symm)
      (fun i j _ _ => t5 i j)
  · obtain ⟨T, t1, t2, t3, t4, t5⟩ := ewiseMultABT_spec f.opA f.castBA hA hB hs.rows2
    have h1 := hc (fun h => h) trivial
    refine MOut.op_ok ho hs.mask hk t1 t2.toWFr (t3.trans hs.rows.symm) (t4.trans hs.cols.symm)
      (fun i j _ _ => ?_)
    rw [t5]
    show both _ (A.get i j) _ = both _ (A.get i j) (B.get j i)
    cases A.get i j <;> cases B.get j i <;> simp [both, h1]
  · obtain ⟨T, t1, t2, t3, t4, t5⟩ := ewiseMultATB_spec f.op hA hB hs.rows2
    exact MOut.op_ok ho hs.mask hk t1 t2.toWFr (t3.trans hs.rows.symm) (t4.trans hs.cols.symm)
      (fun i j _ _ => t5 i j)
  · obtain ⟨T, t1, t2, t3, t4, t5⟩ := ewiseMultATBT_spec f.op hA hB hs.cols2
    exact MOut.op_ok ho hs.mask hk t1 t2.toWFr (t3.trans hs.rows.symm) (t4.trans hs.cols.symm)
      (fun i j _ _ => t5 i j)

/-- **C14**, operands of the same scalar type: no hypothesis. -/
theorem C14_eWiseMult_same_type {o : MOut γ τ ζ μ} {op : α → α → τ} {c1 c2 : α → τ} {A B : Operand α}
    (ho : o.WF) (hA : A.WF) (hB : B.WF) (hs : SameShape2 o A B) :
    ∃ C', eWiseMultM o ⟨op, c1, c2, id, op, c2⟩ A B = .done C' ∧
      o.Yields (fun i j => both op (A.get i j) (B.get i j)) C' :=
  C14_eWiseMult_matrix_partial (f := ⟨op, c1, c2, id, op, c2⟩) ho hA hB hs (fun _ _ _ _ => rfl)

/-- What `eWiseMult(A, transpose(B))` computes. -/
theorem C14_eWiseMult_ABT_actual {o : MOut γ τ ζ μ} {f : EW α β τ} {A : Lil α} {B : Lil β}
    (ho : o.WF) (hA : A.WF) (hB : B.WF) (hs : SameShape2 o (.plain A) (.tr B)) :
    ∃ C', eWiseMultM o f (.plain A) (.tr B) = .done C' ∧
      o.Yields (fun i j => both f.opA (A.get i j) ((B.get j i).map f.castBA)) C' := by
  obtain ⟨T, t1, t2, t3, t4, t5⟩ := ewiseMultABT_spec f.opA f.castBA hA hB hs.rows2
  exact MOut.op_ok ho hs.mask ((dim_same2 o (.plain A) (.tr B)).ok hs) t1 t2.toWFr
    (t3.trans hs.rows.symm) (t4.trans hs.cols.symm) (fun i j _ _ => t5 i j)

/-- **C14 is false as stated** for `A, transpose(B)` of different scalar types: a
`bool` matrix `[[true]]` and an unsigned `[[5]]`, operator `+`: 2 instead of 6. -/
theorem C14_eWiseMult_ABT_wrong :
    ∃ (o : MOut Nat Nat Nat Nat) (A : Lil Bool) (B : Lil Nat),
      o.WF ∧ A.WF ∧ B.WF ∧ SameShape2 o (.plain A) (.tr B) ∧
      ¬ ∃ C', eWiseMultM o Ex.boolNat (.plain A) (.tr B) = .done C' ∧
        o.Yields (fun i j => both (fun a b => a.toNat + b) (A.get i j) (B.get j i)) C' := by
  refine ⟨Ex.oN 1, ⟨1, 1, 1, [[(0, true)]]⟩, Ex.one 5, Ex.oN_wf 1, ?_, Ex.one_wf 5,
    ⟨Ex.oN_fits 1 _ _, rfl, rfl, rfl, rfl⟩, ?_⟩
  · refine Ex.wf_of_rows rfl rfl ?_
    intro r hr
    simp only [List.mem_cons, List.not_mem_nil, or_false] at hr
    subst hr; exact ⟨by simp [Row.Sorted], by simp⟩
  rintro ⟨C', h1, h2⟩
  have h3 : eWiseMultM (Ex.oN 1) Ex.boolNat (.plain ⟨1, 1, 1, [[(0, true)]]⟩) (.tr (Ex.one 5))
      = .done (Ex.one 2) := by decide +kernel
  rw [h3] at h1
  cases h1
  exact absurd (h2.get 0 0 (by decide) (by decide)) (by decide)

example : Ex.oM.WF ∧ Ex.A.WF ∧ Ex.B.WF ∧ SameShape2 Ex.oM (.tr Ex.A) (.plain Ex.B) ∧
    eWiseMultM { Ex.oM with M := none } Ex.plus (.tr Ex.A) (.plain Ex.B)
      = .done { nrows := 2, ncols := 2, nvals := 4, rows := [[(0, 1), (1, 2)], [(0, 9), (1, 3)]] } :=
  ⟨Ex.oM_wf, Ex.A_wf, Ex.B_wf, ⟨Ex.oM_fits, rfl, rfl, rfl, rfl⟩, by decide +kernel⟩

/-! ### apply -/

/-- **C15**, vectors, unary operator. -/
theorem C15_apply_vector {o : VOut γ τ ζ μ} {f : α → τ} {u : BVec α}
    (ho : o.WF) (hu : u.WF) (hs : SameSize o u) :
    ∃ w', applyV o f u = .done w' ∧ o.Yields (fun i => (u.get i).map f) w' := by
  obtain ⟨t, t1, t2, t3⟩ := applyVec_spec f hu
  refine VOut.op_ok ho hs.mask ((dim_sameV o u).ok hs) t1 ?_ (fun i _ => t3 i)
  rw [hs.size]; exact t2

/-- **C15**, vectors, scalar bound to the first argument. -/
theorem C15_apply_vector_bind1st {o : VOut γ τ ζ μ} {f : β → α → τ} {x : β} {u : BVec α}
    (ho : o.WF) (hu : u.WF) (hs : SameSize o u) :
    ∃ w', applyV1 o f x u = .done w' ∧ o.Yields (fun i => (u.get i).map fun a => f x a) w' :=
  C15_apply_vector ho hu hs

/-- **C15**, vectors, scalar bound to the second argument. -/
theorem C15_apply_vector_bind2nd {o : VOut γ τ ζ μ} {f : α → β → τ} {x : β} {u : BVec α}
    (ho : o.WF) (hu : u.WF) (hs : SameSize o u) :
    ∃ w', applyV2 o f u x = .done w' ∧ o.Yields (fun i => (u.get i).map fun a => f a x) w' :=
  C15_apply_vector ho hu hs

/-- **C15**, matrices, plain and transposed, unary operator. -/
theorem C15_apply_matrix {o : MOut γ τ ζ μ} {f : α → τ} {A : Operand α}
    (ho : o.WF) (hA : A.WF) (hs : SameShape o A) :
    ∃ C', applyM o f A = .done C' ∧ o.Yields (fun i j => (A.get i j).map f) C' := by
  have hk := (dim_same o A).ok hs
  rcases A with A | A
  · obtain ⟨T, t1, t2, t3, t4, t5⟩ := applyMat_spec f hA
    exact MOut.op_ok ho hs.mask hk t1 t2.toWFr (t3.trans hs.rows.symm) (t4.trans hs.cols.symm)
      (fun i j _ _ => t5 i j)
  · obtain ⟨T, t1, t2, t3, t4, t5⟩ := applyMatT_spec f hA
    exact MOut.op_ok ho hs.mask hk t1 t2.toWFr (t3.trans hs.rows.symm) (t4.trans hs.cols.symm)
      (fun i j _ _ => t5 i j)

/-- **C15**, matrices, scalar bound to the first argument. -/
theorem C15_apply_matrix_bind1st {o : MOut γ τ ζ μ} {f : β → α → τ} {x : β} {A : Operand α}
    (ho : o.WF) (hA : A.WF) (hs : SameShape o A) :
    ∃ C', applyM1 o f x A = .done C' ∧ o.Yields (fun i j => (A.get i j).map fun a => f x a) C' :=
  C15_apply_matrix ho hA hs

/-- **C15**, matrices, scalar bound to the second argument. -/
theorem C15_apply_matrix_bind2nd {o : MOut γ τ ζ μ} {f : α → β → τ} {x : β} {A : Operand α}
    (ho : o.WF) (hA : A.WF) (hs : SameShape o A) :
    ∃ C', applyM2 o f A x = .done C' ∧ o.Yields (fun i j => (A.get i j).map fun a => f a x) C' :=
  C15_apply_matrix ho hA hs

example : Ex.oM.WF ∧ Operand.WF (.tr Ex.A) ∧ SameShape Ex.oM (.tr Ex.A) ∧
    applyM2 { Ex.oM with M := none, acc := .none id } (fun a b => a - b) (.tr Ex.A) 1
      = .done { nrows := 2, ncols := 2, nvals := 3, rows := [[(0, 0)], [(0, 1), (1, 2)]] } :=
  ⟨Ex.oM_wf, Ex.A_wf, ⟨Ex.oM_fits, rfl, rfl⟩, by decide +kernel⟩

example : Ex.oV.WF ∧ Ex.u.WF ∧ SameSize Ex.oV Ex.u ∧
    applyV1 Ex.oV (fun a b => a - b) 10 Ex.u
      = .done { size := 2, nvals := 2, vals := [7, 2], bitmap := [true, true] } :=
  ⟨Ex.oV_wf, Ex.u_wf, ⟨Ex.oV_fits, rfl⟩, by decide +kernel⟩

/-! ### reduce -/

/-- A monoid or binary operator `f` on the type `τ`, applied to elements converted
by `c`. -/
def RedOp.of (f : τ → τ → τ) (c : α → τ) : RedOp α τ :=
  ⟨fun x y => f (c x) (c y), fun t y => f t (c y), f, c⟩

/-- **C16.** `reduce` of a matrix to a vector folds each row of the operand (each
column of the matrix, for `transpose(A)`) from left to right; no law is asked of the
operator. (`hop`: applying it to the first two elements is applying it to the first,
as a running value, and the second.) -/
theorem C16_reduce_rows {o : VOut γ τ ζ μ} {r : RedOp α τ} {A : Operand α}
    (ho : o.WF) (hA : A.WF) (hs : ReduceShapes o A) (hop : ∀ x y, r.op x y = r.op' (r.first x) y) :
    ∃ w', reduceMV o r A = .done w' ∧
      o.Yields (fun i => Spec.ofold r.first r.op' ((List.range A.ncols).map (A.get i))) w' := by
  have hk := (dim_reduce o A).ok hs
  rcases A with A | A
  · obtain ⟨t, t1, t2, t3⟩ := reduceRows_spec hop hA
    refine VOut.op_ok ho hs.mask hk t1 ?_ (fun i _ => t3 i)
    rw [show o.w.size = A.nrows from hs.out]; exact t2
  · obtain ⟨t, t1, t2, t3⟩ := reduceCols_spec r.op' r.first hA
    refine VOut.op_ok ho hs.mask hk t1 ?_ (fun i _ => t3 i)
    rw [show o.w.size = A.ncols from hs.out]; exact t2

/-- **C16** for an operator on one type. -/
theorem C16_reduce_rows_op {o : VOut γ τ ζ μ} {f : τ → τ → τ} {c : α → τ} {A : Operand α}
    (ho : o.WF) (hA : A.WF) (hs : ReduceShapes o A) :
    ∃ w', reduceMV o (.of f c) A = .done w' ∧
      o.Yields (fun i => Spec.ofold c (fun t y => f t (c y)) ((List.range A.ncols).map (A.get i))) w' :=
  C16_reduce_rows (r := .of f c) ho hA hs (fun _ _ => rfl)

example : Ex.oV.WF ∧ Operand.WF (.tr Ex.A) ∧ ReduceShapes Ex.oV (.tr Ex.A) ∧
    reduceMV { Ex.oV with m := none, acc := .none id } (.of (fun a b => 10 * a + b) id) (.tr Ex.A)
      = .done { size := 2, nvals := 2, vals := [1, 23], bitmap := [true, true] } :=
  ⟨Ex.oV_wf, Ex.A_wf, ⟨Ex.oV_fits, rfl⟩, by decide +kernel⟩

/-- **C17**, vector to scalar: the fold of all stored values, starting from the
identity, combined with the old value by the accumulator. -/
theorem C17_reduce_vector {castZ : ζ → γ} {acc : Accum γ τ ζ} {f : τ → τ → τ} {e : τ} {c : α → τ}
    {val : γ} {u : BVec α} (hl : ∀ x, f e x = x) (hu : u.WF) :
    ∃ val', reduceVS castZ acc (.of f c) e val u = .done val' ∧
      some val' = (Spec.accum acc (some val)
        (some (((Spec.Vec.vals u.size u.get).map c).foldl f e))).map castZ := by
  refine ⟨_, run_done (z := _) (reduceVec_spec (op := (RedOp.of f c).op) (op' := (RedOp.of f c).op')
    (cast1 := (RedOp.of f c).first) (fun _ _ => rfl) e hu) rfl, ?_⟩
  rw [show (RedOp.of f c).first = c from rfl, show (RedOp.of f c).op' = fun t y => f t (c y) from rfl,
    ofold_monoid hl, reduceScalarEnd]
  cases acc <;> rfl

/-- **C17**, matrix to scalar, for a lawful monoid. -/
theorem C17_reduce_matrix {castZ : ζ → γ} {acc : Accum γ τ ζ} {f : τ → τ → τ} {e : τ} {c : α → τ}
    {val : γ} {A : Lil α} (ha : ∀ x y z, f (f x y) z = f x (f y z)) (hl : ∀ x, f e x = x)
    (hr : ∀ x, f x e = x) (hA : A.WF) :
    ∃ val', reduceMS castZ acc (.of f c) e val (.plain A) = .done val' ∧
      some val' = (Spec.accum acc (some val)
        (some (((Spec.Mat.vals A.nrows A.ncols A.get).map c).foldl f e))).map castZ := by
  refine ⟨_, run_done (z := _) (reduceMat_spec ha hl hr c hA) rfl, ?_⟩
  rw [reduceScalarEnd]
  cases acc <;> rfl

theorem flatMap_append_perm' {σ ρ : Type} (l : List σ) (f g : σ → List ρ) :
    List.Perm (l.flatMap fun x => f x ++ g x) (l.flatMap f ++ l.flatMap g) := by
  induction l with
  | nil => exact .refl _
  | cons x l ih =>
    simp only [List.flatMap_cons]
    refine ((ih.append_left (f x ++ g x))).trans ?_
    rw [List.append_assoc, List.append_assoc]
    refine List.Perm.append_left _ ?_
    rw [← List.append_assoc, ← List.append_assoc]
    exact List.Perm.append_right _ List.perm_append_comm

/-- The values of a transposed matrix are the values of the matrix in another
order. -/
theorem vals_tr_perm (m n : Nat) (A : Spec.Mat α) :
    List.Perm (Spec.Mat.vals n m (Spec.Mat.tr A)) (Spec.Mat.vals m n A) := by
  induction m with
  | zero =>
    simp [Spec.Mat.vals, Spec.Vec.vals]
  | succ m ih =>
    have h1 : Spec.Mat.vals n (m + 1) (Spec.Mat.tr A)
        = (List.range n).flatMap fun j => Spec.Vec.vals m (Spec.Mat.tr A j) ++ (A m j).toList := by
      unfold Spec.Mat.vals Spec.Vec.vals
      congr 1
      funext j
      rw [List.range_succ, List.filterMap_append]
      congr 1
    have h2 : Spec.Mat.vals (m + 1) n A = Spec.Mat.vals m n A ++ Spec.Vec.vals n (A m) := by
      unfold Spec.Mat.vals
      rw [List.range_succ, List.flatMap_append]
      simp
    rw [h1, h2]
    refine (flatMap_append_perm' _ _ _).trans ?_
    have h3 : ((List.range n).flatMap fun j => (A m j).toList) = Spec.Vec.vals n (A m) := by
      unfold Spec.Vec.vals
      generalize List.range n = l
      induction l with
      | nil => rfl
      | cons x l ih2 =>
        rw [List.flatMap_cons, ih2, List.filterMap_cons]
        cases A m x <;> rfl
    rw [h3]
    exact ih.append_right _

/-- **C17**, transposed matrix to scalar (offered by the backend only), for a lawful
commutative monoid: the fold of the values in the order of the transposed matrix. -/
theorem C17_reduce_matrix_tr {castZ : ζ → γ} {acc : Accum γ τ ζ} {f : τ → τ → τ} {e : τ} {c : α → τ}
    {val : γ} {A : Lil α} (ha : ∀ x y z, f (f x y) z = f x (f y z)) (hl : ∀ x, f e x = x)
    (hr : ∀ x, f x e = x) (hcomm : ∀ x y, f x y = f y x) (hA : A.WF) :
    ∃ val', reduceMS castZ acc (.of f c) e val (.tr A) = .done val' ∧
      some val' = (Spec.accum acc (some val)
        (some (((Spec.Mat.vals A.ncols A.nrows (Spec.Mat.tr A.get)).map c).foldl f e))).map castZ := by
  have hp : ((Spec.Mat.vals A.ncols A.nrows (Spec.Mat.tr A.get)).map c).foldl f e
      = ((Spec.Mat.vals A.nrows A.ncols A.get).map c).foldl f e := by
    refine List.Perm.foldl_eq' ((vals_tr_perm A.nrows A.ncols A.get).map c) ?_ e
    intro x _ y _ z
    rw [ha, ha, hcomm x y]
  rw [hp]
  exact C17_reduce_matrix ha hl hr hA

example : Ex.A.WF ∧ (∀ x y z : Nat, (x + y) + z = x + (y + z)) ∧ (∀ x : Nat, 0 + x = x) ∧
    reduceMS id (.some (fun a b => 10 * a + b) id id : Accum Nat Nat Nat) (.of (· + ·) id) 0 7 (.plain Ex.A)
      = .done 76 ∧
    reduceVS id (.none id : Accum Nat Nat Nat) (.of (· + ·) id) 0 7 Ex.v = .done 3 :=
  ⟨Ex.A_wf, Nat.add_assoc, Nat.zero_add, by decide +kernel, by decide +kernel⟩

/-! ### transpose -/

/-- **C21.** `transpose(C, M, accum, A)`. (Of `transpose(A)`, given as an operand,
the transpose is `A` itself.) -/
theorem C21_transpose {o : MOut γ α ζ μ} {A : Operand α}
    (ho : o.WF) (hA : A.WF) (hs : TransposeShapes o A) :
    ∃ C', transposeM o A = .done C' ∧ o.Yields (Spec.Mat.tr A.get) C' := by
  have hk := (dim_transpose o A).ok hs
  rcases A with A | A
  · obtain ⟨T, t1, t2, t3, t4, t5⟩ := transposeT_spec hA
    exact MOut.op_ok ho hs.mask hk t1 t2.toWFr (t3.trans hs.rows) (t4.trans hs.cols.symm)
      (fun i j _ _ => t5 i j)
  · exact MOut.op_ok ho hs.mask hk rfl hA.toWFr hs.rows hs.cols.symm (fun i j _ _ => rfl)

/-- The call `transpose(C, NoMask(), NoAccumulate(), A)` with `C` of `A`'s scalar
type. -/
def plainOut (C : Lil α) : MOut α α α Bool :=
  { C := C, M := none, truthy := id, acc := .none id, castZ := id, outp := .merge }

/-- **C21**, twice: transposing `A` into a matrix `B` and `B` into a matrix `C`,
whatever `B` and `C` held, gives a matrix equal to `A`. -/
theorem C21_transpose_twice [DecidableEq α] {A B C : Lil α} (hA : A.WF) (hB : B.WF) (hC : C.WF)
    (hBr : B.nrows = A.ncols) (hBc : B.ncols = A.nrows) (hCr : C.nrows = A.nrows)
    (hCc : C.ncols = A.ncols) :
    ∃ B' C', transposeM (plainOut B) (.plain A) = .done B' ∧
      transposeM (plainOut C) (.plain B') = .done C' ∧ C'.eq A = true := by
  obtain ⟨B', b1, b2⟩ := C21_transpose (o := plainOut B) (A := .plain A)
    ⟨hB, by intro k M e; cases e⟩ hA ⟨(by intro k M e; cases e), hBc, hBr.symm⟩
  have hb3 : B'.nrows = A.ncols := b2.nrows.trans hBr
  have hb4 : B'.ncols = A.nrows := b2.ncols.trans hBc
  obtain ⟨C', c1, c2⟩ := C21_transpose (o := plainOut C) (A := .plain B')
    ⟨hC, by intro k M e; cases e⟩ b2.wf
    ⟨(by intro k M e; cases e), hCc.trans hb3.symm, hb4.trans hCr.symm⟩
  refine ⟨B', C', b1, c1, (C06_matrix_eq C' A c2.wf hA).2
    ⟨c2.nrows.trans hCr, c2.ncols.trans hCc, fun i j => ?_⟩⟩
  by_cases h : i < A.nrows ∧ j < A.ncols
  · rw [c2.get i j (hCr ▸ h.1) (hCc ▸ h.2)]
    show ((B'.get j i).map id).map id = _
    rw [b2.get j i (hBr ▸ h.2) (hBc ▸ h.1)]
    show Option.map id (Option.map id (Option.map id (Option.map id (A.get i j)))) = _
    simp
  · have e1 : C'.nrows = A.nrows := c2.nrows.trans hCr
    have e2 : C'.ncols = A.ncols := c2.ncols.trans hCc
    rw [c2.wf.toWFr.get_none (by omega), hA.toWFr.get_none (by omega)]

example : Ex.oM.WF ∧ Operand.WF (.plain Ex.A) ∧ TransposeShapes Ex.oM (.plain Ex.A) ∧
    transposeM Ex.oM (.plain Ex.A)
      = .done { nrows := 2, ncols := 2, nvals := 2, rows := [[(0, 2)], [(1, 6)]] } :=
  ⟨Ex.oM_wf, Ex.A_wf, ⟨Ex.oM_fits, rfl, rfl⟩, by decide +kernel⟩

/-! ### kronecker -/

/-- **C22**, proved part: for a `C` of exactly the product shape the result is the
Kronecker product, for plain and transposed operands. (`hr`, `hc`: `C`'s dimensions
are `IndexType` values.) Missing: the code also accepts a `C` whose shape is the
product shape modulo `2^64`, see `C22_kronecker_shape_wraps`. -/
theorem C22_kronecker_partial {o : MOut γ τ ζ μ} {f : α → β → τ} {A : Operand α} {B : Operand β}
    (ho : o.WF) (hA : A.WF) (hB : B.WF) (hs : KronShapes o A B) (hr : o.C.nrows < 2 ^ 64)
    (hc : o.C.ncols < 2 ^ 64) :
    ∃ C', kronecker o f A B = .done C' ∧
      o.Yields (Spec.kron B.nrows B.ncols f A.get B.get) C' := by
  have hk : (do
      o.M.rowCheck o.C.nrows
      o.M.colCheck o.C.ncols
      eqCheck o.C.ncols (mul64 A.ncols B.ncols)
      eqCheck o.C.nrows (mul64 A.nrows B.nrows)) = (.ok () : Except Err Unit) := by
    refine ((dim_rows _ _).seq ((dim_cols _ _).seq ((dim_eq _ _).seq (dim_eq _ _)))).ok
      ⟨(fits_iff.1 hs.mask).1, (fits_iff.1 hs.mask).2, ?_, ?_⟩
    · rw [mul64, ← hs.cols, Nat.mod_eq_of_lt hc]
    · rw [mul64, ← hs.rows, Nat.mod_eq_of_lt hr]
  rcases A with A | A <;> rcases B with B | B
  · obtain ⟨T, t1, t2, t3, t4, t5⟩ := kronAB_spec (op := f) hA hB hs.rows hs.cols hr hc
    exact MOut.op_ok ho hs.mask hk t1 t2 t3 t4 (fun i j _ _ => t5 i j)
  · obtain ⟨T, t1, t2, t3, t4, t5⟩ := kronABT_spec (op := f) hA hB hs.rows hs.cols hr hc
    exact MOut.op_ok ho hs.mask hk t1 t2 t3 t4 (fun i j _ _ => t5 i j)
  · obtain ⟨T, t1, t2, t3, t4, t5⟩ := kronATB_spec (op := f) hA hB hs.rows hs.cols hr hc
    exact MOut.op_ok ho hs.mask hk t1 t2 t3 t4 (fun i j _ _ => t5 i j)
  · obtain ⟨T, t1, t2, t3, t4, t5⟩ := kronATBT_spec (op := f) hA hB hs.rows hs.cols hr hc
    exact MOut.op_ok ho hs.mask hk t1 t2 t3 t4 (fun i j _ _ => t5 i j)

/-- **C22**: a `C` whose shape differs from the product shape is rejected, as long
as the product shape fits in `IndexType`. -/
theorem C22_kronecker_rejects_partial {o : MOut γ τ ζ μ} {f : α → β → τ} {A : Operand α} {B : Operand β}
    (hm : o.M.Fits o.C.nrows o.C.ncols) (hs : ¬ KronShapes o A B)
    (hr : A.nrows * B.nrows < 2 ^ 64) (hc : A.ncols * B.ncols < 2 ^ 64) :
    kronecker o f A B = .threw .dimension o.C := by
  refine MOut.op_threw (by simp) ?_
  refine ((dim_rows _ _).seq ((dim_cols _ _).seq ((dim_eq _ _).seq (dim_eq _ _)))).err ?_
  rintro ⟨_, _, h1, h2⟩
  rw [mul64, Nat.mod_eq_of_lt hc] at h1
  rw [mul64, Nat.mod_eq_of_lt hr] at h2
  exact hs ⟨hm, h1, h2⟩

/-- **C22 is false as stated**: with two operands of `2^32` columns the product
shape wraps to 0 columns, and a `C` without columns is accepted. -/
theorem C22_kronecker_shape_wraps :
    ∃ (o : MOut Nat Nat Nat Nat) (A B : Lil Nat), o.WF ∧ A.WF ∧ B.WF ∧
      o.C.ncols ≠ A.ncols * B.ncols ∧
      kronecker o (fun a b : Nat => a * b) (.plain A) (.plain B) = .done o.C := by
  refine ⟨{ Ex.oN 1 with C := Lil.new 1 0 }, Lil.new 1 (2 ^ 32), Lil.new 1 (2 ^ 32),
    ⟨Lil.new_wf 1 0, by intro k M e; cases e⟩, Lil.new_wf _ _, Lil.new_wf _ _,
    by simp [Lil.new], by decide +kernel⟩

example : Ex.oM.WF ∧ KronShapes (Ex.oN 4) (.plain Ex.A) (.tr Ex.B) ∧
    (kronecker (Ex.oN 2) (fun a b => 10 * a + b) (.plain (Ex.one 3)) (.tr Ex.B)
      = .done { nrows := 2, ncols := 2, nvals := 2, rows := [[(1, 37)], [(0, 35)]] }) :=
  ⟨Ex.oM_wf, ⟨Ex.oN_fits _ _ _, rfl, rfl⟩, by decide +kernel⟩

end GBTL

import Verif.Lemmas.Frontend
/-
C09-C12: mxm, vxm and mxv.
-/
namespace GBTL
open Spec (Outp MaskKind Accum)

variable {α β γ δ τ ζ μ : Type}

/-- All operand combinations of `mxm`. Only when both operands are transposed is
something asked of the semiring and of `C`'s scalar type. -/
theorem mxm_spec {o : MOut γ τ ζ μ} {sr : SR α β τ} {via : τ → τ} {A : Operand α} {B : Operand β}
    (ho : o.WF) (hA : A.WF) (hB : B.WF) (hs : MxmShapes o A B)
    (hsw : A.isTr → B.isTr → (∀ a b, sr.multSwap b a = sr.mult a b) ∧ ∀ x, via x = x) :
    ∃ C', mxm o sr via A B = .done C' ∧
      o.Yields (Spec.mxm A.ncols sr.add sr.mult A.get B.get) C' := by
  have hc := (dim_mxm o A B).ok hs
  rcases A with A | A <;> rcases B with B | B
  · obtain ⟨T, t1, t2, t3, t4, t5⟩ := mxmAB_spec sr.add sr.mult hA.toWFr hB.toWFr hs.rows hs.cols hs.inner
    exact MOut.op_ok ho hs.mask hc t1 t2 t3 t4 (fun i j _ _ => t5 i j)
  · obtain ⟨T, t1, t2, t3, t4, t5⟩ := mxmABT_spec sr.add sr.mult hA hB hs.rows hs.cols
    exact MOut.op_ok ho hs.mask hc t1 t2 t3 t4 (fun i j _ _ => t5 i j)
  · obtain ⟨T, t1, t2, t3, t4, t5⟩ := mxmATB_spec sr.add sr.mult hA.toWFr hB.toWFr hs.rows hs.cols hs.inner
    exact MOut.op_ok ho hs.mask hc t1 t2 t3 t4 (fun i j _ _ => t5 i j)
  · obtain ⟨T, t1, t2, t3, t4, t5⟩ := mxmATBT_spec sr.add sr.multSwap via hA.toWFr hB.toWFr hs.rows hs.cols
      hs.inner
    obtain ⟨hm, hv⟩ := hsw trivial trivial
    refine MOut.op_ok ho hs.mask hc t1 t2 t3 t4 (fun i j _ _ => ?_)
    rw [t5, show (fun a b => sr.multSwap b a) = sr.mult from funext fun a => funext fun b => hm a b]
    show Option.map via _ = _
    rw [show via = id from funext hv, Option.map_id]
    rfl

/-- **C09.** `mxm(C, M, accum, semiring, A, B, outp)` leaves in `C` the GraphBLAS
result: the product (terms added in ascending order of the inner index), accumulated
and masked. -/
theorem C09_mxm {o : MOut γ τ ζ μ} {sr : SR α β τ} {via : τ → τ} {A : Lil α} {B : Lil β}
    (ho : o.WF) (hA : A.WF) (hB : B.WF) (hs : MxmShapes o (.plain A) (.plain B)) :
    ∃ C', mxm o sr via (.plain A) (.plain B) = .done C' ∧
      o.Yields (Spec.mxm A.ncols sr.add sr.mult A.get B.get) C' :=
  mxm_spec (A := .plain A) (B := .plain B) ho hA hB hs (fun h => h.elim)

/-- **C10**, proved part. With one transposed operand the statement holds as it
stands. With two, the code calls the multiply with the operands exchanged, and
stores the result in `C`'s scalar type before accumulating; the statement is proved
when that makes no difference. Missing: it is false otherwise, see
`C10_mxm_both_transposed_wrong`. -/
theorem C10_mxm_transposed_partial {o : MOut γ τ ζ μ} {sr : SR α β τ} {via : τ → τ} {A : Operand α}
    {B : Operand β} (ho : o.WF) (hA : A.WF) (hB : B.WF) (hs : MxmShapes o A B)
    (hsw : A.isTr → B.isTr → (∀ a b, sr.multSwap b a = sr.mult a b) ∧ ∀ x, via x = x) :
    ∃ C', mxm o sr via A B = .done C' ∧
      o.Yields (Spec.mxm A.ncols sr.add sr.mult A.get B.get) C' :=
  mxm_spec ho hA hB hs hsw

/-- **C10**, `transpose(A)`, `B`: no hypothesis on the semiring. -/
theorem C10_mxm_ATB {o : MOut γ τ ζ μ} {sr : SR α β τ} {via : τ → τ} {A : Lil α} {B : Lil β}
    (ho : o.WF) (hA : A.WF) (hB : B.WF) (hs : MxmShapes o (.tr A) (.plain B)) :
    ∃ C', mxm o sr via (.tr A) (.plain B) = .done C' ∧
      o.Yields (Spec.mxm A.nrows sr.add sr.mult (Spec.Mat.tr A.get) B.get) C' :=
  mxm_spec (A := .tr A) (B := .plain B) ho hA hB hs (fun _ h => h.elim)

/-- **C10**, `A`, `transpose(B)`: no hypothesis on the semiring. -/
theorem C10_mxm_ABT {o : MOut γ τ ζ μ} {sr : SR α β τ} {via : τ → τ} {A : Lil α} {B : Lil β}
    (ho : o.WF) (hA : A.WF) (hB : B.WF) (hs : MxmShapes o (.plain A) (.tr B)) :
    ∃ C', mxm o sr via (.plain A) (.tr B) = .done C' ∧
      o.Yields (Spec.mxm A.ncols sr.add sr.mult A.get (Spec.Mat.tr B.get)) C' :=
  mxm_spec (A := .plain A) (B := .tr B) ho hA hB hs (fun h => h.elim)

/-- What `mxm(transpose(A), transpose(B))` computes for every semiring: the
operands of the multiply are exchanged, and each sum goes through `C`'s scalar
type. -/
theorem C10_mxm_ATBT_actual {o : MOut γ τ ζ μ} {sr : SR α β τ} {via : τ → τ} {A : Lil α} {B : Lil β}
    (ho : o.WF) (hA : A.WF) (hB : B.WF) (hs : MxmShapes o (.tr A) (.tr B)) :
    ∃ C', mxm o sr via (.tr A) (.tr B) = .done C' ∧
      o.Yields (fun i j => (Spec.mxm A.nrows sr.add (fun a b => sr.multSwap b a) (Spec.Mat.tr A.get)
        (Spec.Mat.tr B.get) i j).map via) C' := by
  obtain ⟨T, t1, t2, t3, t4, t5⟩ := mxmATBT_spec sr.add sr.multSwap via hA.toWFr hB.toWFr hs.rows hs.cols
    hs.inner
  exact MOut.op_ok ho hs.mask ((dim_mxm o (.tr A) (.tr B)).ok hs) t1 t2 t3 t4 (fun i j _ _ => t5 i j)

/-! ### concrete arguments -/

namespace Ex

/-- A 2×2 matrix `[[1,2],[.,3]]`. -/
def A : Lil Nat := { nrows := 2, ncols := 2, nvals := 3, rows := [[(0, 1), (1, 2)], [(1, 3)]] }
/-- A 2×2 matrix `[[.,5],[7,.]]`. -/
def B : Lil Nat := { nrows := 2, ncols := 2, nvals := 2, rows := [[(1, 5)], [(0, 7)]] }

theorem wf_of_rows {α : Type} {m n k : Nat} {rows : List (Row α)} (h1 : rows.length = m)
    (h2 : k = (rows.map List.length).sum)
    (h3 : ∀ r ∈ rows, Row.OK n r) : Lil.WF { nrows := m, ncols := n, nvals := k, rows := rows } :=
  { len := h1, rowOK := h3, count := h2 }

theorem A_wf : A.WF := by
  refine wf_of_rows rfl rfl ?_
  intro r hr
  simp only [List.mem_cons, List.not_mem_nil, or_false] at hr
  rcases hr with rfl | rfl <;> exact ⟨by simp [Row.Sorted], by simp⟩

theorem B_wf : B.WF := by
  refine wf_of_rows rfl rfl ?_
  intro r hr
  simp only [List.mem_cons, List.not_mem_nil, or_false] at hr
  rcases hr with rfl | rfl <;> exact ⟨by simp [Row.Sorted], by simp⟩

/-- Output `A`, masked by the complement of `B`, with accumulator `+`, REPLACE. -/
def oM : MOut Nat Nat Nat Nat :=
  { C := A, M := some (.comp, B), truthy := fun x => x ≠ 0, acc := .some (· + ·) id id, castZ := id,
    outp := .replace }

theorem oM_wf : oM.WF := ⟨A_wf, by intro k M e; cases e; exact B_wf⟩

theorem oM_fits : oM.M.Fits 2 2 := by intro k M e; cases e; exact ⟨rfl, rfl⟩

/-- An output without mask, accumulator or old content. -/
def oN (n : Nat) : MOut Nat Nat Nat Nat :=
  { C := Lil.new n n, M := none, truthy := fun x => x ≠ 0, acc := .none id, castZ := id,
    outp := .merge }

theorem oN_wf (n : Nat) : (oN n).WF := ⟨Lil.new_wf n n, by intro k M e; cases e⟩

theorem oN_fits (n m m' : Nat) : (oN n).M.Fits m m' := by intro k M e; cases e

/-- The vectors `[4, .]` (with a leftover value in the empty slot) and `[1, 2]`. -/
def u : BVec Nat := { size := 2, nvals := 1, vals := [4, 9], bitmap := [true, false] }
def v : BVec Nat := { size := 2, nvals := 2, vals := [1, 2], bitmap := [true, true] }

theorem u_wf : u.WF := ⟨rfl, rfl, rfl⟩
theorem v_wf : v.WF := ⟨rfl, rfl, rfl⟩

def oV : VOut Nat Nat Nat Nat :=
  { w := v, m := some (.struct, u), truthy := fun x => x ≠ 0, acc := .some (· + ·) id id, castZ := id,
    outp := .merge }

theorem oV_wf : oV.WF := ⟨v_wf, by intro k M e; cases e; exact u_wf⟩
theorem oV_fits : oV.m.Fits 2 := by intro k M e; cases e; rfl

/-- plus-times. -/
def pt : SR Nat Nat Nat := ⟨(· + ·), (· * ·), (· * ·)⟩

/-- A 1×1 matrix. -/
def one (x : Nat) : Lil Nat := { nrows := 1, ncols := 1, nvals := 1, rows := [[(0, x)]] }

theorem one_wf (x : Nat) : (one x).WF := by
  refine wf_of_rows rfl rfl ?_
  intro r hr
  simp only [List.mem_cons, List.not_mem_nil, or_false] at hr
  subst hr; exact ⟨by simp [Row.Sorted], by simp⟩

end Ex

/-- The hypotheses of `C09_mxm`, `C10_*` are met by a masked, accumulating call on
non-empty matrices, and the result is not trivial. -/
example : Ex.oM.WF ∧ Ex.A.WF ∧ Ex.B.WF ∧ MxmShapes Ex.oM (.plain Ex.A) (.plain Ex.B) ∧
    MxmShapes Ex.oM (.tr Ex.A) (.tr Ex.B) ∧
    mxm Ex.oM Ex.pt id (.plain Ex.A) (.plain Ex.B)
      = .done { nrows := 2, ncols := 2, nvals := 2, rows := [[(0, 15)], [(1, 3)]] } :=
  ⟨Ex.oM_wf, Ex.A_wf, Ex.B_wf, ⟨Ex.oM_fits, rfl, rfl, rfl⟩, ⟨Ex.oM_fits, rfl, rfl, rfl⟩, by decide +kernel⟩

/-- **C10 is false as stated** when both operands are transposed: with the
semiring (min, second), whose multiply returns its second argument, the product of
`[[3]]ᵀ` and `[[8]]ᵀ` should be `[[8]]`, and the code returns `[[3]]`. Here `mult` and
`multSwap` are the same function, as they are in C++ when both operands have the
same scalar type. -/
theorem C10_mxm_both_transposed_wrong :
    ∃ (o : MOut Nat Nat Nat Nat) (sr : SR Nat Nat Nat) (A B : Lil Nat),
      o.WF ∧ A.WF ∧ B.WF ∧ MxmShapes o (.tr A) (.tr B) ∧ sr.multSwap = sr.mult ∧
      ¬ ∃ C', mxm o sr id (.tr A) (.tr B) = .done C' ∧
        o.Yields (Spec.mxm A.nrows sr.add sr.mult (Spec.Mat.tr A.get) (Spec.Mat.tr B.get)) C' := by
  refine ⟨Ex.oN 1, ⟨min, fun _ b => b, fun _ b => b⟩, Ex.one 3, Ex.one 8, Ex.oN_wf 1, Ex.one_wf 3,
    Ex.one_wf 8, ⟨Ex.oN_fits 1 _ _, rfl, rfl, rfl⟩, rfl, ?_⟩
  rintro ⟨C', h1, h2⟩
  have h3 : mxm (Ex.oN 1) ⟨min, fun _ b => b, fun _ b => b⟩ id (.tr (Ex.one 3)) (.tr (Ex.one 8))
      = .done (Ex.one 3) := by decide
  rw [h3] at h1
  cases h1
  exact absurd (h2.get 0 0 (by decide) (by decide)) (by decide)

/-- **C11.** `vxm` leaves in `w` the GraphBLAS result of `u · A`, for a plain and
for a transposed matrix. -/
theorem C11_vxm {o : VOut γ τ ζ μ} {sr : SR α β τ} {u : BVec α} {A : Operand β}
    (ho : o.WF) (hu : u.WF) (hA : A.WF) (hs : VxmShapes o u A) :
    ∃ w', vxm o sr u A = .done w' ∧ o.Yields (Spec.vxm u.size sr.add sr.mult u.get A.get) w' := by
  have hc := (dim_vxm o u A).ok hs
  rcases A with A | A
  · obtain ⟨t, t1, t2, t3⟩ := vxmA_spec sr.add sr.mult hA hu hs.inner
    refine VOut.op_ok ho hs.mask hc t1 ?_ (fun i _ => t3 i)
    rw [show o.w.size = A.ncols from hs.out]; exact t2
  · obtain ⟨t, t1, t2, t3⟩ := vxmAT_spec (w := o.w) sr.add sr.mult hA hu hs.out
    exact VOut.op_ok ho hs.mask hc t1 t2 (fun i _ => t3 i)

example : Ex.oV.WF ∧ Ex.u.WF ∧ Operand.WF (.tr Ex.A) ∧ VxmShapes Ex.oV Ex.u (.tr Ex.A) ∧
    vxm Ex.oV Ex.pt Ex.u (.tr Ex.A)
      = .done { size := 2, nvals := 2, vals := [5, 2], bitmap := [true, true] } :=
  ⟨Ex.oV_wf, Ex.u_wf, Ex.A_wf, ⟨Ex.oV_fits, rfl, rfl⟩, by decide +kernel⟩

/-- **C12**, plain matrix: `mxv` leaves in `w` the GraphBLAS result of `A · u`. -/
theorem C12_mxv {o : VOut γ τ ζ μ} {sr : SR α β τ} {u : BVec β} {A : Lil α}
    (ho : o.WF) (hu : u.WF) (hA : A.WF) (hs : MxvShapes o (.plain A) u) :
    ∃ w', mxv o sr (.plain A) u = .done w' ∧
      o.Yields (Spec.mxv A.ncols sr.add sr.mult A.get u.get) w' := by
  have hc := (dim_mxv o (.plain A) u).ok hs
  obtain ⟨t, t1, t2, t3⟩ := mxvA_spec (w := o.w) sr.add sr.mult hA hu hs.out hs.inner
  exact VOut.op_ok ho hs.mask hc t1 t2 (fun i _ => t3 i)

/-- **C12**, proved part for every operand: with a transposed matrix the code calls
the multiply with the vector's element first; the statement is proved when that
makes no difference. Missing: it is false otherwise, see
`C12_mxv_transposed_wrong`. -/
theorem C12_mxv_partial {o : VOut γ τ ζ μ} {sr : SR α β τ} {u : BVec β} {A : Operand α}
    (ho : o.WF) (hu : u.WF) (hA : A.WF) (hs : MxvShapes o A u)
    (hsw : A.isTr → ∀ a b, sr.multSwap b a = sr.mult a b) :
    ∃ w', mxv o sr A u = .done w' ∧
      o.Yields (Spec.mxv A.ncols sr.add sr.mult A.get u.get) w' := by
  rcases A with A | A
  · exact C12_mxv ho hu hA hs
  · have hc := (dim_mxv o (.tr A) u).ok hs
    obtain ⟨t, t1, t2, t3⟩ := vxmA_spec sr.add sr.multSwap hA hu hs.inner
    refine VOut.op_ok ho hs.mask hc t1 ?_ (fun i _ => ?_)
    · rw [show o.w.size = A.ncols from hs.out]; exact t2
    · rw [t3, Spec.vxm, Spec.mxv, show u.size = A.nrows from hs.inner]
      congr 1
      apply List.map_congr_left
      intro k _
      show Spec.both _ _ _ = Spec.both _ (A.get k i) _
      cases u.get k <;> cases A.get k i <;> simp [Spec.both, hsw trivial]

/-- What `mxv(transpose(A), u)` computes for every semiring. -/
theorem C12_mxv_transposed_actual {o : VOut γ τ ζ μ} {sr : SR α β τ} {u : BVec β} {A : Lil α}
    (ho : o.WF) (hu : u.WF) (hA : A.WF) (hs : MxvShapes o (.tr A) u) :
    ∃ w', mxv o sr (.tr A) u = .done w' ∧
      o.Yields (Spec.vxm u.size sr.add sr.multSwap u.get A.get) w' := by
  have hc := (dim_mxv o (.tr A) u).ok hs
  obtain ⟨t, t1, t2, t3⟩ := vxmA_spec sr.add sr.multSwap hA hu hs.inner
  refine VOut.op_ok ho hs.mask hc t1 ?_ (fun i _ => t3 i)
  rw [show o.w.size = A.ncols from hs.out]; exact t2

example : Ex.oV.WF ∧ Ex.u.WF ∧ Operand.WF (.tr Ex.A) ∧ MxvShapes Ex.oV (.tr Ex.A) Ex.u ∧
    MxvShapes Ex.oV (.plain Ex.A) Ex.u ∧ (∀ a b, Ex.pt.multSwap b a = Ex.pt.mult a b) ∧
    mxv Ex.oV Ex.pt (.tr Ex.A) Ex.u
      = .done { size := 2, nvals := 2, vals := [5, 2], bitmap := [true, true] } :=
  ⟨Ex.oV_wf, Ex.u_wf, Ex.A_wf, ⟨Ex.oV_fits, rfl, rfl⟩, ⟨Ex.oV_fits, rfl, rfl⟩,
    fun a b => Nat.mul_comm b a, by decide +kernel⟩

/-- **C12 is false as stated** for a transposed matrix: over (min, second) the
product of `[[3]]ᵀ` and `[8]` should be `[8]`, and the code returns `[3]`. -/
theorem C12_mxv_transposed_wrong :
    ∃ (o : VOut Nat Nat Nat Nat) (sr : SR Nat Nat Nat) (A : Lil Nat) (u : BVec Nat),
      o.WF ∧ A.WF ∧ u.WF ∧ MxvShapes o (.tr A) u ∧ sr.multSwap = sr.mult ∧
      ¬ ∃ w', mxv o sr (.tr A) u = .done w' ∧
        o.Yields (Spec.mxv A.nrows sr.add sr.mult (Spec.Mat.tr A.get) u.get) w' := by
  refine ⟨⟨⟨1, 0, [0], [false]⟩, none, fun x => x ≠ 0, .none id, id, .merge⟩,
    ⟨min, fun _ b => b, fun _ b => b⟩, Ex.one 3, ⟨1, 1, [8], [true]⟩,
    ⟨⟨rfl, rfl, rfl⟩, by intro k M e; cases e⟩, Ex.one_wf 3, ⟨rfl, rfl, rfl⟩,
    ⟨(by intro k M e; cases e), rfl, rfl⟩, rfl, ?_⟩
  rintro ⟨w', h1, h2⟩
  have h3 : mxv (⟨⟨1, 0, [0], [false]⟩, none, fun x => x ≠ 0, .none id, id, .merge⟩ : VOut Nat Nat Nat Nat)
      ⟨min, fun _ b => b, fun _ b => b⟩ (.tr (Ex.one 3)) ⟨1, 1, [8], [true]⟩
      = .done ⟨1, 1, [3], [true]⟩ := by decide
  rw [h3] at h1
  cases h1
  exact absurd (h2.get 0 (by decide)) (by decide)

end GBTL

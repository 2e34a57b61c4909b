import Verif.Lemmas.EffectsUpdate
import Verif.Props.EffectsCalls
/-
C96: the operator calls of the products that add into rows, and of the reduction of columns.
-/
namespace GBTL
open Spec (Outp MaskKind Accum Op EAccum Vec stored callAll updateAll addTo reduceTo vxmUpdates
  mxmUpdates mxmTUpdates)
open Act (call lib output store)

variable {ω χ X α β γ τ ζ μ : Type}

/-- `vxm`: for each element of the vector, its products with the elements of a row of the
matrix; each product is added to what is there before the next one is made. -/
theorem C96_vxm_calls {o : EVOut ω X γ τ ζ μ} (sr : ESR ω X α β τ) {A : Lil β} {u : BVec α} {c : BVec γ}
    (ho : (o.at c).WF) (hA : A.WF) (hu : u.WF) (hs : VxmShapes (o.at c) u (.plain A)) (w : ω) :
    o.MakesThen (updateAll (vxmUpdates sr.add sr.mult u.size A.ncols u.get A.get) fun _ => none)
      w c (vxmE o sr u (.plain A)) :=
  EVOut.op_updates w ho.out ho.mask hs.mask ((dim_vxm (o.at c) u (.plain A)).ok hs)
    (by rw [show c.size = A.ncols from hs.out]; exact vxmAE_row _ _ hu hA hs.inner)

/-- `mxv` with the matrix transposed: the same, and the multiplication gets the element of
the vector first. -/
theorem C96_mxv_calls_tr {o : EVOut ω X γ τ ζ μ} (sr : ESR ω X α β τ) {A : Lil α} {u : BVec β} {c : BVec γ}
    (ho : (o.at c).WF) (hA : A.WF) (hu : u.WF) (hs : MxvShapes (o.at c) (.tr A) u) (w : ω) :
    o.MakesThen (updateAll (vxmUpdates sr.add sr.multSwap u.size A.ncols u.get A.get) fun _ => none)
      w c (mxvE o sr (.tr A) u) :=
  EVOut.op_updates w ho.out ho.mask hs.mask ((dim_mxv (o.at c) (.tr A) u).ok hs)
    (by rw [show c.size = A.ncols from hs.out]; exact vxmAE_row _ _ hu hA hs.inner)

/-- `reduce` of the columns: the stored elements in the order of the rows, each combined with
what its column has so far. -/
theorem C96_reduceMV_calls_tr {o : EVOut ω X γ τ ζ μ} (r : ERedOp ω X α τ) {A : Lil α} {c : BVec γ}
    (ho : (o.at c).WF) (hA : A.WF) (hs : ReduceShapes (o.at c) (.tr A)) (w : ω) :
    o.MakesThen (updateAll ((List.range A.nrows).flatMap fun i =>
        stored A.ncols fun j => (A.get i j).map fun x => reduceTo r.op' r.first x) fun _ => none)
      w c (reduceMVE o r (.tr A)) :=
  EVOut.op_updates w ho.out ho.mask hs.mask ((dim_reduce (o.at c) (.tr A)).ok hs)
    (by rw [show c.size = A.ncols from hs.out]; exact reduceColsE_row _ _ hA)

/-- `mxm`: each row of the first matrix times the second. -/
theorem C96_mxm_calls {o : EMOut ω X γ τ ζ μ} (sr : ESR ω X α β τ) (via : τ → τ) {A : Lil α}
    {B : Lil β} {C : Lil γ} (ho : (o.at C).WF) (hA : A.WF) (hB : B.WF)
    (hs : MxmShapes (o.at C) (.plain A) (.plain B)) (w : ω) :
    o.MakesThen (updateAll (mxmUpdates sr.add sr.mult A.nrows A.ncols B.ncols A.get B.get) fun _ => none)
      w C (mxmE o sr via (.plain A) (.plain B)) :=
  EMOut.op_updates w ho.out ho.mask hs.mask ((dim_mxm (o.at C) (.plain A) (.plain B)).ok hs)
    (mxmABE_mat _ _ hA hB hs.rows hs.cols hs.inner)

/-- `mxm` with the first matrix transposed: one row of both matrices after the other. -/
theorem C96_mxm_calls_tr1 {o : EMOut ω X γ τ ζ μ} (sr : ESR ω X α β τ) (via : τ → τ) {A : Lil α}
    {B : Lil β} {C : Lil γ} (ho : (o.at C).WF) (hA : A.WF) (hB : B.WF)
    (hs : MxmShapes (o.at C) (.tr A) (.plain B)) (w : ω) :
    o.MakesThen (updateAll (mxmTUpdates sr.add sr.mult A.nrows A.ncols B.ncols A.get B.get) fun _ => none)
      w C (mxmE o sr via (.tr A) (.plain B)) :=
  EMOut.op_updates w ho.out ho.mask hs.mask ((dim_mxm (o.at C) (.tr A) (.plain B)).ok hs)
    (mxmATBE_mat _ _ hA hB hs.rows hs.cols hs.inner)

/-- `mxm` with both transposed: the calls of `B·A`, with the element of `B` first. The result
is transposed, and converted on the way. -/
theorem C96_mxm_calls_tr12 {o : EMOut ω X γ τ ζ μ} (sr : ESR ω X α β τ) (via : τ → τ) {A : Lil α}
    {B : Lil β} {C : Lil γ} (ho : (o.at C).WF) (hA : A.WF) (hB : B.WF)
    (hs : MxmShapes (o.at C) (.tr A) (.tr B)) (w : ω) :
    o.MakesThen ((updateAll (mxmUpdates sr.add sr.multSwap B.nrows B.ncols A.ncols B.get A.get)
        fun _ => none).andThen fun M => .ret fun p => (M (p.2, p.1)).map via)
      w C (mxmE o sr via (.tr A) (.tr B)) :=
  EMOut.op_updates w ho.out ho.mask hs.mask ((dim_mxm (o.at C) (.tr A) (.tr B)).ok hs)
    (mxmATBTE_mat _ _ via hA hB hs.rows hs.cols hs.inner)

/-- The hypotheses hold of calls that return and of calls that throw. -/
example (f : Nat → Nat → Op ω X Nat) :
    MxmShapes ((effM f).at Ex.A) (.plain Ex.A) (.plain Ex.B) ∧
    MxmShapes ((effM f).at Ex.A) (.tr Ex.A) (.plain Ex.B) ∧
    MxmShapes ((effM f).at Ex.A) (.tr Ex.A) (.tr Ex.B) ∧
    MxvShapes ((effV f).at Ex.v) (.tr Ex.A) Ex.v ∧ VxmShapes ((effV f).at Ex.v) Ex.v (.plain Ex.A) ∧
    ReduceShapes ((effV f).at Ex.v) (.tr Ex.A) := by
  have h : ((effV f).at Ex.v).m.Fits 2 := by intro k M e; cases e
  have g := effM_fits f
  exact ⟨⟨g, rfl, rfl, rfl⟩, ⟨g, rfl, rfl, rfl⟩, ⟨g, rfl, rfl, rfl⟩, ⟨h, rfl, rfl⟩, ⟨h, rfl, rfl⟩, ⟨h, rfl⟩⟩

/-- `v·A` for `v = [1,2]` and `A = [[1,2],[.,3]]`: the products of the first row, then the
product and the sum of the second, then the accumulator. -/
example : vxmE (effV addLogged) ⟨addLogged, mulLogged, mulLogged⟩ Ex.v (.plain Ex.A) ([], Ex.v) =
      (.ok (), ([(1, 1), (1, 2), (2, 3), (2, 6), (1, 1), (2, 8)], ⟨2, 2, [2, 10], [true, true]⟩)) ∧
    vxmE (effV mulUpTo9) ⟨addUpTo9, mulUpTo9, mulUpTo9⟩ Ex.v (.plain Ex.A) (0, Ex.v) =
      (.error (.op "too big"), (6, Ex.v)) := by
  decide +kernel

/-- The columns of `A`: one call for the second column, then the accumulator. -/
example : reduceMVE (effV addLogged) ⟨addLogged, addLogged, addLogged, id⟩ (.tr Ex.A) ([], Ex.v) =
    (.ok (), ([(2, 3), (1, 1), (2, 5)], ⟨2, 2, [2, 7], [true, true]⟩)) := by
  decide +kernel

/-- `A·A`, and `A'·A`: the second makes its calls in the order of the rows of both. -/
example : (mxmE (effM addLogged) ⟨addLogged, mulLogged, mulLogged⟩ id (.plain Ex.A) (.plain Ex.A)
      ([], Ex.A)).2.1 = [(1, 1), (1, 2), (2, 3), (2, 6), (3, 3), (1, 1), (2, 8), (3, 9)] ∧
    (mxmE (effM addLogged) ⟨addLogged, mulLogged, mulLogged⟩ id (.tr Ex.A) (.plain Ex.A)
      ([], Ex.A)).2.1 = [(1, 1), (1, 2), (2, 1), (2, 2), (3, 3), (4, 9), (1, 1), (2, 2), (3, 13)] ∧
    (mxmE (effM addUpTo9) ⟨addUpTo9, mulUpTo9, mulUpTo9⟩ id (.plain Ex.A) (.plain Ex.A) (0, Ex.A)) =
      (.error (.op "too big"), (7, Ex.A)) := by
  decide +kernel

end GBTL

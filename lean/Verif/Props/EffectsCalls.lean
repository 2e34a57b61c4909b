import Verif.Props.Effects
/-
C96: which operator calls are made, in which order, and what comes of them.
-/
namespace GBTL
open Spec (Outp MaskKind Accum Op EAccum Vec vecCalls matCalls resultAt stored storedMat storedCols
  sumCalls reduceCalls callAll foldAll both either)
open Act (call lib output store)

variable {ω χ X α β γ τ ζ μ : Type}

/-- `apply` on a vector: one call for each stored element, in ascending order. -/
theorem C96_applyV_calls {o : EVOut ω X γ τ ζ μ} (f : α → Op ω X τ) {u : BVec α} {c : BVec γ}
    (ho : (o.at c).WF) (hu : u.WF) (hs : SameSize (o.at c) u) (w : ω) :
    o.Makes (fun i => (u.get i).map f) w c (applyVE o f u) :=
  EVOut.op_calls w ho.out ho.mask hs.mask ((dim_sameV (o.at c) u).ok hs)
    (by rw [show c.size = u.size from hs.size]; exact applyVecE_eq f hu)

/-- `apply` on a matrix: one call for each stored element, row by row. -/
theorem C96_applyM_calls {o : EMOut ω X γ τ ζ μ} (f : α → Op ω X τ) {A : Lil α} {C : Lil γ}
    (ho : (o.at C).WF) (hA : A.WF) (hs : SameShape (o.at C) (.plain A)) (w : ω) :
    o.Makes (storedMat C.nrows C.ncols fun i j => (A.get i j).map f) w C (applyME o f (.plain A)) :=
  EMOut.op_calls w ho.out ho.mask hs.mask ((dim_same (o.at C) (.plain A)).ok hs)
    (by
      rw [show C.nrows = A.nrows from hs.rows, show C.ncols = A.ncols from hs.cols]
      exact applyMatE_fills f hA)

/-- On a transposed matrix the calls go column by column of the result. -/
theorem C96_applyM_calls_tr {o : EMOut ω X γ τ ζ μ} (f : α → Op ω X τ) {A : Lil α} {C : Lil γ}
    (ho : (o.at C).WF) (hA : A.WF) (hs : SameShape (o.at C) (.tr A)) (w : ω) :
    o.Makes (storedCols C.nrows C.ncols fun i j => (A.get j i).map f) w C (applyME o f (.tr A)) :=
  EMOut.op_calls w ho.out ho.mask hs.mask ((dim_same (o.at C) (.tr A)).ok hs)
    (by
      rw [show C.nrows = A.ncols from hs.rows, show C.ncols = A.nrows from hs.cols]
      exact applyMatTE_fills f hA)

/-- `eWiseAdd` on vectors: one call for each index where both have an element; a lone
element is converted. -/
theorem C96_eWiseAddV_calls {o : EVOut ω X γ τ ζ μ} (f : EEW ω X α β τ) {u : BVec α} {v : BVec β}
    {c : BVec γ} (ho : (o.at c).WF) (hu : u.WF) (hv : v.WF) (hs : SameSize2 (o.at c) u v) (w : ω) :
    o.Makes (fun i => either f.op (fun x => .ret (f.c1 x)) (fun y => .ret (f.c2 y)) (u.get i) (v.get i))
      w c (eWiseAddVE o f u v) :=
  EVOut.op_calls w ho.out ho.mask hs.mask ((dim_same2V (o.at c) u v).ok hs)
    (by rw [show c.size = u.size from hs.size]; exact ewiseAddVecE_eq _ _ _ hu hv hs.size2.symm)

/-- `eWiseMult` on vectors: one call for each index where both have an element. -/
theorem C96_eWiseMultV_calls {o : EVOut ω X γ τ ζ μ} (f : EEW ω X α β τ) {u : BVec α} {v : BVec β}
    {c : BVec γ} (ho : (o.at c).WF) (hu : u.WF) (hv : v.WF) (hs : SameSize2 (o.at c) u v) (w : ω) :
    o.Makes (fun i => both f.op (u.get i) (v.get i)) w c (eWiseMultVE o f u v) :=
  EVOut.op_calls w ho.out ho.mask hs.mask ((dim_same2V (o.at c) u v).ok hs)
    (by rw [show c.size = u.size from hs.size]; exact ewiseMultVecE_eq _ hu hv)

/-- `eWiseAdd` on matrices: one call for each place where both have an element, row by
row. -/
theorem C96_eWiseAddM_calls {o : EMOut ω X γ τ ζ μ} (f : EEW ω X α β τ) {A : Lil α} {B : Lil β}
    {C : Lil γ} (ho : (o.at C).WF) (hA : A.WF) (hB : B.WF)
    (hs : SameShape2 (o.at C) (.plain A) (.plain B)) (w : ω) :
    o.Makes (storedMat C.nrows C.ncols fun i j =>
        either f.op (fun x => .ret (f.c1 x)) (fun y => .ret (f.c2 y)) (A.get i j) (B.get i j))
      w C (eWiseAddME o f (.plain A) (.plain B)) :=
  EMOut.op_calls w ho.out ho.mask hs.mask ((dim_same2 (o.at C) (.plain A) (.plain B)).ok hs)
    (by
      rw [show C.nrows = A.nrows from hs.rows, show C.ncols = A.ncols from hs.cols]
      exact ewiseAddMatE_fills _ _ _ hA hB hs.rows2.symm hs.cols2.symm)

/-- The first operand transposed: row by row of the result. -/
theorem C96_eWiseAddM_calls_tr1 {o : EMOut ω X γ τ ζ μ} (f : EEW ω X α β τ) {A : Lil α} {B : Lil β}
    {C : Lil γ} (ho : (o.at C).WF) (hA : A.WF) (hB : B.WF)
    (hs : SameShape2 (o.at C) (.tr A) (.plain B)) (w : ω) :
    o.Makes (storedMat C.nrows C.ncols fun i j =>
        either f.op (fun x => .ret (f.c1 x)) (fun y => .ret (f.c2 y)) (A.get j i) (B.get i j))
      w C (eWiseAddME o f (.tr A) (.plain B)) := by
  obtain ⟨At, e, w1, w2, w3, w4⟩ := transposed_spec hA id
  have h1 : C.nrows = At.nrows := hs.rows.trans w2.symm
  have h2 : C.ncols = At.ncols := hs.cols.trans w3.symm
  have h3 : At.nrows = B.nrows := w2.trans hs.rows2
  have h4 : At.ncols = B.ncols := w3.trans hs.cols2
  refine EMOut.op_calls w ho.out ho.mask hs.mask ((dim_same2 (o.at C) (.tr A) (.plain B)).ok hs) ?_
  simp only [e]
  have := ewiseAddMatE_fills (χ := Lil γ) f.op f.c1 f.c2 w1 hB h3.symm h4.symm
  simp only [w4, Option.map_id_fun, id] at this
  rw [h1, h2]
  exact this

/-- The second operand transposed: its elements are converted to the type of the first
operand before the call. -/
theorem C96_eWiseAddM_calls_tr2 {o : EMOut ω X γ τ ζ μ} (f : EEW ω X α β τ) {A : Lil α} {B : Lil β}
    {C : Lil γ} (ho : (o.at C).WF) (hA : A.WF) (hB : B.WF)
    (hs : SameShape2 (o.at C) (.plain A) (.tr B)) (w : ω) :
    o.Makes (storedMat C.nrows C.ncols fun i j =>
        either f.opA (fun x => .ret (f.c1 x)) (fun y => .ret (f.c2A y)) (A.get i j)
          ((B.get j i).map f.castBA))
      w C (eWiseAddME o f (.plain A) (.tr B)) := by
  obtain ⟨Bt, e, w1, w2, w3, w4⟩ := transposed_spec hB f.castBA
  have h1 : C.nrows = A.nrows := hs.rows
  have h2 : C.ncols = A.ncols := hs.cols
  have h3 : A.nrows = Bt.nrows := hs.rows2.trans w2.symm
  have h4 : A.ncols = Bt.ncols := hs.cols2.trans w3.symm
  refine EMOut.op_calls w ho.out ho.mask hs.mask ((dim_same2 (o.at C) (.plain A) (.tr B)).ok hs) ?_
  simp only [e]
  have := ewiseAddMatE_fills (χ := Lil γ) f.opA f.c1 f.c2A hA w1 h3.symm h4.symm
  simp only [w4] at this
  rw [h1, h2]
  exact this

/-- Both transposed: column by column of the result. -/
theorem C96_eWiseAddM_calls_tr12 {o : EMOut ω X γ τ ζ μ} (f : EEW ω X α β τ) {A : Lil α} {B : Lil β}
    {C : Lil γ} (ho : (o.at C).WF) (hA : A.WF) (hB : B.WF)
    (hs : SameShape2 (o.at C) (.tr A) (.tr B)) (w : ω) :
    o.Makes (storedCols C.nrows C.ncols fun i j =>
        either f.op (fun x => .ret (f.c1 x)) (fun y => .ret (f.c2 y)) (A.get j i) (B.get j i))
      w C (eWiseAddME o f (.tr A) (.tr B)) :=
  EMOut.op_calls w ho.out ho.mask hs.mask ((dim_same2 (o.at C) (.tr A) (.tr B)).ok hs)
    (by
      rw [show C.nrows = A.ncols from hs.rows, show C.ncols = A.nrows from hs.cols]
      exact ewiseAddATBTE_fills _ _ _ hA hB hs.cols2.symm hs.rows2.symm)

/-- `eWiseMult` on matrices. -/
theorem C96_eWiseMultM_calls {o : EMOut ω X γ τ ζ μ} (f : EEW ω X α β τ) {A : Lil α} {B : Lil β}
    {C : Lil γ} (ho : (o.at C).WF) (hA : A.WF) (hB : B.WF)
    (hs : SameShape2 (o.at C) (.plain A) (.plain B)) (w : ω) :
    o.Makes (storedMat C.nrows C.ncols fun i j => both f.op (A.get i j) (B.get i j))
      w C (eWiseMultME o f (.plain A) (.plain B)) :=
  EMOut.op_calls w ho.out ho.mask hs.mask ((dim_same2 (o.at C) (.plain A) (.plain B)).ok hs)
    (by
      rw [show C.nrows = A.nrows from hs.rows, show C.ncols = A.ncols from hs.cols]
      exact ewiseMultMatE_fills _ hA hB hs.rows2.symm hs.cols2.symm)

/-- The first operand transposed. -/
theorem C96_eWiseMultM_calls_tr1 {o : EMOut ω X γ τ ζ μ} (f : EEW ω X α β τ) {A : Lil α} {B : Lil β}
    {C : Lil γ} (ho : (o.at C).WF) (hA : A.WF) (hB : B.WF)
    (hs : SameShape2 (o.at C) (.tr A) (.plain B)) (w : ω) :
    o.Makes (storedMat C.nrows C.ncols fun i j => both f.op (A.get j i) (B.get i j))
      w C (eWiseMultME o f (.tr A) (.plain B)) := by
  obtain ⟨At, e, w1, w2, w3, w4⟩ := transposed_spec hA id
  have h1 : C.nrows = At.nrows := hs.rows.trans w2.symm
  have h2 : C.ncols = At.ncols := hs.cols.trans w3.symm
  have h3 : At.nrows = B.nrows := w2.trans hs.rows2
  have h4 : At.ncols = B.ncols := w3.trans hs.cols2
  refine EMOut.op_calls w ho.out ho.mask hs.mask ((dim_same2 (o.at C) (.tr A) (.plain B)).ok hs) ?_
  simp only [e]
  have := ewiseMultMatE_fills (χ := Lil γ) f.op w1 hB h3.symm h4.symm
  simp only [w4, Option.map_id_fun, id] at this
  rw [h1, h2]
  exact this

/-- The second operand transposed. -/
theorem C96_eWiseMultM_calls_tr2 {o : EMOut ω X γ τ ζ μ} (f : EEW ω X α β τ) {A : Lil α} {B : Lil β}
    {C : Lil γ} (ho : (o.at C).WF) (hA : A.WF) (hB : B.WF)
    (hs : SameShape2 (o.at C) (.plain A) (.tr B)) (w : ω) :
    o.Makes (storedMat C.nrows C.ncols fun i j => both f.opA (A.get i j) ((B.get j i).map f.castBA))
      w C (eWiseMultME o f (.plain A) (.tr B)) := by
  obtain ⟨Bt, e, w1, w2, w3, w4⟩ := transposed_spec hB f.castBA
  have h1 : C.nrows = A.nrows := hs.rows
  have h2 : C.ncols = A.ncols := hs.cols
  have h3 : A.nrows = Bt.nrows := hs.rows2.trans w2.symm
  have h4 : A.ncols = Bt.ncols := hs.cols2.trans w3.symm
  refine EMOut.op_calls w ho.out ho.mask hs.mask ((dim_same2 (o.at C) (.plain A) (.tr B)).ok hs) ?_
  simp only [e]
  have := ewiseMultMatE_fills (χ := Lil γ) f.opA hA w1 h3.symm h4.symm
  simp only [w4] at this
  rw [h1, h2]
  exact this

/-- Both transposed. -/
theorem C96_eWiseMultM_calls_tr12 {o : EMOut ω X γ τ ζ μ} (f : EEW ω X α β τ) {A : Lil α} {B : Lil β}
    {C : Lil γ} (ho : (o.at C).WF) (hA : A.WF) (hB : B.WF)
    (hs : SameShape2 (o.at C) (.tr A) (.tr B)) (w : ω) :
    o.Makes (storedCols C.nrows C.ncols fun i j => both f.op (A.get j i) (B.get j i))
      w C (eWiseMultME o f (.tr A) (.tr B)) :=
  EMOut.op_calls w ho.out ho.mask hs.mask ((dim_same2 (o.at C) (.tr A) (.tr B)).ok hs)
    (by
      rw [show C.nrows = A.ncols from hs.rows, show C.ncols = A.nrows from hs.cols]
      exact ewiseMultATBTE_fills _ hA hB hs.cols2.symm)

/-- `reduce` of the rows of a matrix: each row from left to right, one row after the
other. -/
theorem C96_reduceMV_calls {o : EVOut ω X γ τ ζ μ} (r : ERedOp ω X α τ) {A : Lil α} {c : BVec γ}
    (ho : (o.at c).WF) (hA : A.WF) (hs : ReduceShapes (o.at c) (.plain A)) (w : ω) :
    o.Makes (fun i => reduceCalls r.op r.op' r.first ((stored A.ncols fun j => A.get i j).map (·.2)))
      w c (reduceMVE o r (.plain A)) :=
  EVOut.op_calls w ho.out ho.mask hs.mask ((dim_reduce (o.at c) (.plain A)).ok hs)
    (by rw [show c.size = A.nrows from hs.out]; exact reduceRowsE_eq _ _ _ hA)

/-- `reduce` of a vector to a scalar: from left to right; an empty vector gives the
identity without a call. -/
theorem C96_reduceVS_calls (castZ : ζ → γ) (acc : EAccum ω X γ τ ζ) (r : ERedOp ω X α τ) (e : τ)
    {u : BVec α} (hu : u.WF) (val : γ) (w : ω) :
    MakesScalar castZ
      (((reduceCalls r.op r.op' r.first ((stored u.size u.get).map (·.2))).getD (.ret e)).andThen
        (scalarEnd acc val)) w val (reduceVSE castZ acc r e u) := by
  have h : reduceVSE castZ acc r e u = (call ((reduceCalls r.op r.op' r.first
      ((stored u.size u.get).map (·.2))).getD (.ret e)) >>= fun t => reduceScalarEndE castZ acc t) := by
    unfold reduceVSE
    rw [reduceVecE_eq _ _ _ _ hu]
    cases reduceCalls r.op r.op' r.first ((stored u.size u.get).map (·.2)) with
    | none => rfl
    | some f => simp only [answer, Act.bind_assoc']; rfl
  rw [h]
  exact makesScalar _ _ _ _ _

/-- `reduce` of a matrix to a scalar: each row is reduced from left to right and its result
added to the running value, one row after the other, beginning with the identity. -/
theorem C96_reduceMS_calls (castZ : ζ → γ) (acc : EAccum ω X γ τ ζ) (r : ERedOp ω X α τ) (e : τ)
    {A : Lil α} (hA : A.WF) (val : γ) (w : ω) :
    MakesScalar castZ
      ((foldAll (fun t p => Op.andThen p (r.opT t)) e ((stored A.nrows fun i =>
        reduceCalls r.op r.op' r.first ((stored A.ncols fun j => A.get i j).map (·.2))).map (·.2))).andThen
        (scalarEnd acc val)) w val (reduceMSE castZ acc r e A) := by
  unfold reduceMSE
  rw [reduceMatE_eq _ _ _ _ _ hA]
  exact makesScalar _ _ _ _ _

/-- `mxv`: for each row the products from left to right, each added to the running sum
before the next is made. -/
theorem C96_mxv_calls {o : EVOut ω X γ τ ζ μ} (sr : ESR ω X α β τ) {A : Lil α} {u : BVec β} {c : BVec γ}
    (ho : (o.at c).WF) (hA : A.WF) (hu : u.WF) (hs : MxvShapes (o.at c) (.plain A) u) (w : ω) :
    o.Makes (fun i => sumCalls sr.add
        ((stored A.ncols fun k => both sr.mult (A.get i k) (u.get k)).map (·.2)))
      w c (mxvE o sr (.plain A) u) :=
  EVOut.op_calls w ho.out ho.mask hs.mask ((dim_mxv (o.at c) (.plain A) u).ok hs)
    (mxvAE_eq _ _ hA hu hs.out hs.inner)

/-- `vxm` with the matrix transposed. -/
theorem C96_vxm_calls_tr {o : EVOut ω X γ τ ζ μ} (sr : ESR ω X α β τ) {A : Lil β} {u : BVec α}
    {c : BVec γ} (ho : (o.at c).WF) (hA : A.WF) (hu : u.WF) (hs : VxmShapes (o.at c) u (.tr A)) (w : ω) :
    o.Makes (fun i => sumCalls sr.add
        ((stored A.ncols fun k => both sr.mult (u.get k) (A.get i k)).map (·.2)))
      w c (vxmE o sr u (.tr A)) :=
  EVOut.op_calls w ho.out ho.mask hs.mask ((dim_vxm (o.at c) u (.tr A)).ok hs)
    (vxmATE_eq _ _ hA hu hs.out hs.inner)

/-- `mxm` with the second matrix transposed: one element of the result after the other, row
by row. -/
theorem C96_mxm_calls_tr2 {o : EMOut ω X γ τ ζ μ} (sr : ESR ω X α β τ) (via : τ → τ) {A : Lil α}
    {B : Lil β} {C : Lil γ} (ho : (o.at C).WF) (hA : A.WF) (hB : B.WF)
    (hs : MxmShapes (o.at C) (.plain A) (.tr B)) (w : ω) :
    o.Makes (storedMat C.nrows C.ncols fun i j => sumCalls sr.add
        ((stored A.ncols fun k => both sr.mult (A.get i k) (B.get j k)).map (·.2)))
      w C (mxmE o sr via (.plain A) (.tr B)) :=
  EMOut.op_calls w ho.out ho.mask hs.mask ((dim_mxm (o.at C) (.plain A) (.tr B)).ok hs)
    (mxmABTE_fills _ _ hA hB hs.rows hs.cols hs.inner)

theorem effM_wf (f : Nat → Nat → Op ω X Nat) : ((effM f).at Ex.A).WF :=
  ⟨Ex.A_wf, by intro k M e; cases e; exact Ex.B_wf⟩

theorem effM_fits (f : Nat → Nat → Op ω X Nat) : ((effM f).at Ex.A).M.Fits 2 2 := by
  intro k M e; cases e; exact ⟨rfl, rfl⟩

theorem effV_wf (f : Nat → Nat → Op ω X Nat) : ((effV f).at Ex.v).WF :=
  ⟨Ex.v_wf, by intro k M e; cases e⟩

/-- The hypotheses hold of calls that return and of calls that throw. -/
example (f : Nat → Nat → Op ω X Nat) :
    SameSize ((effV f).at Ex.v) Ex.u ∧ SameSize2 ((effV f).at Ex.v) Ex.u Ex.v ∧
    SameShape ((effM f).at Ex.A) (.plain Ex.B) ∧ SameShape ((effM f).at Ex.A) (.tr Ex.B) ∧
    SameShape2 ((effM f).at Ex.A) (.plain Ex.A) (.plain Ex.B) ∧
    SameShape2 ((effM f).at Ex.A) (.tr Ex.A) (.plain Ex.B) ∧
    SameShape2 ((effM f).at Ex.A) (.plain Ex.A) (.tr Ex.B) ∧
    SameShape2 ((effM f).at Ex.A) (.tr Ex.A) (.tr Ex.B) ∧
    MxmShapes ((effM f).at Ex.A) (.plain Ex.A) (.tr Ex.B) ∧
    MxvShapes ((effV f).at Ex.v) (.plain Ex.A) Ex.v ∧ VxmShapes ((effV f).at Ex.v) Ex.v (.tr Ex.A) ∧
    ReduceShapes ((effV f).at Ex.v) (.plain Ex.A) := by
  have h : ((effV f).at Ex.v).m.Fits 2 := by intro k M e; cases e
  have g := effM_fits f
  exact ⟨⟨h, rfl⟩, ⟨h, rfl, rfl⟩, ⟨g, rfl, rfl⟩, ⟨g, rfl, rfl⟩, ⟨g, rfl, rfl, rfl, rfl⟩,
    ⟨g, rfl, rfl, rfl, rfl⟩, ⟨g, rfl, rfl, rfl, rfl⟩, ⟨g, rfl, rfl, rfl, rfl⟩, ⟨g, rfl, rfl, rfl⟩,
    ⟨h, rfl, rfl⟩, ⟨h, rfl, rfl⟩, ⟨h, rfl⟩⟩

/-- `A·v` for `A = [[1,2],[.,3]]` and `v = [1,2]`: the log has both products and the sum of
the first row, the product of the second and two calls of the accumulator; with operators
that throw above 9 the same call ends at the last of these. -/
example : (vecCalls 2 (effV addLogged).acc Ex.v.get (fun i => sumCalls addLogged
      ((stored 2 fun k => both mulLogged (Ex.A.get i k) (Ex.v.get k)).map (·.2))) []) =
      (.ok [(0, 6), (1, 8)], [(1, 1), (2, 2), (1, 4), (3, 2), (1, 5), (2, 6)]) ∧
    mxvE (effV addLogged) ⟨addLogged, mulLogged, mulLogged⟩ (.plain Ex.A) Ex.v ([], Ex.v) =
      (.ok (), ([(1, 1), (2, 2), (1, 4), (3, 2), (1, 5), (2, 6)], ⟨2, 2, [6, 8], [true, true]⟩)) ∧
    mxvE (effV mulUpTo9) ⟨addUpTo9, mulUpTo9, mulUpTo9⟩ (.plain Ex.A) Ex.v (0, Ex.v) =
      (.error (.op "too big"), (6, Ex.v)) :=
  ⟨rfl, by decide +kernel, by decide +kernel⟩

/-- `apply` to a transposed matrix goes along the columns of the result. -/
example : applyME (effM addLogged) (addLogged 0) (.plain Ex.B) ([], Ex.A) =
      (.ok (), ([(0, 5), (0, 7), (2, 5)], ⟨2, 2, 2, [[(0, 1)], [(1, 3)]]⟩)) ∧
    applyME (effM addLogged) (addLogged 0) (.tr Ex.A) ([], Ex.A) =
      (.ok (), ([(0, 1), (0, 2), (0, 3), (1, 1), (3, 3)], ⟨2, 2, 2, [[(0, 2)], [(1, 6)]]⟩)) := by
  decide +kernel

/-- Reductions, from left to right; the accumulator is called last. -/
example : reduceVSE id (.some addLogged id id) ⟨addLogged, addLogged, addLogged, id⟩ 0 Ex.v ([], 10) =
      (.ok (), ([(1, 2), (10, 3)], 13)) ∧
    reduceMSE id (.some addUpTo9 id id) ⟨addUpTo9, addUpTo9, addUpTo9, id⟩ 0 Ex.A (0, 10) =
      (.error (.op "too big"), (4, 10)) := by
  decide +kernel

end GBTL

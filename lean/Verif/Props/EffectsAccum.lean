import Verif.Lemmas.EffectsKron
import Verif.Props.EffectsUpdate
import Verif.Props.Select
/-
C96: the operator calls of `kronecker`, and those of the accumulator in the operations that
have no other operator.
-/
namespace GBTL
open Spec (Outp MaskKind Accum Op EAccum Vec stored storedMat callAll accum kronCalls kronCallsEach)
open Act (call lib output store)

variable {ω χ X α β γ τ ζ μ : Type}

theorem kron_checksE {o : EMOut ω X γ τ ζ μ} {A : Operand α} {B : Operand β} {C : Lil γ}
    (hs : KronShapes (o.at C) A B) (hr : C.nrows < 2 ^ 64) (hc : C.ncols < 2 ^ 64) :
    (do
      o.M.rowCheck C.nrows
      o.M.colCheck C.ncols
      eqCheck C.ncols (mul64 A.ncols B.ncols)
      eqCheck C.nrows (mul64 A.nrows B.nrows)) = (.ok () : Except Err Unit) := by
  have h1 : C.nrows = A.nrows * B.nrows := hs.rows
  have h2 : C.ncols = A.ncols * B.ncols := hs.cols
  refine ((dim_rows _ _).seq ((dim_cols _ _).seq ((dim_eq _ _).seq (dim_eq _ _)))).ok
    ⟨(fits_iff.1 hs.mask).1, (fits_iff.1 hs.mask).2, ?_, ?_⟩
  · rw [mul64, ← h2, Nat.mod_eq_of_lt hc]
  · rw [mul64, ← h1, Nat.mod_eq_of_lt hr]

/-- `kronecker`: for each row of `A` and each row of `B`, every element of the one with every
element of the other. -/
theorem C96_kronecker_calls {o : EMOut ω X γ τ ζ μ} (f : α → β → Op ω X τ) {A : Lil α} {B : Lil β}
    {C : Lil γ} (ho : (o.at C).WF) (hA : A.WF) (hB : B.WF) (hs : KronShapes (o.at C) (.plain A) (.plain B))
    (hr : C.nrows < 2 ^ 64) (hc : C.ncols < 2 ^ 64) (w : ω) :
    o.Makes (kronCalls f A.nrows A.ncols B.nrows B.ncols
        (fun ia ib ka kb => (ia * B.nrows + ib, ka * B.ncols + kb)) A.get B.get)
      w C (kroneckerE o f (.plain A) (.plain B)) :=
  EMOut.op_calls w ho.out ho.mask hs.mask (kron_checksE hs hr hc)
    (kronABE_fills f hA hB hs.rows hs.cols hr hc)

/-- The first matrix transposed: the calls are made in the same order. -/
theorem C96_kronecker_calls_tr1 {o : EMOut ω X γ τ ζ μ} (f : α → β → Op ω X τ) {A : Lil α} {B : Lil β}
    {C : Lil γ} (ho : (o.at C).WF) (hA : A.WF) (hB : B.WF) (hs : KronShapes (o.at C) (.tr A) (.plain B))
    (hr : C.nrows < 2 ^ 64) (hc : C.ncols < 2 ^ 64) (w : ω) :
    o.Makes (kronCalls f A.nrows A.ncols B.nrows B.ncols
        (fun ia ib ka kb => (ka * B.nrows + ib, ia * B.ncols + kb)) A.get B.get)
      w C (kroneckerE o f (.tr A) (.plain B)) :=
  EMOut.op_calls w ho.out ho.mask hs.mask (kron_checksE hs hr hc)
    (kronATBE_fills f hA hB hs.rows hs.cols hr hc)

/-- The second matrix transposed: one element of `A` after the other, each with the whole of
`B`. -/
theorem C96_kronecker_calls_tr2 {o : EMOut ω X γ τ ζ μ} (f : α → β → Op ω X τ) {A : Lil α} {B : Lil β}
    {C : Lil γ} (ho : (o.at C).WF) (hA : A.WF) (hB : B.WF) (hs : KronShapes (o.at C) (.plain A) (.tr B))
    (hr : C.nrows < 2 ^ 64) (hc : C.ncols < 2 ^ 64) (w : ω) :
    o.Makes (kronCallsEach f A.nrows A.ncols B.nrows B.ncols
        (fun ia ib ka kb => (ia * B.ncols + kb, ka * B.nrows + ib)) A.get B.get)
      w C (kroneckerE o f (.plain A) (.tr B)) :=
  EMOut.op_calls w ho.out ho.mask hs.mask (kron_checksE hs hr hc)
    (kronABTE_fills f hA hB hs.rows hs.cols hr hc)

/-- Both transposed: the order of the plain product. -/
theorem C96_kronecker_calls_tr12 {o : EMOut ω X γ τ ζ μ} (f : α → β → Op ω X τ) {A : Lil α} {B : Lil β}
    {C : Lil γ} (ho : (o.at C).WF) (hA : A.WF) (hB : B.WF) (hs : KronShapes (o.at C) (.tr A) (.tr B))
    (hr : C.nrows < 2 ^ 64) (hc : C.ncols < 2 ^ 64) (w : ω) :
    o.Makes (kronCalls f A.nrows A.ncols B.nrows B.ncols
        (fun ia ib ka kb => (ka * B.ncols + kb, ia * B.nrows + ib)) A.get B.get)
      w C (kroneckerE o f (.tr A) (.tr B)) :=
  EMOut.op_calls w ho.out ho.mask hs.mask (kron_checksE hs hr hc)
    (kronATBTE_fills f hA hB hs.rows hs.cols hr hc)

/-! ### The accumulator alone -/

theorem stored_congr {n : Nat} {f g : Nat → Option α} (h : ∀ i, i < n → f i = g i) :
    stored n f = stored n g := by
  unfold stored
  suffices H : ∀ l : List Nat, (∀ i ∈ l, i < n) → (l.filterMap fun i => (f i).map fun x => (i, x)) =
      l.filterMap fun i => (g i).map fun x => (i, x) from H _ fun i hi => List.mem_range.1 hi
  intro l hl
  induction l with
  | nil => rfl
  | cons i l ih =>
    rw [List.filterMap_cons, List.filterMap_cons, h i (hl i (by simp)),
      ih fun k hk => hl k (by simp [hk])]

theorem storedMat_congr {m n : Nat} {f g : Nat → Nat → Option α} (h : ∀ i j, i < m → j < n → f i j = g i j) :
    storedMat m n f = storedMat m n g := by
  unfold storedMat
  refine flatMap_congr' fun i hi => ?_
  rw [stored_congr fun j hj => h i j (List.mem_range.1 hi) hj]

theorem EVOut.MakesThen.congr {o : EVOut ω X γ τ ζ μ} {f g : Vec τ} {w : ω} {c : BVec γ}
    {x : Act ω (BVec γ) X Unit} (h : o.MakesThen (Op.ret f) w c x) (e : ∀ i, i < c.size → f i = g i) :
    o.MakesThen (Op.ret g) w c x := by
  unfold EVOut.MakesThen Op.andThen Op.ret at h ⊢
  dsimp only at h ⊢
  rw [← stored_congr (f := fun i => accum o.acc.calls (c.get i) (f i)) fun i hi => by rw [e i hi]]
  exact h

theorem EMOut.MakesThen.congr {o : EMOut ω X γ τ ζ μ} {f g : Nat × Nat → Option τ} {w : ω} {C : Lil γ}
    {x : Act ω (Lil γ) X Unit} (h : o.MakesThen (Op.ret f) w C x)
    (e : ∀ i j, i < C.nrows → j < C.ncols → f (i, j) = g (i, j)) : o.MakesThen (Op.ret g) w C x := by
  unfold EMOut.MakesThen Op.andThen Op.ret at h ⊢
  dsimp only at h ⊢
  rw [← storedMat_congr (f := fun i j => accum o.acc.calls (C.get i j) (f (i, j)))
    fun i j hi hj => by rw [e i j hi hj]]
  exact h

/-- `transpose`: only the accumulator is called. -/
theorem C96_transpose_calls {o : EMOut ω X γ α ζ μ} {A : Operand α} {C : Lil γ} (ho : (o.at C).WF)
    (hA : A.WF) (hs : TransposeShapes (o.at C) A) (w : ω) :
    o.MakesThen (.ret fun p => A.get p.2 p.1) w C (transposeME o A) := by
  refine EMOut.op_updates w ho.out ho.mask hs.mask ((dim_transpose (o.at C) A).ok hs) ?_
  intro w c
  rcases A with A | A
  · obtain ⟨T, t1, t2, t3, t4, t5⟩ := transposeT_spec hA
    exact ⟨T, Act.lib_ok t1, t2.toWFr, t3.trans hs.rows, t4.trans hs.cols.symm, fun i j => t5 i j⟩
  · exact ⟨A, rfl, hA.toWFr, hs.rows, hs.cols.symm, fun i j => rfl⟩

/-- `extract` of a vector. -/
theorem C96_extractV_calls {o : EVOut ω X γ α ζ μ} {u : BVec α} {ix : Idx} {c : BVec γ}
    (ho : (o.at c).WF) (hu : u.WF) (hm : o.m.Fits c.size) (hl : ix.len c.size = c.size)
    (hb : ix.below u.size) (w : ω) :
    o.MakesThen (.ret (Spec.extract u.size ix.sel u.get)) w c (extractVE o u ix) := by
  obtain ⟨t, t1, t2, t3⟩ := extractVec_spec hu hb hl
  have h : o.MakesThen (.ret t.get) w c (extractVE o u ix) :=
    EVOut.op_updates w ho.out ho.mask hm ((dim_extractV (o.at c) ix c.size).ok ⟨hm, hl⟩)
      fun w' c' => ⟨t, Act.lib_ok t1, t2, fun _ => rfl⟩
  exact h.congr t3

/-- `extract` of a matrix. -/
theorem C96_extractM_calls {o : EMOut ω X γ α ζ μ} {A : Operand α} {ri ci : Idx} {C : Lil γ}
    (ho : (o.at C).WF) (hA : A.WF) (hm : o.M.Fits C.nrows C.ncols) (hlr : ri.len C.nrows = C.nrows)
    (hlc : ci.len C.ncols = C.ncols) (hr : ri.below A.nrows) (hc : ci.below A.ncols) (w : ω) :
    o.MakesThen (.ret fun p => Spec.extractMat A.nrows A.ncols ri.sel ci.sel A.get p.1 p.2)
      w C (extractME o A ri ci) := by
  have hk := (dim_select (o.at C) ri ci C.nrows C.ncols).ok ⟨hm, hlr, hlc⟩
  have hT : ∃ T, extractT C A ri ci = .ok T ∧ T.WFr ∧ T.nrows = C.nrows ∧ T.ncols = C.ncols ∧
      ∀ i j, i < C.nrows → j < C.ncols →
        T.get i j = Spec.extractMat A.nrows A.ncols ri.sel ci.sel A.get i j := by
    rcases A with A | A
    · exact extractMat_spec hA.toWFr hr hc hlr hlc
    · exact extractMatT_spec hA.toWFr hr hc hlr hlc
  obtain ⟨T, t1, t2, t3, t4, t5⟩ := hT
  have h : o.MakesThen (.ret fun p => T.get p.1 p.2) w C (extractME o A ri ci) :=
    EMOut.op_updates w ho.out ho.mask hm hk
      fun w' c' => ⟨T, Act.lib_ok t1, t2, t3, t4, fun _ _ => rfl⟩
  exact h.congr t5

/-- With an accumulator, `assign` is made like the other operations. -/
theorem EVOut.opStencil_eq {o : EVOut ω X γ τ ζ μ} {op : γ → τ → Op ω X ζ} {cC : γ → ζ} {cT : τ → ζ}
    (h : o.acc = .some op cC cT) (keep : γ → ζ) (ix : List Nat) (checks : BVec γ → Except Err Unit)
    (t : BVec γ → Act ω (BVec γ) X (Row τ)) : o.opStencil keep ix checks t = o.op checks t := by
  unfold EVOut.opStencil EVOut.op accumStencil1DE accumVecE
  rw [h]

theorem EMOut.opStencil_eq {o : EMOut ω X γ τ ζ μ} {op : γ → τ → Op ω X ζ} {cC : γ → ζ} {cT : τ → ζ}
    (h : o.acc = .some op cC cT) (keep : γ → ζ) (ri ci : List Nat) (checks : Lil γ → Except Err Unit)
    (T : Lil γ → Act ω (Lil γ) X (Lil τ)) : o.opStencil keep ri ci checks T = o.op checks T := by
  unfold EMOut.opStencil EMOut.op accumStencilE accumMatE
  rw [h]

/-- `assign` of a vector with an accumulator. -/
theorem C96_assignV_calls {o : EVOut ω X γ α ζ μ} {op : γ → α → Op ω X ζ} {cC : γ → ζ} {cT : α → ζ}
    (h : o.acc = .some op cC cT) (keep : γ → ζ) {u : BVec α} {ix : Idx} {c : BVec γ}
    (ho : (o.at c).WF) (hu : u.WF) (hm : o.m.Fits c.size) (hl : ix.len u.size = u.size)
    (hi : ix.inside u.size c.size) (hn : ix.nodup) (w : ω) :
    o.MakesThen (.ret (Spec.assignSrc u.size ix.sel u.get)) w c (assignVE o keep u ix) := by
  obtain ⟨t, t1, t2, t3⟩ := assignVec_spec (w := c) hu (Idx.inside_below hi) hn (Idx.inside_fits hi)
  unfold assignVE
  rw [EVOut.opStencil_eq h]
  exact EVOut.op_updates w ho.out ho.mask hm ((dim_extractV (o.at c) ix u.size).ok ⟨hm, hl⟩)
    fun w' c' => ⟨t, Act.lib_ok t1, t2, t3⟩

/-- `assign` of a matrix with an accumulator. -/
theorem C96_assignM_calls {o : EMOut ω X γ α ζ μ} {op : γ → α → Op ω X ζ} {cC : γ → ζ} {cT : α → ζ}
    (h : o.acc = .some op cC cT) (keep : γ → ζ) {A : Operand α} {ri ci : Idx} {C : Lil γ}
    (ho : (o.at C).WF) (hA : A.WF) (hm : o.M.Fits C.nrows C.ncols) (hlr : ri.len A.nrows = A.nrows)
    (hlc : ci.len A.ncols = A.ncols) (hr : ri.inside A.nrows C.nrows) (hc : ci.inside A.ncols C.ncols)
    (hrn : ri.nodup) (hcn : ci.nodup) (w : ω) :
    o.MakesThen (.ret fun p => Spec.assignSrcMat A.nrows A.ncols ri.sel ci.sel A.get p.1 p.2)
      w C (assignME o keep A ri ci) := by
  have hk := (dim_select (o.at C) ri ci A.nrows A.ncols).ok ⟨hm, hlr, hlc⟩
  have hT : ∃ T, assignT C A ri ci = .ok T ∧ T.WFr ∧ T.nrows = C.nrows ∧ T.ncols = C.ncols ∧
      ∀ i j, T.get i j = Spec.assignSrcMat A.nrows A.ncols ri.sel ci.sel A.get i j := by
    rcases A with A | A
    · exact assignMat_spec hA.toWFr (Idx.inside_below hr) (Idx.inside_below hc) hrn hcn hlr
        (Idx.inside_fits hr) (Idx.inside_fits hc)
    · exact assignMatT_spec hA.toWFr (Idx.inside_below hr) (Idx.inside_below hc) hrn hcn hlc
        (Idx.inside_fits hr) (Idx.inside_fits hc)
  obtain ⟨T, t1, t2, t3, t4, t5⟩ := hT
  unfold assignME
  rw [EMOut.opStencil_eq h]
  exact EMOut.op_updates w ho.out ho.mask hm hk
    fun w' c' => ⟨T, Act.lib_ok t1, t2, t3, t4, t5⟩

/-! ### Examples -/

/-- An output of the size of the Kronecker product of two 2×2 matrices. -/
def Ex.big : Lil Nat := ⟨4, 4, 1, [[(0, 5)], [], [], []]⟩

/-- The output of a matrix operation without a mask. -/
def effB (f : Nat → Nat → Op ω X Nat) : EMOut ω X Nat Nat Nat Nat :=
  { M := none, truthy := fun x => x ≠ 0, acc := .some f id id, castZ := id, outp := .merge }

example (f : Nat → Nat → Op ω X Nat) :
    KronShapes ((effB f).at Ex.big) (.plain Ex.A) (.plain Ex.B) ∧
    KronShapes ((effB f).at Ex.big) (.tr Ex.A) (.plain Ex.B) ∧
    KronShapes ((effB f).at Ex.big) (.plain Ex.A) (.tr Ex.B) ∧
    KronShapes ((effB f).at Ex.big) (.tr Ex.A) (.tr Ex.B) ∧ Ex.big.nrows < 2 ^ 64 := by
  have g : ((effB f).at Ex.big).M.Fits 4 4 := by intro k M e; cases e
  exact ⟨⟨g, rfl, rfl⟩, ⟨g, rfl, rfl⟩, ⟨g, rfl, rfl⟩, ⟨g, rfl, rfl⟩, by decide⟩

/-- `A = [[1,2],[.,3]]` with itself: the plain product and the one with the second matrix
transposed make their calls in different orders; then the accumulator is called once. An
accumulator that throws leaves the output as it was. -/
example : (kroneckerE (effB addLogged) mulLogged (.plain Ex.A) (.plain Ex.A) ([], Ex.big)).2.1 =
      [(1, 1), (1, 2), (2, 1), (2, 2), (1, 3), (2, 3), (3, 1), (3, 2), (3, 3), (5, 1)] ∧
    (kroneckerE (effB addLogged) mulLogged (.plain Ex.A) (.tr Ex.A) ([], Ex.big)).2.1 =
      [(1, 1), (1, 2), (1, 3), (2, 1), (2, 2), (2, 3), (3, 1), (3, 2), (3, 3), (5, 1)] ∧
    kroneckerE (effB mulUpTo9) addUpTo9 (.plain Ex.A) (.plain Ex.A) (0, Ex.big) =
      (.error (.op "too big"), (10, Ex.big)) := by
  decide +kernel

/-- `transpose`, `extract` and `assign` call the accumulator once for each position where both
the output and the result have an element. -/
example : transposeME (effM addLogged) (.plain Ex.A) ([], Ex.A) =
      (.ok (), ([(1, 1), (3, 3)], ⟨2, 2, 2, [[(0, 2)], [(1, 6)]]⟩)) ∧
    extractVE (effV addLogged) Ex.v (.list [1, 0]) ([], Ex.v) =
      (.ok (), ([(1, 2), (2, 1)], ⟨2, 2, [3, 3], [true, true]⟩)) ∧
    assignVE (effV addLogged) id Ex.v (.list [1, 0]) ([], Ex.v) =
      (.ok (), ([(1, 2), (2, 1)], ⟨2, 2, [3, 3], [true, true]⟩)) := by
  decide +kernel

end GBTL

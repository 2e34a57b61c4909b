import Verif.Lemmas.OvercountMethods
import Verif.Props.AllocWrong
import Verif.Lemmas.Algo
/-
**C99** What is done with matrices that report too many elements, as matrix operations leave
them that ran out of memory (C98).
-/
namespace GBTL
open Spec (Accum Outp MatCall Ans AMat runCalls)

variable {α β γ τ ζ μ : Type}

/-- `run` with a second phase on a matrix that reports `d` elements too many. -/
theorem run_more {ρ : Type} {s s' : Lil γ} {pre : Except Err ρ} {post post' : ρ → Except Err (Lil γ)} {d : Nat}
    (h : ∀ z, post z = (post' z).map (·.more d)) :
    (∀ C', run s' pre post' = .done C' → run s pre post = .done (C'.more d)) ∧
    (∀ e X, run s' pre post' = .threw e X → run s pre post = .threw e s) ∧
    (∀ C', run s pre post = .done C' → ∃ C'', run s' pre post' = .done C'' ∧ C' = C''.more d) ∧
    (∀ e X, run s pre post = .threw e X → ∃ Y, run s' pre post' = .threw e Y) := by
  cases pre with
  | error e => cases e <;> simp [run]
  | ok z =>
    simp only [run, h z]
    cases post' z with
    | error e => cases e <;> simp [finish, Except.map]
    | ok C =>
      simp only [finish, Except.map]
      refine ⟨?_, ?_, ?_, ?_⟩
      · intro C' h; cases h; rfl
      · intro e X h; cases h
      · intro C' h; cases h; exact ⟨C, rfl, rfl⟩
      · intro e X h; cases h

/-- **C99** Every operation that writes a matrix: it returns or throws as if all matrices
reported the right numbers. The elements it writes are the same; `nvals` is right without a
mask, and as wrong as before with one. -/
theorem C99_matrix_operation (c : MCall γ τ ζ) (o : MOut γ τ ζ μ) (hc : c.Over) (ho : o.Over) :
    (∀ C', c.recount.run o.recount = .done C' → c.run o = .done (C'.more o.left)) ∧
    (∀ e X, c.recount.run o.recount = .threw e X → c.run o = .threw e o.C) ∧
    (∀ C', c.run o = .done C' → ∃ C'', c.recount.run o.recount = .done C'' ∧ C' = C''.more o.left) ∧
    (∀ e X, c.run o = .threw e X → ∃ Y, c.recount.run o.recount = .threw e Y) := by
  rw [MCall.run_eq_pre c o, MCall.run_eq_pre c.recount o.recount, c.pre_recount o hc]
  exact run_more fun Z => writeWithOptMask_recount o ho.out Z

theorem MOut.Over.recount_wf {o : MOut γ τ ζ μ} (h : o.Over) : o.recount.WF := by
  refine ⟨h.out.recount_wf, ?_⟩
  rcases o with ⟨C, M, tr, acc, cz, outp⟩
  cases M with
  | none => exact fun k A h => nomatch h
  | some p =>
    intro k A hA
    cases hA
    exact (h.mask p.1 p.2 rfl).recount_wf

theorem Lil.WF.more_over {A : Lil α} (h : A.WF) (d : Nat) : (A.more d).Over :=
  ⟨⟨h.len, h.rowOK⟩, by
    have : A.nvals = A.stored := h.count
    show A.stored ≤ A.nvals + d
    omega⟩

theorem Lil.WF.more_excess {A : Lil α} (h : A.WF) (d : Nat) : (A.more d).excess = d := by
  have : A.nvals = A.stored := h.count
  show A.nvals + d - A.stored = d
  omega

/-- **C99** The operation never gets stuck half-way, and what it writes is again such a
matrix, of the same shape, that reports `o.left` elements too many. -/
theorem C99_matrix_operation_result (c : MCall γ τ ζ) (o : MOut γ τ ζ μ) (hc : c.Over) (ho : o.Over)
    (hg : c.recount.Good o.C.nrows o.C.ncols) :
    (∃ C', c.run o = .done C' ∧ C'.Over ∧ C'.excess = o.left ∧ C'.nrows = o.C.nrows ∧ C'.ncols = o.C.ncols) ∨
      (∃ e, e ≠ .ub ∧ c.run o = .threw e o.C) := by
  obtain ⟨h1, h2, -⟩ := C99_matrix_operation c o hc ho
  rcases C08_matrix_call_returns_or_throws_partial c.recount o.recount ho.recount_wf hg with ⟨C', e, hw, hr, hn⟩ | ⟨er, hne, e⟩
  · exact .inl ⟨_, h1 C' e, hw.more_over _, hw.more_excess _, hr, hn⟩
  · exact .inr ⟨er, hne, h2 er _ e⟩

/-- **C99** Without a mask the output reports the right number again. -/
theorem C99_unmasked_operation_repairs (c : MCall γ τ ζ) (o : MOut γ τ ζ μ) (C' : Lil γ) (hc : c.Over) (ho : o.Over)
    (hg : c.recount.Good o.C.nrows o.C.ncols) (hm : o.M = none) (e : c.run o = .done C') :
    C'.WF ∧ c.recount.run o.recount = .done C' := by
  obtain ⟨C'', h1, h2⟩ := (C99_matrix_operation c o hc ho).2.2.1 C' e
  have h0 : o.left = 0 := by unfold MOut.left; rw [hm]
  rw [h0, Lil.more_zero] at h2
  subst h2
  refine ⟨?_, h1⟩
  rcases C08_matrix_call_returns_or_throws_partial c.recount o.recount ho.recount_wf hg with ⟨D, e', hw, -⟩ | ⟨er, -, e'⟩
  · rw [h1] at e'; cases e'; exact hw
  · rw [h1] at e'; cases e'

/-- **C99** Operations that write a vector. -/
theorem C99_vector_operation (c : VCall γ τ ζ) (o : VOut γ τ ζ μ) (hc : c.OverM) : c.run o = c.recountM.run o := by
  rw [VCall.run_eq_pre, VCall.run_eq_pre, c.pre_recountM o hc]

/-- **C99** Reduction to a scalar. -/
theorem C99_reduce_scalar (castZ : ζ → γ) (acc : Accum γ τ ζ) (r : RedOp α τ) (e : τ) (val : γ) (A : Operand α)
    (hA : A.Over) : reduceMS castZ acc r e val A = reduceMS castZ acc r e val A.recount := by
  rcases A with A | A
  all_goals
    show run val (reduceMat _ _ _ _ _ A) _ = run val (reduceMat _ _ _ _ _ A.recount) _
    rw [reduceMat_recount hA]

theorem Lil.getCol_recount (A : Lil α) (j : Nat) : A.recount.getCol j = A.getCol j := rfl

/-- **C99** Assigning to a row or a column writes the same elements and keeps the error of
`nvals`. -/
theorem C99_assign_row_column [Inhabited γ] (o : LOut γ α ζ μ) (keep : γ → ζ) (u : BVec α) (ix : Idx) (k : Nat)
    (hC : o.C.Over) :
    (∀ C', assignRow { o with C := o.C.recount } keep u k ix = .done C' → assignRow o keep u k ix = .done (C'.more o.C.excess)) ∧
    (∀ e X, assignRow { o with C := o.C.recount } keep u k ix = .threw e X → assignRow o keep u k ix = .threw e o.C) ∧
    (∀ C', assignCol { o with C := o.C.recount } keep u ix k = .done C' → assignCol o keep u ix k = .done (C'.more o.C.excess)) ∧
    (∀ e X, assignCol { o with C := o.C.recount } keep u ix k = .threw e X → assignCol o keep u ix k = .threw e o.C) := by
  have hr : ∀ row, o.C.setRow k id row = (o.C.recount.setRow k id row).map (·.more o.C.excess) := fun row => by
    have := (Lil.setRow_more o.C.excess (A := o.C.recount) rfl k id row).1
    rwa [Lil.recount_more hC.le] at this
  have hcol : ∀ col, o.C.setCol k id col = (o.C.recount.setCol k id col).map (·.more o.C.excess) := fun col => by
    have := Lil.setColLoop_more id k o.C.excess (List.range o.C.nrows) col o.C.recount rfl
    rwa [Lil.recount_more hC.le] at this
  obtain ⟨a1, a2, -⟩ := run_more (s := o.C) (s' := o.C.recount) (pre := do
      o.m.sizeCheck o.C.ncols
      ix.lenCheck u.size
      indexCheck k o.C.nrows
      checkIndexArrayContent ix o.C.ncols
      let row ← o.C.row k
      let v ← fillVec o.C.ncols row
      let v ← assignBackend o.truthy o.castZ keep o.acc v o.m u ix o.outp
      v.extractTuples) hr
  obtain ⟨b1, b2, -⟩ := run_more (s := o.C) (s' := o.C.recount) (pre := do
      o.m.sizeCheck o.C.nrows
      ix.lenCheck u.size
      indexCheck k o.C.ncols
      checkIndexArrayContent ix o.C.nrows
      let col ← o.C.getCol k
      let v ← fillVec o.C.nrows col
      let v ← assignBackend o.truthy o.castZ keep o.acc v o.m u ix o.outp
      v.extractTuples) hcol
  exact ⟨a1, a2, b1, b2⟩

/-- **C99** Methods: only `nvals` gives another answer, and only until the matrix is cleared
or loses rows. -/
theorem C99_methods (A : Lil α) (hA : A.Over) (calls : List (MatCall α)) :
    (runCalls Lil.call A calls).1 = Spec.overAnswers A.excess ⟨A.nrows, A.ncols, A.get⟩ calls := by
  have := Lil.more_calls calls A.excess A.recount ⟨A.nrows, A.ncols, A.get⟩ ⟨hA.recount_wf, rfl, rfl, fun _ _ => rfl⟩
  rwa [Lil.recount_more hA.le] at this

/-- **C99** A copy reports as many elements as the original. -/
theorem C99_copy (A B : Lil α) (h1 : B.nrows = A.nrows) (h2 : B.ncols = A.ncols) :
    B.assignFrom A = (.ok (), A) := by
  unfold Lil.assignFrom
  rw [if_neg (by omega)]
  rcases A with ⟨a, b, c, d⟩
  rcases B with ⟨a', b', c', d'⟩
  cases h1; cases h2; rfl

/-- **C99** Comparison looks at the numbers: a matrix that reports too many elements is not
equal to the matrix with its elements. -/
theorem C99_equality [DecidableEq α] (A : Lil α) (hA : A.Over) :
    (∀ i j, A.get i j = A.recount.get i j) ∧ (A.eq A.recount = true ↔ A.excess = 0) ∧
      (A.recount.eq A = true ↔ A.excess = 0) := by
  have := hA.le
  refine ⟨fun _ _ => rfl, ?_, ?_⟩ <;> simp [Lil.eq, Lil.recount, Lil.excess] <;> omega

/-- **C99** Such matrices are what matrix operations leave that ran out of memory, and the
theorems above apply to them. -/
theorem C99_after_bad_alloc (c : MCall γ τ ζ) (o : MOut γ τ ζ μ) (ho : o.WF) (hg : c.Good o.C.nrows o.C.ncols)
    (C' : Lil γ) (e : c.run o = .done C') (prep : Nat) (work : Nat → Nat) (mem : Nat) (left : Lil γ)
    (h : Ended.RanOut (c.runL prep work o (mem, o.C)) left) : left.Over := by
  rcases C98_matrix_operation_partial c o C' ho hg e prep work mem with h' | ⟨l, h', hw, -, -, hle, -⟩
  · have h1 := h'.1
    rw [h.1] at h1; cases h1
  · have : l = left := h'.2.symm.trans h.2
    subst this
    exact ⟨hw, hle⟩

/-! ### The matrix of C98 that reports two elements and has one -/

/-- What an assignment leaves that ran out of memory, see `Verif.Props.AllocWrong`. -/
def Ex.ov : Lil Nat := ⟨1, 3, 2, [[(0, 5)]]⟩
theorem Ex.ov_over : Ex.ov.Over := ⟨⟨rfl, (Lil.wf_chk (A := ⟨1, 3, 1, [[(0, 5)]]⟩) (by decide +kernel)).rowOK⟩, by decide⟩

/-- `C99_after_bad_alloc`. -/
example : Ex.ov.Over :=
  C99_after_bad_alloc Ex.amC Ex.am (MOut.WF.of0 Ex.am_wf rfl) Ex.amA_wf Ex.amA Ex.am_done 2 (fun _ => 1) 4 Ex.ov ⟨rfl, rfl⟩

/-- Output to it, without a mask and with one. -/
def Ex.ovOut (M : MMask Nat) : MOut Nat Nat Nat Nat := ⟨Ex.ov, M, fun x => x ≠ 0, .none id, id, .merge⟩
def Ex.ovMask : MMask Nat := some (.plain, ⟨1, 3, 3, [[(1, 1), (2, 1)]]⟩)
def Ex.ovCall : MCall Nat Nat Nat := .eWiseAdd ⟨(· + ·), id, id, id, (· + ·), id⟩ (.plain Ex.ov) (.plain ⟨1, 3, 1, [[(2, 4)]]⟩)
theorem Ex.ovCall_over : Ex.ovCall.Over := ⟨Ex.ov_over, (Lil.wf_chk (by decide +kernel)).over⟩
theorem Ex.ovOut_over : (Ex.ovOut none).Over := ⟨Ex.ov_over, fun _ _ h => nomatch h⟩
theorem Ex.ovOut_over' : (Ex.ovOut Ex.ovMask).Over := by
  refine ⟨Ex.ov_over, fun k M h => ?_⟩
  cases h
  exact ⟨⟨rfl, (Lil.wf_chk (A := ⟨1, 3, 2, [[(1, 1), (2, 1)]]⟩) (by decide +kernel)).rowOK⟩, by decide⟩

/-- `C99_matrix_operation`: two elements are written, three are reported with a mask. -/
example : Ex.ovCall.run (Ex.ovOut none) = .done ⟨1, 3, 2, [[(0, 5), (2, 4)]]⟩ ∧
    Ex.ovCall.run (Ex.ovOut Ex.ovMask) = .done ⟨1, 3, 3, [[(0, 5), (2, 4)]]⟩ ∧ (Ex.ovOut Ex.ovMask).left = 1 :=
  ⟨by decide +kernel, by decide +kernel, by decide +kernel⟩
example := C99_matrix_operation Ex.ovCall (Ex.ovOut Ex.ovMask) Ex.ovCall_over Ex.ovOut_over'
/-- `C99_matrix_operation_result` and `C99_unmasked_operation_repairs`. -/
example := C99_matrix_operation_result Ex.ovCall (Ex.ovOut Ex.ovMask) Ex.ovCall_over Ex.ovOut_over'
  ⟨Lil.wf_chk (by decide +kernel), Lil.wf_chk (by decide +kernel)⟩
example := C99_unmasked_operation_repairs Ex.ovCall (Ex.ovOut none) ⟨1, 3, 2, [[(0, 5), (2, 4)]]⟩ Ex.ovCall_over
  Ex.ovOut_over ⟨Lil.wf_chk (by decide +kernel), Lil.wf_chk (by decide +kernel)⟩ rfl (by decide +kernel)

/-- `C99_vector_operation`: a product with a matrix that reports an element and has none. -/
example : (VCall.mxv ⟨(· + ·), (· * ·), (· * ·)⟩ (.plain ⟨1, 2, 1, [[]]⟩) ⟨2, 1, [3, 0], [true, false]⟩ : VCall Nat Nat Nat).run
    (⟨⟨1, 0, [0], [false]⟩, none, fun x => x ≠ 0, .none id, id, .merge⟩ : VOut Nat Nat Nat Nat) = .done ⟨1, 0, [0], [false]⟩ := by
  decide +kernel
example : (VCall.mxv ⟨(· + ·), (· * ·), (· * ·)⟩ (.plain Ex.ov) ⟨3, 1, [3, 0, 0], [true, false, false]⟩ : VCall Nat Nat Nat).OverM :=
  ⟨Ex.ov_over, rfl, rfl, rfl⟩

/-- `C99_reduce_scalar`. -/
example : (Operand.plain Ex.ov).Over := Ex.ov_over

/-- `C99_assign_row_column`. -/
example : assignRow (⟨Ex.ov, none, fun x => x ≠ 0, .none id, id, .merge⟩ : LOut Nat Nat Nat Nat) id ⟨3, 2, [0, 7, 8], [false, true, true]⟩ 0 .all =
    .done ⟨1, 3, 3, [[(1, 7), (2, 8)]]⟩ := by decide +kernel

/-- `C99_methods`. -/
example : (runCalls Lil.call Ex.ov [.nvals, .has 0 0, .remove 0 0, .nvals, .set 0 1 4, .nvals, .resize 2 2, .nvals, .resize 1 2, .nvals]).1 =
    [.ok (.num 2), .ok (.bool true), .ok .unit, .ok (.num 1), .ok .unit, .ok (.num 2), .ok .unit, .ok (.num 2), .ok .unit, .ok (.num 1)] := by
  decide +kernel

/-- `C99_equality`. -/
example : Ex.ov.eq Ex.ov.recount = false ∧ Ex.ov.excess = 1 := by decide

end GBTL

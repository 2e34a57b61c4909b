import Verif.Spec.Overcount
import Verif.Lemmas.Program
import Verif.Lemmas.AllocVec
import Verif.Lemmas.Calls
import Verif.Props.Miscount
/-
Lemmas for C99: operations on matrices that report too many elements.
-/
namespace GBTL
open Spec (Outp MaskKind Accum)

variable {α β γ ζ τ μ : Type}

namespace Lil

theorem Over.recount_wf {A : Lil α} (h : A.Over) : A.recount.WF := recomputeNvals_wf h.wfr

theorem WF.over {A : Lil α} (h : A.WF) : A.Over := ⟨h.toWFr, Nat.le_of_eq h.count.symm⟩

theorem WF.recount_eq {A : Lil α} (h : A.WF) : A.recount = A := by
  have : A.stored = A.nvals := h.count.symm
  unfold recount
  rw [this]

theorem Over.row_nil {A : Lil α} (h : A.Over) (h0 : A.stored = 0) {i : Nat} (hi : i < A.nrows) : A.row i = .ok [] := by
  rw [h.wfr.row_ok hi]
  have : A.recount.rowD i = [] := h.recount_wf.rowD_nil_of_nvals h0 i
  rw [← this]; rfl

theorem recompute_new (m n : Nat) : (Lil.new m n : Lil α).recomputeNvals = Lil.new m n :=
  (Lil.new_wf m n).recount_eq

theorem setRow_new_nil {m n i : Nat} (hi : i < m) : (Lil.new m n : Lil α).setRow i (id : α → α) [] = .ok (Lil.new m n) := by
  have h : (Lil.new m n : Lil α).row i = .ok [] :=
    (Lil.new_wf m n).over.row_nil (by have : (Lil.new m n : Lil α).nvals = _ := (Lil.new_wf m n).count; exact this.symm) hi
  unfold setRow
  rw [h, Except.bind_ok']
  have hw : wr (Lil.new m n : Lil α).rows i (Row.cast (id : α → α) []) = .ok (Lil.new m n : Lil α).rows := by
    unfold wr
    rw [if_pos (by simpa [Lil.new] using hi)]
    congr 1
    simp [Lil.new, Row.cast, List.set_replicate_self]
  rw [hw]
  rfl

end Lil

theorem if_over {A : Lil α} (h : A.Over) {δ : Type} {x y : δ} (hs : A.stored = 0 → x = y) :
    (if A.nvals > 0 then x else y) = if A.recount.nvals > 0 then x else y := by
  have e : A.recount.nvals = A.stored := rfl
  have := h.le
  by_cases h0 : A.stored = 0
  · rw [hs h0]; simp
  · rw [if_pos (by omega), if_pos (by omega)]

theorem if_over_and {A : Lil α} {B : Lil β} (hA : A.Over) (hB : B.Over) {δ : Type} {x y : δ}
    (hs : A.stored = 0 → x = y) (ht : B.stored = 0 → x = y) :
    (if (decide (A.nvals > 0) && decide (B.nvals > 0)) = true then x else y) =
      if (decide (A.recount.nvals > 0) && decide (B.recount.nvals > 0)) = true then x else y := by
  have e : A.recount.nvals = A.stored := rfl
  have e' : B.recount.nvals = B.stored := rfl
  have := hA.le
  have := hB.le
  by_cases h0 : A.stored = 0
  · rw [hs h0]; simp
  · by_cases h1 : B.stored = 0
    · rw [ht h1]; simp
    · rw [if_pos (by simp; omega), if_pos (by simp; omega)]

theorem if_over_or {A : Lil α} {B : Lil β} (hA : A.Over) (hB : B.Over) {δ : Type} {x y : δ}
    (hs : A.stored = 0 → B.stored = 0 → x = y) :
    (if (decide (A.nvals > 0) || decide (B.nvals > 0)) = true then x else y) =
      if (decide (A.recount.nvals > 0) || decide (B.recount.nvals > 0)) = true then x else y := by
  have e : A.recount.nvals = A.stored := rfl
  have e' : B.recount.nvals = B.stored := rfl
  have := hA.le
  have := hB.le
  by_cases h0 : A.stored = 0 ∧ B.stored = 0
  · rw [hs h0.1 h0.2]; simp
  · rw [if_pos (by simp; omega), if_pos (by simp; omega)]

theorem if_over_u {A : Lil α} (hA : A.Over) (k : Nat) {δ : Type} {x y : δ}
    (hs : A.stored = 0 → x = y) :
    (if (decide (A.nvals > 0) && decide (k > 0)) = true then x else y) =
      if (decide (A.recount.nvals > 0) && decide (k > 0)) = true then x else y := by
  have e : A.recount.nvals = A.stored := rfl
  have := hA.le
  by_cases h0 : A.stored = 0
  · rw [hs h0]; simp
  · by_cases h1 : k = 0
    · simp [h1]
    · rw [if_pos (by simp; omega), if_pos (by simp; omega)]

theorem bind_congr_ok {ε σ ρ : Type} {x : Except ε σ} {f g : σ → Except ε ρ} (h : ∀ a, x = .ok a → f a = g a) :
    (x >>= f) = x >>= g := by
  cases x with
  | error e => rfl
  | ok a => exact h a rfl

theorem bind_ok_inv {ε σ ρ : Type} {x : Except ε σ} {f : σ → Except ε ρ} {b : ρ} (h : (x >>= f) = .ok b) :
    ∃ a, x = .ok a ∧ f a = .ok b := by
  cases x with
  | error e => cases h
  | ok a => exact ⟨a, rfl, h⟩

theorem eqCheck_ok {a b : Nat} {u : Unit} (h : eqCheck a b = .ok u) : a = b := by
  unfold eqCheck check at h
  split at h
  · simp_all
  · cases h

/-! ### The products -/

theorem mxmABT_recount {C : Lil γ} {add : τ → τ → τ} {mult : α → β → τ} {A : Lil α} {B : Lil β}
    (hA : A.Over) (hB : B.Over) : mxmABT C add mult A B = mxmABT C add mult A.recount B.recount := by
  unfold mxmABT
  refine if_over_and hA hB (fun h0 => ?_) fun h0 => ?_
  · rw [forN_id fun i hi => by rw [hA.row_nil h0 hi]; rfl]
    exact congrArg Except.ok (Lil.recompute_new _ _)
  · rw [forN_id fun i hi => by
      rw [hA.wfr.row_ok hi, Except.bind_ok']
      split
      · rfl
      · exact forN_id fun j hj => by rw [hB.row_nil h0 hj]; rfl]
    exact congrArg Except.ok (Lil.recompute_new _ _)

theorem mxvA_recount {w : BVec γ} {add : τ → τ → τ} {mult : α → β → τ} {A : Lil α} {u : BVec β}
    (hA : A.Over) (hu : u.WF) (hw : w.size = A.nrows) : mxvA w add mult A u = mxvA w add mult A.recount u := by
  unfold mxvA
  refine if_over_u hA _ fun h0 => ?_
  rw [BVec.getContents_eq hu, Except.bind_ok']
  exact forN_id fun i hi => by rw [hA.row_nil h0 (by omega)]; rfl

theorem vxmAT_recount {w : BVec γ} {add : τ → τ → τ} {mult : β → α → τ} {A : Lil α} {u : BVec β}
    (hA : A.Over) (hu : u.WF) (hw : w.size = A.nrows) : vxmAT w add mult u A = vxmAT w add mult u A.recount := by
  unfold vxmAT
  refine if_over_u hA _ fun h0 => ?_
  rw [BVec.getContents_eq hu, Except.bind_ok']
  exact forN_id fun i hi => by rw [hA.row_nil h0 (by omega)]; rfl

theorem vxmA_recount {add : τ → τ → τ} {mult : β → α → τ} {A : Lil α} {u : BVec β}
    (hA : A.Over) (hu : u.WF) (hw : u.size = A.nrows) : vxmA add mult u A = vxmA add mult u A.recount := by
  unfold vxmA
  refine if_over_u hA _ fun h0 => ?_
  refine forN_id fun i hi => ?_
  rw [hA.row_nil h0 (by omega)]
  cases h : u.hasElement i with
  | error e => exact absurd h (by rw [BVec.hasElement_spec hu hi]; simp)
  | ok b => cases b <;> rfl

theorem transposeT_recount {A : Lil α} (hA : A.Over) : transposeT A = transposeT A.recount := by
  unfold transposeT
  refine if_over hA fun h0 => ?_
  unfold pushCols
  rw [forN_id fun i hi => by dsimp only; rw [hA.row_nil h0 hi]; rfl]
  exact congrArg Except.ok (Lil.recompute_new _ _)

theorem transposed_recount {cast : α → β} {A : Lil α} (hA : A.Over) : transposed cast A = transposed cast A.recount := by
  unfold transposed
  rw [transposeT_recount hA]
  rfl

/-! ### Element-wise operations -/

theorem ewiseAddMat_recount {op : α → β → τ} {c1 : α → τ} {c2 : β → τ} {A : Lil α} {B : Lil β} (hA : A.Over)
    (hB : B.Over) (e : A.nrows = B.nrows) : ewiseAddMat op c1 c2 A B = ewiseAddMat op c1 c2 A.recount B.recount := by
  unfold ewiseAddMat
  refine if_over_or hA hB fun h0 h1 => forN_id fun i hi => ?_
  rw [hA.row_nil h0 hi, hB.row_nil h1 (by omega)]
  exact Lil.setRow_new_nil hi

theorem ewiseAddATBT_recount {op : α → β → τ} {c1 : α → τ} {c2 : β → τ} {A : Lil α} {B : Lil β} (hA : A.Over)
    (hB : B.Over) (e : A.nrows = B.nrows) : ewiseAddATBT op c1 c2 A B = ewiseAddATBT op c1 c2 A.recount B.recount := by
  unfold ewiseAddATBT
  refine if_over_or hA hB fun h0 h1 => ?_
  unfold pushCols
  rw [forN_id fun i hi => by dsimp only; rw [hA.row_nil h0 hi, hB.row_nil h1 (by omega)]; rfl]
  exact congrArg Except.ok (Lil.recompute_new _ _)

theorem ewiseMultMat_recount {op : α → β → τ} {A : Lil α} {B : Lil β} (hA : A.Over)
    (hB : B.Over) (e : A.nrows = B.nrows) : ewiseMultMat op A B = ewiseMultMat op A.recount B.recount := by
  unfold ewiseMultMat
  refine if_over_and hA hB (fun h0 => forN_id fun i hi => ?_) fun h0 => forN_id fun i hi => ?_
  · rw [hA.row_nil h0 hi, hB.wfr.row_ok (by omega)]; rfl
  · rw [hA.wfr.row_ok hi, hB.row_nil h0 (by omega)]
    simp [Except.bind_ok']

theorem ewiseMultATBT_recount {op : α → β → τ} {A : Lil α} {B : Lil β} (hA : A.Over)
    (hB : B.Over) (e : A.nrows = B.nrows) : ewiseMultATBT op A B = ewiseMultATBT op A.recount B.recount := by
  unfold ewiseMultATBT
  refine if_over_and hA hB (fun h0 => ?_) fun h0 => ?_
  · unfold pushCols
    rw [forN_id fun i hi => by dsimp only; rw [hA.row_nil h0 hi, hB.wfr.row_ok (by omega)]; rfl]
    exact congrArg Except.ok (Lil.recompute_new _ _)
  · unfold pushCols
    rw [forN_id fun i hi => by
      dsimp only
      rw [hA.wfr.row_ok hi, hB.row_nil h0 (by omega)]
      simp [Except.bind_ok', pushCol]]
    exact congrArg Except.ok (Lil.recompute_new _ _)

/-! ### Reductions -/

theorem reduceRows_recount {op : α → α → τ} {op' : τ → α → τ} {c : α → τ} {A : Lil α} (hA : A.Over) :
    reduceRows op op' c A = reduceRows op op' c A.recount := by
  unfold reduceRows
  exact if_over hA fun h0 => forN_id fun i hi => by rw [hA.row_nil h0 hi]; rfl

theorem reduceCols_recount {op' : τ → α → τ} {c : α → τ} {A : Lil α} (hA : A.Over) :
    reduceCols op' c A = reduceCols op' c A.recount := by
  unfold reduceCols
  exact if_over hA fun h0 => forN_id fun i hi => by rw [hA.row_nil h0 hi]; rfl

theorem reduceMat_recount {op : α → α → τ} {op' : τ → α → τ} {opT : τ → τ → τ} {c : α → τ} {e : τ} {A : Lil α}
    (hA : A.Over) : reduceMat op op' opT c e A = reduceMat op op' opT c e A.recount := by
  unfold reduceMat
  exact if_over hA fun h0 => forN_id fun i hi => by rw [hA.row_nil h0 hi]; rfl

/-! ### Kronecker products -/

theorem foldlM_id {σ ρ : Type} {f : σ → ρ → Except Err σ} {s : σ} (l : List ρ) (h : ∀ x, f s x = .ok s) :
    l.foldlM f s = .ok s := by
  induction l with
  | nil => rfl
  | cons x l ih => rw [List.foldlM_cons, h, Except.bind_ok', ih]

theorem kronAB_recount {C : Lil γ} {op : α → β → τ} {A : Lil α} {B : Lil β} (hA : A.Over) (hB : B.Over) :
    kronAB C op A B = kronAB C op A.recount B.recount := by
  unfold kronAB
  refine if_over_and hA hB (fun h0 => forN_id fun i hi => ?_) fun h0 => forN_id fun i hi => ?_
  · rw [hA.row_nil h0 hi]; rfl
  · rw [hA.wfr.row_ok hi, Except.bind_ok']
    split
    · rfl
    · rw [forN_id fun j hj => by rw [hB.row_nil h0 hj]; rfl]
      exact congrArg Except.ok (Lil.recompute_new _ _)

theorem kronATB_recount {C : Lil γ} {op : α → β → τ} {A : Lil α} {B : Lil β} (hA : A.Over) (hB : B.Over) :
    kronATB C op A B = kronATB C op A.recount B.recount := by
  unfold kronATB
  refine if_over_and hA hB (fun h0 => forN_id fun i hi => ?_) fun h0 => forN_id fun i hi => ?_
  · rw [hA.row_nil h0 hi]; rfl
  · rw [hA.wfr.row_ok hi, Except.bind_ok']
    split
    · rfl
    · rw [forN_id fun j hj => by rw [hB.row_nil h0 hj]; rfl]
      exact congrArg Except.ok (Lil.recompute_new _ _)

theorem kronATBT_recount {C : Lil γ} {op : α → β → τ} {A : Lil α} {B : Lil β} (hA : A.Over) (hB : B.Over) :
    kronATBT C op A B = kronATBT C op A.recount B.recount := by
  unfold kronATBT
  refine if_over_and hA hB (fun h0 => forN_id fun i hi => ?_) fun h0 => forN_id fun i hi => ?_
  · rw [hA.row_nil h0 hi]; rfl
  · rw [hA.wfr.row_ok hi, Except.bind_ok']
    split
    · rfl
    · rw [forN_id fun j hj => by rw [hB.row_nil h0 hj]; rfl]
      exact congrArg Except.ok (Lil.recompute_new _ _)

theorem kronABT_recount {C : Lil γ} {op : α → β → τ} {A : Lil α} {B : Lil β} (hA : A.Over) (hB : B.Over) :
    kronABT C op A B = kronABT C op A.recount B.recount := by
  unfold kronABT
  refine if_over_and hA hB (fun h0 => forN_id fun i hi => ?_) fun h0 => forN_id fun i hi => ?_
  · rw [hA.row_nil h0 hi]; rfl
  · rw [hA.wfr.row_ok hi, Except.bind_ok']
    split
    · rfl
    · rw [foldlM_id (A.rowD i) (s := (Lil.new C.nrows C.ncols : Lil τ)) fun p =>
        forN_id (n := B.nrows) fun j hj => by rw [hB.row_nil h0 hj]; rfl]
      exact congrArg Except.ok (Lil.recompute_new _ _)

/-! ### Loops over index lists -/

theorem matrixExtractLoop_recount (A : Lil α) (cols : List Nat) :
    ∀ (is : List Nat) (k : Nat) (T : Lil α), matrixExtractLoop A.recount cols k is T = matrixExtractLoop A cols k is T
  | [], _, _ => rfl
  | i :: is, k, T => by
    unfold matrixExtractLoop
    simp only [matrixExtractLoop_recount A cols is]
    rfl

theorem matrixExtractLoopT_recount (A : Lil α) (rows : List Nat) :
    ∀ (is : List Nat) (k : Nat) (T : Lil α), matrixExtractLoopT A.recount rows k is T = matrixExtractLoopT A rows k is T
  | [], _, _ => rfl
  | i :: is, k, T => by
    unfold matrixExtractLoopT
    simp only [matrixExtractLoopT_recount A rows is]
    rfl

theorem extractColumnLoop_recount (A : Lil α) (j : Nat) :
    ∀ (is : List Nat) (k : Nat), extractColumnLoop A.recount j k is = extractColumnLoop A j k is
  | [], _ => rfl
  | i :: is, k => by
    unfold extractColumnLoop
    simp only [extractColumnLoop_recount A j is]
    rfl

theorem matrixExpandLoop_recount (A : Lil α) (pairs : List (Nat × Nat)) :
    ∀ (is : List Nat) (k : Nat) (T : Lil α), matrixExpandLoop A.recount pairs k is T = matrixExpandLoop A pairs k is T
  | [], _, _ => rfl
  | i :: is, k, T => by
    unfold matrixExpandLoop
    simp only [matrixExpandLoop_recount A pairs is]
    rfl

theorem extractT_recount (C : Lil γ) (A : Operand α) (ri ci : Idx) :
    extractT C.recount A.recount ri ci = extractT C A ri ci := by
  rcases A with A | A
  · show extractMat C.recount A.recount ri ci = extractMat C A ri ci
    unfold extractMat
    simp only [matrixExtractLoop_recount]
    rfl
  · show extractMatT C.recount A.recount ri ci = extractMatT C A ri ci
    unfold extractMatT
    simp only [matrixExtractLoopT_recount]
    rfl

theorem extractColT'_recount (w : BVec γ) (A : Operand α) (ri : Idx) (j : Nat) :
    extractColT' w A.recount ri j = extractColT' w A ri j := by
  rcases A with A | A
  · show extractCol w A.recount ri j = extractCol w A ri j
    unfold extractCol
    simp only [extractColumnLoop_recount]
    rfl
  · rfl

theorem assignT_recount (C : Lil γ) (A : Operand α) (ri ci : Idx) :
    assignT C.recount A.recount ri ci = assignT C A ri ci := by
  rcases A with A | A
  · show assignMat C.recount A.recount ri ci = assignMat C A ri ci
    unfold assignMat
    simp only [matrixExpandLoop_recount]
    rfl
  · rfl

/-! ### The first phase of an operation -/

theorem Operand.nrows_recount (A : Operand α) : A.recount.nrows = A.nrows := by cases A <;> rfl
theorem Operand.ncols_recount (A : Operand α) : A.recount.ncols = A.ncols := by cases A <;> rfl

theorem mxmT_recount {C : Lil γ} {sr : SR α β τ} {via : τ → τ} {A : Operand α} {B : Operand β} (hA : A.Over)
    (hB : B.Over) : mxmT C sr via A B = mxmT C.recount sr via A.recount B.recount := by
  cases A <;> cases B
  · rfl
  · exact mxmABT_recount hA hB
  · rfl
  · rfl

theorem eWiseAddT_recount {f : EW α β τ} {A : Operand α} {B : Operand β} (hA : A.Over) (hB : B.Over)
    (e : A.nrows = B.nrows) (e' : A.ncols = B.ncols) : eWiseAddT f A B = eWiseAddT f A.recount B.recount := by
  rcases A with A | A <;> rcases B with B | B
  · exact ewiseAddMat_recount hA hB e
  · show ewiseAddABT _ _ _ _ A B = ewiseAddABT _ _ _ _ A.recount B.recount
    unfold ewiseAddABT
    rw [transposed_recount hB]
    obtain ⟨T, h, hT, h1, -⟩ := transposed_spec (Lil.Over.recount_wf hB) f.castBA
    rw [h, Except.bind_ok', Except.bind_ok', ewiseAddMat_recount hA hT.over (e.trans h1.symm), hT.recount_eq]
  · show ewiseAddATB _ _ _ A B = ewiseAddATB _ _ _ A.recount B.recount
    unfold ewiseAddATB
    rw [transposed_recount hA]
    obtain ⟨T, h, hT, h1, -⟩ := transposed_spec (Lil.Over.recount_wf hA) (id : _ → _)
    rw [h, Except.bind_ok', Except.bind_ok', ewiseAddMat_recount hT.over hB (h1.trans e), hT.recount_eq]
  · exact ewiseAddATBT_recount hA hB e'

theorem eWiseMultT_recount {f : EW α β τ} {A : Operand α} {B : Operand β} (hA : A.Over) (hB : B.Over)
    (e : A.nrows = B.nrows) (e' : A.ncols = B.ncols) : eWiseMultT f A B = eWiseMultT f A.recount B.recount := by
  rcases A with A | A <;> rcases B with B | B
  · exact ewiseMultMat_recount hA hB e
  · show ewiseMultABT _ _ A B = ewiseMultABT _ _ A.recount B.recount
    unfold ewiseMultABT
    rw [transposed_recount hB]
    obtain ⟨T, h, hT, h1, -⟩ := transposed_spec (Lil.Over.recount_wf hB) f.castBA
    rw [h, Except.bind_ok', Except.bind_ok', ewiseMultMat_recount hA hT.over (e.trans h1.symm), hT.recount_eq]
  · show ewiseMultATB _ A B = ewiseMultATB _ A.recount B.recount
    unfold ewiseMultATB
    rw [transposed_recount hA]
    obtain ⟨T, h, hT, h1, -⟩ := transposed_spec (Lil.Over.recount_wf hA) (id : _ → _)
    rw [h, Except.bind_ok', Except.bind_ok', ewiseMultMat_recount hT.over hB (h1.trans e), hT.recount_eq]
  · exact ewiseMultATBT_recount hA hB e'

theorem kronT_recount {C : Lil γ} {f : α → β → τ} {A : Operand α} {B : Operand β} (hA : A.Over)
    (hB : B.Over) : kronT C f A B = kronT C.recount f A.recount B.recount := by
  cases A <;> cases B
  · exact kronAB_recount hA hB
  · exact kronABT_recount hA hB
  · exact kronATB_recount hA hB
  · exact kronATBT_recount hA hB

theorem accumMat_recount (C : Lil γ) (acc : Accum γ τ ζ) (T : Lil τ) :
    accumMat C acc T = accumMat C.recount acc T := by
  cases acc <;> rfl

theorem stencilM_recount (keep : γ → ζ) (Z : Lil ζ) (C : Lil γ) (T : Lil τ) (ri ci : Idx) (acc : Accum γ τ ζ) :
    ewiseOrStencilOptAccum keep Z C T ri ci acc = ewiseOrStencilOptAccum keep Z C.recount T ri ci acc := by
  cases acc <;> rfl

theorem MMask.rowCheck_recount (M : MMask μ) (n : Nat) : (MMask.recount M).rowCheck n = M.rowCheck n := by
  cases M <;> rfl
theorem MMask.colCheck_recount (M : MMask μ) (n : Nat) : (MMask.recount M).colCheck n = M.colCheck n := by
  cases M <;> rfl

theorem Lil.nrows_recount (A : Lil α) : A.recount.nrows = A.nrows := rfl
theorem Lil.ncols_recount (A : Lil α) : A.recount.ncols = A.ncols := rfl

theorem MOut.checks2_recount (o : MOut γ τ ζ μ) (A : Operand α) (B : Operand β) :
    o.recount.checks2 A.recount B.recount = o.checks2 A B := by
  simp only [MOut.checks2, MOut.recount, MMask.rowCheck_recount, MMask.colCheck_recount,
      Operand.nrows_recount, Operand.ncols_recount, Lil.nrows_recount, Lil.ncols_recount]

theorem MOut.checks2_ok {o : MOut γ τ ζ μ} {A : Operand α} {B : Operand β} {u : Unit}
    (h : o.checks2 A B = .ok u) : A.nrows = B.nrows ∧ A.ncols = B.ncols := by
  unfold MOut.checks2 at h
  obtain ⟨_, _, h⟩ := bind_ok_inv h
  obtain ⟨_, _, h⟩ := bind_ok_inv h
  obtain ⟨_, _, h⟩ := bind_ok_inv h
  obtain ⟨_, _, h⟩ := bind_ok_inv h
  obtain ⟨_, h1, h⟩ := bind_ok_inv h
  exact ⟨eqCheck_ok h, eqCheck_ok h1⟩

theorem MCall.pre_recount (c : MCall γ τ ζ) (o : MOut γ τ ζ μ) (hc : c.Over) :
    c.pre o = c.recount.pre o.recount := by
  cases c with
  | mxm sr via A B =>
    simp only [MCall.pre, MCall.recount, MOut.recount, MMask.rowCheck_recount, MMask.colCheck_recount,
      Operand.nrows_recount, Operand.ncols_recount]
    rw [mxmT_recount hc.1 hc.2]
    simp only [accumMat_recount o.C]
    rfl
  | eWiseAdd f A B =>
    simp only [MCall.pre, MCall.recount, MOut.checks2_recount]
    refine bind_congr_ok fun u h => ?_
    rw [eWiseAddT_recount hc.1 hc.2 (MOut.checks2_ok h).1 (MOut.checks2_ok h).2]
    simp only [accumMat_recount o.C]
    rfl
  | eWiseMult f A B =>
    simp only [MCall.pre, MCall.recount, MOut.checks2_recount]
    refine bind_congr_ok fun u h => ?_
    rw [eWiseMultT_recount hc.1 hc.2 (MOut.checks2_ok h).1 (MOut.checks2_ok h).2]
    simp only [accumMat_recount o.C]
    rfl
  | apply f A =>
    simp only [MCall.pre, MCall.recount, MOut.recount, MMask.rowCheck_recount, MMask.colCheck_recount,
      Operand.nrows_recount, Operand.ncols_recount, accumMat_recount o.C]
    cases A <;> rfl
  | extract A ri ci =>
    simp only [MCall.pre, MCall.recount, MOut.recount, MMask.rowCheck_recount, MMask.colCheck_recount,
      extractT_recount, accumMat_recount o.C, Lil.nrows_recount, Lil.ncols_recount]
  | transpose A =>
    have e : transposeOperandT A >>= accumMat o.C o.acc = transposeOperandT A.recount >>= accumMat o.C.recount o.acc := by
      rcases A with A | A
      · show transposeT A >>= _ = transposeT A.recount >>= _
        rw [transposeT_recount hc, show accumMat o.C o.acc = accumMat o.C.recount o.acc from
          funext fun T => accumMat_recount o.C o.acc T]
      · show accumMat o.C o.acc A = accumMat o.C.recount o.acc A.recount
        cases o.acc <;> rfl
    simp only [MCall.pre, MCall.recount, MOut.recount, MMask.rowCheck_recount, MMask.colCheck_recount,
      Operand.nrows_recount, Operand.ncols_recount, Lil.nrows_recount, Lil.ncols_recount]
    rw [e]
  | kronecker f A B =>
    simp only [MCall.pre, MCall.recount, MOut.recount, MMask.rowCheck_recount, MMask.colCheck_recount,
      Operand.nrows_recount, Operand.ncols_recount]
    rw [kronT_recount hc.1 hc.2]
    simp only [accumMat_recount o.C]
    rfl
  | assign keep A ri ci =>
    simp only [MCall.pre, MCall.recount, MOut.recount, MMask.rowCheck_recount, MMask.colCheck_recount,
      Operand.nrows_recount, Operand.ncols_recount, Lil.nrows_recount, Lil.ncols_recount, assignT_recount]
    simp only [stencilM_recount keep _ o.C]
  | assignConst keep x ri ci =>
    simp only [MCall.pre, MCall.recount, MOut.recount, MMask.rowCheck_recount, MMask.colCheck_recount]
    simp only [stencilM_recount keep _ o.C]
    rfl

end GBTL

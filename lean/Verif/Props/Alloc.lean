import Verif.Lemmas.AllocVec
import Verif.Props.General
/-
C98: running out of memory. Whichever request for memory fails, the call throws
`std::bad_alloc`; what the container holds then.
-/
namespace GBTL
open Spec (Outp MaskKind Op)

variable {α β γ ζ τ μ : Type}

/-! ### Vectors: all or nothing -/

/-- An operation that writes a vector. -/
theorem C98_vector_operation (c : VCall γ τ ζ) (o : VOut γ τ ζ μ) (w' : BVec γ) (hw : o.w.WF)
    (e : c.run o = .done w') (prep work : Nat) :
    WholeOrNone (c.runL prep work o) o.w (.ok (), w') :=
  (VCall.runL_done hw e prep work).wholeOrNone

/-- The same for a call that throws. -/
theorem C98_vector_operation_throws (c : VCall γ τ ζ) (o : VOut γ τ ζ μ) (w' : BVec γ) (er : Err)
    (e : c.run o = .threw er w') (prep work : Nat) :
    WholeOrNone (c.runL prep work o) o.w (.error er, o.w) :=
  (VCall.runL_threw e prep work).wholeOrNone

theorem C98_vector_build [Inhabited α] (v : BVec α) (dup : α → α → α) (ts : List (Nat × α)) :
    WholeOrNone (BVec.buildL dup ts) v (v.build dup ts) :=
  (BVec.buildL_runs v dup ts).wholeOrNone

/-- Copying a vector into another asks for no memory. -/
theorem C98_vector_assign (v rhs : BVec α) (hv : v.WF) (hr : rhs.WF) (mem : Nat) :
    Ended.AsUsual (BVec.assignFromL rhs (mem, v)) (v.assignFrom rhs) :=
  (BVec.assignFromL_runs hv hr).always mem

/-- Clearing a vector asks for no memory. -/
theorem C98_vector_clear (v : BVec α) (hv : v.WF) (mem : Nat) :
    Ended.Returned (BVec.clearL (mem, v)) v.clear :=
  (BVec.clearL_runs hv.blen).always mem

/-- A vector that cannot grow is the same to its user, and resizing it later has the
effect it would have had. -/
theorem C98_vector_resize [Inhabited α] (v : BVec α) (n : Nat) (hv : v.WF) :
    (∀ mem, Ended.AsUsual (BVec.resizeL n (mem, v)) (v.resize n) ∨
      ∃ c, Ended.RanOut (BVec.resizeL n (mem, v)) c ∧ c.size = v.size ∧ c.nvals = v.nvals ∧
        (∀ i, c.hasElement i = v.hasElement i ∧ c.extractElement i = v.extractElement i) ∧
        ∀ k, k ≠ v.size → c.resize k = ((v.resize k).1, if k = 0 then c else (v.resize k).2)) ∧
    Suffices (BVec.resizeL n) v (v.resize n) := by
  have h := BVec.resizeL_runs v n
  refine ⟨fun mem => (h.asUsual mem).imp id fun ⟨c, hr, hc⟩ => ⟨c, hr, ?_⟩, h.suffices'⟩
  rcases hc with rfl | ⟨hn, rfl⟩
  · refine ⟨rfl, rfl, fun i => ⟨rfl, rfl⟩, fun k _ => ?_⟩
    unfold BVec.resize
    by_cases hk : k = 0
    · rw [if_pos hk]; rw [if_pos hk]
    · rw [if_neg hk]; rw [if_neg hk]
  · have hl := hv.vlen
    have hvals : resizeList v.vals n default = v.vals ++ List.replicate (n - v.size) default := by
      rw [resizeList, List.take_of_length_le (by omega), hl]
    refine ⟨rfl, rfl, fun i => ⟨rfl, ?_⟩, fun k hk => ?_⟩
    · unfold BVec.extractElement
      by_cases hi : v.size ≤ i
      · rw [if_pos hi, if_pos hi]
      · rw [if_neg hi, if_neg hi]
        dsimp only
        have hrd : rd (resizeList v.vals n default) i = rd v.vals i := by
          rw [hvals, rd, rd, List.getElem?_append_left (by omega)]
        rw [hrd]
    · unfold BVec.resize
      by_cases h0 : k = 0
      · rw [if_pos h0, if_pos h0, if_pos h0]
      · rw [if_neg h0, if_neg h0, if_neg h0]
        have key : resizeList (resizeList v.vals n default) k default = resizeList v.vals k default := by
          rw [hvals, resizeList, resizeList, List.take_append, List.take_replicate, List.append_assoc,
            List.replicate_append_replicate, List.length_append, List.length_replicate, hl]
          congr 2
          omega
        unfold BVec.resizeBackend
        dsimp only
        rw [key]
        by_cases h1 : k < v.size
        · rw [if_pos h1, if_pos h1]
        · rw [if_neg h1, if_neg h1, if_pos (by omega), if_pos (by omega)]

/-! ### Matrices: single elements and shapes -/

theorem C98_setElement (A : Lil α) (i j : Nat) (x : α) :
    WholeOrNone (Lil.setElementL i j x) A (A.setElement i j x) :=
  (Lil.setElementMergeL_runs A i j x _).wholeOrNone

theorem C98_matrix_resize (A : Lil α) (m n : Nat) :
    WholeOrNone (Lil.resizeL m n) A (A.resize m n) :=
  (Lil.resizeL_runs A m n).wholeOrNone

/-- `build` stores the triples one after the other: the first ones are kept. -/
theorem C98_matrix_build (A : Lil α) (dup : α → α → α) (ts : List (Nat × Nat × α)) :
    (∀ mem, Ended.AsUsual (Lil.buildL dup ts (mem, A)) (A.build dup ts) ∨
      ∃ k left, Ended.RanOut (Lil.buildL dup ts (mem, A)) left ∧ k < ts.length ∧
        A.build dup (ts.take k) = (.ok (), left)) ∧
    Suffices (Lil.buildL dup ts) A (A.build dup ts) :=
  ⟨fun mem => ((Lil.buildL_runs dup ts A).asUsual mem).imp id fun ⟨c, hr, k, hk, e⟩ => ⟨k, c, hr, hk, e⟩,
    (Lil.buildL_runs dup ts A).suffices'⟩

/-! ### Matrices: operations -/

theorem Torn.rows {rest C' left : Lil γ} {i : Nat} (h : Torn rest C' left i) (k : Nat) :
    left.rowD k = C'.rowD k ∨ left.rowD k = rest.rowD k ∨ ∃ l, left.rowD k = (C'.rowD k).take l := by
  by_cases h1 : k < i
  · exact .inl (h.above k h1)
  · by_cases h2 : i < k
    · exact .inr (.inl (h.below k h2))
    · obtain rfl : k = i := by omega
      rcases h.row with ⟨e, _⟩ | ⟨l, _, e, _⟩
      · exact .inr (.inl e)
      · exact .inr (.inr ⟨l, e⟩)

theorem Torn.stored_le {rest C' left : Lil γ} {i : Nat} (h : Torn rest C' left i) :
    left.stored ≤ left.nvals := by
  rcases h.row with ⟨_, e⟩ | ⟨l, _, _, e⟩ <;> omega

theorem Row.OK.take {n : Nat} {r : Row γ} (h : Row.OK n r) (l : Nat) : Row.OK n (r.take l) :=
  ⟨List.Pairwise.sublist (List.take_sublist l r) h.sorted, fun q hq => h.bound q (List.mem_of_mem_take hq)⟩

theorem Row.get_take {r : Row γ} (l : Nat) (j : Nat) : Row.get (r.take l) j = Row.get r j ∨ Row.get (r.take l) j = none := by
  induction r generalizing l with
  | nil => simp
  | cons p r ih =>
    obtain ⟨k, x⟩ := p
    cases l with
    | zero => right; rfl
    | succ l =>
      rw [List.take_succ_cons, Row.get_cons, Row.get_cons]
      by_cases hk : k = j
      · rw [if_pos hk, if_pos hk]; exact .inl rfl
      · rw [if_neg hk, if_neg hk]; exact ih l

theorem Torn.wfr {rest C' left : Lil γ} {i : Nat} (h : Torn rest C' left i) (hr : rest.WFr) (hC : C'.WFr)
    (h1 : rest.nrows = C'.nrows) (h2 : rest.ncols = C'.ncols) : left.WFr := by
  refine ⟨by rw [h.len, hr.len, h1, h.nrows], fun r hm => ?_⟩
  obtain ⟨k, hk, rfl⟩ := List.mem_iff_getElem.1 hm
  rw [← Lil.rowD_of_lt hk, h.ncols]
  rcases h.rows k with e | e | ⟨l, e⟩
  · rw [e]; exact hC.rowD_ok k
  · rw [e, ← h2]; exact hr.rowD_ok k
  · rw [e]; exact (hC.rowD_ok k).take l

theorem MOut.rest_wf {o : MOut γ τ ζ μ} (h : o.C.WF) : o.rest.WF := by
  unfold MOut.rest; split
  · exact Lil.clear_wf h.toWFr
  · exact h

theorem MOut.rest_shape (o : MOut γ τ ζ μ) : o.rest.nrows = o.C.nrows ∧ o.rest.ncols = o.C.ncols := by
  unfold MOut.rest; split <;> exact ⟨rfl, rfl⟩

theorem MOut.rest_get (o : MOut γ τ ζ μ) (i j : Nat) : o.rest.get i j = o.C.get i j ∨ o.rest.get i j = none := by
  unfold MOut.rest; split
  · right; rw [Lil.get, Lil.rowD_clear]; rfl
  · exact .inl rfl

/-- A call that throws for another reason leaves the output as it was. -/
theorem C98_matrix_operation_throws (c : MCall γ τ ζ) (o : MOut γ τ ζ μ) (C' : Lil γ) (er : Err)
    (e : c.run o = .threw er C') (prep : Nat) (work : Nat → Nat) :
    WholeOrNone (c.runL prep work o) o.C (.error er, o.C) :=
  (MCall.runL_threw e prep work).wholeOrNone

/-- Until the output is written it is not touched. -/
theorem C98_matrix_operation_early (c : MCall γ τ ζ) (o : MOut γ τ ζ μ) (prep : Nat) (work : Nat → Nat)
    (mem : Nat) (h : mem < prep) : Ended.RanOut (c.runL prep work o (mem, o.C)) o.C := by
  have key : ∀ (k mem : Nat) (s : Lil γ), mem < k →
      requests k (mem, s) = (.error (.op .badAlloc), (0, s)) := by
    intro k
    induction k with
    | zero => intro mem s h; omega
    | succ k ih =>
      intro mem s h
      cases mem with
      | zero => rfl
      | succ m => exact ih m s (by omega)
  have : c.runL prep work o (mem, o.C) = (.error (.op .badAlloc), (0, o.C)) := by
    show Act.andThen (requests prep) _ (mem, o.C) = _
    unfold Act.andThen
    rw [key prep mem o.C h]
  rw [this]
  exact ⟨rfl, rfl⟩

/-- What the output of a matrix operation holds. -/
theorem C98_matrix_operation_actual (c : MCall γ τ ζ) (o : MOut γ τ ζ μ) (C' : Lil γ) (hC : o.C.WF)
    (e : c.run o = .done C') (prep : Nat) (work : Nat → Nat) :
    (∀ mem, Ended.Returned (c.runL prep work o (mem, o.C)) C' ∨
      Ended.RanOut (c.runL prep work o (mem, o.C)) o.C ∨
      ∃ i left, i < o.C.nrows ∧ Ended.RanOut (c.runL prep work o (mem, o.C)) left ∧
        Torn (match o.M with | none => o.C.clear | some _ => o.C) C' left i) ∧
    Suffices (c.runL prep work o) o.C (.ok (), C') := by
  have h := MCall.runL_done hC e prep work
  refine ⟨fun mem => ?_, h.suffices'⟩
  rcases h.asUsual mem with h | ⟨left, h1, h2⟩
  · exact .inl h
  · rcases h2 with rfl | ⟨i, hi, ht⟩
    · exact .inr (.inl h1)
    · exact .inr (.inr ⟨i, left, hi, h1, ht⟩)

/-- A matrix operation that runs out of memory leaves a matrix of the same shape with
sorted rows whose elements are old ones or new ones. What is missing for the property:
`nvals` may be too large, and part of the rows may be written. -/
theorem C98_matrix_operation_partial (c : MCall γ τ ζ) (o : MOut γ τ ζ μ) (C' : Lil γ) (ho : o.WF)
    (hg : c.Good o.C.nrows o.C.ncols) (e : c.run o = .done C') (prep : Nat) (work : Nat → Nat)
    (mem : Nat) :
    Ended.Returned (c.runL prep work o (mem, o.C)) C' ∨
      ∃ left, Ended.RanOut (c.runL prep work o (mem, o.C)) left ∧ left.WFr ∧
        left.nrows = o.C.nrows ∧ left.ncols = o.C.ncols ∧ left.stored ≤ left.nvals ∧
        left.clear.WF ∧
        ∀ i j, left.get i j = none ∨ left.get i j = o.C.get i j ∨ left.get i j = C'.get i j := by
  obtain ⟨F, -, h⟩ := c.main _ _ hg
  obtain ⟨h1, h2⟩ := h μ o ho rfl rfl
  have hC' : C'.WF ∧ C'.nrows = o.C.nrows ∧ C'.ncols = o.C.ncols := by
    by_cases hs : o.M.Fits o.C.nrows o.C.ncols ∧ c.Accepts o.C.nrows o.C.ncols
    · obtain ⟨D, e', hw⟩ := h1 hs.1 hs.2
      rw [e] at e'
      cases e'
      exact ⟨hw.wf, hw.nrows, hw.ncols⟩
    · obtain ⟨er, -, e'⟩ := h2 hs
      rw [e] at e'; cases e'
  rcases (MCall.runL_done ho.out e prep work).asUsual mem with h | ⟨left, h1, h2⟩
  · exact .inl h
  · right
    rcases h2 with rfl | ⟨i, hi, ht⟩
    · exact ⟨o.C, h1, ho.out.toWFr, rfl, rfl, Nat.le_of_eq ho.out.count.symm, Lil.clear_wf ho.out.toWFr,
        fun i j => .inr (.inl rfl)⟩
    · have hwf := ht.wfr (MOut.rest_wf ho.out).toWFr hC'.1.toWFr (by rw [o.rest_shape.1, hC'.2.1])
        (by rw [o.rest_shape.2, hC'.2.2])
      refine ⟨left, h1, hwf, by rw [ht.nrows, hC'.2.1], by rw [ht.ncols, hC'.2.2], ht.stored_le,
        Lil.clear_wf hwf, fun k j => ?_⟩
      rcases ht.rows k with e | e | ⟨l, e⟩
      · right; right; rw [Lil.get, e]; rfl
      · rcases o.rest_get k j with e' | e'
        · right; left; rw [← e', Lil.get, e]; rfl
        · left; rw [← e', Lil.get, e]; rfl
      · rcases Row.get_take (r := C'.rowD k) l j with e' | e'
        · right; right; rw [Lil.get, e, e']; rfl
        · left; rw [Lil.get, e, e']

/-! ### Rows, columns, copies -/

/-- A column assignment that runs out of memory leaves a consistent matrix: the rows above
some row are done, the others as before. -/
theorem C98_assign_column [Inhabited γ] (o : LOut γ α ζ μ) (keep : γ → ζ) (u : BVec α) (ri : Idx)
    (j : Nat) (C' : Lil γ) (hC : o.C.WF) (e : assignCol o keep u ri j = .done C') (prep : Nat) :
    (∀ mem, Ended.Returned (assignColL prep o keep u ri j (mem, o.C)) C' ∨
      ∃ k left, Ended.RanOut (assignColL prep o keep u ri j (mem, o.C)) left ∧
        left.WF ∧
        ∀ i, left.rowD i = if i < k then C'.rowD i else o.C.rowD i) ∧
    Suffices (assignColL prep o keep u ri j) o.C (.ok (), C') := by
  have h := assignColL_done hC (assignCol_done e).2.2.1 e prep
  refine ⟨fun mem => (h.asUsual mem).imp id fun ⟨left, h1, h2⟩ => ?_, h.suffices'⟩
  rcases h2 with rfl | ⟨k, hk, ht, hn⟩
  · exact ⟨0, o.C, h1, hC, fun i => by rw [if_neg (Nat.not_lt_zero i)]⟩
  · refine ⟨k, left, h1, hn, fun i => ?_⟩
    by_cases h1 : i < k
    · rw [if_pos h1]; exact ht.above i h1
    · rw [if_neg h1]
      by_cases h2 : k < i
      · exact ht.below i h2
      · obtain rfl : i = k := by omega
        rcases ht.row with ⟨e, _⟩ | ⟨l, hl, _, e⟩
        · exact e
        · have : left.nvals = left.stored := hn.count
          omega

/-- A row assignment that runs out of memory: the row has some of its new elements, and
`nvals` counts the missing ones. -/
theorem C98_assign_row_actual [Inhabited γ] (o : LOut γ α ζ μ) (keep : γ → ζ) (u : BVec α) (i : Nat)
    (ci : Idx) (C' : Lil γ) (hC : o.C.WF) (e : assignRow o keep u i ci = .done C') (prep : Nat) :
    (∀ mem, Ended.Returned (assignRowL prep o keep u i ci (mem, o.C)) C' ∨
      Ended.RanOut (assignRowL prep o keep u i ci (mem, o.C)) o.C ∨
      ∃ k left, Ended.RanOut (assignRowL prep o keep u i ci (mem, o.C)) left ∧
        k < (C'.rowD i).length ∧ left.rowD i = (C'.rowD i).take k ∧
        left.nvals = left.stored + ((C'.rowD i).length - k) ∧
        ∀ l, l ≠ i → left.rowD l = o.C.rowD l) ∧
    Suffices (assignRowL prep o keep u i ci) o.C (.ok (), C') := by
  have h := assignRowL_done hC e prep
  refine ⟨fun mem => ?_, h.suffices'⟩
  rcases h.asUsual mem with h | ⟨left, h1, h2⟩
  · exact .inl h
  · rcases h2 with rfl | ⟨k, hk, e1, e2, _, _, e3⟩
    · exact .inr (.inl h1)
    · exact .inr (.inr ⟨k, left, h1, hk, e1, e2, e3⟩)

/-- Copying a matrix into another: the first rows are copied, the others are as before,
and `nvals` is that of the source. -/
theorem C98_matrix_assign_actual (A rhs : Lil α) (hA : A.WF) (hr : rhs.WF) :
    (∀ mem, Ended.AsUsual (Lil.assignFromL rhs (mem, A)) (A.assignFrom rhs) ∨
      ∃ k left, Ended.RanOut (Lil.assignFromL rhs (mem, A)) left ∧ k < rhs.nrows ∧
        left.nvals = rhs.stored ∧ left.rows = rhs.rows.take k ++ A.rows.drop k) ∧
    Suffices (Lil.assignFromL rhs) A (A.assignFrom rhs) := by
  have h := Lil.assignFromL_runs A rhs hA.len hr.len
  refine ⟨fun mem => (h.asUsual mem).imp id fun ⟨left, h1, k, hk, e⟩ => ⟨k, left, h1, hk, ?_, ?_⟩,
    h.suffices'⟩
  · rw [e]; exact hr.count
  · rw [e]

end GBTL

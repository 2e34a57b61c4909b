import Verif.Props.EffectsCalls
/-
C96: where the output is not as before although an operator threw.
-/
namespace GBTL
open Spec (Outp MaskKind Accum Op EAccum Vec Returns ReturnsOrThrows)
open Act (call lib output store)

variable {ω χ X α β γ τ ζ μ : Type}

/-- `Matrix::build` keeps what it stored before `dup` threw. -/
theorem C96_matBuild_wrong :
    ¬ ∀ (dup : Nat → Nat → Op Nat String Nat) (ts : List (Nat × Nat × Nat)),
      AllOrNothing (matBuildE dup ts) := fun h => by
  have := h addUpTo9 [(0, 0, 5), (0, 1, 1), (0, 0, 7), (0, 1, 1)] 0 (Lil.new 1 2) (.op "too big") 1
    ⟨1, 2, 2, [[(0, 5), (1, 1)]]⟩ rfl
  exact absurd this (by decide)

/-- What `Matrix::build` leaves when `dup` throws: the tuples before the one it threw at are
stored and merged, nothing after it; the throwing call was the last one and was made for
the value stored at that place and the tuple's. -/
theorem C96_matBuild_actual {dup : α → α → Op ω X α} {x : X} {ts : List (Nat × Nat × α)} {A A' : Lil α}
    {w w' : ω} (h : matBuildE dup ts (w, A) = (.error (.op x), (w', A'))) :
    ∃ before i j v after w1 old, ts = before ++ (i, j, v) :: after ∧
      matBuildE dup before (w, A) = (.ok (), (w1, A')) ∧
      A'.get i j = some old ∧ dup old v w1 = (.error x, w') := by
  obtain ⟨before, t, after, w1, e1, e2, e3⟩ := matBuildE_threw h
  obtain ⟨i, j, v⟩ := t
  obtain ⟨old, g1, g2⟩ := setElementMergeE_threw e3
  exact ⟨before, i, j, v, after, w1, old, e1, e2, g1, g2⟩

example : matBuildE addUpTo9 [(0, 0, 5), (0, 1, 1), (0, 0, 7), (0, 1, 1)] (0, Lil.new 1 2) =
    (.error (.op "too big"), (1, ⟨1, 2, 2, [[(0, 5), (1, 1)]]⟩)) := rfl

/-- `mxm` of the `optimized_sequential` backend keeps the rows it stored before an operator
threw. -/
theorem C96_opt_mxm_wrong :
    ¬ ∀ (add mult : Nat → Nat → Op Nat String Nat) (A B : Lil Nat),
      AllOrNothing (optMxmABE add mult id A B) := fun h => by
  have := h addUpTo9 mulUpTo9 ⟨2, 1, 2, [[(0, 2)], [(0, 5)]]⟩ ⟨1, 1, 1, [[(0, 3)]]⟩ 0
    ⟨2, 1, 1, [[], [(0, 8)]]⟩ (.op "too big") 2 ⟨2, 1, 2, [[(0, 6)], [(0, 8)]]⟩ rfl
  exact absurd this (by decide)

/-- What it leaves: if an operator throws, some rows from the top are those of the product
and the others are as before. -/
theorem C96_opt_mxm_actual {add : τ → τ → Op ω X τ} {mult : α → β → Op ω X τ} {fa : τ → τ → τ}
    {fm : α → β → τ} (ha : ∀ x y, ReturnsOrThrows (add x y) (fa x y))
    (hm : ∀ x y, ReturnsOrThrows (mult x y) (fm x y)) (cast : τ → γ) {A : Lil α} {B : Lil β} {C : Lil γ}
    (hA : A.WF) (hB : B.WF) (hC : C.WF) (h1 : C.nrows = A.nrows) (h2 : C.ncols = B.ncols)
    (h3 : A.ncols = B.nrows) (w : ω) :
    ∃ w' C' k, C'.WF ∧ C'.nrows = C.nrows ∧ C'.ncols = C.ncols ∧ k ≤ C.nrows ∧
      (∀ i j, i < C.nrows → C'.get i j =
        if i < k then (Spec.mxm A.ncols fa fm A.get B.get i j).map cast else C.get i j) ∧
      (optMxmABE add mult cast A B (w, C) = (.ok (), (w', C')) ∧ k = C.nrows ∨
        ∃ x, optMxmABE add mult cast A B (w, C) = (.error (.op x), (w', C')) ∧ k < C.nrows) := by
  have hk : (do
      eqCheck C.nrows A.nrows
      eqCheck C.ncols B.ncols
      eqCheck A.ncols B.nrows) = .ok () := by
    rw [h1, h2, h3]; simp [eqCheck, check]
  unfold optMxmABE
  rw [Act.bind_output, Act.bind_ok (Act.lib_ok hk)]
  split
  · next hz =>
    rw [Bool.or_eq_true, beq_iff_eq, beq_iff_eq] at hz
    refine ⟨w, C.clear, C.nrows, Lil.clear_wf hC.toWFr, rfl, rfl, Nat.le_refl _, fun i j hi => ?_,
      .inl ⟨rfl, rfl⟩⟩
    have e : Spec.mxm A.ncols fa fm A.get B.get i j = none := by
      refine osum_none _ _ _ fun k _ => ?_
      rcases hz with hz | hz
      · rw [hA.get_none_of_nvals (by omega) i k]; rfl
      · rw [hB.get_none_of_nvals (by omega) k j]; cases A.get i k <;> rfl
    rw [if_pos hi, e]
    unfold Lil.get
    rw [Lil.rowD_clear]
    rfl
  · have hr := optABKernelE_rows ha hm cast hA hB hC h1 h2 h3 w A.nrows (Nat.le_refl _)
    have hg : ∀ {k : Nat} {C' : Lil γ},
        RowsTo k (fun i => rowProd fa fm (A.rowD i) B.rowD []) cast C C' → ∀ i j, C'.get i j =
          if i < k then (Spec.mxm A.ncols fa fm A.get B.get i j).map cast else C.get i j := by
      intro k C' q i j
      unfold Lil.get
      rw [q.row]
      split
      · rw [Row.get_cast, rowProd_get fa fm (hA.rowD_ok i) hB.rowD_ok j]
        rfl
      · rfl
    obtain ⟨w', C', ⟨e, q⟩ | ⟨k, x, hk, e, q⟩⟩ := hr
    · exact ⟨w', C', A.nrows, q.wf, q.nrows, q.ncols, by omega, fun i j _ => hg q i j, .inl ⟨e, h1.symm⟩⟩
    · exact ⟨w', C', k, q.wf, q.nrows, q.ncols, by omega, fun i j _ => hg q i j,
        .inr ⟨x, e, by omega⟩⟩

theorem addUpTo9_returns (x y : Nat) : ReturnsOrThrows (addUpTo9 x y) (x + y) := fun n => by
  unfold addUpTo9
  by_cases h : x + y ≤ 9
  · rw [if_pos h]; exact .inl ⟨_, rfl⟩
  · rw [if_neg h]; exact .inr ⟨_, _, rfl⟩

theorem mulUpTo9_returns (x y : Nat) : ReturnsOrThrows (mulUpTo9 x y) (x * y) := fun n => by
  unfold mulUpTo9
  by_cases h : x * y ≤ 9
  · rw [if_pos h]; exact .inl ⟨_, rfl⟩
  · rw [if_neg h]; exact .inr ⟨_, _, rfl⟩

/-- The hypotheses hold of these operators and `[[1,2],[.,3]]·[[1,2],[.,3]]`; with
`[[.,5],[7,.]]` on the right the second product throws, with the first row not stored
yet. -/
example : Ex.A.WF ∧ Ex.B.WF ∧
    optMxmABE addUpTo9 mulUpTo9 id Ex.A Ex.A (0, Ex.B) = (.ok (), (5, ⟨2, 2, 3, [[(0, 1), (1, 8)], [(1, 9)]]⟩)) ∧
    optMxmABE addUpTo9 mulUpTo9 id Ex.A Ex.B (0, Ex.A) = (.error (.op "too big"), (2, Ex.A)) :=
  ⟨Ex.A_wf, Ex.B_wf, by decide +kernel, by decide +kernel⟩

end GBTL

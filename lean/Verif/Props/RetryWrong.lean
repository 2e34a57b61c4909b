import Verif.Props.Retry
/-
C102: where a call that is made again does not have the effect it would have had at once,
copies of matrices, and cases that meet the hypotheses of the theorems.
-/
namespace GBTL
open Spec (Outp MaskKind Op)

variable {α : Type}

/-- **C102** Copying a matrix into another. -/
theorem C102_matrix_copy (A rhs X : Lil α) (hA : A.WF) (hr : rhs.WF) (h1 : A.nrows = rhs.nrows)
    (h2 : A.ncols = rhs.ncols) (hX : Retried (fun _ a => a = Lil.assignFromL rhs) A X) :
    X.assignFrom rhs = (.ok (), rhs) ∧ Suffices (Lil.assignFromL rhs) X (.ok (), rhs) := by
  have key : ∀ X : Lil α, X.nrows = rhs.nrows → X.ncols = rhs.ncols → X.rows.length = X.nrows →
      X.assignFrom rhs = (.ok (), rhs) := by
    intro X e1 e2 e3
    unfold Lil.assignFrom
    rw [if_neg (by omega)]
    rcases rhs with ⟨m, n, v, rows⟩
    rcases X with ⟨m', n', v', rows'⟩
    cases e1; cases e2
    have hl : rows.length = m := hr.len
    simp_all
  have inv : X.nrows = rhs.nrows ∧ X.ncols = rhs.ncols ∧ X.rows.length = X.nrows := by
    induction hX with
    | start => exact ⟨h1, h2, hA.len⟩
    | @again X Y a mem _ ha hro ih =>
      obtain ⟨i1, i2, i3⟩ := ih
      subst ha
      have h := (Lil.assignFromL_runs X rhs i3 hr.len).asUsual mem
      rw [key X i1 i2 i3] at h
      rcases h with h | ⟨left, h3, k, hk, e⟩
      · have := h.1; rw [hro.1] at this; cases this
      · have : left = Y := h3.2.symm.trans hro.2
        subst this
        rw [e]
        refine ⟨i1, i2, ?_⟩
        have := hr.len
        simp only [List.length_append, List.length_take, List.length_drop]
        omega
  refine ⟨key X inv.1 inv.2.1 inv.2.2, ?_⟩
  have := (Lil.assignFromL_runs X rhs inv.2.2 hr.len).suffices'
  rwa [key X inv.1 inv.2.1 inv.2.2] at this

/-- The property for operations with a matrix as their output: however often the call ran
out of memory, made again it has the effect it would have had at once. -/
def C102_statement : Prop :=
  ∀ (c : MCall Nat Nat Nat) (o : MOut Nat Nat Nat Nat) (C' X : Lil Nat), o.WF →
    c.Good o.C.nrows o.C.ncols → c.run o = .done C' → Retried (c.attempt o) o.C X →
    c.run { o with C := X } = .done C'

/-! ### Witnesses

In each of them a row outgrows the one it replaces, so that the request that fails is one
the code makes whatever room the old row had left. -/

theorem MOut.wf_chk {o : MOut Nat Nat Nat Nat} (h : o.C.WF) (hm : o.M = none) : o.WF :=
  ⟨h, fun k M e => by rw [hm] at e; cases e⟩

/-- A row of two elements is written over one of one element, where the mask allows all. -/
def Ex.rtCount : MOut Nat Nat Nat Nat :=
  ⟨⟨1, 3, 1, [[(1, 9)]]⟩, some (.plain, ⟨1, 3, 3, [[(0, 1), (1, 1), (2, 1)]]⟩), fun x => x ≠ 0,
    .none id, id, .replace⟩

theorem Ex.rtCount_wf : Ex.rtCount.WF := by
  refine ⟨Lil.wf_chk (by decide +kernel), fun k M e => ?_⟩
  cases e
  exact Lil.wf_chk (by decide +kernel)

/-- Under a mask, made again the operation stores the two elements and reports three. -/
theorem C102_replace_count_wrong :
    ∃ (c : MCall Nat Nat Nat) (o : MOut Nat Nat Nat Nat) (C' X D : Lil Nat), o.WF ∧
      c.Good o.C.nrows o.C.ncols ∧ c.isAssign = false ∧ o.outp = .replace ∧ c.run o = .done C' ∧
      Retried (c.attempt o) o.C X ∧ c.run { o with C := X } = .done D ∧
      D.rows = C'.rows ∧ C'.nvals = 2 ∧ D.nvals = 3 :=
  ⟨Ex.amC, Ex.rtCount, Ex.amA, ⟨1, 3, 2, [[(0, 5)]]⟩, ⟨1, 3, 3, [[(0, 5), (2, 7)]]⟩, Ex.rtCount_wf,
    Ex.amA_wf, rfl, rfl, by decide +kernel,
    .again _ 1 .start ⟨0, fun _ => 0, rfl⟩ (Ended.ranOut_chk (by decide +kernel)), by decide +kernel,
    rfl, rfl, rfl⟩

/-- Two rows that are added to two others. -/
def Ex.rtAcc : MOut Nat Nat Nat Nat :=
  ⟨⟨2, 2, 2, [[(0, 1)], [(1, 1)]]⟩, none, fun x => x ≠ 0, .some (· + ·) id id, id, .merge⟩
def Ex.rtAccA : Lil Nat := ⟨2, 2, 2, [[(0, 10)], [(0, 10)]]⟩
def Ex.rtAccC : MCall Nat Nat Nat := .apply id (.plain Ex.rtAccA)

/-- With an accumulator the elements that were written are accumulated twice, and those
that were not are lost. -/
theorem C102_accumulate_wrong :
    ∃ (c : MCall Nat Nat Nat) (o : MOut Nat Nat Nat Nat) (C' X D : Lil Nat), o.WF ∧
      c.Good o.C.nrows o.C.ncols ∧ c.isAssign = false ∧ o.M = none ∧ c.run o = .done C' ∧
      Retried (c.attempt o) o.C X ∧ c.run { o with C := X } = .done D ∧
      C'.get 0 0 = some 11 ∧ D.get 0 0 = some 21 ∧ C'.get 1 1 = some 1 ∧ D.get 1 1 = none :=
  ⟨Ex.rtAccC, Ex.rtAcc, ⟨2, 2, 3, [[(0, 11)], [(0, 10), (1, 1)]]⟩, ⟨2, 2, 3, [[(0, 11)], [(0, 10)]]⟩,
    ⟨2, 2, 2, [[(0, 21)], [(0, 20)]]⟩, MOut.wf_chk (Lil.wf_chk (by decide +kernel)) rfl,
    (Lil.wf_chk (by decide +kernel) : Ex.rtAccA.WF), rfl, rfl, by decide +kernel,
    .again _ 2 .start ⟨0, fun _ => 0, rfl⟩ (Ended.ranOut_chk (by decide +kernel)), by decide +kernel,
    by decide +kernel, by decide +kernel, by decide +kernel, by decide +kernel⟩

/-- A row with an element the mask protects. -/
def Ex.rtMerge : MOut Nat Nat Nat Nat :=
  ⟨⟨1, 3, 1, [[(1, 9)]]⟩, some (.plain, ⟨1, 3, 1, [[(0, 1)]]⟩), fun x => x ≠ 0, .none id, id, .merge⟩

theorem Ex.rtMerge_wf : Ex.rtMerge.WF := by
  refine ⟨Lil.wf_chk (by decide +kernel), fun k M e => ?_⟩
  cases e
  exact Lil.wf_chk (by decide +kernel)

/-- Without an accumulator, an element outside the mask is lost, although it is to be kept. -/
theorem C102_merge_wrong :
    ∃ (c : MCall Nat Nat Nat) (o : MOut Nat Nat Nat Nat) (C' X D : Lil Nat) (cast : Nat → Nat), o.WF ∧
      c.Good o.C.nrows o.C.ncols ∧ c.isAssign = false ∧ o.acc = .none cast ∧ o.outp = .merge ∧
      o.M.allows o.truthy 0 1 = false ∧ c.run o = .done C' ∧
      Retried (c.attempt o) o.C X ∧ c.run { o with C := X } = .done D ∧
      o.C.get 0 1 = some 9 ∧ C'.get 0 1 = some 9 ∧ D.get 0 1 = none :=
  ⟨Ex.amC, Ex.rtMerge, ⟨1, 3, 2, [[(0, 5), (1, 9)]]⟩, ⟨1, 3, 2, [[(0, 5)]]⟩,
    ⟨1, 3, 2, [[(0, 5)]]⟩, id, Ex.rtMerge_wf, Ex.amA_wf, rfl, rfl, rfl, by decide +kernel,
    by decide +kernel, .again _ 1 .start ⟨0, fun _ => 0, rfl⟩ (Ended.ranOut_chk (by decide +kernel)),
    by decide +kernel, by decide +kernel, by decide +kernel, by decide +kernel⟩

def Ex.rtAssignC : MCall Nat Nat Nat := .assignConst id 5 .all (.list [0])

/-- An assignment without mask and accumulator to column 0 loses an element of column 1. -/
theorem C102_assign_wrong :
    ∃ (c : MCall Nat Nat Nat) (o : MOut Nat Nat Nat Nat) (C' X D : Lil Nat) (cast : Nat → Nat), o.WF ∧
      c.Good o.C.nrows o.C.ncols ∧ o.acc = .none cast ∧ o.M = none ∧ c.run o = .done C' ∧
      Retried (c.attempt o) o.C X ∧ c.run { o with C := X } = .done D ∧
      o.C.get 0 1 = some 9 ∧ C'.get 0 1 = some 9 ∧ D.get 0 1 = none :=
  ⟨Ex.rtAssignC, Ex.am, ⟨1, 3, 2, [[(0, 5), (1, 9)]]⟩, ⟨1, 3, 2, [[(0, 5)]]⟩,
    ⟨1, 3, 1, [[(0, 5)]]⟩, id, MOut.wf_chk Ex.am_wf rfl,
    List.pairwise_singleton _ _, rfl, rfl, by decide +kernel,
    .again _ 1 .start ⟨0, fun _ => 0, rfl⟩ (Ended.ranOut_chk (by decide +kernel)),
    by decide +kernel, by decide +kernel, by decide +kernel, by decide +kernel⟩

theorem C102_wrong : ¬ C102_statement := by
  intro h
  obtain ⟨c, o, C', X, D, ho, hg, -, -, e, hX, eD, h1, h2, -⟩ := C102_accumulate_wrong
  have := h c o C' X ho hg e hX
  rw [eD] at this
  cases this
  rw [h1] at h2; cases h2

/-! ### Cases that meet the hypotheses -/

/-- `C102_unmasked_operation`: two attempts failed, the first of them while it wrote. -/
theorem Ex.rt_twice : Retried (Ex.amC.attempt Ex.am) Ex.am.C ⟨1, 3, 2, [[(0, 5)]]⟩ :=
  .again _ 4 (.again _ 1 .start ⟨0, fun _ => 0, rfl⟩
      (Ended.ranOut_chk (c := ⟨1, 3, 2, [[(0, 5)]]⟩) (by decide +kernel)))
    ⟨3, fun _ => 0, rfl⟩ (Ended.ranOut_chk (by decide +kernel))

example : Ex.amC.run { Ex.am with C := ⟨1, 3, 2, [[(0, 5)]]⟩ } = .done Ex.amA :=
  (C102_unmasked_operation Ex.amC Ex.am Ex.amA _ (MOut.wf_chk Ex.am_wf rfl) Ex.amA_wf Ex.am_done rfl
    (cast := id) rfl rfl Ex.rt_twice 0 fun _ => 0).1

/-- `C102_replacing_operation_partial`. -/
example : ∃ d, Ex.amC.run { Ex.rtCount with C := ⟨1, 3, 2, [[(0, 5)]]⟩ } = .done (Ex.amA.more d) :=
  let ⟨d, _, h, _⟩ := C102_replacing_operation_partial Ex.amC Ex.rtCount Ex.amA ⟨1, 3, 2, [[(0, 5)]]⟩
    Ex.rtCount_wf Ex.amA_wf (by decide +kernel) rfl (cast := id) rfl rfl
    (.again _ 1 .start ⟨0, fun _ => 0, rfl⟩ (Ended.ranOut_chk (by decide +kernel))) 0 fun _ => 0
  ⟨d, h⟩

/-- `C102_vector_operation`: a vector that was asked for memory it did not get. -/
example : Ex.avC.run Ex.av = .done ⟨3, 2, [5, 10, 0], [true, true, false]⟩ :=
  (C102_vector_operation Ex.avC Ex.av _ Ex.av.w ⟨rfl, rfl, rfl⟩ (by decide +kernel)
    (.again _ 2 .start ⟨2, 1, rfl⟩ (Ended.ranOut_chk (by decide +kernel))) 2 1).2.1

/-- `C102_matrix_copy`: the copy that failed had set the count. -/
example : Lil.assignFrom ⟨1, 3, 2, [[(1, 9)]]⟩ Ex.amA = (.ok (), Ex.amA) :=
  (C102_matrix_copy Ex.am.C Ex.amA ⟨1, 3, 2, [[(1, 9)]]⟩ Ex.am_wf Ex.amA_wf rfl rfl
    (.again _ 0 .start rfl (Ended.ranOut_chk (by decide +kernel)))).1

end GBTL

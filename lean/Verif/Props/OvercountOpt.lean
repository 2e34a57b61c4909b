import Verif.Lemmas.OvercountOpt
import Verif.Props.Overcount
/-
**C100** Products of the `optimized_sequential` backend with matrices that report too many
elements.
-/
namespace GBTL
open Spec (Outp MaskKind)

variable {α β γ τ ζ μ : Type}

theorem Alike.finish {x y : Except Err (Lil γ)} (h : Alike x y) :
    (GBTL.finish x).recount = (GBTL.finish y).recount := by
  cases x with
  | error e =>
    cases y with
    | error e' => cases h; rfl
    | ok D => exact h.elim
  | ok C =>
    cases y with
    | error e' => exact h.elim
    | ok D => exact congrArg Outcome.done h

theorem Lil.Like.recount (C : Lil γ) : C.Like C.recount := rfl

theorem Lil.Frank.test {C : Lil γ} {a : Arg γ α} (h : (a.at C).Frank) :
    ((a.at C).nvals == 0) = ((a.recount.at C.recount).nvals == 0) := by
  have e : (a.recount.at C.recount).nvals = (a.at C).stored := by cases a <;> rfl
  rw [e]
  have h' : (a.at C).nvals = 0 ↔ (a.at C).stored = 0 := h
  cases h1 : (a.at C).nvals == 0 <;> cases h2 : (a.at C).stored == 0 <;> simp_all

theorem mxmChecks_recount (C : Lil γ) (M : ArgMask γ μ) (A : ArgOperand γ α) (B : ArgOperand γ β) :
    mxmChecks (M.at C) C (A.at C) (B.at C) =
      mxmChecks (M.recount.at C.recount) C.recount (A.recount.at C.recount) (B.recount.at C.recount) := by
  rcases M with _ | ⟨k, m | -⟩ <;> rcases A with (a | -) | (a | -) <;> rcases B with (b | -) | (b | -) <;> rfl

theorem optMxmBackend_recount (x : OptOps α β γ τ ζ μ) (acc : Option (AccOp γ τ ζ)) (outp : Outp) (C : Lil γ)
    (M : ArgMask γ μ) (A : ArgOperand γ α) (B : ArgOperand γ β) (hA : (A.mat C).Frank) (hB : (B.mat C).Frank)
    (hM : ∀ k m, M = some (k, m) → (m.at C).Frank) :
    Alike (optMxmBackend x acc outp C M A B) (optMxmBackend x acc outp C.recount M.recount A.recount B.recount) := by
  have h := Lil.Like.recount C
  rcases A with a | a <;> rcases B with b | b
  · rcases M with _ | ⟨k, m⟩
    · cases acc with
      | none => exact optNoMaskNoAccumAB_like h a.recount_like b.recount_like hA.test hB.test x
      | some acc => exact optNoMaskAccumAB_like h a.recount_like b.recount_like hA.test hB.test x acc
    · have hm := m.recount_like
      have zm := (hM k m rfl).test
      cases acc with
      | none =>
        cases k with
        | plain => exact optMaskNoAccumAB_like h hm a.recount_like b.recount_like hA.test hB.test zm x false outp
        | struct => exact optMaskNoAccumAB_like h hm a.recount_like b.recount_like hA.test hB.test zm x true outp
        | comp => exact optCompNoAccumAB_like h hm a.recount_like b.recount_like hA.test hB.test zm x false outp
        | structComp => exact optCompNoAccumAB_like h hm a.recount_like b.recount_like hA.test hB.test zm x true outp
      | some acc =>
        cases k with
        | plain => exact optMaskAccumAB_like h hm a.recount_like b.recount_like hA.test hB.test zm x acc false outp
        | struct => exact optMaskAccumAB_like h hm a.recount_like b.recount_like hA.test hB.test zm x acc true outp
        | comp => exact optCompAccumAB_like h hm a.recount_like b.recount_like hA.test hB.test zm x acc false outp
        | structComp => exact optCompAccumAB_like h hm a.recount_like b.recount_like hA.test hB.test zm x acc true outp
  · rcases M with _ | ⟨k, m⟩
    · cases acc with
      | none => exact optNoMaskNoAccumABT_like h a.recount_like b.recount_like hA.test hB.test x
      | some acc => exact optNoMaskAccumABT_like h a.recount_like b.recount_like hA.test hB.test x acc
    · have hm := m.recount_like
      have zm := (hM k m rfl).test
      cases acc with
      | none =>
        cases k with
        | plain => exact optMaskNoAccumABT_like h hm a.recount_like b.recount_like hA.test hB.test zm x false outp
        | struct => exact optMaskNoAccumABT_like h hm a.recount_like b.recount_like hA.test hB.test zm x true outp
        | comp => exact optCompNoAccumABT_like h hm a.recount_like b.recount_like hA.test hB.test zm x false outp
        | structComp => exact optCompNoAccumABT_like h hm a.recount_like b.recount_like hA.test hB.test zm x true outp
      | some acc =>
        cases k with
        | plain => exact optMaskAccumABT_like h hm a.recount_like b.recount_like hA.test hB.test zm x acc false outp
        | struct => exact optMaskAccumABT_like h hm a.recount_like b.recount_like hA.test hB.test zm x acc true outp
        | comp => exact optCompAccumABT_like h hm a.recount_like b.recount_like hA.test hB.test zm x acc false outp
        | structComp => exact optCompAccumABT_like h hm a.recount_like b.recount_like hA.test hB.test zm x acc true outp
  · rcases M with _ | ⟨k, m⟩
    · cases acc with
      | none => exact optNoMaskNoAccumATB_like h a.recount_like b.recount_like hA.test hB.test x
      | some acc => exact optNoMaskAccumATB_like h a.recount_like b.recount_like hA.test hB.test x acc
    · have hm := m.recount_like
      have zm := (hM k m rfl).test
      cases acc with
      | none =>
        cases k with
        | plain => exact optMaskNoAccumATB_like h hm a.recount_like b.recount_like hA.test hB.test zm x false outp
        | struct => exact optMaskNoAccumATB_like h hm a.recount_like b.recount_like hA.test hB.test zm x true outp
        | comp => exact optCompNoAccumATB_like h hm a.recount_like b.recount_like hA.test hB.test zm x false outp
        | structComp => exact optCompNoAccumATB_like h hm a.recount_like b.recount_like hA.test hB.test zm x true outp
      | some acc =>
        cases k with
        | plain => exact optMaskAccumATB_like h hm a.recount_like b.recount_like hA.test hB.test zm x acc false outp
        | struct => exact optMaskAccumATB_like h hm a.recount_like b.recount_like hA.test hB.test zm x acc true outp
        | comp => exact optCompAccumATB_like h hm a.recount_like b.recount_like hA.test hB.test zm x acc false outp
        | structComp => exact optCompAccumATB_like h hm a.recount_like b.recount_like hA.test hB.test zm x acc true outp
  · rcases M with _ | ⟨k, m⟩
    · cases acc with
      | none => exact optNoMaskNoAccumATBT_like h a.recount_like b.recount_like hA.test hB.test x
      | some acc => exact optNoMaskAccumATBT_like h a.recount_like b.recount_like hA.test hB.test x acc
    · have hm := m.recount_like
      have zm := (hM k m rfl).test
      cases acc with
      | none =>
        cases k with
        | plain => exact optMaskNoAccumATBT_like h hm a.recount_like b.recount_like hA.test hB.test zm x false outp
        | struct => exact optMaskNoAccumATBT_like h hm a.recount_like b.recount_like hA.test hB.test zm x true outp
        | comp => exact optCompNoAccumATBT_like h hm a.recount_like b.recount_like hA.test hB.test zm x false outp
        | structComp => exact optCompNoAccumATBT_like h hm a.recount_like b.recount_like hA.test hB.test zm x true outp
      | some acc =>
        cases k with
        | plain => exact optMaskAccumATBT_like h hm a.recount_like b.recount_like hA.test hB.test zm x acc false outp
        | struct => exact optMaskAccumATBT_like h hm a.recount_like b.recount_like hA.test hB.test zm x acc true outp
        | comp => exact optCompAccumATBT_like h hm a.recount_like b.recount_like hA.test hB.test zm x acc false outp
        | structComp => exact optCompAccumATBT_like h hm a.recount_like b.recount_like hA.test hB.test zm x acc true outp

/-- **C100, partial** The product, with any mask, accumulator and output mode and with any of
its arguments being the output: it ends in the same way and leaves the same elements as with
the right numbers, if every matrix it reads reports no element exactly if it has none.

Missing: matrices without elements that report some; see `C100_opt_mxm_wrong`. -/
theorem C100_opt_mxm_partial (x : OptOps α β γ τ ζ μ) (acc : Option (AccOp γ τ ζ)) (outp : Outp) (C : Lil γ)
    (M : ArgMask γ μ) (A : ArgOperand γ α) (B : ArgOperand γ β) (hA : (A.mat C).Frank) (hB : (B.mat C).Frank)
    (hM : ∀ k m, M = some (k, m) → (m.at C).Frank) :
    (optMxm x acc outp C M A B).recount =
      (optMxm x acc outp C.recount M.recount A.recount B.recount).recount := by
  unfold optMxm
  rw [← mxmChecks_recount C M A B]
  cases mxmChecks (M.at C) C (A.at C) (B.at C) with
  | error e => cases e <;> rfl
  | ok u => exact (optMxmBackend_recount x acc outp C M A B hA hB hM).finish

/-- The statement without the restriction, for matrices as C98 leaves them. -/
def C100_statement : Prop :=
  ∀ (x : OptOps Nat Nat Nat Nat Nat Nat) (acc : Option (AccOp Nat Nat Nat)) (outp : Outp) (C : Lil Nat)
    (M : ArgMask Nat Nat) (A B : ArgOperand Nat Nat), C.Over → (A.mat C).Over → (B.mat C).Over →
    (∀ k m, M = some (k, m) → (m.at C).Over) →
    (optMxm x acc outp C M A B).recount =
      (optMxm x acc outp C.recount M.recount A.recount B.recount).recount

/-! ### The cases -/

def Ex.ovx : OptOps Nat Nat Nat Nat Nat Nat := ⟨(· + ·), (· * ·), (· * ·), id, id, id, (· + ·), fun v => v ≠ 0⟩
/-- No element, but one is reported. -/
def Ex.ovNone : Lil Nat := ⟨2, 2, 1, [[], []]⟩
def Ex.ovB : Lil Nat := ⟨2, 2, 2, [[(0, 3)], [(1, 4)]]⟩
def Ex.ovC : Lil Nat := ⟨2, 2, 1, [[(1, 9)], []]⟩
/-- Two elements, three are reported. -/
def Ex.ovA : Lil Nat := ⟨2, 2, 3, [[(0, 2)], [(0, 5)]]⟩

theorem Ex.ovNone_over : Ex.ovNone.Over :=
  ⟨⟨rfl, (Lil.wf_chk (A := ⟨2, 2, 0, [[], []]⟩) (by decide +kernel)).rowOK⟩, by decide⟩

/-- **C100, negation** `C = A*B'` without mask and accumulator, where `A` has no element but
reports one: the old element of `C` is kept. With the right number `C` is emptied. -/
theorem C100_opt_mxm_wrong : ¬ C100_statement := by
  intro h
  have := h Ex.ovx none .replace Ex.ovC none (.plain (.obj Ex.ovNone)) (.tr (.obj Ex.ovB))
    (Lil.wf_chk (by decide +kernel)).over Ex.ovNone_over (Lil.wf_chk (A := Ex.ovB) (by decide +kernel)).over
    (fun _ _ h => nomatch h)
  revert this
  decide +kernel

/-- The two calls of `C100_opt_mxm_wrong`. -/
example : optMxm Ex.ovx none .replace Ex.ovC none (.plain (.obj Ex.ovNone)) (.tr (.obj Ex.ovB)) =
      .done ⟨2, 2, 1, [[(1, 9)], []]⟩ ∧
    optMxm Ex.ovx none .replace Ex.ovC none (.plain (.obj Ex.ovNone.recount)) (.tr (.obj Ex.ovB)) =
      .done ⟨2, 2, 0, [[], []]⟩ := by decide +kernel

/-- A matrix that reports three elements and has two, also as the output. -/
example : optMxm Ex.ovx none .merge Ex.ovA (some (.plain, .same)) (.tr .same) (.plain (.obj Ex.ovB)) =
      .done ⟨2, 2, 2, [[(0, 6)], []]⟩ ∧
    optMxm Ex.ovx none .merge Ex.ovA.recount (some (.plain, .same)) (.tr .same) (.plain (.obj Ex.ovB)) =
      .done ⟨2, 2, 1, [[(0, 6)], []]⟩ := by decide +kernel
example := C100_opt_mxm_partial Ex.ovx none .merge Ex.ovA (some (.plain, .same)) (.tr .same) (.plain (.obj Ex.ovB))
  (by decide : Ex.ovA.nvals = 0 ↔ Ex.ovA.stored = 0) (by decide : Ex.ovB.nvals = 0 ↔ Ex.ovB.stored = 0)
  (fun k m h => by cases h; exact (by decide : Ex.ovA.nvals = 0 ↔ Ex.ovA.stored = 0))

end GBTL

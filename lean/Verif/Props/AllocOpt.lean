import Verif.Lemmas.AllocOpt
import Verif.Props.Alloc
import Verif.Props.AllocWrong
import Verif.Props.BackendsActual
import Verif.Props.OvercountOpt
/-
C101: what a product of the optimized backend leaves in its output when memory runs out.
-/
namespace GBTL
open Spec (Outp MaskKind)

variable {α β γ τ ζ μ : Type}

/-- **C101**, proved part, row by row. A product of the optimized backend, with any mask,
accumulator, output control and sharing, that returns `C'` when there is enough memory,
returns `C'` or throws `std::bad_alloc` with any memory. In the second case the output is as
before, or the rows above some row are those of `C'`, the ones below are as before, and the
row itself is as before or a beginning of the new row. Not covered: the product of two
transposed matrices without mask and accumulator (`Uncounted`), see `C101_uncounted_actual`. -/
theorem C101_rows_partial (x : OptOps α β γ τ ζ μ) (acc : Option (AccOp γ τ ζ)) (outp : Outp) (C C' : Lil γ)
    (M : ArgMask γ μ) (A : ArgOperand γ α) (B : ArgOperand γ β) (hC : C.WF) (hu : ¬ Uncounted acc M A B)
    (e : optMxm x acc outp C M A B = .done C') (prep : Nat) (work : Nat → Nat) :
    (∀ mem, Ended.Returned (optMxmL prep work x acc outp M A B (mem, C)) C' ∨
      Ended.RanOut (optMxmL prep work x acc outp M A B (mem, C)) C ∨
      ∃ i left, i < C.nrows ∧ Ended.RanOut (optMxmL prep work x acc outp M A B (mem, C)) left ∧
        Torn C C' left i) ∧
    Suffices (optMxmL prep work x acc outp M A B) C (.ok (), C') := by
  have h := optMxmL_done prep work hC hu e
  refine ⟨fun mem => ?_, h.suffices'⟩
  rcases h.asUsual mem with h | ⟨left, h1, h2⟩
  · exact .inl h
  · rcases h2 with rfl | ⟨i, hi, ht⟩
    · exact .inr (.inl h1)
    · exact .inr (.inr ⟨i, left, hi, h1, ht⟩)

/-- **C101**, the whole claim: whatever the arguments, a product of the optimized backend
that runs out of memory leaves a usable output. -/
def C101_statement : Prop :=
  ∀ (α β γ τ ζ μ : Type) (x : OptOps α β γ τ ζ μ) (acc : Option (AccOp γ τ ζ)) (cast : τ → ζ) (outp : Outp)
    (C C' : Lil γ) (M : ArgMask γ μ) (A : ArgOperand γ α) (B : ArgOperand γ β)
    (_ : (x.out acc cast outp C M).WF) (_ : (A.at C).WF) (_ : (B.at C).WF)
    (_ : optMxm x acc outp C M A B = .done C') (prep : Nat) (work : Nat → Nat) (mem : Nat),
    Ended.Returned (optMxmL prep work x acc outp M A B (mem, C)) C' ∨
      ∃ left, Ended.RanOut (optMxmL prep work x acc outp M A B (mem, C)) left ∧ LeftUsable C C' left

/-- The result of a product of the optimized backend is well-formed and has the output's shape. -/
theorem optMxm_done_wf {x : OptOps α β γ τ ζ μ} {acc : Option (AccOp γ τ ζ)} {cast : τ → ζ} {outp : Outp}
    {C C' : Lil γ} {M : ArgMask γ μ} {A : ArgOperand γ α} {B : ArgOperand γ β}
    (ho : (x.out acc cast outp C M).WF) (hA : (A.at C).WF) (hB : (B.at C).WF)
    (e : optMxm x acc outp C M A B = .done C') : C'.WF ∧ C'.nrows = C.nrows ∧ C'.ncols = C.ncols := by
  by_cases hs : MxmShapes (x.out acc cast outp C M) (A.at C) (B.at C)
  · obtain ⟨D, e', h1, h2, h3, -⟩ := C28_optimized_mxm_actual ho hA hB hs
    rw [e] at e'; cases e'
    exact ⟨h1, h2, h3⟩
  · have := run_threw (s := C) (post := fun _ => optMxmBackend x acc outp C M A B) (by simp)
      ((dim_mxm (x.out acc cast outp C M) (A.at C) (B.at C)).err hs)
    rw [show optMxm x acc outp C M A B = _ from this] at e
    cases e

/-- **C101**, proved part. A product of the optimized backend that runs out of memory leaves
a matrix of the same shape with sorted rows, whose elements are old ones or new ones, and
that reports at least as many elements as it holds. Missing: `Uncounted` products, of which
it is false (`C101_uncounted_wrong`); and that all reported elements are there
(`C101_count_wrong`). -/
theorem C101_opt_mxm_partial (x : OptOps α β γ τ ζ μ) (acc : Option (AccOp γ τ ζ)) (cast : τ → ζ) (outp : Outp)
    (C C' : Lil γ) (M : ArgMask γ μ) (A : ArgOperand γ α) (B : ArgOperand γ β)
    (ho : (x.out acc cast outp C M).WF) (hA : (A.at C).WF) (hB : (B.at C).WF) (hu : ¬ Uncounted acc M A B)
    (e : optMxm x acc outp C M A B = .done C') (prep : Nat) (work : Nat → Nat) (mem : Nat) :
    Ended.Returned (optMxmL prep work x acc outp M A B (mem, C)) C' ∨
      ∃ left, Ended.RanOut (optMxmL prep work x acc outp M A B (mem, C)) left ∧ LeftUsable C C' left := by
  obtain ⟨h1, h2, h3⟩ := optMxm_done_wf ho hA hB e
  have hC : C.WF := ho.out
  rcases (C101_rows_partial x acc outp C C' M A B hC hu e prep work).1 mem with h | h | ⟨i, left, hi, h, ht⟩
  · exact .inl h
  · exact .inr ⟨C, h, hC.toWFr, rfl, rfl, Nat.le_of_eq hC.count.symm, fun i j => .inr (.inl rfl)⟩
  · refine .inr ⟨left, h, ht.wfr hC.toWFr h1.toWFr h2.symm h3.symm, by rw [ht.nrows, h2], by rw [ht.ncols, h3],
      ht.stored_le, fun k j => ?_⟩
    rcases ht.rows k with e | e | ⟨l, e⟩
    · right; right; rw [Lil.get, e]; rfl
    · right; left; rw [Lil.get, e]; rfl
    · rcases Row.get_take (r := C'.rowD k) l j with e' | e'
      · right; right; rw [Lil.get, e, e']; rfl
      · left; rw [Lil.get, e, e']

/-- **C101** What an `Uncounted` product leaves when memory runs out: every row is a beginning
of the row of the result, the old elements are gone, and no element is reported. -/
theorem C101_uncounted_actual (x : OptOps α β γ τ ζ μ) (acc : Option (AccOp γ τ ζ)) (outp : Outp) (C C' : Lil γ)
    (M : ArgMask γ μ) (A : ArgOperand γ α) (B : ArgOperand γ β) (hu : Uncounted acc M A B)
    (e : optMxm x acc outp C M A B = .done C') (prep : Nat) (work : Nat → Nat) :
    (∀ mem, Ended.Returned (optMxmL prep work x acc outp M A B (mem, C)) C' ∨
      ∃ left, Ended.RanOut (optMxmL prep work x acc outp M A B (mem, C)) left ∧ Begun C' left) ∧
    Suffices (optMxmL prep work x acc outp M A B) C (.ok (), C') := by
  have h := optMxmL_begun prep work hu e
  exact ⟨fun mem => h.asUsual mem, h.suffices'⟩

/-- A product that is refused is refused with any memory, and the output is as before. -/
theorem C101_refused (x : OptOps α β γ τ ζ μ) (acc : Option (AccOp γ τ ζ)) (outp : Outp) (C C' : Lil γ)
    (M : ArgMask γ μ) (A : ArgOperand γ α) (B : ArgOperand γ β) (er : Err)
    (e : optMxm x acc outp C M A B = .threw er C') (prep : Nat) (work : Nat → Nat) (mem : Nat) :
    Ended.Threw (optMxmL prep work x acc outp M A B (mem, C)) er C :=
  (optMxmL_threw prep work e).always mem

/-! ### The counter -/

/-- `C = A'*B'` for two diagonal matrices, with memory for one element: it is stored, and not
counted. -/
theorem Ex.uncounted : Ended.RanOut (optMxmL 0 (fun _ => 0) Ex.ovx none .replace none (.tr (.obj Ex.ovB))
    (.tr (.obj Ex.ovB)) (1, Ex.ovC)) ⟨2, 2, 0, [[(0, 9)], []]⟩ :=
  Ended.ranOut_chk (by decide +kernel)

/-- **C101, negation** The matrix left above has an element and reports none. -/
theorem C101_uncounted_wrong : ¬ C101_statement := by
  intro h
  have hB : Ex.ovB.WF := Lil.wf_chk (by decide +kernel)
  rcases h _ _ _ _ _ _ Ex.ovx none id .replace Ex.ovC ⟨2, 2, 2, [[(0, 9)], [(1, 16)]]⟩ none (.tr (.obj Ex.ovB))
    (.tr (.obj Ex.ovB)) ⟨Lil.wf_chk (by decide +kernel), by intro k M e; cases e⟩ hB hB (by decide +kernel) 0
    (fun _ => 0) 1 with h | ⟨left, h, hl⟩
  · exact absurd (h.1.symm.trans Ex.uncounted.1) (by simp)
  · have e := h.2.symm.trans Ex.uncounted.2
    rw [e] at hl
    exact absurd hl.counted (by decide)

/-- What is left is taken for an empty matrix: a product with it is empty, although its one
element meets one of the other matrix. -/
example : optMxm Ex.ovx none .replace Ex.ovC none (.plain (.obj ⟨2, 2, 0, [[(0, 9)], []]⟩)) (.plain (.obj Ex.ovB)) =
      .done ⟨2, 2, 0, [[], []]⟩ ∧
    optMxm Ex.ovx none .replace Ex.ovC none (.plain (.obj ⟨2, 2, 1, [[(0, 9)], []]⟩)) (.plain (.obj Ex.ovB)) =
      .done ⟨2, 2, 1, [[(0, 27)], []]⟩ := by decide +kernel

/-- **C101, negation** of more: also where the counter is not too small it may be too large.
`C = A*B` into a new matrix with no memory at all: the first row is empty and its new element
is reported. -/
theorem C101_count_wrong : ∃ (x : OptOps Nat Nat Nat Nat Nat Nat) (C C' left : Lil Nat) (A B : Lil Nat),
    C.WF ∧ A.WF ∧ B.WF ∧ optMxm x none .replace C none (.plain (.obj A)) (.plain (.obj B)) = .done C' ∧
    Ended.RanOut (optMxmL 0 (fun _ => 0) x none .replace none (.plain (.obj A)) (.plain (.obj B)) (0, C)) left ∧
    left.stored < left.nvals ∧ left.nvals ≠ C.nvals ∧ left.get 0 0 ≠ C'.get 0 0 :=
  ⟨Ex.ovx, Lil.new 2 2, ⟨2, 2, 2, [[(0, 9)], [(1, 16)]]⟩, ⟨2, 2, 1, [[], []]⟩, Ex.ovB, Ex.ovB,
    Lil.wf_chk (by decide +kernel), Lil.wf_chk (by decide +kernel), Lil.wf_chk (by decide +kernel),
    by decide +kernel, Ended.ranOut_chk (by decide +kernel), by decide, by decide, by decide⟩

/-! ### The hypotheses are met -/

/-- A masked accumulated product into one of its operands. -/
theorem Ex.masked_product : optMxm Ex.ovx (some ⟨(· + ·), id, id⟩) .merge Ex.ovB (some (.plain, .same)) (.tr .same)
    (.tr (.obj Ex.ovB)) = .done ⟨2, 2, 2, [[(0, 12)], [(1, 20)]]⟩ := by decide +kernel

example (prep : Nat) (work : Nat → Nat) (mem : Nat) :=
  C101_opt_mxm_partial Ex.ovx (some ⟨(· + ·), id, id⟩) id .merge Ex.ovB _ (some (.plain, .same)) (.tr .same)
    (.tr (.obj Ex.ovB)) ⟨Lil.wf_chk (by decide +kernel), by
      intro k M e; cases e; exact Lil.wf_chk (A := Ex.ovB) (by decide +kernel)⟩
    (Lil.wf_chk (A := Ex.ovB) (by decide +kernel)) (Lil.wf_chk (A := Ex.ovB) (by decide +kernel))
    (by rintro ⟨h, -⟩; cases h) Ex.masked_product prep work mem

/-- It can stop in its second row, and returns with memory for two requests. -/
example : Ended.RanOut (optMxmL 0 (fun _ => 0) Ex.ovx (some ⟨(· + ·), id, id⟩) .merge (some (.plain, .same))
      (.tr .same) (.tr (.obj Ex.ovB)) (1, Ex.ovB)) ⟨2, 2, 2, [[(0, 12)], []]⟩ ∧
    Ended.Returned (optMxmL 0 (fun _ => 0) Ex.ovx (some ⟨(· + ·), id, id⟩) .merge (some (.plain, .same))
      (.tr .same) (.tr (.obj Ex.ovB)) (2, Ex.ovB)) ⟨2, 2, 2, [[(0, 12)], [(1, 20)]]⟩ :=
  ⟨Ended.ranOut_chk (by decide +kernel), Ended.returned_chk (by decide +kernel)⟩

/-- Two transposed matrices one of which is the output: not `Uncounted`. -/
example (prep : Nat) (work : Nat → Nat) :=
  C101_rows_partial Ex.ovx none .replace Ex.ovB ⟨2, 2, 2, [[(0, 9)], [(1, 16)]]⟩ none (.tr .same) (.tr (.obj Ex.ovB))
    (Lil.wf_chk (by decide +kernel)) (by rintro ⟨-, -, a, b, h, -, h', -⟩; cases h; cases h')
    (by decide +kernel) prep work

example (prep : Nat) (work : Nat → Nat) :=
  C101_uncounted_actual Ex.ovx none .replace Ex.ovC ⟨2, 2, 2, [[(0, 9)], [(1, 16)]]⟩ none (.tr (.obj Ex.ovB))
    (.tr (.obj Ex.ovB)) ⟨rfl, rfl, _, _, rfl, rfl, rfl, rfl⟩ (by decide +kernel) prep work

example (prep : Nat) (work : Nat → Nat) (mem : Nat) :=
  C101_refused Ex.ovx none .replace Ex.ovC Ex.ovC none (.tr (.obj ⟨3, 1, 0, [[], [], []]⟩)) (.tr (.obj Ex.ovB))
    .dimension (by decide +kernel) prep work mem

end GBTL

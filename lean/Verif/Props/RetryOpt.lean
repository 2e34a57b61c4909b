import Verif.Props.RetryWrong
import Verif.Props.AllocOpt
import Verif.Props.OvercountOpt
import Verif.Props.BackendsActual
/-
C102: making a product of the optimized backend again after it ran out of memory.
-/
namespace GBTL
open Spec (Outp MaskKind Op)

variable {α β γ τ ζ μ : Type}

theorem Operand.other_at (A : Operand α) (C : Lil γ) : (A.other : ArgOperand γ α).at C = A := by cases A <;> rfl

theorem Operand.other_frank {A : Operand α} (h : A.WF) (C : Lil γ) : ((A.other : ArgOperand γ α).mat C).Frank := by
  cases A with
  | plain A => show A.nvals = 0 ↔ A.stored = 0; rw [show A.nvals = A.stored from Lil.WF.count h]
  | tr A => show A.nvals = 0 ↔ A.stored = 0; rw [show A.nvals = A.stored from Lil.WF.count h]

theorem Operand.other_recount {A : Operand α} (h : A.WF) : (A.other : ArgOperand γ α).recount = A.other := by
  cases A with
  | plain A => exact congrArg (fun A => ArgOperand.plain (Arg.obj A)) (Lil.WF.recount_eq h)
  | tr A => exact congrArg (fun A => ArgOperand.tr (Arg.obj A)) (Lil.WF.recount_eq h)

theorem MMask.other_at (M : MMask μ) (C : Lil γ) : (M.other : ArgMask γ μ).at C = M := by
  rcases M with _ | ⟨k, M⟩ <;> rfl

/-- What a product that ran out of memory leaves has the shape of the output and sorted
rows. -/
theorem optMxmL_left {x : OptOps α β γ τ ζ μ} {acc : Option (AccOp γ τ ζ)} {cast : τ → ζ} {outp : Outp}
    {C C' left : Lil γ} {M : ArgMask γ μ} {A : ArgOperand γ α} {B : ArgOperand γ β}
    (ho : (x.out acc cast outp C M).WF) (hA : (A.at C).WF) (hB : (B.at C).WF)
    (e : optMxm x acc outp C M A B = .done C') {prep : Nat} {work : Nat → Nat} {mem : Nat}
    (hr : Ended.RanOut (optMxmL prep work x acc outp M A B (mem, C)) left) :
    left.WFr ∧ left.nrows = C.nrows ∧ left.ncols = C.ncols := by
  have not : ∀ {D}, ¬ Ended.Returned (optMxmL prep work x acc outp M A B (mem, C)) D := by
    intro D h
    have := h.1; rw [hr.1] at this; cases this
  by_cases hu : Uncounted acc M A B
  · obtain ⟨w1, w2, w3⟩ := optMxm_done_wf ho hA hB e
    rcases (C101_uncounted_actual x acc outp C C' M A B hu e prep work).1 mem with h | ⟨l, h1, h2⟩
    · exact absurd h not
    · have : l = left := h1.2.symm.trans hr.2
      subst this
      refine ⟨⟨by rw [h2.len, h2.nrows]; exact w1.len, fun r hm => ?_⟩, h2.nrows.trans w2, h2.ncols.trans w3⟩
      obtain ⟨k, hk, rfl⟩ := List.mem_iff_getElem.1 hm
      obtain ⟨n, hn⟩ := h2.rows k
      rw [← Lil.rowD_of_lt hk, hn, h2.ncols]
      exact (w1.rowD_ok k).take n
  · rcases C101_opt_mxm_partial x acc cast outp C C' M A B ho hA hB hu e prep work mem with h | ⟨l, h1, h2⟩
    · exact absurd h not
    · have : l = left := h1.2.symm.trans hr.2
      subst this
      exact ⟨h2.wfr, h2.nrows, h2.ncols⟩

/-- **C102**, products of the optimized backend without accumulator, and without mask or
with the output replaced under it, whose arguments are not the output: after running out
of memory, made again the call stores the elements it would have stored at once. Missing:
`nvals` may be too large (`C102_opt_count_wrong`); and rows the backend does not write
although it should (`LeavesRow`, C28). -/
theorem C102_opt_product_partial (x : OptOps α β γ τ ζ μ) (cast : τ → ζ) (outp : Outp) (C C' left : Lil γ)
    (M : MMask μ) (A : Operand α) (B : Operand β) (ho : (x.out none cast outp C M.other).WF)
    (hA : A.WF) (hB : B.WF) (hm : M = none ∨ outp = .replace)
    (hl : ∀ i, i < C.nrows → ¬ LeavesRow C A.other B.other i)
    (e : optMxm x none outp C M.other A.other B.other = .done C') (prep : Nat) (work : Nat → Nat) (mem : Nat)
    (hr : Ended.RanOut (optMxmL prep work x none outp M.other A.other B.other (mem, C)) left) :
    ∃ D, optMxm x none outp left M.other A.other B.other = .done D ∧ D.nrows = C'.nrows ∧
      D.ncols = C'.ncols ∧ D.rows = C'.rows := by
  have eA : ∀ X : Lil γ, (A.other : ArgOperand γ α).at X = A := A.other_at
  have eB : ∀ X : Lil γ, (B.other : ArgOperand γ β).at X = B := B.other_at
  have eM : ∀ X : Lil γ, (M.other : ArgMask γ μ).at X = M := M.other_at
  have hA' : ((A.other : ArgOperand γ α).at C).WF := by rw [eA]; exact hA
  have hB' : ((B.other : ArgOperand γ β).at C).WF := by rw [eB]; exact hB
  obtain ⟨l1, l2, l3⟩ := optMxmL_left ho hA' hB' e hr
  have hmask : ∀ k m, M = some (k, m) → m.WF := fun k m h => ho.mask k m ((eM C).trans h)
  have hs : MxmShapes (x.out none cast outp C M.other) (A.other.at C) (B.other.at C) := by
    by_cases hs : MxmShapes (x.out none cast outp C M.other) (A.other.at C) (B.other.at C)
    · exact hs
    · have := run_threw (s := C) (post := fun _ => optMxmBackend x none outp C M.other A.other B.other) (by simp)
        ((dim_mxm (x.out none cast outp C M.other) (A.other.at C) (B.other.at C)).err hs)
      rw [show optMxm x none outp C M.other A.other B.other = _ from this] at e
      cases e
  obtain ⟨C1, e1, w1, n1, c1, g1⟩ := C28_optimized_mxm_actual ho hA' hB' hs
  rw [e] at e1; cases e1
  let X : Lil γ := left.recount
  have hX : X.WF := ⟨⟨l1.len, l1.rowOK⟩, rfl⟩
  have ho' : (x.out none cast outp X M.other).WF := ⟨hX, fun k m h => hmask k m ((eM X).symm.trans h)⟩
  have hs' : MxmShapes (x.out none cast outp X M.other) (A.other.at X) (B.other.at X) := by
    obtain ⟨s1, s2, s3, s4⟩ := hs
    rw [eA, eB] at *
    refine ⟨?_, l2.trans s2, l3.trans s3, s4⟩
    show MMask.Fits ((M.other : ArgMask γ μ).at X) left.nrows left.ncols
    rw [eM, l2, l3]
    have : MMask.Fits ((M.other : ArgMask γ μ).at C) C.nrows C.ncols := s1
    rwa [eM] at this
  obtain ⟨D, e2, w2, n2, c2, g2⟩ := C28_optimized_mxm_actual ho' (by rw [eA]; exact hA) (by rw [eB]; exact hB) hs'
  have n2' : D.nrows = C.nrows := n2.trans l2
  have c2' : D.ncols = C.ncols := c2.trans l3
  have stale : ∀ i, LeavesRow X (A.other : ArgOperand γ α) (B.other : ArgOperand γ β) i →
      LeavesRow C (A.other : ArgOperand γ α) (B.other : ArgOperand γ β) i := by
    rintro i ⟨a, b, h1, h2, h3, h4, h5, h6⟩
    cases A <;> cases B <;> cases h1 <;> cases h2
    exact ⟨_, _, rfl, rfl, rfl, h4, h5, h6⟩
  have hD : D = C' := by
    refine Lil.ext_get w2 w1 (n2'.trans n1.symm) (c2'.trans c1.symm) fun i j hi hj => ?_
    have hi' : i < C.nrows := n2' ▸ hi
    have hj' : j < C.ncols := c2' ▸ hj
    rw [g2 i j (n2 ▸ hi) (c2 ▸ hj), g1 i j hi' hj']
    simp only [eA, eB]
    rcases M with _ | ⟨k, m⟩
    · rw [show (MMask.other (none : MMask μ) : ArgMask γ μ) = none from rfl]
      unfold OptOps.leaves
      dsimp only
      rw [if_neg (hl i hi'), if_neg fun h => hl i hi' (stale i h)]
    · rcases hm with h | rfl
      · cases h
      · rw [show (MMask.other (some (k, m)) : ArgMask γ μ) = some (k, .obj m) from rfl]
        unfold OptOps.leaves
        dsimp only
        unfold Spec.write
        rfl
  subst hD
  have h := C100_opt_mxm_partial x none outp left M.other A.other B.other (Operand.other_frank hA left)
    (Operand.other_frank hB left) (by
      intro k m h
      rcases M with _ | ⟨k', m'⟩
      · cases h
      · cases h
        show m'.nvals = 0 ↔ m'.stored = 0
        rw [show m'.nvals = m'.stored from (hmask _ _ rfl).count])
  have eMr : (M.other : ArgMask γ μ).recount = M.other := by
    rcases M with _ | ⟨k, m⟩
    · rfl
    · show some (k, Arg.obj m.recount) = some (k, Arg.obj m)
      rw [Lil.WF.recount_eq (hmask k m rfl)]
  rw [Operand.other_recount hA, Operand.other_recount hB, eMr, e2] at h
  cases eo : optMxm x none outp left M.other A.other B.other with
  | done D' =>
    rw [eo] at h
    have h : D'.recount = D.recount := by injection h
    exact ⟨D', rfl, (congrArg Lil.nrows h :), (congrArg Lil.ncols h :), (congrArg Lil.rows h :)⟩
  | threw er D' => rw [eo] at h; cases h
  | midway er => rw [eo] at h; cases h
  | ub => rw [eo] at h; cases h

/-- **C102, negation** for the optimized backend: already without mask and into a new
matrix, made again a product reports three elements and stores two. -/
theorem C102_opt_count_wrong : ∃ (x : OptOps Nat Nat Nat Nat Nat Nat) (C C' left D : Lil Nat) (A B : Lil Nat) (mem : Nat),
    C.WF ∧ A.WF ∧ B.WF ∧ optMxm x none .replace C none (.plain (.obj A)) (.plain (.obj B)) = .done C' ∧
    Ended.RanOut (optMxmL 0 (fun _ => 0) x none .replace none (.plain (.obj A)) (.plain (.obj B)) (mem, C)) left ∧
    optMxm x none .replace left none (.plain (.obj A)) (.plain (.obj B)) = .done D ∧
    D.rows = C'.rows ∧ C'.nvals = 2 ∧ D.nvals = 3 :=
  ⟨Ex.ovx, Lil.new 2 2, ⟨2, 2, 2, [[(0, 9)], [(1, 16)]]⟩, ⟨2, 2, 1, [[], []]⟩, ⟨2, 2, 3, [[(0, 9)], [(1, 16)]]⟩,
    Ex.ovB, Ex.ovB, 0, Lil.wf_chk (by decide +kernel), Lil.wf_chk (by decide +kernel),
    Lil.wf_chk (by decide +kernel), by decide +kernel, Ended.ranOut_chk (by decide +kernel),
    by decide +kernel, rfl, rfl, rfl⟩

/-- `C102_opt_product_partial` for that product, and for the one of `C101_uncounted_wrong`,
which leaves an element that is not counted. -/
example : ∃ D, optMxm Ex.ovx none .replace ⟨2, 2, 1, [[], []]⟩ none (.plain (.obj Ex.ovB)) (.plain (.obj Ex.ovB)) = .done D ∧
    D.rows = [[(0, 9)], [(1, 16)]] :=
  have hB : Ex.ovB.WF := Lil.wf_chk (by decide +kernel)
  let ⟨D, h, _, _, h'⟩ := C102_opt_product_partial Ex.ovx id .replace (Lil.new 2 2) ⟨2, 2, 2, [[(0, 9)], [(1, 16)]]⟩
    ⟨2, 2, 1, [[], []]⟩ (none : MMask Nat) (.plain Ex.ovB) (.plain Ex.ovB)
    ⟨Lil.wf_chk (by decide +kernel), by intro k M e; cases e⟩ hB hB (.inl rfl)
    (fun i _ ⟨_, _, _, h, _⟩ => nomatch h) (by decide +kernel) 0 (fun _ => 0) 0
    (Ended.ranOut_chk (by decide +kernel))
  ⟨D, h, h'⟩

example : ∃ D, optMxm Ex.ovx none .replace ⟨2, 2, 0, [[(0, 9)], []]⟩ none (.tr (.obj Ex.ovB)) (.tr (.obj Ex.ovB)) = .done D ∧
    D.rows = [[(0, 9)], [(1, 16)]] :=
  have hB : Ex.ovB.WF := Lil.wf_chk (by decide +kernel)
  let ⟨D, h, _, _, h'⟩ := C102_opt_product_partial Ex.ovx id .replace Ex.ovC ⟨2, 2, 2, [[(0, 9)], [(1, 16)]]⟩
    ⟨2, 2, 0, [[(0, 9)], []]⟩ (none : MMask Nat) (.tr Ex.ovB) (.tr Ex.ovB)
    ⟨Lil.wf_chk (by decide +kernel), by intro k M e; cases e⟩ hB hB (.inl rfl)
    (fun i _ ⟨_, _, h, _⟩ => nomatch h) (by decide +kernel) 0 (fun _ => 0) 1
    Ex.uncounted
  ⟨D, h, h'⟩

end GBTL

import Verif.Spec.Retry
import Verif.Props.AllocWrong
import Verif.Props.Overcount
import Verif.Lemmas.OptDispatch
/-
C102: making a call again after it ran out of memory.
-/
namespace GBTL
open Spec (Outp MaskKind Op)
open Lil (Chain Step Within)

variable {α γ τ ζ μ : Type}

/-! ### What a failed attempt leaves of a matrix that reports too many elements -/

theorem Lil.Chain.over {S : Nat → Lil α} {new : Nat → Row α} {n : Nat} (h : Chain S new 0 n)
    (h0 : (S 0).Over) (hn : (S n).WFr) {c : Lil α} (hc : Within S new n c) :
    c.Over ∧ c.nrows = (S 0).nrows ∧ c.ncols = (S 0).ncols := by
  obtain ⟨i, hi, hc⟩ := hc
  obtain ⟨d, hd⟩ : ∃ d, (S 0).nvals = (S 0).stored + d := ⟨(S 0).nvals - (S 0).stored, by have := h0.le; omega⟩
  have hs := h.shape
  have hsi := (h.upTo (Nat.le_of_lt hi)).shape
  have hct := (h.upTo (Nat.le_of_lt hi)).countMore hd
  have hct1 := (h.upTo (show i + 1 ≤ n from hi)).countMore hd
  rw [Nat.zero_add] at hs hsi hct hct1
  have st := h i (by omega) (by omega)
  have hnew : (S n).rowD i = new i := by
    have := h.rowD i
    rw [Nat.zero_add, if_pos (by omega)] at this; exact this
  have hrow : ∀ k, Row.OK (S 0).ncols ((S i).rowD k) := by
    intro k
    rw [h.mid (Nat.le_of_lt hi)]
    split
    · rw [← hs.2.1]; exact hn.rowD_ok k
    · exact h0.wfr.rowD_ok k
  rcases hc with rfl | ⟨l, hl, rfl⟩
  · refine ⟨⟨⟨by rw [hsi.2.2, hsi.1]; exact h0.wfr.len, fun r hm => ?_⟩, by omega⟩, hsi.1, hsi.2.1⟩
    obtain ⟨k, hk, rfl⟩ := List.mem_iff_getElem.1 hm
    rw [← Lil.rowD_of_lt hk, hsi.2.1]; exact hrow k
  · have hr : ∀ k, ((S i).put i ((new i).take l) (S (i + 1)).nvals).rowD k
        = if k = i then (new i).take l else (S i).rowD k := fun k => Lil.rowD_set st.lt rfl
    refine ⟨⟨⟨?_, fun r hm => ?_⟩, ?_⟩, hsi.1, hsi.2.1⟩
    · show ((S i).rows.set i _).length = (S i).nrows
      rw [List.length_set, hsi.2.2, hsi.1]; exact h0.wfr.len
    · obtain ⟨k, hk, rfl⟩ := List.mem_iff_getElem.1 hm
      rw [← Lil.rowD_of_lt hk, hr]
      show Row.OK (S i).ncols _
      rw [hsi.2.1]
      split
      · rw [← hnew, ← hs.2.1]; exact (hn.rowD_ok i).take l
      · exact hrow k
    · have e1 := Lil.stored_put st.lt ((new i).take l) (S (i + 1)).nvals
      have e2 := Lil.stored_put st.lt (new i) (S (i + 1)).nvals
      have e3 : ((S i).put i (new i) (S (i + 1)).nvals).stored = (S (i + 1)).stored := by
        show (((S i).rows.set i (new i)).map List.length).sum = ((S (i + 1)).rows.map List.length).sum
        rw [st.rows]
      rw [List.length_take] at e1
      show _ ≤ (S (i + 1)).nvals
      omega

/-- An operation on an output that reports too many elements: it returns, or leaves such
an output. -/
theorem MCall.runL_over {c : MCall γ τ ζ} {o : MOut γ τ ζ μ} {C' : Lil γ} (hC : o.C.Over)
    (hC' : C'.WFr) (e : c.run o = .done C') (prep : Nat) (work : Nat → Nat) :
    Runs (c.runL prep work o) o.C (.ok ()) C'
      fun left => left.Over ∧ left.nrows = o.C.nrows ∧ left.ncols = o.C.ncols := by
  rw [MCall.run_eq_pre] at e
  obtain ⟨Z, e1, e2⟩ := run_ret e
  refine (Runs.requests ⟨hC, rfl, rfl⟩ _).bind ((Runs.output _).bind ((Runs.lib_of e1 _).bind ?_))
  rcases hM : o.M with _ | ⟨k, M⟩
  · rw [hM] at e2
    obtain ⟨S, new, h0, h1, h2, h3⟩ := sparseCopyL_runs work e2 hC.wfr.len
    refine h3.mono fun c hc => ?_
    have := h2.over (by rw [h0]; exact (Lil.clear_wf hC.wfr).over) (by rw [h1]; exact hC') hc
    rwa [h0] at this
  · rw [hM] at e2
    obtain ⟨S, new, h0, h1, h2, h3⟩ := writeMaskL_runs work e2
    refine h3.mono fun c hc => ?_
    have := h2.over (by rw [h0]; exact hC) (by rw [h1]; exact hC') hc
    rwa [h0] at this

theorem MCall.Good.recount_eq {c : MCall γ τ ζ} {m n : Nat} (h : c.Good m n) : c.recount = c := by
  have op : ∀ {δ : Type} {A : Operand δ}, A.WF → A.recount = A := by
    intro δ A hA
    cases A with
    | plain A => exact congrArg Operand.plain (Lil.WF.recount_eq hA)
    | tr A => exact congrArg Operand.tr (Lil.WF.recount_eq hA)
  cases c with
  | mxm sr via A B => show MCall.mxm sr via A.recount B.recount = _; rw [op h.1, op h.2]
  | eWiseAdd f A B => show MCall.eWiseAdd f A.recount B.recount = _; rw [op h.1, op h.2]
  | eWiseMult f A B => show MCall.eWiseMult f A.recount B.recount = _; rw [op h.1, op h.2]
  | apply f A => show MCall.apply f A.recount = _; rw [op h]
  | extract A ri ci => show MCall.extract A.recount ri ci = _; rw [op h]
  | transpose A => show MCall.transpose A.recount = _; first | rw [op h] | rw [Lil.WF.recount_eq h]
  | kronecker f A B => show MCall.kronecker f A.recount B.recount = _; rw [op h.1, op h.2.1]
  | assign keep A ri ci => show MCall.assign keep A.recount ri ci = _; rw [op h.1]
  | assignConst => rfl

theorem MCall.Good.over {c : MCall γ τ ζ} {m n : Nat} (h : c.Good m n) : c.Over := by
  have op : ∀ {δ : Type} {A : Operand δ}, A.WF → A.Over := by
    intro δ A hA
    cases A with
    | plain A => exact Lil.WF.over hA
    | tr A => exact Lil.WF.over hA
  cases c with
  | mxm sr via A B => exact ⟨op h.1, op h.2⟩
  | eWiseAdd f A B => exact ⟨op h.1, op h.2⟩
  | eWiseMult f A B => exact ⟨op h.1, op h.2⟩
  | apply f A => exact op h
  | extract A ri ci => exact op h
  | transpose A => first | exact op h | exact Lil.WF.over h
  | kronecker f A B => exact ⟨op h.1, op h.2.1⟩
  | assign keep A ri ci => exact op h.1
  | assignConst => trivial

/-- An operation that does not use what its output held does the same to any output of
that shape, except for a count that is too large and a mask. -/
theorem MCall.run_again (c : MCall γ τ ζ) (o : MOut γ τ ζ μ) (C' X : Lil γ) (ho : o.WF)
    (hg : c.Good o.C.nrows o.C.ncols) (e : c.run o = .done C') (hop : c.isAssign = false)
    {cast : τ → ζ} (hacc : o.acc = .none cast) (hm : o.M = none ∨ o.outp = .replace)
    (hX : X.Over) (h1 : X.nrows = o.C.nrows) (h2 : X.ncols = o.C.ncols) :
    C'.WF ∧ C'.nrows = o.C.nrows ∧ C'.ncols = o.C.ncols ∧
    c.run { o with C := X } = .done (C'.more (MOut.left { o with C := X })) := by
  obtain ⟨F, hF, h⟩ := c.main _ _ hg
  have hfit : o.M.Fits o.C.nrows o.C.ncols ∧ c.Accepts o.C.nrows o.C.ncols := by
    by_cases hs : o.M.Fits o.C.nrows o.C.ncols ∧ c.Accepts o.C.nrows o.C.ncols
    · exact hs
    · obtain ⟨er, -, e'⟩ := (h μ o ho rfl rfl).2 hs
      rw [e] at e'; cases e'
  obtain ⟨C1, e1, w1⟩ := (h μ o ho rfl rfl).1 hfit.1 hfit.2
  rw [e] at e1; cases e1
  let o' : MOut γ τ ζ μ := { o with C := X.recount }
  have ho' : o'.WF := ⟨hX.recount_wf, ho.mask⟩
  obtain ⟨D, e2, w2⟩ := (h μ o' ho' h1 h2).1 hfit.1 hfit.2
  have hD : D = C' := by
    refine Lil.ext_get w2.wf w1.wf (w2.nrows.trans (h1.trans w1.nrows.symm))
      (w2.ncols.trans (h2.trans w1.ncols.symm)) fun i j hi hj => ?_
    have hi' : i < X.nrows := by rw [w2.nrows] at hi; exact hi
    have hj' : j < X.ncols := by rw [w2.ncols] at hj; exact hj
    rw [w2.get i j hi' hj', w1.get i j (h1 ▸ hi') (h2 ▸ hj')]
    cases hF with
    | assign keep sel T hb _ => rw [hop] at hb; cases hb
    | op T _ hT =>
      rw [hT, hT]
      show Spec.write o.castZ (o.M.allows o.truthy i j) o.outp (X.recount.get i j)
        (Spec.accum o.acc (X.recount.get i j) (T i j)) = _
      rw [hacc]
      unfold Spec.accum Spec.write
      rcases hm with hm | hm
      · rw [hm]; rfl
      · rw [hm]
  subst hD
  refine ⟨w1.wf, w1.nrows, w1.ncols, ?_⟩
  have hov : ({ o with C := X } : MOut γ τ ζ μ).Over := ⟨hX, fun k M hM => (ho.mask k M hM).over⟩
  refine (C99_matrix_operation c { o with C := X } hg.over hov).1 D ?_
  rw [hg.recount_eq]
  have : MOut.recount { o with C := X } = o' := by
    show ({ o with C := X.recount, M := MMask.recount o.M } : MOut γ τ ζ μ) = { o with C := X.recount }
    have : MMask.recount o.M = o.M := by
      rcases hM : o.M with _ | ⟨k, M⟩
      · rfl
      · show some (k, M.recount) = some (k, M)
        rw [Lil.WF.recount_eq (ho.mask k M hM)]
    rw [this]
  rw [this]; exact e2

/-- What any number of attempts leaves. -/
theorem MCall.retried (c : MCall γ τ ζ) (o : MOut γ τ ζ μ) (C' X : Lil γ) (ho : o.WF)
    (hg : c.Good o.C.nrows o.C.ncols) (e : c.run o = .done C') (hop : c.isAssign = false)
    {cast : τ → ζ} (hacc : o.acc = .none cast) (hm : o.M = none ∨ o.outp = .replace)
    (hX : Retried (c.attempt o) o.C X) :
    X.Over ∧ X.nrows = o.C.nrows ∧ X.ncols = o.C.ncols := by
  induction hX with
  | start => exact ⟨ho.out.over, rfl, rfl⟩
  | @again X Y a mem _ ha hr ih =>
    obtain ⟨i1, i2, i3⟩ := ih
    obtain ⟨prep, work, rfl⟩ := ha
    obtain ⟨w, -, -, er⟩ := c.run_again o C' X ho hg e hop hacc hm i1 i2 i3
    have hw : (C'.more (MOut.left { o with C := X })).WFr := ⟨w.len, w.rowOK⟩
    rcases (MCall.runL_over (o := { o with C := X }) i1 hw er prep work).asUsual mem with h | ⟨left, h1, h2, h3, h4⟩
    · have := h.1; rw [hr.1] at this; cases this
    · have : left = Y := h1.2.symm.trans hr.2
      subst this
      exact ⟨h2, h3.trans i2, h4.trans i3⟩

/-- **C102** An operation with neither mask nor accumulator, other than an assignment, ran
out of memory any number of times. Made again it has the effect it would have had at
once, and there is an amount of memory with which it has it. -/
theorem C102_unmasked_operation (c : MCall γ τ ζ) (o : MOut γ τ ζ μ) (C' X : Lil γ) (ho : o.WF)
    (hg : c.Good o.C.nrows o.C.ncols) (e : c.run o = .done C') (hop : c.isAssign = false)
    {cast : τ → ζ} (hacc : o.acc = .none cast) (hm : o.M = none)
    (hX : Retried (c.attempt o) o.C X) (prep : Nat) (work : Nat → Nat) :
    c.run { o with C := X } = .done C' ∧
      Suffices (c.runL prep work { o with C := X }) X (.ok (), C') := by
  obtain ⟨i1, i2, i3⟩ := c.retried o C' X ho hg e hop hacc (.inl hm) hX
  obtain ⟨w, -, -, er⟩ := c.run_again o C' X ho hg e hop hacc (.inl hm) i1 i2 i3
  have h0 : MOut.left { o with C := X } = 0 := by unfold MOut.left; rw [hm]
  rw [h0, Lil.more_zero] at er
  exact ⟨er, (MCall.runL_over (o := { o with C := X }) i1 w.toWFr er prep work).suffices'⟩

/-- An operation that replaces the output under a mask: made again it stores the elements
it would have stored at once. What is missing: `nvals` may be too large (`d`). -/
theorem C102_replacing_operation_partial (c : MCall γ τ ζ) (o : MOut γ τ ζ μ) (C' X : Lil γ) (ho : o.WF)
    (hg : c.Good o.C.nrows o.C.ncols) (e : c.run o = .done C') (hop : c.isAssign = false)
    {cast : τ → ζ} (hacc : o.acc = .none cast) (hm : o.outp = .replace)
    (hX : Retried (c.attempt o) o.C X) (prep : Nat) (work : Nat → Nat) :
    ∃ d, d ≤ X.nvals - X.stored ∧ c.run { o with C := X } = .done (C'.more d) ∧
      Suffices (c.runL prep work { o with C := X }) X (.ok (), C'.more d) := by
  obtain ⟨i1, i2, i3⟩ := c.retried o C' X ho hg e hop hacc (.inr hm) hX
  obtain ⟨w, -, -, er⟩ := c.run_again o C' X ho hg e hop hacc (.inr hm) i1 i2 i3
  have hw : (C'.more (MOut.left { o with C := X })).WFr := ⟨w.len, w.rowOK⟩
  refine ⟨_, ?_, er, (MCall.runL_over (o := { o with C := X }) i1 hw er prep work).suffices'⟩
  unfold MOut.left
  split
  · exact Nat.zero_le _
  · exact Nat.le_refl _

/-- **C102** Operations on vectors: attempts that fail leave nothing behind. -/
theorem C102_vector_operation (c : VCall γ τ ζ) (o : VOut γ τ ζ μ) (w' x : BVec γ) (hw : o.w.WF)
    (e : c.run o = .done w') (hx : Retried (c.attempt o) o.w x) (prep work : Nat) :
    x = o.w ∧ c.run { o with w := x } = .done w' ∧
      Suffices (c.runL prep work { o with w := x }) x (.ok (), w') := by
  have h : x = o.w := by
    induction hx with
    | start => rfl
    | again a mem _ ha hr ih =>
      subst ih
      obtain ⟨prep, work, rfl⟩ := ha
      rcases (C98_vector_operation c o w' hw e prep work).1 mem with h | h
      · have := h.1; rw [hr.1] at this; cases this
      · exact hr.2.symm.trans h.2
  subst h
  exact ⟨rfl, e, (C98_vector_operation c o w' hw e prep work).2⟩

end GBTL

import Verif.Lemmas.Overcount
import Verif.Lemmas.AllocMat
import Verif.Lemmas.AllocVec
/-
Matrices that report too many elements: the second phase of operations, and operations with
a vector as their result.
-/
namespace GBTL
open Spec (Accum Outp)

variable {α β γ τ ζ μ : Type}

namespace Lil

theorem more_zero (A : Lil α) : A.more 0 = A := rfl

theorem recount_more {A : Lil α} (h : A.stored ≤ A.nvals) : A.recount.more A.excess = A := by
  show ({ A with nvals := A.stored + (A.nvals - A.stored) } : Lil α) = A
  rw [Nat.add_sub_cancel' h]

theorem row_more (A : Lil α) (d i : Nat) : (A.more d).row i = A.row i := rfl

theorem row_length_le {A : Lil α} (h : A.nvals = A.stored) {i : Nat} {r : Row α} (e : A.row i = .ok r) :
    i < A.rows.length ∧ r = A.rowD i ∧ r.length ≤ A.nvals := by
  have hi : i < A.rows.length := by
    apply Nat.lt_of_not_le
    intro hle
    unfold Lil.row rd at e
    rw [List.getElem?_eq_none hle] at e
    cases e
  have er : r = A.rowD i := by
    rw [rowD_of_lt hi]
    unfold Lil.row rd at e
    rw [List.getElem?_eq_getElem hi] at e
    cases e; rfl
  refine ⟨hi, er, ?_⟩
  have := stored_put hi ([] : Row α) 0
  simp only [List.length_nil] at this
  rw [er]
  omega

/-- `setRow` keeps what `nvals` is off by. -/
theorem setRow_more (d : Nat) {A : Lil α} (h : A.nvals = A.stored) (i : Nat) (cast : β → α) (r : Row β) :
    (A.more d).setRow i cast r = (A.setRow i cast r).map (·.more d) ∧
      ∀ B, A.setRow i cast r = .ok B → B.nvals = B.stored := by
  unfold setRow
  rw [row_more]
  cases e : A.row i with
  | error e => exact ⟨rfl, fun B hB => nomatch hB⟩
  | ok old =>
    obtain ⟨hi, er, hle⟩ := row_length_le h e
    have ew : wr A.rows i (r.cast cast) = .ok (A.rows.set i (r.cast cast)) := by
      unfold wr; rw [if_pos hi]
    simp only [Except.bind_ok', show (A.more d).rows = A.rows from rfl, ew]
    refine ⟨?_, ?_⟩
    · show Except.ok _ = Except.ok _
      congr 1
      show ({ A with rows := _, nvals := A.nvals + d + r.length - old.length } : Lil α) =
        { A with rows := _, nvals := A.nvals + r.length - old.length + d }
      congr 1
      omega
    · intro B hB
      cases hB
      have := (Step.ofPut hi (r.cast cast)).count 0 h
      rw [er]
      rw [show (r.cast cast).length = r.length from List.length_map ..] at this
      exact this

end Lil

theorem foldlM_rel {σ ρ : Type} (g : σ → σ) (P : σ → Prop) {f : σ → ρ → Except Err σ}
    (h : ∀ s x, P s → f (g s) x = (f s x).map g ∧ ∀ t, f s x = .ok t → P t) :
    ∀ (l : List ρ) (s : σ), P s → l.foldlM f (g s) = (l.foldlM f s).map g
  | [], _, _ => rfl
  | x :: l, s, hs => by
    rw [List.foldlM_cons, List.foldlM_cons, (h s x hs).1]
    cases e : f s x with
    | error e => rfl
    | ok t => exact foldlM_rel g P h l t ((h s x hs).2 t e)

theorem writeWithOptMask_more (truthy : μ → Bool) (castZ : ζ → γ) {C : Lil γ} (h : C.nvals = C.stored) (d : Nat)
    (Z : Lil ζ) (p : Spec.MaskKind × Lil μ) (outp : Outp) :
    writeWithOptMask truthy castZ (C.more d) Z (some p) outp =
      (writeWithOptMask truthy castZ C Z (some p) outp).map (·.more d) := by
  obtain ⟨k, M⟩ := p
  refine foldlM_rel (·.more d) (fun C : Lil γ => C.nvals = C.stored) (fun s i hs => ?_) _ C h
  dsimp only
  rw [Lil.row_more]
  cases s.row i with
  | error e => exact ⟨rfl, fun _ h => nomatch h⟩
  | ok c =>
    cases Z.row i with
    | error e => exact ⟨rfl, fun _ h => nomatch h⟩
    | ok z =>
      cases M.row i with
      | error e => exact ⟨rfl, fun _ h => nomatch h⟩
      | ok m => exact Lil.setRow_more d hs i id _

/-- The second phase on an output that reports too many elements. -/
theorem writeWithOptMask_recount (o : MOut γ τ ζ μ) (h : o.C.Over) (Z : Lil ζ) :
    writeWithOptMask o.truthy o.castZ o.C Z o.M o.outp =
      (writeWithOptMask o.truthy o.castZ o.recount.C Z o.recount.M o.outp).map (·.more o.left) := by
  rcases o with ⟨C, M, tr, acc, cz, outp⟩
  cases M with
  | none =>
    show sparseCopy _ _ _ = (sparseCopy _ C.recount Z).map (·.more 0)
    show sparseCopy _ _ _ = (sparseCopy _ C Z).map (·.more 0)
    cases sparseCopy _ C Z <;> rfl
  | some p =>
    have := writeWithOptMask_more tr cz (C := C.recount) rfl C.excess Z p outp
    rw [Lil.recount_more h.le] at this
    exact this

theorem VCall.pre_recountM (c : VCall γ τ ζ) (o : VOut γ τ ζ μ) (hc : c.OverM) : c.pre o = c.recountM.pre o := by
  cases c with
  | vxm sr u A =>
    simp only [VCall.pre, VCall.recountM, Operand.nrows_recount, Operand.ncols_recount]
    refine bind_congr_ok fun _ _ => bind_congr_ok fun _ h1 => bind_congr_ok fun _ h2 => ?_
    have h1 := eqCheck_ok h1
    have h2 := eqCheck_ok h2
    have e : vxmT o.w sr u A = vxmT o.w sr u A.recount := by
      rcases A with A | A
      · exact vxmA_recount hc.2 hc.1 h2
      · exact vxmAT_recount hc.2 hc.1 h1
    rw [e]
  | mxv sr A u =>
    simp only [VCall.pre, VCall.recountM, Operand.nrows_recount, Operand.ncols_recount]
    refine bind_congr_ok fun _ _ => bind_congr_ok fun _ h1 => bind_congr_ok fun _ h2 => ?_
    have h1 := eqCheck_ok h1
    have h2 := eqCheck_ok h2
    have e : mxvT o.w sr A u = mxvT o.w sr A.recount u := by
      rcases A with A | A
      · exact mxvA_recount hc.1 hc.2 h1
      · exact vxmA_recount hc.1 hc.2 h2
    rw [e]
  | reduce r A =>
    simp only [VCall.pre, VCall.recountM, Operand.nrows_recount]
    have e : reduceT r A = reduceT r A.recount := by
      rcases A with A | A
      · exact reduceRows_recount hc
      · exact reduceCols_recount hc
    rw [e]
  | extractCol A ri j =>
    simp only [VCall.pre, VCall.recountM, Operand.ncols_recount, extractColT'_recount]
  | eWiseAdd f u v => rfl
  | eWiseMult f u v => rfl
  | apply f u => rfl
  | extract u ix => rfl
  | assign keep u ix => rfl
  | assignConst keep x ix => rfl

end GBTL

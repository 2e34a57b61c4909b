import Verif.Lemmas.AllocWrite
/-
Vectors when memory runs out.
-/
namespace GBTL
open Spec (Outp MaskKind Op)
open Act (call lib output store)

variable {α β γ ζ τ μ χ σ : Type}

namespace BVec

theorem clearL_runs {v : BVec α} (h : v.bitmap.length = v.size) {F : BVec α → Prop} :
    Runs clearL v (.ok ()) v.clear F := by
  refine (Runs.output _).bind ((Runs.store { v with nvals := 0 } _).bind ?_)
  refine (Runs.noRequest (by omega)).bind ((Runs.output _).bind ?_)
  exact Runs.store _ _

theorem setLoopL_runs {cast : β → α} {F : BVec α → Prop} : ∀ (r : Row β) (v w : BVec α),
    setContentsLoop cast r v = .ok w → Runs (setLoopL cast r) v (.ok ()) w F
  | [], v, w, e => by
    rw [setContentsLoop] at e
    injection e with e
    subst e
    exact Runs.pure () v
  | (i, x) :: r, v, w, e => by
    rw [setContentsLoop] at e
    cases e1 : wr v.bitmap i true with
    | error er => rw [e1] at e; cases e
    | ok b =>
      cases e2 : wr v.vals i (cast x) with
      | error er => rw [e1, e2] at e; cases e
      | ok y =>
        rw [e1, e2] at e
        exact (Runs.output _).bind ((Runs.lib_of e1 _).bind ((Runs.lib_of e2 _).bind
          ((Runs.store _ _).bind (setLoopL_runs r _ w e))))

theorem setContentsL_runs {cast : β → α} {r : Row β} {v w : BVec α} (h : v.bitmap.length = v.size)
    (e : v.setContents cast r = .ok w) {F : BVec α → Prop} :
    Runs (setContentsL cast r) v (.ok ()) w F :=
  (clearL_runs h).bind (setLoopL_runs r _ w e)

theorem assignFromL_runs {v rhs : BVec α} (hv : v.WF) (hr : rhs.WF) {F : BVec α → Prop} :
    Runs (assignFromL rhs) v (v.assignFrom rhs).1 (v.assignFrom rhs).2 F := by
  refine (Runs.output _).bind ?_
  unfold assignFrom
  have := hv.vlen; have := hv.blen; have := hr.vlen; have := hr.blen
  by_cases h : v.size ≠ rhs.size
  · rw [if_pos h, if_pos h]; exact Runs.lib _ _
  · rw [if_neg h, if_neg h]
    have h : v.size = rhs.size := Decidable.not_not.1 h
    exact (Runs.store _ _).bind ((Runs.noRequest (by omega)).bind ((Runs.store _ _).bind
      ((Runs.noRequest (by omega)).bind (Runs.store _ _))))

theorem buildL_runs [Inhabited α] (v : BVec α) (dup : α → α → α) (ts : List (Nat × α)) :
    Runs (buildL dup ts) v (v.build dup ts).1 (v.build dup ts).2 (· = v) := by
  refine Runs.bind (a := ()) (s1 := v) (Runs.request (by rfl)) ?_
  refine Runs.bind (a := ()) (s1 := v) (Runs.request (by rfl)) ((Runs.output _).bind ?_)
  unfold build
  cases e : buildLoop v.size dup ts (List.replicate v.size default) (List.replicate v.size false) with
  | error er => exact Runs.bind_err (Runs.lib _ _)
  | ok p => exact (Runs.lib _ _).bind (Runs.store _ _)

theorem resizeL_runs [Inhabited α] (v : BVec α) (n : Nat) :
    Runs (resizeL n) v (v.resize n).1 (v.resize n).2
      fun c => c = v ∨ (v.size < n ∧ c = { v with vals := resizeList v.vals n default }) := by
  refine (Runs.output _).bind ?_
  unfold resize
  by_cases h0 : n = 0
  · rw [if_pos h0, if_pos h0]; exact Runs.lib _ _
  · rw [if_neg h0, if_neg h0]
    by_cases h : v.size < n
    · rw [if_pos h]
      have e : v.resizeBackend n = { size := n, nvals := v.nvals, vals := resizeList v.vals n default,
                                     bitmap := resizeList v.bitmap n false } := by
        rw [resizeBackend, if_neg (by omega), if_pos h]
      dsimp only
      rw [e]
      refine Runs.bind (a := ()) (s1 := v) (Runs.when (.inl rfl) _) ((Runs.store _ _).bind ?_)
      exact Runs.bind (a := ()) (Runs.when (.inr ⟨h, rfl⟩) _) ((Runs.output _).bind (Runs.store _ _))
    · rw [if_neg h]; exact Runs.store _ _

end BVec

theorem writeWithOptMask1DL_runs {truthy : μ → Bool} {castZ : ζ → γ} {w w' : BVec γ} {z : Row ζ}
    {M : VMask μ} {outp : Outp} (work : Nat) (hw : w.bitmap.length = w.size)
    (e : writeWithOptMask1D truthy castZ w z M outp = .ok w') :
    Runs (writeWithOptMask1DL work truthy castZ z M outp) w (.ok ()) w' (· = w) := by
  rcases M with _ | ⟨k, m⟩
  · exact BVec.setContentsL_runs hw e
  · rw [writeWithOptMask1D] at e
    refine (Runs.output _).bind ?_
    cases e1 : w.getContents with
    | error er => rw [e1] at e; cases e
    | ok c =>
      cases e2 : m.getContents with
      | error er => rw [e1, e2] at e; cases e
      | ok mc =>
        rw [e1, e2] at e
        refine (Runs.lib _ _).bind ((Runs.lib _ _).bind ?_)
        exact Runs.bind (a := ()) (s1 := w) (Runs.requests (by rfl) _) (BVec.setContentsL_runs hw e)

theorem VCall.run_eq_pre (c : VCall γ τ ζ) (o : VOut γ τ ζ μ) :
    c.run o = GBTL.run o.w (c.pre o) fun z => writeWithOptMask1D o.truthy o.castZ o.w z o.m o.outp := by
  cases c <;>
    simp only [VCall.run, VCall.pre, GBTL.vxm, GBTL.mxv, eWiseAddV, eWiseMultV, applyV, reduceMV, extractV,
      extractC, assignV, assignConstV, VOut.op, VOut.opStencil, bind_assoc]

theorem VCall.runL_done {c : VCall γ τ ζ} {o : VOut γ τ ζ μ} {w' : BVec γ} (hw : o.w.WF)
    (e : c.run o = .done w') (prep work : Nat) :
    Runs (c.runL prep work o) o.w (.ok ()) w' (· = o.w) := by
  rw [VCall.run_eq_pre] at e
  obtain ⟨z, e1, e2⟩ := run_ret e
  exact Runs.bind (a := ()) (s1 := o.w) (Runs.requests (by rfl) _)
    ((Runs.output _).bind ((Runs.lib_of e1 _).bind (writeWithOptMask1DL_runs work hw.blen e2)))

theorem VCall.runL_threw {c : VCall γ τ ζ} {o : VOut γ τ ζ μ} {w' : BVec γ} {er : Err}
    (e : c.run o = .threw er w') (prep work : Nat) :
    Runs (c.runL prep work o) o.w (.error er) o.w (· = o.w) := by
  rw [VCall.run_eq_pre] at e
  obtain ⟨e1, _⟩ := run_fail e
  exact Runs.bind (a := ()) (s1 := o.w) (Runs.requests (by rfl) _)
    ((Runs.output _).bind (Runs.bind_err (Runs.lib_of e1 _)))

end GBTL

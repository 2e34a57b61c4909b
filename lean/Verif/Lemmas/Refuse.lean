import Verif.Spec.Refuse
import Verif.Lemmas.Calls
import Verif.Lemmas.AlgoOpt
import Verif.Model.BfsBatch
/-
Rules for runs that end with a result or with an exception.
-/
namespace GBTL
open Spec (Outp MaskKind Accum)

variable {α γ τ ζ μ σ ρ : Type}

/-- The run ends: with a result that satisfies `Q`, or with an exception. -/
def Ends (p : Prog σ) (Q : σ → Prop) : Prop :=
  match p with
  | .ok a => Q a
  | .error (.err e) => e ≠ .ub
  | .error .running => False

theorem Ends.throws {p : Prog σ} (h : Ends p fun _ => False) : Throws p := by
  match p, h with
  | .ok _, h => exact h.elim
  | .error (.err e), h => exact ⟨e, h, rfl⟩
  | .error .running, h => exact h.elim

theorem Ends.ok {Q : σ → Prop} {a : σ} (h : Q a) : Ends (.ok a) Q := h

theorem Ends.err {Q : σ → Prop} {e : Err} (h : e ≠ .ub) : Ends (.error (.err e) : Prog σ) Q := h

theorem Ends.bind {p : Prog σ} {f : σ → Prog ρ} {Q : σ → Prop} {R : ρ → Prop} (h : Ends p Q)
    (hf : ∀ a, Q a → Ends (f a) R) : Ends (p >>= f) R := by
  match p, h with
  | .ok a, h => exact hf a h
  | .error (.err e), h => exact h
  | .error .running, h => exact h.elim

theorem Ends.mono {p : Prog σ} {Q R : σ → Prop} (h : Ends p Q) (hf : ∀ a, Q a → R a) : Ends p R := by
  match p, h with
  | .ok a, h => exact hf a h
  | .error (.err e), h => exact h
  | .error .running, h => exact h.elim

/-- A loop whose first iteration throws. -/
theorem Ends.loop {c : σ → Bool} {b : σ → Prog σ} {fuel : Nat} {s : σ} {Q : σ → Prop}
    (hf : 0 < fuel) (hc : c s = true) (hb : Ends (b s) fun _ => False) : Ends (loop c b fuel s) Q := by
  obtain ⟨fuel, rfl⟩ : ∃ k, fuel = k + 1 := ⟨fuel - 1, by omega⟩
  rw [GBTL.loop, if_pos hc]
  exact hb.bind fun _ h => h.elim

theorem Ends.loop_bind {c : σ → Bool} {b : σ → Prog σ} {fuel : Nat} {s : σ} {f : σ → Prog ρ} {R : ρ → Prop}
    (hf : 0 < fuel) (hc : c s = true) (hb : Ends (b s) fun _ => False) : Ends (GBTL.loop c b fuel s >>= f) R :=
  (Ends.loop hf hc hb (Q := fun _ => False)).bind fun _ h => h.elim

theorem Ends.forP {n : Nat} {b : Nat → σ → Prog σ} {s : σ} (I : σ → Prop) (hs : I s)
    (hb : ∀ i s, i < n → I s → Ends (b i s) I) : Ends (forP n s b) I := by
  unfold GBTL.forP
  have : ∀ (l : List Nat), (∀ i ∈ l, i < n) → ∀ s, I s → Ends (l.foldlM (fun s i => b i s) s) I := by
    intro l
    induction l with
    | nil => exact fun _ _ h => h
    | cons i l ih =>
      intro hl s hs
      rw [List.foldlM_cons]
      exact (hb i s (hl i (by simp)) hs).bind fun s' h' => ih (fun j hj => hl j (by simp [hj])) s' h'
  exact this _ (fun i hi => by simpa using hi) s hs

/-- A non-empty iteration whose first step throws. -/
theorem Ends.forP_first {n : Nat} {b : Nat → σ → Prog σ} {s : σ} {Q : σ → Prop} (hn : 0 < n)
    (hb : Ends (b 0 s) fun _ => False) : Ends (GBTL.forP n s b) Q := by
  obtain ⟨n, rfl⟩ : ∃ k, n = k + 1 := ⟨n - 1, by omega⟩
  unfold GBTL.forP
  rw [List.range_succ_eq_map, List.foldlM_cons]
  exact hb.bind fun _ h => h.elim

/-! ### Operations -/

theorem VCall.ends (c : VCall γ τ ζ) {o : VOut γ τ ζ μ} (ho : o.WF) (hg : c.Good o.w.size) :
    Ends (exec (c.run o)) fun w' => w'.WF ∧ w'.size = o.w.size ∧ o.m.Fits o.w.size ∧
      c.Accepts o.w.size := by
  obtain ⟨F, -, h⟩ := c.main o.w.size hg
  obtain ⟨h1, h2⟩ := h μ o ho rfl
  by_cases hs : o.m.Fits o.w.size ∧ c.Accepts o.w.size
  · obtain ⟨w', e, hw⟩ := h1 hs.1 hs.2
    rw [e]
    exact ⟨hw.wf, hw.size, hs.1, hs.2⟩
  · obtain ⟨e, he, h⟩ := h2 hs
    rw [h]
    exact he

theorem MCall.ends (c : MCall γ τ ζ) {o : MOut γ τ ζ μ} (ho : o.WF) (hg : c.Good o.C.nrows o.C.ncols) :
    Ends (exec (c.run o)) fun C' => C'.WF ∧ C'.nrows = o.C.nrows ∧ C'.ncols = o.C.ncols ∧
      o.M.Fits o.C.nrows o.C.ncols ∧ c.Accepts o.C.nrows o.C.ncols := by
  obtain ⟨F, -, h⟩ := c.main o.C.nrows o.C.ncols hg
  obtain ⟨h1, h2⟩ := h μ o ho rfl rfl
  by_cases hs : o.M.Fits o.C.nrows o.C.ncols ∧ c.Accepts o.C.nrows o.C.ncols
  · obtain ⟨w', e, hw⟩ := h1 hs.1 hs.2
    rw [e]
    exact ⟨hw.wf, hw.nrows, hw.ncols, hs.1, hs.2⟩
  · obtain ⟨e, he, h⟩ := h2 hs
    rw [h]
    exact he

/-! ### Containers -/

theorem BVec.new_ends [Inhabited α] (n : Nat) :
    Ends (lift (BVec.new n : Except Err (BVec α))) fun v => v.WF ∧ v.size = n ∧ 0 < n := by
  by_cases h : n = 0
  · rw [BVec.new, if_pos h]
    exact Ends.err (by simp)
  · obtain ⟨v, e, h1, h2, -⟩ := BVec.new_spec (α := α) h
    rw [e]
    exact ⟨h1, h2, by omega⟩

theorem BVec.setElement_ends {v : BVec α} (hv : v.WF) (i : Nat) (x : α) :
    Ends (lift (method (v.setElement i x))) fun w => w.WF ∧ w.size = v.size ∧ i < v.size ∧
      w.get i = some x := by
  by_cases h : i < v.size
  · obtain ⟨w, e, h1, h2, h3⟩ := BVec.setElement_spec hv h x
    rw [e]
    exact ⟨h1, h2, h, by simp [h3]⟩
  · rw [BVec.setElement, if_pos (by omega)]
    exact Ends.err (by simp)

theorem BVec.nvals_pos {v : BVec α} (hv : v.WF) {i : Nat} {x : α} (h : v.get i = some x) : 0 < v.nvals := by
  rcases Nat.eq_zero_or_pos v.nvals with h0 | h0
  · rw [none_of_nvals hv h0] at h; cases h
  · exact h0

theorem Lil.setElement_ends {A : Lil α} (hA : A.WF) (i j : Nat) (x : α) :
    Ends (lift (method (A.setElement i j x))) fun B => B.WF ∧ B.nrows = A.nrows ∧ B.ncols = A.ncols ∧
      i < A.nrows ∧ j < A.ncols := by
  by_cases h : i < A.nrows ∧ j < A.ncols
  · obtain ⟨B, e, h1, h2, h3, -⟩ := Lil.setElement_spec hA h.1 h.2 x
    rw [e]
    exact ⟨h1, h2, h3, h⟩
  · have : A.setElement i j x = (.error .indexOutOfBounds, A) := by
      rw [Lil.setElement, Lil.setElementMerge, if_pos (by omega)]
    rw [this]
    exact Ends.err (by simp)

theorem VMask.Fits.size {k : MaskKind} {v : BVec μ} {n : Nat} (h : VMask.Fits (some (k, v)) n) : v.size = n :=
  h k v rfl

theorem MMask.Fits.shape {k : MaskKind} {A : Lil μ} {m n : Nat} (h : MMask.Fits (some (k, A)) m n) :
    A.nrows = m ∧ A.ncols = n := h k A rfl

theorem indexRamp_ends (N : Nat) : Ends (indexRamp N) fun r => r.WF ∧ r.size = N ∧ 0 < N := by
  unfold indexRamp
  refine (BVec.new_ends _).bind fun v ⟨h1, h2, h3⟩ => ?_
  exact Ends.forP (fun r : BVec _ => r.WF ∧ r.size = N ∧ 0 < N) ⟨h1, h2, h3⟩ fun i r _ ⟨r1, r2, _⟩ =>
    (BVec.setElement_ends r1 i i).mono fun _ ⟨q1, q2, _⟩ => ⟨q1, q2.trans r2, h3⟩

theorem indexRampI_ends (N : Nat) : Ends (indexRampI N) fun r => r.WF ∧ r.size = N ∧ 0 < N := by
  unfold indexRampI
  refine (BVec.new_ends _).bind fun v ⟨h1, h2, h3⟩ => ?_
  exact Ends.forP (fun r : BVec _ => r.WF ∧ r.size = N ∧ 0 < N) ⟨h1, h2, h3⟩ fun i r _ ⟨r1, r2, _⟩ =>
    (BVec.setElement_ends r1 i _).mono fun _ ⟨q1, q2, _⟩ => ⟨q1, q2.trans r2, h3⟩

theorem indexRampM_ends (N : Nat) : Ends (indexRampM N) fun r => r.WF ∧ r.nrows = N ∧ r.ncols = N := by
  unfold indexRampM
  exact Ends.forP (fun r : Lil Int => r.WF ∧ r.nrows = N ∧ r.ncols = N) ⟨Lil.new_wf _ _, rfl, rfl⟩ fun i r _ ⟨r1, r2, r3⟩ =>
    (Lil.setElement_ends r1 i i _).mono fun _ ⟨q1, q2, q3, _⟩ => ⟨q1, q2.trans r2, q3.trans r3⟩

end GBTL

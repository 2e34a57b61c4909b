import Verif.Lemmas.EffectsPure
import Verif.Lemmas.EffectsMat
import Verif.Spec.EffectsFrontend
/-
Whole calls, when every operator always returns the value of a function.
-/
namespace GBTL
open Spec (Outp MaskKind Accum Op Returns EAccum)
open Act (call lib output store)

variable {ω χ X α β γ δ τ ζ μ σ ρ : Type}

theorem accumMatE_agrees {c : χ} (C : Lil γ) {acc : EAccum ω X γ τ ζ} {f : Accum γ τ ζ}
    (h : acc.Returns f) (T : Lil τ) : Act.Agrees c (accumMatE C acc T) (accumMat C f T) := by
  cases acc with
  | none k =>
    cases f with
    | none k' =>
      cases h
      exact .lib _
    | some => exact h.elim
  | some op cC cT =>
    cases f with
    | none k' => exact h.elim
    | some g cC' cT' =>
      obtain ⟨h, rfl, rfl⟩ := h
      exact Act.Agrees.forA fun i Z => .bind (.lib _) fun c _ => .bind (.lib _) fun t _ =>
        .okBind (ewiseOrE_agrees h ..) (.lib _)

theorem accumVecE_agrees {c : χ} (w : BVec γ) {acc : EAccum ω X γ τ ζ} {f : Accum γ τ ζ}
    (h : acc.Returns f) (t : Row τ) : Act.Agrees c (accumVecE w acc t) (ewiseOrOptAccum1D w t f) := by
  cases acc with
  | none k =>
    cases f with
    | none k' =>
      cases h
      exact .ret _
    | some => exact h.elim
  | some op cC cT =>
    cases f with
    | none k' => exact h.elim
    | some g cC' cT' =>
      obtain ⟨h, rfl, rfl⟩ := h
      exact .bind (.lib _) fun c _ => ewiseOrE_agrees h ..

theorem accumStencilE_agrees {c : χ} (keep : γ → ζ) (C : Lil γ) {acc : EAccum ω X γ τ ζ}
    {f : Accum γ τ ζ} (h : acc.Returns f) (T : Lil τ) (ri ci : Idx) :
    Act.Agrees c (accumStencilE keep C acc T ri ci)
      (ewiseOrStencilOptAccum keep (Lil.new C.nrows C.ncols) C T ri ci f) := by
  cases acc with
  | none k =>
    cases f with
    | none k' =>
      cases h
      exact .lib _
    | some => exact h.elim
  | some op cC cT =>
    cases f with
    | none k' => exact h.elim
    | some g cC' cT' =>
      obtain ⟨h, rfl, rfl⟩ := h
      exact Act.Agrees.forA fun i Z => .bind (.lib _) fun c _ => .bind (.lib _) fun t _ =>
        .okBind (ewiseOrE_agrees h ..) (.lib _)

theorem accumStencil1DE_agrees {c : χ} (keep : γ → ζ) (w : BVec γ) {acc : EAccum ω X γ τ ζ}
    {f : Accum γ τ ζ} (h : acc.Returns f) (t : Row τ) (ix : Idx) :
    Act.Agrees c (accumStencil1DE keep w acc t ix) (ewiseOrStencilOptAccum1D keep w t ix f) := by
  cases acc with
  | none k =>
    cases f with
    | none k' =>
      cases h
      exact .lib _
    | some => exact h.elim
  | some op cC cT =>
    cases f with
    | none k' => exact h.elim
    | some g cC' cT' =>
      obtain ⟨h, rfl, rfl⟩ := h
      exact .bind (.lib _) fun c _ => ewiseOrE_agrees h ..

/-- Both phases of a call. -/
theorem endsAs_run {c : χ} {pre : Act ω χ X ρ} {m : Except Err ρ} {post : ρ → Act ω χ X Unit}
    {g : ρ → Except Err χ} (h : Act.Agrees c pre m)
    (hp : ∀ z w, post z (w, c) = match g z with
      | .ok c' => (.ok (), (w, c'))
      | .error e => (.error (.lib e), (w, c))) (w : ω) :
    EndsAs ((pre >>= post) (w, c)) (run c m g) := by
  obtain ⟨w1, h1⟩ := h.out w
  show EndsAs (Act.andThen pre post (w, c)) _
  unfold Act.andThen
  rw [h1]
  cases m with
  | ok z =>
    show EndsAs (post z (w1, c)) (finish (g z))
    rw [hp]
    cases g z with
    | ok c' => exact ⟨w1, rfl⟩
    | error e => cases e <;> exact ⟨_, rfl⟩
  | error e => cases e <;> exact ⟨_, rfl⟩

theorem write_end {c : χ} (g : ρ → χ → Except Err χ) (z : ρ) (w : ω) :
    (output >>= fun C => lib (g z C) >>= store : Act ω χ X Unit) (w, c) = match g z c with
      | .ok c' => (.ok (), (w, c'))
      | .error e => (.error (.lib e), (w, c)) := by
  show (lib (g z c) >>= store : Act ω χ X Unit) (w, c) = _
  cases g z c <;> rfl

theorem EMOut.op_endsAs {o : EMOut ω X γ τ ζ μ} {f : Accum γ τ ζ} (hf : o.acc.Returns f)
    {checks : Lil γ → Except Err Unit} {T : Lil γ → Act ω (Lil γ) X (Lil τ)} {C : Lil γ}
    {m : Except Err (Lil τ)} (hT : Act.Agrees C (T C) m) (w : ω) :
    EndsAs (o.op checks T (w, C)) ((o.with C f).op (checks C) m) := by
  have e : o.op checks T (w, C) = ((do
      lib (checks C)
      let T ← T C
      let C ← output
      accumMatE C o.acc T) >>= fun Z => output >>= fun C =>
        lib (writeWithOptMask o.truthy o.castZ C Z o.M o.outp) >>= store) (w, C) := by
    simp only [Act.bind_assoc']
    rfl
  rw [e]
  refine endsAs_run (.bind (.lib _) fun _ _ => .bind hT fun t _ => ?_) (fun z w => ?_) w
  · exact ⟨fun w => (accumMatE_agrees C hf t).out w⟩
  · exact write_end (fun Z C => writeWithOptMask o.truthy o.castZ C Z o.M o.outp) z w

theorem EVOut.op_endsAs {o : EVOut ω X γ τ ζ μ} {f : Accum γ τ ζ} (hf : o.acc.Returns f)
    {checks : BVec γ → Except Err Unit} {t : BVec γ → Act ω (BVec γ) X (Row τ)} {c : BVec γ}
    {m : Except Err (Row τ)} (hT : Act.Agrees c (t c) m) (w : ω) :
    EndsAs (o.op checks t (w, c)) ((o.with c f).op (checks c) m) := by
  have e : o.op checks t (w, c) = ((do
      lib (checks c)
      let T ← t c
      let C ← output
      accumVecE C o.acc T) >>= fun Z => output >>= fun C =>
        lib (writeWithOptMask1D o.truthy o.castZ C Z o.m o.outp) >>= store) (w, c) := by
    simp only [Act.bind_assoc']
    rfl
  rw [e]
  refine endsAs_run (.bind (.lib _) fun _ _ => .bind hT fun t _ => ?_) (fun z w => ?_) w
  · exact ⟨fun w => (accumVecE_agrees c hf t).out w⟩
  · exact write_end (fun Z C => writeWithOptMask1D o.truthy o.castZ C Z o.m o.outp) z w

theorem EMOut.opStencil_endsAs {o : EMOut ω X γ τ ζ μ} {f : Accum γ τ ζ} (hf : o.acc.Returns f)
    (keep : γ → ζ) (ri ci : List Nat)
    {checks : Lil γ → Except Err Unit} {T : Lil γ → Act ω (Lil γ) X (Lil τ)} {C : Lil γ}
    {m : Except Err (Lil τ)} (hT : Act.Agrees C (T C) m) (w : ω) :
    EndsAs (o.opStencil keep ri ci checks T (w, C))
      ((o.with C f).opStencil keep ri ci (checks C) m) := by
  have e : o.opStencil keep ri ci checks T (w, C) = ((do
      lib (checks C)
      let T ← T C
      let C ← output
      accumStencilE keep C o.acc T (.list ri) (.list ci)) >>= fun Z => output >>= fun C =>
        lib (writeWithOptMask o.truthy o.castZ C Z o.M o.outp) >>= store) (w, C) := by
    simp only [Act.bind_assoc']
    rfl
  rw [e]
  refine endsAs_run (.bind (.lib _) fun _ _ => .bind hT fun t _ => ?_) (fun z w => ?_) w
  · exact ⟨fun w => (accumStencilE_agrees keep C hf t (.list ri) (.list ci)).out w⟩
  · exact write_end (fun Z C => writeWithOptMask o.truthy o.castZ C Z o.M o.outp) z w

theorem EVOut.opStencil_endsAs {o : EVOut ω X γ τ ζ μ} {f : Accum γ τ ζ} (hf : o.acc.Returns f)
    (keep : γ → ζ) (ix : List Nat)
    {checks : BVec γ → Except Err Unit} {t : BVec γ → Act ω (BVec γ) X (Row τ)} {c : BVec γ}
    {m : Except Err (Row τ)} (hT : Act.Agrees c (t c) m) (w : ω) :
    EndsAs (o.opStencil keep ix checks t (w, c)) ((o.with c f).opStencil keep ix (checks c) m) := by
  have e : o.opStencil keep ix checks t (w, c) = ((do
      lib (checks c)
      let T ← t c
      let C ← output
      accumStencil1DE keep C o.acc T (.list ix)) >>= fun Z => output >>= fun C =>
        lib (writeWithOptMask1D o.truthy o.castZ C Z o.m o.outp) >>= store) (w, c) := by
    simp only [Act.bind_assoc']
    rfl
  rw [e]
  refine endsAs_run (.bind (.lib _) fun _ _ => .bind hT fun t _ => ?_) (fun z w => ?_) w
  · exact ⟨fun w => (accumStencil1DE_agrees keep c hf t (.list ix)).out w⟩
  · exact write_end (fun Z C => writeWithOptMask1D o.truthy o.castZ C Z o.m o.outp) z w

theorem reduceScalar_endsAs {castZ : ζ → γ} {acc : EAccum ω X γ τ ζ} {f : Accum γ τ ζ}
    (hf : acc.Returns f) {val : γ} {t : Act ω γ X τ} {m : Except Err τ} (ht : Act.Agrees val t m)
    (w : ω) : EndsAs ((t >>= fun t => reduceScalarEndE castZ acc t) (w, val))
      (run val m fun t => .ok (reduceScalarEnd castZ f val t)) := by
  obtain ⟨w1, h1⟩ := ht.out w
  show EndsAs (Act.andThen t _ (w, val)) _
  unfold Act.andThen
  rw [h1]
  cases m with
  | error e => cases e <;> exact ⟨_, rfl⟩
  | ok t =>
    cases acc with
    | none k =>
      cases f with
      | none k' => cases h : hf; exact ⟨w1, rfl⟩
      | some => exact hf.elim
    | some op cC cT =>
      cases f with
      | none k' => exact hf.elim
      | some g cC' cT' =>
        obtain ⟨h, rfl, rfl⟩ := hf
        obtain ⟨w2, h2⟩ := (Act.Agrees.call (c := val) (h val t)).out w1
        refine ⟨w2, ?_⟩
        show (Act.andThen (call (op val t)) fun z => store (castZ z)) (w1, val) = _
        unfold Act.andThen
        rw [h2]
        rfl

theorem makesScalar (castZ : ζ → γ) (acc : EAccum ω X γ τ ζ) (f : Op ω X τ) (val : γ) (w : ω) :
    MakesScalar castZ (f.andThen (scalarEnd acc val)) w val
      (call f >>= fun t => reduceScalarEndE castZ acc t) := by
  unfold MakesScalar Op.andThen
  cases hf : f w with
  | mk r w1 =>
    cases r with
    | error x => exact Act.bind_error (Act.call_error hf)
    | ok t =>
      dsimp only
      rw [Act.bind_ok (Act.call_ok hf)]
      cases acc with
      | none cast => rfl
      | some op cC cT =>
        show match op val t w1 with
          | (.error e, w') => (call (op val t) >>= fun z => store (castZ z)) (w1, val) = _
          | (.ok z, w') => (call (op val t) >>= fun z => store (castZ z)) (w1, val) = _
        cases hz : op val t w1 with
        | mk r2 w2 =>
          cases r2 with
          | error x => exact Act.bind_error (Act.call_error hz)
          | ok z => exact Act.bind_ok (Act.call_ok hz)

theorem allOrNothing {x : Act ω χ X Unit} (h : Act.Strong x) : AllOrNothing x :=
  fun w c e w' c' he => h.out (w, c) e (w', c') he

end GBTL

import Verif.Model.ProgramOpt
import Verif.Props.Backends
import Verif.Props.Program
/-
C82. Programs that use the library give the same results with the
`optimized_sequential` backend as with the `sequential` backend.
-/
namespace GBTL
open Spec (Outp MaskKind Accum AMat AVec)

variable {tm tv : Nat → Type} {τ ζ μ α ρ : Type}

theorem Ref.arg_at (s : Store tm tv) (x : Nat) (r : Ref) : (r.arg s x).at (s.mat x) = r.operand s := by
  obtain ⟨y, t⟩ := r
  unfold Ref.arg Ref.operand
  by_cases h : y = x
  · subst h
    cases t <;> simp [ArgOperand.at, Arg.at]
  · cases t <;> simp [h, ArgOperand.at, Arg.at]

theorem accumOf_accOp {γ : Type} (acc : Accum γ τ ζ) :
    ∃ cast, accumOf (accOp acc) cast = acc ∧ ∀ c, acc = .none c → cast = c := by
  cases acc with
  | none c => exact ⟨c, rfl, fun c' h => by cases h; rfl⟩
  | some op cC cT => exact ⟨cT, rfl, fun c' h => by cases h⟩

theorem Ref.operand_none {s : Store tm tv} {r : Ref} (h : ∀ i j, (r.operand s).get i j = none) :
    ∀ i j, (s.abs.mat r.x).map i j = none := by
  intro i j
  unfold Ref.operand at h
  cases e : r.tr with
  | false => rw [e] at h; exact h i j
  | true => rw [e] at h; exact h j i

/-- One call of `mxm`. -/
theorem mxm_agree {K : Convs tm} {s : Store tm tv} (hs : s.WF) {x : Nat} {A B : Ref} {sr : SR (tm A.x) (tm B.x) τ}
    {via : τ → τ} {acc : Accum (tm x) τ ζ} {castZ : ζ → tm x} {outp : Outp} (M : ArgMask (tm x) μ) (truthy : μ → Bool)
    (mask : MaskArg tm) (hM : (M.at (s.mat x)).WF) (hn : M = none ↔ mask = none)
    (he : ∀ k m, M.at (s.mat x) = some (k, m) → (∀ i j, m.get i j = none) → s.abs.maskEmpty mask)
    (h : MxmOptHandled K s.abs x mask acc castZ outp A B sr)
    (hv : A.tr → B.tr → ∀ t, via t = t) :
    optMxm (K.ops x A B sr acc castZ truthy) (accOp acc) outp (s.mat x) M (A.arg s x) (B.arg s x)
      = (MCall.mxm sr via (A.operand s) (B.operand s)).runShared (s.mat x) M truthy acc castZ outp := by
  obtain ⟨cast, hacc, hcast⟩ := accumOf_accOp acc
  have key := C28_backends_agree_partial (x := K.ops x A B sr acc castZ truthy) (acc := accOp acc) (cast := cast)
    (outp := outp) (C := s.mat x) (M := M) (A := A.arg s x) (B := B.arg s x) (sr := sr) (via := via) ?_ (hs.mat x) hM
    (by rw [Ref.arg_at]; exact Ref.operand_wf hs A) (by rw [Ref.arg_at]; exact Ref.operand_wf hs B) ?_ rfl rfl ?_
  · rw [key, hacc]
    unfold mxmShared MCall.runShared
    rw [Ref.arg_at, Ref.arg_at]
    congr 1
    unfold MCall.pre mxmChecks
    simp only [bind_assoc]
  · rw [Ref.arg_at, Ref.arg_at]
    have hsome : ∀ a, accOp acc = some a → acc = .some a.op a.cC a.cT := by
      intro a e
      cases acc with
      | none c => cases e
      | some op cC cT => cases e; rfl
    have hnone : M.at (s.mat x) = none → mask = none := by
      intro e
      apply hn.1
      cases M with
      | none => rfl
      | some q => cases e
    refine ⟨?_, ?_, ?_, ?_, ?_⟩
    · intro e t
      cases acc with
      | some op cC cT => cases e
      | none c => rw [hcast c rfl]; exact h.cast c rfl t
    · intro e a ha c
      exact h.old _ _ _ (hsome a ha) (hnone e) c
    · intro e a ha t
      exact h.new _ _ _ (hsome a ha) (hnone e) t
    · intro e a ha c t
      exact h.both _ _ _ (hsome a ha) (hnone e) c t
    · intro k m a e ha ho hm hAB c
      exact h.skip _ _ _ (hsome a ha) ho (he k m e hm)
        (hAB.imp Ref.operand_none Ref.operand_none) c
  · intro e1 e2 a b ea eb
    have hA : A.tr = false := by
      cases hA : A.tr with
      | false => rfl
      | true => simp [Ref.arg, hA] at ea
    have hB : B.tr = true := by
      cases hB : B.tr with
      | true => rfl
      | false => simp [Ref.arg, hB] at eb
    have hacc' : ∃ c, acc = .none c := by
      cases acc with
      | none c => exact ⟨c, rfl⟩
      | some op cC cT => cases e2
    rcases h.stale (hn.1 e1) hacc' hA hB with h1 | h1
    · left
      obtain ⟨y, t⟩ := B
      simp only at h1
      subst h1
      simp only at hB
      subst hB
      simp [Ref.arg] at eb
      subst eb
      rfl
    · right
      have ha : (a.at (s.mat x)) = s.mat A.x := by
        have := Ref.arg_at s x A
        rw [ea] at this
        simp only [ArgOperand.at, Ref.operand, hA] at this
        simpa using this
      rw [ha]
      exact h1
  · intro hA hB
    rw [Ref.arg_at, Ref.operand_isTr] at hA hB
    exact ⟨fun p q => h.multA hA hB p q, hv hA hB⟩

section
variable [∀ x, Inhabited (tm x)] [∀ x, Inhabited (tv x)]

/-- **C82**, one call. -/
theorem C82_call_partial (K : Convs tm) (c : Stmt tm tv α) (s : Store tm tv) (hs : s.WF) (hc : c.handled s.abs)
    (ho : c.optHandled K s.abs) : c.execOpt K s = c.exec s := by
  cases c with
  | opM x mask acc castZ outp e =>
    cases e with
    | mxm A B sr via =>
      rcases mask with _ | ⟨k, z, truthy⟩
      · simp only [Stmt.execOpt, Stmt.exec, MOp.call]
        rw [mxm_agree hs (via := via) none (fun _ => true) none (fun k A e => by cases e) (by simp)
          (fun k m e => by cases e) ho (fun hA hB => (hc hA hB).2)]
      · simp only [Stmt.execOpt, Stmt.exec, MOp.call]
        rw [mxm_agree hs (via := via) (matMask s x k z) truthy (some (k, ⟨z, truthy⟩)) ?_ ?_ ?_ ho
          (fun hA hB => (hc hA hB).2)]
        · rw [matMask_at]; intro k' A e; cases e; exact hs.mat z
        · simp [matMask]
        · rw [matMask_at]
          intro k' m e hm
          cases e
          exact ⟨_, rfl, hm⟩
    | _ => rcases mask with _ | ⟨k, z, truthy⟩ <;> rfl
  | _ => rfl

/-- **C82**, proved part. A program whose calls are handled (as in C67), and whose calls
of `mxm` lose nothing in conversions and leave no stale rows (`Program.optHandled`), runs
with the `optimized_sequential` backend exactly as with the `sequential` backend: it
returns the same and leaves the same objects, representation included. Both do what the
program means. Missing: it is false for other programs, see `C82_stale_rows_wrong`. -/
theorem C82_program_partial (K : Convs tm) (p : Program tm tv ρ) (s : Store tm tv) (hs : s.WF) (hp : p.handled s.abs)
    (ho : p.optHandled K s.abs) :
    p.execOpt K s = p.exec s ∧
    ∃ s', p.execOpt K s = some ((p.spec s.abs).1, s') ∧ s'.WF ∧ s'.abs = (p.spec s.abs).2 := by
  have h : p.execOpt K s = p.exec s := by
    induction p generalizing s with
    | ret r => rfl
    | step c k ih =>
      have e := C82_call_partial K c s hs hp.1 ho.1
      simp only [Program.execOpt, Program.exec, e]
      obtain ⟨s1, e1, w1, a1⟩ := C67_program_partial (.step c .ret) s hs ⟨hp.1, trivial⟩
      simp only [Program.exec] at e1
      cases e2 : c.exec s with
      | none => rfl
      | some q =>
        rw [e2] at e1
        simp only [Option.some.injEq, Prod.mk.injEq] at e1
        obtain ⟨hr, hs1⟩ := e1
        obtain ⟨r, t⟩ := q
        simp only at hr hs1
        subst hs1
        have hr' : r = (c.spec s.abs).1 := hr
        subst hr'
        refine ih _ t w1 ?_ ?_
        · have := hp.2; rw [show t.abs = (c.spec s.abs).2 from a1]; exact this
        · have := ho.2; rw [show t.abs = (c.spec s.abs).2 from a1]; exact this
  refine ⟨h, ?_⟩
  rw [h]
  exact C67_program_partial p s hs hp

/-- **C82**, a call leaves every variable but its own unchanged with the
`optimized_sequential` backend too. Holds for all calls. -/
theorem C82_frame (K : Convs tm) (c : Stmt tm tv α) (s s' : Store tm tv) (r : Except Err α)
    (h : c.execOpt K s = some (r, s')) :
    (∀ x, c.outM ≠ some x → s'.mat x = s.mat x) ∧ ∀ x, c.outV ≠ some x → s'.vec x = s.vec x := by
  have hM : ∀ x v, c.outM = some x → s' = s.setM x v →
      (∀ x, c.outM ≠ some x → s'.mat x = s.mat x) ∧ ∀ x, c.outV ≠ some x → s'.vec x = s.vec x := by
    rintro x v e rfl
    refine ⟨fun y hy => upd_ne (F := fun y => Lil (tm y)) _ v ?_, fun _ _ => rfl⟩
    rintro rfl; exact hy e
  cases c with
  | opM x mask acc castZ outp e =>
    cases e with
    | mxm A B sr via =>
      rcases mask with _ | ⟨k, z, truthy⟩ <;> exact (observeOut_some h).elim fun v e => hM x v rfl e
    | _ => rcases mask with _ | ⟨k, z, truthy⟩ <;> exact C67_frame _ s s' r h
  | _ => exact C67_frame _ s s' r h

end

theorem Stmt.oneType_handled {T : Type} {K : Convs fun _ => T} (hK : K.Trivial) {a : AStore (fun _ => T) tv}
    (c : Stmt (fun _ => T) tv α) (h : c.oneType a) : c.optHandled K a := by
  cases c with
  | opM x mask acc castZ outp e =>
    cases e with
    | mxm A B sr via =>
      obtain ⟨h1, h2⟩ := h
      cases h1 with
      | noAccum sr hsw =>
        obtain ⟨f, hf⟩ := hK.noAccum x A.x B.x sr
        refine ⟨fun c e t => ?_, fun _ _ _ e => (by cases e), fun _ _ _ e => (by cases e), fun _ _ _ e => (by cases e),
          fun _ _ _ e => (by cases e), fun _ _ p q => ?_, h2⟩
        · cases e; rw [hf]; rfl
        · rw [hf, hsw]; rfl
      | accum op sr hsw =>
        have hf := hK.accum x A.x B.x sr op
        refine ⟨fun c e t => by (cases e), fun _ _ _ e _ c => (by cases e; rfl), fun _ _ _ e _ t => ?_,
          fun _ _ _ e _ c t => ?_, fun _ _ _ e _ _ _ c => (by cases e; rfl), fun _ _ p q => ?_, h2⟩
        · cases e; rw [hf]; rfl
        · cases e; rw [hf]; rfl
        · rw [hf, hsw]; rfl
    | _ => trivial
  | _ => trivial

theorem Program.oneType_handled {T : Type} {K : Convs fun _ => T} (hK : K.Trivial) (p : Program (fun _ => T) tv ρ) :
    ∀ {a : AStore (fun _ => T) tv}, p.oneType a → p.optHandled K a := by
  induction p with
  | ret r => intro a _; trivial
  | step c k ih => intro a h; exact ⟨c.oneType_handled hK h.1, ih _ h.2⟩

/-- **C82**, proved part, for programs with one scalar type for all matrices and
operators: nothing is asked of conversions. -/
theorem C82_one_type_partial {T : Type} [Inhabited T] [∀ x, Inhabited (tv x)] (K : Convs fun _ => T) (hK : K.Trivial)
    (p : Program (fun _ => T) tv ρ) (s : Store (fun _ => T) tv) (hs : s.WF) (hp : p.handled s.abs)
    (ho : p.oneType s.abs) : p.execOpt K s = p.exec s :=
  (C82_program_partial K p s hs hp (p.oneType_handled hK ho)).1

namespace Ex

open Classical in
/-- Conversions for the scalar type `T` alone. -/
noncomputable def oneConvs (T : Type) [Inhabited T] : Convs fun _ => T where
  conv {τ ζ} _ _ _ sr acc :=
    { multA := sr.mult
      castBA := id
      castT := fun t => if h : τ = T then h ▸ t else default
      accC := match acc with
        | .none c => fun a b => c (sr.mult a b)
        | .some op cC _ => fun a b => if h : T = τ then op a (h ▸ b) else cC a }

theorem oneConvs_trivial (T : Type) [Inhabited T] : (oneConvs T).Trivial := by
  refine ⟨fun x a b sr => ⟨sr.mult, ?_⟩, fun x a b sr op => ?_⟩
  · unfold oneConvs; simp; rfl
  · unfold oneConvs; simp; rfl

end Ex

namespace Ex

/-- `A = [[1,.],[.,.]]` and `C = [[.,.],[7,.]]`, variables 0 and 1. -/
def abtStore : Store (fun _ => Nat) (fun _ => Nat) :=
  ⟨fun x => if x = 1 then Q else P,
    fun _ => { size := 1, nvals := 0, vals := [0], bitmap := [false] }⟩

/-- `mxm(C, NoMask(), NoAccumulate(), plus-times, A, transpose(A))`, then `C.hasElement(1, 0)`. -/
def abtProgram : Program (fun _ => Nat) (fun _ => Nat) (Except Err (Spec.Ans Nat)) :=
  .step (.opM (tm := fun _ => Nat) 1 none (.none id) id .merge (.mxm ⟨0, false⟩ ⟨0, true⟩ ⟨(· + ·), (· * ·), (· * ·)⟩ id)) fun _ =>
    .step (.mcall 1 (.has 1 0)) .ret

end Ex

/-- **C82** fails for programs that call `mxm` for `A * transpose(B)` without mask and
accumulator: here one backend keeps an element that the other one removes. -/
theorem C82_stale_rows_wrong (K : Convs fun _ => Nat) (hK : K.Trivial) :
    Ex.abtStore.WF ∧ Ex.abtProgram.handled Ex.abtStore.abs ∧
    (Ex.abtProgram.exec Ex.abtStore).map Prod.fst = some (.ok (.bool false)) ∧
    (Ex.abtProgram.execOpt K Ex.abtStore).map Prod.fst = some (.ok (.bool true)) := by
  refine ⟨?_, ?_, by decide +kernel, ?_⟩
  · refine ⟨fun x => ?_, fun x => ⟨⟨rfl, rfl, rfl⟩, Nat.zero_lt_one⟩⟩
    unfold Ex.abtStore
    simp only
    split
    · exact Ex.Q_wf
    · exact Ex.P_wf
  · exact ⟨fun h => (by cases h), trivial, trivial⟩
  · obtain ⟨f, hf⟩ := hK.noAccum 1 0 0 ⟨(· + ·), (· * ·), (· * ·)⟩
    simp only [Ex.abtProgram, Program.execOpt, Stmt.execOpt, Convs.ops]
    rw [hf]
    rfl

/-! ### Concrete programs -/

namespace Ex

/-- The program of C67 in which the output is the mask and both inputs, for `A * transpose(A)`. -/
theorem sharedProgram_oneType (a : AStore (fun _ => Nat) (fun _ => Nat)) : sharedProgram.oneType a := by
  refine ⟨trivial, (show (_ ∧ _) ∧ _ from ⟨⟨.noAccum natSR rfl, fun h => (by cases h)⟩, ?_⟩)⟩
  dsimp only
  split
  · trivial
  · refine ⟨trivial, ?_⟩
    dsimp only
    split
    · trivial
    · refine ⟨trivial, ?_⟩
      dsimp only
      split <;> trivial

example : (sharedProgram.execOpt (oneConvs Nat) natStore).map Prod.fst = some [(0, 0, 5), (0, 1, 6), (1, 1, 9)] := by
  rw [C82_one_type_partial (oneConvs Nat) (oneConvs_trivial Nat) sharedProgram natStore natStore_wf
    (sharedProgram_handled _) (sharedProgram_oneType _)]
  decide +kernel

/-- `C += transpose(A) * transpose(A)` with an accumulator, then `C = A * transpose(C)`,
which leaves no stale rows as `B` is the output. -/
def bothProgram : Program (fun _ => Nat) (fun _ => Nat) (List (Nat × Nat × Nat)) :=
  .step (.opM (tm := fun _ => Nat) 1 none (.some (· + ·) id id) id .merge (.mxm ⟨0, true⟩ ⟨0, true⟩ natSR id)) fun _ =>
  .step (.opM (tm := fun _ => Nat) 1 none (.none id) id .merge (.mxm ⟨0, false⟩ ⟨1, true⟩ natSR id)) fun _ =>
  .step (.tuplesM 1) fun
    | .ok l => .ret l
    | .error _ => .ret []

theorem bothProgram_handled (a : AStore (fun _ => Nat) (fun _ => Nat)) :
    bothProgram.handled a ∧ bothProgram.oneType a := by
  constructor
  · refine ⟨fun _ _ => ⟨fun x y => Nat.mul_comm y x, fun _ => rfl⟩, fun h => (by cases h), trivial, ?_⟩
    dsimp only
    split <;> trivial
  · refine ⟨⟨.accum _ natSR rfl, fun _ h => (by obtain ⟨c, h⟩ := h; cases h)⟩,
      ⟨.noAccum natSR rfl, fun _ _ _ _ => .inl rfl⟩, trivial, ?_⟩
    dsimp only
    split <;> trivial

example : (bothProgram.execOpt (oneConvs Nat) abtStore).map Prod.fst
    = (bothProgram.exec abtStore).map Prod.fst ∧
    (bothProgram.exec abtStore).map Prod.fst = some [(0, 0, 1), (0, 1, 7)] := by
  refine ⟨?_, by decide +kernel⟩
  rw [C82_one_type_partial (oneConvs Nat) (oneConvs_trivial Nat) bothProgram abtStore
    (C82_stale_rows_wrong (oneConvs Nat) (oneConvs_trivial Nat)).1 (bothProgram_handled _).1 (bothProgram_handled _).2]

end Ex

end GBTL

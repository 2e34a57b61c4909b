import Verif.Lemmas.ProgramStmt
/-
C67. Programs that use the library: a run on the modelled containers agrees with the
mathematical meaning (`Verif/Spec/Program.lean`) in everything that is returned or
thrown on the way and in the final content of all variables.
-/
namespace GBTL
open Spec (Outp MaskKind Accum MatCall VecCall Ans AMat AVec)

variable {tm tv : Nat → Type} {ρ : Type}

section
variable [∀ x, Inhabited (tm x)] [∀ x, Inhabited (tv x)]

/-- A program whose calls are all handled (`Program.handled`) never runs into undefined
behaviour or an exception in the middle of a write; it returns what its meaning says;
all objects are consistent afterwards, and hold what the meaning says. Missing: the
calls that are not handled; each exclusion has a counterexample in C03, C10, C12, C13,
C14, C20, C22 or C26 (see also `C67_unhandled_wrong`). -/
theorem C67_program_partial (p : Program tm tv ρ) (s : Store tm tv) (hs : s.WF) (hp : p.handled s.abs) :
    ∃ s', p.exec s = some ((p.spec s.abs).1, s') ∧ s'.WF ∧ s'.abs = (p.spec s.abs).2 :=
  Program.refines hs p hp

/-- What a program does depends on what its objects hold only, not on how they came to
hold it (insertion order, unused slots of a vector, former contents). -/
theorem C67_representation_partial (p : Program tm tv ρ) (s t : Store tm tv) (hs : s.WF) (ht : t.WF)
    (h : s.abs = t.abs) (hp : p.handled s.abs) :
    ∃ r s' t', p.exec s = some (r, s') ∧ p.exec t = some (r, t') ∧ s'.abs = t'.abs := by
  obtain ⟨s', e1, -, h1⟩ := Program.refines hs p hp
  obtain ⟨t', e2, -, h2⟩ := Program.refines ht p (h ▸ hp)
  exact ⟨_, s', t', e1, by rw [e2, h], by rw [h1, h2, h]⟩

theorem observe_some {α : Type} {r : Except Err α} {s s' : Store tm tv} {q : Except Err α}
    (h : observe r s = some (q, s')) : s' = s := by
  unfold observe at h
  split at h
  · cases h
  · cases h; rfl

theorem observeNew_some {σ : Type} {s s' : Store tm tv} {put : σ → Store tm tv} {o : Except Err σ}
    {q : Except Err Unit} (h : observeNew s put o = some (q, s')) : s' = s ∨ ∃ v, s' = put v := by
  cases o with
  | ok v => cases h; exact .inr ⟨v, rfl⟩
  | error e => exact .inl (observe_some h)

theorem observeOut_some {σ : Type} {s' : Store tm tv} {put : σ → Store tm tv} {o : Outcome σ}
    {q : Except Err Unit} (h : observeOut put o = some (q, s')) : ∃ v, s' = put v := by
  cases o with
  | done v => cases h; exact ⟨v, rfl⟩
  | threw e v => cases h; exact ⟨v, rfl⟩
  | midway e => cases h
  | ub => cases h

theorem observeScalar_some {γ : Type} {s s' : Store tm tv} {o : Outcome γ}
    {q : Except Err γ} (h : observeScalar s o = some (q, s')) : s' = s := by
  cases o with
  | done v => cases h; rfl
  | threw e v => cases h; rfl
  | midway e => cases h
  | ub => cases h

/-- A call changes at most its own variable. -/
theorem exec_changes {α : Type} (c : Stmt tm tv α) (s s' : Store tm tv) (r : Except Err α)
    (h : c.exec s = some (r, s')) :
    s' = s ∨ (∃ x v, c.outM = some x ∧ s' = s.setM x v) ∨ (∃ x v, c.outV = some x ∧ s' = s.setV x v) := by
  have hM : ∀ x v, c.outM = some x → s' = s.setM x v → s' = s ∨ (∃ x v, c.outM = some x ∧ s' = s.setM x v) ∨
    (∃ x v, c.outV = some x ∧ s' = s.setV x v) := fun x v h e => .inr (.inl ⟨x, v, h, e⟩)
  have hV : ∀ x v, c.outV = some x → s' = s.setV x v → s' = s ∨ (∃ x v, c.outM = some x ∧ s' = s.setM x v) ∨
    (∃ x v, c.outV = some x ∧ s' = s.setV x v) := fun x v h e => .inr (.inr ⟨x, v, h, e⟩)
  cases c with
  | newM x m n => cases h; exact hM x _ rfl rfl
  | newV x n => exact (observeNew_some h).elim .inl fun ⟨v, e⟩ => hV x v rfl e
  | denseM x k l => exact (observeNew_some h).elim .inl fun ⟨v, e⟩ => hM x v rfl e
  | denseV x l => exact (observeNew_some h).elim .inl fun ⟨v, e⟩ => hV x v rfl e
  | copyM x y e => exact hM x _ rfl (observe_some h)
  | copyV x y e => exact hV x _ rfl (observe_some h)
  | eqM => cases h; exact .inl rfl
  | eqV => exact .inl (observe_some h)
  | mcall x k => exact hM x _ rfl (observe_some h)
  | vcall x k => exact hV x _ rfl (observe_some h)
  | buildM x => exact hM x _ rfl (observe_some h)
  | buildV x => exact hV x _ rfl (observe_some h)
  | tuplesM => cases h; exact .inl rfl
  | tuplesV => exact .inl (observe_some h)
  | opM x mask =>
    rcases mask with _ | ⟨k, z, t⟩ <;> exact (observeOut_some h).elim fun v e => hM x v rfl e
  | opV x mask =>
    rcases mask with _ | ⟨k, z, t⟩ <;> exact (observeOut_some h).elim fun v e => hV x v rfl e
  | assignCol x mask =>
    rcases mask with _ | ⟨k, z, t⟩ <;> exact (observeOut_some h).elim fun v e => hM x v rfl e
  | assignRow x mask =>
    rcases mask with _ | ⟨k, z, t⟩ <;> exact (observeOut_some h).elim fun v e => hM x v rfl e
  | reduceV => exact .inl (observeScalar_some h)
  | reduceM => exact .inl (observeScalar_some h)

/-- A call leaves every variable but its own unchanged, whatever it returns or throws:
the objects bound to them are the same, representation included. Holds for all calls,
handled or not. -/
theorem C67_frame {α : Type} (c : Stmt tm tv α) (s s' : Store tm tv) (r : Except Err α)
    (h : c.exec s = some (r, s')) :
    (∀ x, c.outM ≠ some x → s'.mat x = s.mat x) ∧ ∀ x, c.outV ≠ some x → s'.vec x = s.vec x := by
  rcases exec_changes c s s' r h with rfl | ⟨x, v, e, rfl⟩ | ⟨x, v, e, rfl⟩
  · exact ⟨fun _ _ => rfl, fun _ _ => rfl⟩
  · refine ⟨fun y hy => upd_ne (F := fun y => Lil (tm y)) _ v ?_, fun _ _ => rfl⟩
    rintro rfl; exact hy e
  · refine ⟨fun _ _ => rfl, fun y hy => upd_ne (F := fun y => BVec (tv y)) _ v ?_⟩
    rintro rfl; exact hy e

/-- A matrix operation whose mask is its own output, which it reads while writing it,
has the outcome it has with a copy for the mask. For every operation, all arguments. -/
theorem C67_shared_mask {γ τ ζ : Type} (c : MCall γ τ ζ) (C : Lil γ) (k : MaskKind) (truthy : γ → Bool)
    (acc : Accum γ τ ζ) (castZ : ζ → γ) (outp : Outp) :
    c.runShared C (some (k, .same)) truthy acc castZ outp
      = c.runShared C (some (k, .obj C)) truthy acc castZ outp := by
  rw [MCall.runShared_eq, MCall.runShared_eq]; rfl

end

/-! ### Concrete programs -/

/-- All variables hold natural numbers; every matrix is 2 × 2 and empty, every vector
has size 2 and is empty. -/
def natStore : Store (fun _ => Nat) (fun _ => Nat) :=
  ⟨fun _ => Lil.new 2 2, fun _ => ⟨2, 0, [0, 0], [false, false]⟩⟩

theorem natStore_wf : natStore.WF :=
  ⟨fun _ => (C42_matrix_new 2 2).1, fun _ => ⟨⟨rfl, rfl, rfl⟩, Nat.zero_lt_two⟩⟩

/-- Arithmetic plus-times. -/
def natSR : SR Nat Nat Nat := ⟨(· + ·), (· * ·), (· * ·)⟩

/-- `A.build(...)`; `mxm(A, A, Second, plus-times, A, transpose(A), REPLACE)`, in which
the output is the mask and both inputs; on an exception return nothing, otherwise read
element (5, 5), and on an exception from that return the tuples of `A`. -/
def sharedProgram : Program (fun _ => Nat) (fun _ => Nat) (List (Nat × Nat × Nat)) :=
  .step (.buildM 0 (· + ·) [(0, 0, 1), (0, 1, 2), (1, 1, 3)]) fun _ =>
  .step (.opM 0 (some (.struct, ⟨0, fun n => n != 0⟩)) (.none (fun n => n)) id .replace
    (.mxm ⟨0, false⟩ ⟨0, true⟩ natSR id)) fun
  | .error _ => .ret []
  | .ok _ => .step (.mcall 0 (.extract 5 5)) fun
    | .ok _ => .ret []
    | .error _ => .step (.tuplesM 0) fun
      | .ok l => .ret l
      | .error _ => .ret []

theorem sharedProgram_handled (a : AStore (fun _ => Nat) (fun _ => Nat)) : sharedProgram.handled a := by
  refine ⟨trivial, (show _ ∧ _ from ⟨fun h => (by cases h), ?_⟩)⟩
  dsimp only
  split
  · trivial
  · refine ⟨trivial, ?_⟩
    dsimp only
    split
    · trivial
    · refine ⟨trivial, ?_⟩
      dsimp only
      split <;> trivial

example : ((sharedProgram.exec natStore).map Prod.fst) = some [(0, 0, 5), (0, 1, 6), (1, 1, 9)] := by
  decide +kernel

/-- The meaning of the program, by the theorem. -/
example : (sharedProgram.spec natStore.abs).1 = [(0, 0, 5), (0, 1, 6), (1, 1, 9)] := by
  obtain ⟨s', e, -⟩ := C67_program_partial sharedProgram natStore natStore_wf (sharedProgram_handled _)
  have h : ((sharedProgram.exec natStore).map Prod.fst) = some [(0, 0, 5), (0, 1, 6), (1, 1, 9)] := by
    decide +kernel
  rw [e] at h
  exact Option.some.inj h

/-- Two representations of one content: the unused slot of a cleared vector. -/
def natStore' : Store (fun _ => Nat) (fun _ => Nat) :=
  ⟨fun _ => Lil.new 2 2, fun _ => ⟨2, 0, [7, 8], [false, false]⟩⟩

example : natStore ≠ natStore' ∧ natStore'.WF ∧ natStore.abs = natStore'.abs := by
  refine ⟨fun h => ?_, ⟨fun _ => (C42_matrix_new 2 2).1, fun _ => ⟨⟨rfl, rfl, rfl⟩, Nat.zero_lt_two⟩⟩, ?_⟩
  · have := congrArg (fun s => (s.vec 0).vals) h
    simp [natStore, natStore'] at this
  · simp only [Store.abs, natStore, natStore', AStore.mk.injEq, true_and]
    funext _
    simp only [AVec.mk.injEq, true_and]
    funext i
    match i with
    | 0 => rfl
    | 1 => rfl
    | i + 2 => rfl

/-- `u.build({0, 0}, {1, 2})`, then `u.nvals()`. -/
def dupProgram : Program (fun _ => Nat) (fun _ => Nat) (Option Nat) :=
  .step (.buildV 0 (· + ·) [(0, 1), (0, 2)]) fun _ =>
  .step (.vcall 0 .nvals) fun
  | .ok (.num n) => .ret (some n)
  | _ => .ret none

/-- Without the exclusions the claim is false: after a `build` of a vector with a
repeated index, the program is told 2 where its meaning is 1. -/
theorem C67_unhandled_wrong :
    (dupProgram.exec natStore).map Prod.fst = some (some 2) ∧ (dupProgram.spec natStore.abs).1 = some 1 := by
  refine ⟨by decide +kernel, ?_⟩
  simp only [dupProgram, Program.spec, Stmt.spec]
  rw [if_pos (by decide)]
  rfl

end GBTL

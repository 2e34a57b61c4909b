import Verif.Lemmas.ProgramOver
/-
C67. Programs that build vectors from lists with repeated indices.
-/
namespace GBTL
open Spec (Outp MaskKind Accum MatCall VecCall Ans AMat AVec)

variable {tm tv : Nat → Type} {ρ : Type}

section
variable [∀ x, Inhabited (tm x)] [∀ x, Inhabited (tv x)]

/-- **C67** A program whose calls are handled, with `build` of vectors from any lists: the run is
defined, it returns what the meaning with the surplus says (`Program.specOver`), the variables hold
what that says, and every vector reports as many elements too many as that says. Missing: the other
calls that are not handled, as for `C67_program_partial`. -/
theorem C67_program_repeats_partial : ∀ (p : Program tm tv ρ) (s : Store tm tv) (d : Nat → Nat), s.Reports d → p.handledOver s.abs d →
    ∃ s', p.exec s = some ((p.specOver s.abs d).1, s') ∧ s'.Reports (p.specOver s.abs d).2.2 ∧
      s'.abs = (p.specOver s.abs d).2.1
  | .ret _, s, _, hs, _ => ⟨s, rfl, hs, rfl⟩
  | .step c k, s, d, hs, hp => by
    obtain ⟨s1, e, h1, h2⟩ := Stmt.refinesOver hs c hp.1
    have hp2 := hp.2
    rw [← h2] at hp2
    obtain ⟨s2, e2, h3, h4⟩ := C67_program_repeats_partial (k (c.answer s.abs d)) s1 _ h1 hp2
    rw [h2] at e2 h3 h4
    refine ⟨s2, ?_, h3, h4⟩
    rw [Program.exec, e]
    exact e2

/-- A call that is not asked what vectors report answers as if they reported the truth. -/
theorem Stmt.answer_never {α : Type} (a : AStore tm tv) (d : Nat → Nat) {c : Stmt tm tv α} (h : ¬ c.counts) :
    c.answer a d = (c.spec a).1 := by
  cases c <;> try rfl
  · exact absurd trivial h
  · next x m => cases m <;> first | rfl | exact absurd trivial h

theorem Program.over_never : ∀ (p : Program tm tv ρ) (a : AStore tm tv) (d : Nat → Nat), p.never a → p.handledBuild a →
    p.handledOver a d ∧ (p.specOver a d).1 = (p.spec a).1 ∧ (p.specOver a d).2.1 = (p.spec a).2
  | .ret _, _, _, _, _ => ⟨trivial, rfl, rfl⟩
  | .step c k, a, d, hn, hh => by
    have e := Stmt.answer_never a d hn.1
    have ih := Program.over_never (k (c.spec a).1) (c.spec a).2 (c.surplus a d (c.spec a).1) hn.2 hh.2
    rw [Program.handledOver, Program.specOver, Program.spec, e]
    exact ⟨⟨hh.1, ih.1⟩, ih.2⟩

/-- **C67** The repetitions show in `nvals` and in the comparison of vectors only: a program that
makes no such call returns what its meaning says, and the variables hold what that says. -/
theorem C67_program_repeats_unseen_partial (p : Program tm tv ρ) (s : Store tm tv) (hs : s.WF) (hn : p.never s.abs)
    (hp : p.handledBuild s.abs) : ∃ s', p.exec s = some ((p.spec s.abs).1, s') ∧ s'.abs = (p.spec s.abs).2 := by
  obtain ⟨h1, h2, h3⟩ := Program.over_never p s.abs (fun _ => 0) hn hp
  obtain ⟨s', e, -, h⟩ := C67_program_repeats_partial p s _ hs.reports h1
  exact ⟨s', by rw [e, h2], by rw [h, h3]⟩

end

/-- Build `u` with a repeated index, copy it to `v`, apply an operator to `u` into `w`; ask all three
for the number of elements and compare `u` and `v`, `u` and `w`. -/
def repeatsProgram : Program (fun _ => Nat) (fun _ => Nat) (List (Option Nat) × List (Option Bool)) :=
  let num : Except Err (Ans Nat) → Option Nat := fun | .ok (.num n) => some n | _ => none
  let bool : Except Err Bool → Option Bool := fun | .ok b => some b | _ => none
  .step (.buildV 0 (· + ·) [(0, 1), (1, 5), (0, 2)]) fun _ =>
  .step (.copyV 1 0 rfl) fun _ =>
  .step (.opV (τ := Nat) (ζ := Nat) 2 none (.none id) id .merge (.apply 0 id)) fun _ =>
  .step (.vcall 0 .nvals) fun a =>
  .step (.vcall 1 .nvals) fun b =>
  .step (.vcall 2 .nvals) fun c =>
  .step (.eqV 0 1 rfl inferInstance) fun e =>
  .step (.eqV 0 2 rfl inferInstance) fun f =>
  .ret ([num a, num b, num c], [bool e, bool f])

/-- All calls are handled; the built vector and its copy report three elements and are equal, the
result of the operation reports two and differs. -/
example : repeatsProgram.handledOver natStore.abs (fun _ => 0) ∧
    (repeatsProgram.exec natStore).map Prod.fst = some ([some 3, some 3, some 2], [some true, some false]) := by
  refine ⟨?_, by decide +kernel⟩
  simp only [repeatsProgram, Program.handledOver, Stmt.handledOver, Stmt.handled, VOp.handled, and_self]

/-- The meaning with the surplus, by the theorem. -/
example : (repeatsProgram.specOver natStore.abs fun _ => 0).1 = ([some 3, some 3, some 2], [some true, some false]) := by
  obtain ⟨s', e, -⟩ := C67_program_repeats_partial repeatsProgram natStore _ natStore_wf.reports (by
    simp only [repeatsProgram, Program.handledOver, Stmt.handledOver, Stmt.handled, VOp.handled, and_self])
  have h : (repeatsProgram.exec natStore).map Prod.fst = some ([some 3, some 3, some 2], [some true, some false]) := by
    decide +kernel
  rw [e] at h
  exact Option.some.inj h

/-- Build `u` with a repeated index and read an element. -/
def repeatsReader : Program (fun _ => Nat) (fun _ => Nat) (Option Nat) :=
  .step (.buildV 0 (· + ·) [(0, 1), (0, 2)]) fun _ =>
  .step (.vcall 0 (.extract 0)) fun
  | .ok (.val n) => .ret (some n)
  | _ => .ret none

example : repeatsReader.never natStore.abs ∧ repeatsReader.handledBuild natStore.abs ∧ natStore.WF ∧
    (repeatsReader.exec natStore).map Prod.fst = some (some 3) := by
  refine ⟨⟨id, id, ?_⟩, ⟨trivial, trivial, ?_⟩, natStore_wf, by decide +kernel⟩
  all_goals
    dsimp only
    split <;> trivial

end GBTL

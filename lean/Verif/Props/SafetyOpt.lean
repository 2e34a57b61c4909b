import Verif.Lemmas.SafetyOpt
import Verif.Props.Safety
import Verif.Props.ProgramOpt
/-
C69 with the `optimized_sequential` backend: no call accesses memory outside the arrays of
a container, and no exception interrupts the writing of an output, also after calls whose
result is wrong or whose container is left inconsistent, and whatever the operands, the mask
and the output of `mxm` share. `execOpt` is `none` exactly in those cases
(`Verif/Model/ProgramOpt.lean`).
-/
namespace GBTL

variable {tm tv : Nat → Type} {ρ α : Type}

section
variable [∀ x, Inhabited (tm x)] [∀ x, Inhabited (tv x)]

/-- One call, on objects that need only be safe, with any operators and conversions: it returns or
throws an exception of the library, and leaves all objects safe. Missing: the calls excluded by
`Stmt.bounded`, which fail with this backend too; see `C69_optimized_unbounded_wrong`. -/
theorem C69_optimized_call_partial (K : Convs tm) (c : Stmt tm tv α) (s : Store tm tv) (hs : s.Safe)
    (hc : c.bounded s.abs) : ∃ r s', c.execOpt K s = some (r, s') ∧ s'.Safe :=
  Stmt.regularOpt hs c hc

/-- A program, of any length and control flow. -/
theorem C69_optimized_program_partial (K : Convs tm) (p : Program tm tv ρ) (s : Store tm tv) (hs : s.Safe)
    (hp : p.boundedOpt K s) : ∃ r s', p.execOpt K s = some (r, s') ∧ s'.Safe :=
  Program.regularOpt hs p hp

end

/-- Without the exclusions the claim is false with this backend as well. -/
theorem C69_optimized_unbounded_wrong (K : Convs fun _ => Nat) :
    natStore.Safe ∧ (emptyDense.execOpt K natStore).isNone = true ∧ (oversizedV.execOpt K natStore).isNone = true ∧
    (oversizedM.execOpt K natStore).isNone = true ∧ (wrappedKron.execOpt K natStore).isNone = true := by
  refine ⟨C69_unbounded_wrong.1, ?_, ?_, ?_, ?_⟩
  · simp only [emptyDense, Program.execOpt, Stmt.execOpt]; decide +kernel
  · simp only [oversizedV, Program.execOpt, Stmt.execOpt]; decide +kernel
  · simp only [oversizedM, Program.execOpt, Stmt.execOpt]; decide +kernel
  · simp only [wrappedKron, Program.execOpt, Stmt.execOpt]; decide +kernel

/-! ### Concrete programs -/

/-- The hypotheses hold from every safe store. -/
theorem messyProgram_boundedOpt (K : Convs fun _ => Nat) (s : Store (fun _ => Nat) (fun _ => Nat)) :
    messyProgram.boundedOpt K s :=
  ⟨trivial, fun _ _ _ => ⟨trivial, fun _ _ _ => ⟨trivial, fun _ _ _ => ⟨trivial, fun _ _ _ =>
    ⟨trivial, fun _ _ _ => ⟨trivial, fun _ _ _ => ⟨trivial, fun _ _ _ => ⟨trivial, fun _ _ _ =>
    ⟨trivial, fun _ _ _ => trivial⟩⟩⟩⟩⟩⟩⟩⟩⟩

example : ((messyProgram.execOpt (Ex.oneConvs Nat) natStore).map Prod.fst)
    = some ([(0, 1, 7), (0, 0, 7), (1, 1, 7), (1, 0, 7)], [(0, 21), (1, 21)]) := by
  obtain ⟨f, hf⟩ := (Ex.oneConvs_trivial Nat).noAccum 1 0 0 natSR
  simp only [messyProgram, Program.execOpt, Stmt.execOpt, Convs.ops]
  rw [show (fun n : Nat => n) = id from rfl, hf]
  with_unfolding_all rfl

end GBTL

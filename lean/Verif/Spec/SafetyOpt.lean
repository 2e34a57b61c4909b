import Verif.Spec.Safety
import Verif.Model.ProgramOpt
/-
Which calls of a program are covered by the memory safety claim when it runs with the
`optimized_sequential` backend: those of `Verif/Spec/Safety.lean`.
-/
namespace GBTL

variable {tm tv : Nat → Type} {ρ : Type}

/-- Every call that the program makes in its run from `s` satisfies `Stmt.bounded`. -/
def Program.boundedOpt [∀ x, Inhabited (tm x)] [∀ x, Inhabited (tv x)] (K : Convs tm) (s : Store tm tv) :
    Program tm tv ρ → Prop
  | .ret _ => True
  | .step c k => c.bounded s.abs ∧ ∀ r s', c.execOpt K s = some (r, s') → (k r).boundedOpt K s'

end GBTL

import Verif.Spec.Threads
import Verif.Model.ProgramOpt
/-
Several threads that use the library at the same time, on objects they share.

The library has no locks, no atomics, and no `static`, `thread_local` or `mutable`
data (`/repo/src/graphblas/*.hpp`, `platforms/sequential/*.hpp`,
`platforms/optimized_sequential/*.hpp`): a call touches its
arguments and its own local variables only. So a call is modelled as taking time: it
begins; while it runs it may read the variables it is given again and again, and its
output may hold anything; it ends.
-/
namespace GBTL

variable {tm tv : Nat → Type} {ρ ι : Type}

/-- The variables `l` from `t`, the others from `s`: the writes through the non-`const`
references of a call, `/repo/src/graphblas/operations.hpp`. -/
def Store.mix (l : List Var) (t s : Store tm tv) : Store tm tv :=
  ⟨fun x => if Var.mat x ∈ l then t.mat x else s.mat x, fun x => if Var.vec x ∈ l then t.vec x else s.vec x⟩

/-- A variable is bound to the same object content, representation included. -/
def Store.Same (s t : Store tm tv) : Var → Prop
  | .mat x => s.mat x = t.mat x
  | .vec x => s.vec x = t.vec x

/-- The threads with what each still has to do, and the objects. `view i` is `none`
between two calls of thread `i`; while the first call of `prog i` is running, it is
what that call has read of its arguments. Simplified: threads exist from the start and
communicate through the containers only. Models programs that call
`/repo/src/graphblas/operations.hpp` from several threads. -/
structure Machine (ι : Type) (tm tv : Nat → Type) (ρ : Type) where
  prog : ι → Program tm tv ρ
  view : ι → Option (Store tm tv)
  store : Store tm tv

/-- All threads before their first call. -/
def Machine.init (p : ι → Program tm tv ρ) (s : Store tm tv) : Machine ι tm tv ρ := ⟨p, fun _ => none, s⟩

section
variable [∀ x, Inhabited (tm x)] [∀ x, Inhabited (tv x)] [DecidableEq ι]

/-- Change one component of a function: only thread `i` moves. -/
def setAt {β : Type _} (f : ι → β) (i : ι) (b : β) : ι → β := fun j => if j = i then b else f j

/-- What can happen next:
a thread enters its next call (`start`);
a running call leaves any intermediate content `t` in its outputs, as `LilSparseMatrix`
and `BitmapSparseVector` methods called on the output do one after the other (`write`);
a running call reads one of its other arguments, again (`read`);
a running call ends, its result and its outputs being computed from what it has read,
and the thread continues as its program says (`finish`).
Calls of the functions of `/repo/src/graphblas/operations.hpp` and of the methods of
`Matrix.hpp`, `Vector.hpp`. -/
inductive Machine.Step (be : Backend tm) : Machine ι tm tv ρ → Machine ι tm tv ρ → Prop where
  | start {α : Type} (m : Machine ι tm tv ρ) (i : ι) (c : Stmt tm tv α) (k : Except Err α → Program tm tv ρ)
      (hp : m.prog i = .step c k) (hv : m.view i = none) :
      Step be m { m with view := setAt m.view i (some m.store) }
  | write {α : Type} (m : Machine ι tm tv ρ) (i : ι) (c : Stmt tm tv α) (k : Except Err α → Program tm tv ρ)
      (v t : Store tm tv) (hp : m.prog i = .step c k) (hv : m.view i = some v) :
      Step be m { m with store := Store.mix c.writes t m.store }
  | read {α : Type} (m : Machine ι tm tv ρ) (i : ι) (c : Stmt tm tv α) (k : Except Err α → Program tm tv ρ)
      (v : Store tm tv) (x : Var) (hp : m.prog i = .step c k) (hv : m.view i = some v)
      (hx : x ∈ c.reads) (hw : x ∉ c.writes) :
      Step be m { m with view := setAt m.view i (some (Store.mix [x] m.store v)) }
  | finish {α : Type} (m : Machine ι tm tv ρ) (i : ι) (c : Stmt tm tv α) (k : Except Err α → Program tm tv ρ)
      (v t : Store tm tv) (r : Except Err α) (hp : m.prog i = .step c k) (hv : m.view i = some v)
      (he : c.execOn be v = some (r, t)) :
      Step be m ⟨setAt m.prog i (k r), setAt m.view i none, Store.mix c.writes t m.store⟩

/-- Some schedule leads from one state to the other; any number of steps. -/
inductive Machine.Reach (be : Backend tm) : Machine ι tm tv ρ → Machine ι tm tv ρ → Prop where
  | refl (m : Machine ι tm tv ρ) : Reach be m m
  | tail {m n o : Machine ι tm tv ρ} : Reach be m n → n.Step be o → Reach be m o

/-- The running call of thread `i` has undefined behaviour (or throws while writing) on
what it has read; see `Stmt.execOn`. -/
def Machine.Undefined (be : Backend tm) (m : Machine ι tm tv ρ) (i : ι) : Prop :=
  ∃ (α : Type) (c : Stmt tm tv α) (k : Except Err α → Program tm tv ρ) (v : Store tm tv),
    m.prog i = .step c k ∧ m.view i = some v ∧ c.execOn be v = none

end
end GBTL

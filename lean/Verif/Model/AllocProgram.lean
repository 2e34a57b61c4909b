import Verif.Model.Alloc
/-
Programs (`Verif/Spec/Program.lean`) again, on a machine that runs out of memory. A
program can catch `std::bad_alloc`, and then goes on with what the call left.

File names are relative to `/repo/src/graphblas/`.
-/
namespace GBTL
open Spec (Outp MaskKind Accum MatCall VecCall Ans)

variable {tm tv : Nat → Type} {γ ζ τ α ρ μ : Type}

/-- What a call finds: the number of requests for memory that will be served, and how many
requests it makes for its temporaries, before writing the output (`prep`) and while
writing each row of it (`work`); `platforms/sequential/sparse_helpers.hpp` lines 959-1070. -/
structure Room where
  mem : Nat
  prep : Nat
  work : Nat → Nat

/-- A method call on a matrix, `Matrix.hpp` lines 199-239. Only `setElement` and `resize`
ask for memory. -/
def Lil.callL (c : MatCall α) : Act Nat (Lil α) BadAlloc (Ans α) :=
  match c with
  | .set i j x => do Lil.setElementL i j x; pure .unit
  | .setMerge i j x merge => do Lil.setElementMergeL i j x merge; pure .unit
  | .resize m n => do Lil.resizeL m n; pure .unit
  | c => fun s =>
    match s.2.call c with
    | (.ok a, A) => (.ok a, (s.1, A))
    | (.error e, A) => (.error (.lib e), (s.1, A))

/-- A method call on a vector, `Vector.hpp` lines 195-233. Only `clear` and `resize` touch
the size of the arrays. -/
def BVec.callL [Inhabited α] (c : VecCall α) : Act Nat (BVec α) BadAlloc (Ans α) :=
  match c with
  | .clear => do BVec.clearL; pure .unit
  | .resize n => do BVec.resizeL n; pure .unit
  | c => fun s =>
    match s.2.call c with
    | (.ok a, v) => (.ok a, (s.1, v))
    | (.error e, v) => (.error (.lib e), (s.1, v))

/-- `write_with_opt_mask` with a mask that may be the output itself,
`platforms/sequential/sparse_helpers.hpp` lines 959-1070: the mask's row is read in the
iteration that writes the row. `work i` is the number of requests for the temporary rows. -/
def writeSharedL (work : Nat → Nat) (truthy : μ → Bool) (castZ : ζ → γ) (Z : Lil ζ) (M : ArgMask γ μ)
    (outp : Outp) : Act Nat (Lil γ) BadAlloc Unit :=
  match M with
  | none => sparseCopyL work castZ Z
  | some (k, m) => do
    let C ← Act.output
    forA C.nrows () fun i _ => do
      let C ← Act.output
      let c ← Act.lib (C.row i)
      let z ← Act.lib (Z.row i)
      let mr ← Act.lib ((m.at C).row i)
      requests (work i)
      Lil.setRowL i id (applyWithMask id castZ outp c z (maskRow truthy k (m.at C).ncols mr))

/-- A matrix operation whose mask may be the output, `operations.hpp` lines 63-1121; see
`MCall.runShared`. -/
def MCall.runSharedL (prep : Nat) (work : Nat → Nat) (c : MCall γ τ ζ) (M : ArgMask γ μ) (truthy : μ → Bool)
    (acc : Accum γ τ ζ) (castZ : ζ → γ) (outp : Outp) : Act Nat (Lil γ) BadAlloc Unit := do
  requests prep
  let C ← Act.output
  let Z ← Act.lib (c.pre ⟨C, M.at C, truthy, acc, castZ, outp⟩)
  writeSharedL work truthy castZ Z M outp

/-- What a program sees of a call, with the state after it; `none` for undefined behaviour.
The exceptions are those of `exceptions.hpp` and `std::bad_alloc`. -/
def observeL (r : Except (Halt BadAlloc) α) (s : Store tm tv) :
    Option (Except (Halt BadAlloc) α × Store tm tv) :=
  match r with
  | .error (.lib .ub) => none
  | r => some (r, s)

/-- A call that writes matrix `x`; `operations.hpp`: the output is a reference. -/
def Store.onM (s : Store tm tv) (x mem : Nat) (act : Act Nat (Lil (tm x)) BadAlloc α) :
    Option (Except (Halt BadAlloc) α × Store tm tv) :=
  observeL (act (mem, s.mat x)).1 (s.setM x (act (mem, s.mat x)).2.2)

/-- A call that writes vector `x`; `operations.hpp`: the output is a reference. -/
def Store.onV (s : Store tm tv) (x mem : Nat) (act : Act Nat (BVec (tv x)) BadAlloc α) :
    Option (Except (Halt BadAlloc) α × Store tm tv) :=
  observeL (act (mem, s.vec x)).1 (s.setV x (act (mem, s.vec x)).2.2)

/-- A call that makes all its requests before it changes anything a program can see: a
constructor (`Matrix.hpp` lines 72-113, `Vector.hpp` lines 58-99), whose object does not
exist if it throws, and the calls that change nothing (`operations.hpp` lines 996-1050,
and the comparisons and `extractTuples` of the containers). -/
def Room.first (m : Room) (s : Store tm tv) (r : Option (Except Err α × Store tm tv)) :
    Option (Except (Halt BadAlloc) α × Store tm tv) :=
  if m.mem < m.prep then some (.error (.op .badAlloc), s)
  else
    match r with
    | none => none
    | some (.ok a, s') => some (.ok a, s')
    | some (.error e, s') => some (.error (.lib e), s')

section
variable [∀ x, Inhabited (tm x)] [∀ x, Inhabited (tv x)]

/-- One call, on the objects the variables are bound to; `operations.hpp`, `Matrix.hpp`
and `Vector.hpp`; the models of the called functions carry the citations. -/
def Stmt.execL (m : Room) (s : Store tm tv) :
    Stmt tm tv α → Option (Except (Halt BadAlloc) α × Store tm tv)
  | .copyM x y h => s.onM x m.mem (Lil.assignFromL (castTo h (s.mat y)))
  | .copyV x y h => s.onV x m.mem (BVec.assignFromL (castTo h (s.vec y)))
  | .mcall x c => s.onM x m.mem (Lil.callL c)
  | .vcall x c => s.onV x m.mem (BVec.callL c)
  | .buildM x dup ts => s.onM x m.mem (Lil.buildL dup ts)
  | .buildV x dup ts => s.onV x m.mem (BVec.buildL dup ts)
  | .opM x none acc castZ outp e =>
    s.onM x m.mem ((e.call s).runSharedL (μ := Unit) m.prep m.work none (fun _ => true) acc castZ outp)
  | .opM x (some (k, ⟨z, truthy⟩)) acc castZ outp e =>
    s.onM x m.mem ((e.call s).runSharedL m.prep m.work (matMask s x k z) truthy acc castZ outp)
  | .opV x none acc castZ outp e =>
    s.onV x m.mem ((e.call s).runL (μ := Unit) m.prep (m.work 0)
      ⟨s.vec x, none, fun _ => true, acc, castZ, outp⟩)
  | .opV x (some (k, ⟨z, truthy⟩)) acc castZ outp e =>
    s.onV x m.mem ((e.call s).runL m.prep (m.work 0) ⟨s.vec x, some (k, s.vec z), truthy, acc, castZ, outp⟩)
  | .assignCol x none u acc castZ outp keep ri j =>
    s.onM x m.mem (assignColL (μ := Unit) m.prep ⟨s.mat x, none, fun _ => true, acc, castZ, outp⟩ keep
      (s.vec u) ri.idx j)
  | .assignCol x (some (k, ⟨z, truthy⟩)) u acc castZ outp keep ri j =>
    s.onM x m.mem (assignColL m.prep ⟨s.mat x, some (k, s.vec z), truthy, acc, castZ, outp⟩ keep
      (s.vec u) ri.idx j)
  | .assignRow x none u acc castZ outp keep i ci =>
    s.onM x m.mem (assignRowL (μ := Unit) m.prep ⟨s.mat x, none, fun _ => true, acc, castZ, outp⟩ keep
      (s.vec u) i ci.idx)
  | .assignRow x (some (k, ⟨z, truthy⟩)) u acc castZ outp keep i ci =>
    s.onM x m.mem (assignRowL m.prep ⟨s.mat x, some (k, s.vec z), truthy, acc, castZ, outp⟩ keep
      (s.vec u) i ci.idx)
  | c => m.first s (c.exec s)

/-- A program that can also catch `std::bad_alloc`. Nothing in `operations.hpp` lines
63-1121 catches it. -/
inductive ProgramL (tm tv : Nat → Type) (ρ : Type) : Type 1 where
  | ret (r : ρ) : ProgramL tm tv ρ
  | step {α : Type} (s : Stmt tm tv α) (k : Except (Halt BadAlloc) α → ProgramL tm tv ρ) : ProgramL tm tv ρ

/-- The run of a program, when its `n`-th call finds `m n` (memory is also used and freed by
others); `none` if a call is undefined. Models the calls of `operations.hpp` one after the
other. -/
def ProgramL.exec (m : Nat → Room) (s : Store tm tv) : ProgramL tm tv ρ → Option (ρ × Store tm tv)
  | .ret r => some (r, s)
  | .step c k =>
    match c.execL (m 0) s with
    | none => none
    | some (r, s') => (k r).exec (fun n => m (n + 1)) s'

end
end GBTL

import Verif.Spec.Program
import Verif.Spec.Calls
import Verif.Model.OptMxm
/-
Running a program (`Verif/Spec/Program.lean`) on the modelled containers with the
`sequential` backend: every call is the model of the C++ function, given the objects
that the variables are bound to. A mask that is the output itself is read while the
output is being written (`writeShared`).
-/
namespace GBTL
open Spec (Outp MaskKind Accum MatCall VecCall Ans)

/-- The objects of a program: `grb::Matrix` and `grb::Vector` variables, each holding
its own container (`/repo/src/graphblas/Matrix.hpp` line 276, `Vector.hpp` line 263).
Simplified: objects are not destroyed, and a declaration makes a new content. -/
structure Store (tm tv : Nat → Type) where
  mat : ∀ x, Lil (tm x)
  vec : ∀ x, BVec (tv x)

variable {tm tv : Nat → Type} {γ ζ τ α ρ μ : Type}

/-- The state after the variable `x` is given a new content; models the writes through the reference to `C` in every function of `/repo/src/graphblas/operations.hpp`. -/
def Store.setM (s : Store tm tv) (x : Nat) (v : Lil (tm x)) : Store tm tv :=
  { s with mat := upd (F := fun y => Lil (tm y)) s.mat x v }

/-- The same for a vector variable: the writes through the reference to `w` in `/repo/src/graphblas/operations.hpp`. -/
def Store.setV (s : Store tm tv) (x : Nat) (v : BVec (tv x)) : Store tm tv :=
  { s with vec := upd (F := fun y => BVec (tv y)) s.vec x v }

/-- What the objects hold: shapes and stored elements; the observers of
`/repo/src/graphblas/Matrix.hpp` and `Vector.hpp`. -/
def Store.abs (s : Store tm tv) : AStore tm tv :=
  ⟨fun x => ⟨(s.mat x).nrows, (s.mat x).ncols, (s.mat x).get⟩, fun x => ⟨(s.vec x).size, (s.vec x).get⟩⟩

/-- The objects are consistent (`Verif/Spec/Abs.lean`), and no vector is empty, as the
constructors ensure. -/
structure Store.WF (s : Store tm tv) : Prop where
  mat : ∀ x, (s.mat x).WF
  vec : ∀ x, (s.vec x).WF ∧ 0 < (s.vec x).size

/-- A matrix argument, `transpose(A)` being a view of the same object
(`/repo/src/graphblas/operations.hpp` lines 1148-1170). -/
def Ref.operand (s : Store tm tv) (r : Ref) : Operand (tm r.x) :=
  if r.tr then .tr (s.mat r.x) else .plain (s.mat r.x)

/-- An index argument; `/repo/src/graphblas/indices.hpp`. -/
def Indices.idx : Indices → Idx
  | some l => .list l
  | none => .all

/-- The call of an operation on the objects the variables are bound to;
`/repo/src/graphblas/operations.hpp`, the functions with output `C`. -/
def MOp.call (s : Store tm tv) : MOp tm γ ζ τ → MCall γ τ ζ
  | .mxm a b sr via => .mxm sr via (a.operand s) (b.operand s)
  | .eWiseAdd a b f => .eWiseAdd f (a.operand s) (b.operand s)
  | .eWiseMult a b f => .eWiseMult f (a.operand s) (b.operand s)
  | .apply a f => .apply f (a.operand s)
  | .extract a ri ci => .extract (a.operand s) ri.idx ci.idx
  | .transpose a => .transpose (a.operand s)
  | .kronecker a b f => .kronecker f (a.operand s) (b.operand s)
  | .assign keep a ri ci => .assign keep (a.operand s) ri.idx ci.idx
  | .assignConst keep v ri ci => .assignConst keep v ri.idx ci.idx

/-- The call of a vector operation on the objects the variables are bound to; `/repo/src/graphblas/operations.hpp`, the functions with output `w`. -/
def VOp.call (s : Store tm tv) : VOp tm tv γ ζ τ → VCall γ τ ζ
  | .vxm u a sr => .vxm sr (s.vec u) (a.operand s)
  | .mxv a u sr => .mxv sr (a.operand s) (s.vec u)
  | .eWiseAdd u v f => .eWiseAdd f (s.vec u) (s.vec v)
  | .eWiseMult u v f => .eWiseMult f (s.vec u) (s.vec v)
  | .apply u f => .apply f (s.vec u)
  | .reduce a f c => .reduce ⟨fun x y => f (c x) (c y), fun t y => f t (c y), f, c⟩ (a.operand s)
  | .extract u ix => .extract (s.vec u) ix.idx
  | .extractCol a ri j => .extractCol (a.operand s) ri.idx j
  | .assign keep u ix => .assign keep (s.vec u) ix.idx
  | .assignConst keep v ix => .assignConst keep v ix.idx

/-- The mask argument of a matrix operation with output `x`: the output itself if it
is the same variable; `/repo/src/graphblas/operations.hpp`: the mask is a reference. -/
def matMask (s : Store tm tv) (x : Nat) (k : MaskKind) (z : Nat) : ArgMask (tm x) (tm z) :=
  some (k, if h : z = x then h ▸ .same else .obj (s.mat z))

/-- The first phase of a matrix operation (checks and computation of `Z`): the part of
the call that ends when the output is written. See `MCall.run_eq_pre`;
`/repo/src/graphblas/operations.hpp` and `platforms/sequential/sparse_*.hpp` up to
`write_with_opt_mask`; the citations are at the models of the parts. -/
def MCall.pre (c : MCall γ τ ζ) (o : MOut γ τ ζ μ) : Except Err (Lil ζ) :=
  match c with
  | .mxm sr via A B => do
      o.M.rowCheck o.C.nrows
      o.M.colCheck o.C.ncols
      eqCheck o.C.nrows A.nrows
      eqCheck o.C.ncols B.ncols
      eqCheck A.ncols B.nrows
      let T ← mxmT o.C sr via A B
      accumMat o.C o.acc T
  | .eWiseAdd f A B => do
      o.checks2 A B
      let T ← eWiseAddT f A B
      accumMat o.C o.acc T
  | .eWiseMult f A B => do
      o.checks2 A B
      let T ← eWiseMultT f A B
      accumMat o.C o.acc T
  | .apply f A => do
      o.M.colCheck o.C.ncols
      o.M.rowCheck o.C.nrows
      eqCheck o.C.ncols A.ncols
      eqCheck o.C.nrows A.nrows
      let T ← applyT f A
      accumMat o.C o.acc T
  | .extract A ri ci => do
      o.M.rowCheck o.C.nrows
      o.M.colCheck o.C.ncols
      ri.lenCheck o.C.nrows
      ci.lenCheck o.C.ncols
      let T ← extractT o.C A ri ci
      accumMat o.C o.acc T
  | .transpose A => do
      o.M.rowCheck o.C.nrows
      o.M.colCheck o.C.ncols
      eqCheck o.C.ncols A.nrows
      eqCheck A.ncols o.C.nrows
      let T ← transposeOperandT A
      accumMat o.C o.acc T
  | .kronecker f A B => do
      o.M.rowCheck o.C.nrows
      o.M.colCheck o.C.ncols
      eqCheck o.C.ncols (mul64 A.ncols B.ncols)
      eqCheck o.C.nrows (mul64 A.nrows B.nrows)
      let T ← kronT o.C f A B
      accumMat o.C o.acc T
  | .assign keep A ri ci => do
      o.M.rowCheck o.C.nrows
      o.M.colCheck o.C.ncols
      ri.lenCheck A.nrows
      ci.lenCheck A.ncols
      let T ← assignT o.C A ri ci
      ewiseOrStencilOptAccum keep (Lil.new o.C.nrows o.C.ncols) o.C T
        (.list (setupIndices ri A.nrows)) (.list (setupIndices ci A.ncols)) o.acc
  | .assignConst keep x ri ci => do
      o.M.rowCheck o.C.nrows
      o.M.colCheck o.C.ncols
      ri.withinCheck o.C.nrows
      ci.withinCheck o.C.ncols
      let T ← assignConstMat o.C x ri ci
      ewiseOrStencilOptAccum keep (Lil.new o.C.nrows o.C.ncols) o.C T
        (.list (setupIndices ri o.C.nrows)) (.list (setupIndices ci o.C.ncols)) o.acc

/-- A matrix operation whose mask may be the output: all operations of
`/repo/src/graphblas/platforms/sequential/sparse_*.hpp` end in `write_with_opt_mask`,
which reads the mask row by row while it writes the output. -/
def MCall.runShared (c : MCall γ τ ζ) (C : Lil γ) (M : ArgMask γ μ) (truthy : μ → Bool)
    (acc : Accum γ τ ζ) (castZ : ζ → γ) (outp : Outp) : Outcome (Lil γ) :=
  GBTL.run C (c.pre ⟨C, M.at C, truthy, acc, castZ, outp⟩) fun Z => writeShared truthy castZ C Z M outp

/-- What a program sees of a call that returns or throws, with the state after it;
`none` for undefined behaviour. -/
def observe (r : Except Err α) (s : Store tm tv) : Option (Except Err α × Store tm tv) :=
  match r with
  | .error .ub => none
  | r => some (r, s)

/-- The same for an operation; `none` also for an exception thrown while the output is
being written. -/
def observeOut {σ : Type} (put : σ → Store tm tv) : Outcome σ → Option (Except Err Unit × Store tm tv)
  | .done v => some (.ok (), put v)
  | .threw e v => some (.error e, put v)
  | .midway _ => none
  | .ub => none

/-- A constructor call: the variable is bound to the new object. -/
def observeNew {σ : Type} (s : Store tm tv) (put : σ → Store tm tv) :
    Except Err σ → Option (Except Err Unit × Store tm tv)
  | .ok v => some (.ok (), put v)
  | .error e => observe (.error e) s

/-- A reduction to a scalar. -/
def observeScalar (s : Store tm tv) : Outcome γ → Option (Except Err γ × Store tm tv)
  | .done v => some (.ok v, s)
  | .threw e _ => some (.error e, s)
  | .midway _ => none
  | .ub => none

section
variable [∀ x, Inhabited (tm x)] [∀ x, Inhabited (tv x)]

/-- One call, on the objects the variables are bound to. The models of the called
functions carry the citations. -/
def Stmt.exec (s : Store tm tv) : Stmt tm tv α → Option (Except Err α × Store tm tv)
  | .newM x m n => some (.ok (), s.setM x (Lil.new m n))
  | .newV x n => observeNew s (s.setV x) (BVec.new n)
  | .denseM x keep rows => observeNew s (s.setM x) (Lil.ofDense keep rows)
  | .denseV x xs => observeNew s (s.setV x) (BVec.ofDense xs)
  | .copyM x y h =>
    let r := (s.mat x).assignFrom (castTo h (s.mat y))
    observe r.1 (s.setM x r.2)
  | .copyV x y h =>
    let r := (s.vec x).assignFrom (castTo h (s.vec y))
    observe r.1 (s.setV x r.2)
  | .eqM x y h _ => some (.ok ((s.mat x).eq (castTo h (s.mat y))), s)
  | .eqV x y h _ => observe ((s.vec x).eq (castTo h (s.vec y))) s
  | .mcall x c =>
    let r := (s.mat x).call c
    observe r.1 (s.setM x r.2)
  | .vcall x c =>
    let r := (s.vec x).call c
    observe r.1 (s.setV x r.2)
  | .buildM x dup ts =>
    let r := (s.mat x).build dup ts
    observe r.1 (s.setM x r.2)
  | .buildV x dup ts =>
    let r := (s.vec x).build dup ts
    observe r.1 (s.setV x r.2)
  | .tuplesM x => some (.ok (s.mat x).extractTuples, s)
  | .tuplesV x => observe (s.vec x).extractTuples s
  | .opM x none acc castZ outp e =>
    observeOut (s.setM x) ((e.call s).runShared (μ := Unit) (s.mat x) none (fun _ => true) acc castZ outp)
  | .opM x (some (k, ⟨z, truthy⟩)) acc castZ outp e =>
    observeOut (s.setM x) ((e.call s).runShared (s.mat x) (matMask s x k z) truthy acc castZ outp)
  | .opV x none acc castZ outp e =>
    observeOut (s.setV x) ((e.call s).run (μ := Unit) ⟨s.vec x, none, fun _ => true, acc, castZ, outp⟩)
  | .opV x (some (k, ⟨z, truthy⟩)) acc castZ outp e =>
    observeOut (s.setV x) ((e.call s).run ⟨s.vec x, some (k, s.vec z), truthy, acc, castZ, outp⟩)
  | .assignCol x none u acc castZ outp keep ri j =>
    observeOut (s.setM x)
      (GBTL.assignCol (μ := Unit) ⟨s.mat x, none, fun _ => true, acc, castZ, outp⟩ keep (s.vec u) ri.idx j)
  | .assignCol x (some (k, ⟨z, truthy⟩)) u acc castZ outp keep ri j =>
    observeOut (s.setM x)
      (GBTL.assignCol ⟨s.mat x, some (k, s.vec z), truthy, acc, castZ, outp⟩ keep (s.vec u) ri.idx j)
  | .assignRow x none u acc castZ outp keep i ci =>
    observeOut (s.setM x)
      (GBTL.assignRow (μ := Unit) ⟨s.mat x, none, fun _ => true, acc, castZ, outp⟩ keep (s.vec u) i ci.idx)
  | .assignRow x (some (k, ⟨z, truthy⟩)) u acc castZ outp keep i ci =>
    observeOut (s.setM x)
      (GBTL.assignRow ⟨s.mat x, some (k, s.vec z), truthy, acc, castZ, outp⟩ keep (s.vec u) i ci.idx)
  | .reduceV castZ acc f e val u c =>
    observeScalar s (reduceVS castZ acc ⟨fun x y => f (c x) (c y), fun t y => f t (c y), f, c⟩ e val
      (s.vec u))
  | .reduceM castZ acc f e val x c =>
    observeScalar s (reduceMS castZ acc ⟨fun x y => f (c x) (c y), fun t y => f t (c y), f, c⟩ e val
      (.plain (s.mat x)))

/-- The run of a program; `none` if a call is undefined or throws while writing. -/
def Program.exec (s : Store tm tv) : Program tm tv ρ → Option (ρ × Store tm tv)
  | .ret r => some (r, s)
  | .step c k =>
    match c.exec s with
    | none => none
    | some (r, s') => (k r).exec s'

end
end GBTL

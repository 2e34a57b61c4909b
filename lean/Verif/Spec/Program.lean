import Verif.Spec.Containers
import Verif.Spec.Frontend
/-
Programs that use the library, and what they mean.

A program has matrix and vector variables of fixed scalar types (as C++ variables
have), and runs one call after the other. Which call comes next may depend on
everything the program has been told so far, exceptions included. The operands, the
mask and the output of a call are variables, and may be the same variable.

The second half is the mathematical meaning: a machine whose variables hold a shape
and a partial function. It uses nothing of the model but the names of exceptions and
the records `SR` and `EW` of the operators passed to a call.
-/
namespace GBTL
open Spec (AVec AMat MatCall VecCall Ans Outp MaskKind Accum)

/-! ### Programs -/

/-- A matrix argument: a variable, or `transpose` of it. -/
structure Ref where
  x : Nat
  tr : Bool

/-- A mask argument: `NoMask`, or a variable with the kind of view and the conversion
of its values to `bool`. `ty` is the scalar type of each variable. -/
abbrev MaskArg (ty : Nat → Type) := Option (MaskKind × (z : Nat) × (ty z → Bool))

/-- An index argument: a list, or (`none`) `AllIndices`. -/
abbrev Indices := Option (List Nat)

/-- An operation with a matrix result of scalar type `τ`, for an output of scalar type
`γ`; `ζ` is the type it is accumulated in. -/
inductive MOp (tm : Nat → Type) (γ ζ : Type) : Type → Type 1 where
  | mxm {τ : Type} (a b : Ref) (sr : SR (tm a.x) (tm b.x) τ) (via : τ → τ) : MOp tm γ ζ τ
  | eWiseAdd {τ : Type} (a b : Ref) (f : EW (tm a.x) (tm b.x) τ) : MOp tm γ ζ τ
  | eWiseMult {τ : Type} (a b : Ref) (f : EW (tm a.x) (tm b.x) τ) : MOp tm γ ζ τ
  | apply {τ : Type} (a : Ref) (f : tm a.x → τ) : MOp tm γ ζ τ
  | extract (a : Ref) (ri ci : Indices) : MOp tm γ ζ (tm a.x)
  | transpose (a : Ref) : MOp tm γ ζ (tm a.x)
  | kronecker {τ : Type} (a b : Ref) (f : tm a.x → tm b.x → τ) : MOp tm γ ζ τ
  | assign (keep : γ → ζ) (a : Ref) (ri ci : Indices) : MOp tm γ ζ (tm a.x)
  | assignConst {τ : Type} (keep : γ → ζ) (v : τ) (ri ci : Indices) : MOp tm γ ζ τ

/-- An operation with a vector result. -/
inductive VOp (tm tv : Nat → Type) (γ ζ : Type) : Type → Type 1 where
  | vxm {τ : Type} (u : Nat) (a : Ref) (sr : SR (tv u) (tm a.x) τ) : VOp tm tv γ ζ τ
  | mxv {τ : Type} (a : Ref) (u : Nat) (sr : SR (tm a.x) (tv u) τ) : VOp tm tv γ ζ τ
  | eWiseAdd {τ : Type} (u v : Nat) (f : EW (tv u) (tv v) τ) : VOp tm tv γ ζ τ
  | eWiseMult {τ : Type} (u v : Nat) (f : EW (tv u) (tv v) τ) : VOp tm tv γ ζ τ
  | apply {τ : Type} (u : Nat) (f : tv u → τ) : VOp tm tv γ ζ τ
  | reduce {τ : Type} (a : Ref) (f : τ → τ → τ) (c : tm a.x → τ) : VOp tm tv γ ζ τ
  | extract (u : Nat) (ix : Indices) : VOp tm tv γ ζ (tv u)
  | extractCol (a : Ref) (ri : Indices) (j : Nat) : VOp tm tv γ ζ (tm a.x)
  | assign (keep : γ → ζ) (u : Nat) (ix : Indices) : VOp tm tv γ ζ (tv u)
  | assignConst {τ : Type} (keep : γ → ζ) (v : τ) (ix : Indices) : VOp tm tv γ ζ τ

/-- One call; the index is the type of what it returns. -/
inductive Stmt (tm tv : Nat → Type) : Type → Type 1 where
  /-- `Matrix x(m, n)` -/
  | newM (x m n : Nat) : Stmt tm tv Unit
  /-- `Vector x(n)` -/
  | newV (x n : Nat) : Stmt tm tv Unit
  /-- `Matrix x(rows)`, `Matrix x(rows, zero)`: `keep` tells which values are stored -/
  | denseM (x : Nat) (keep : tm x → Bool) (rows : List (List (tm x))) : Stmt tm tv Unit
  /-- `Vector x(values)` -/
  | denseV (x : Nat) (xs : List (tv x)) : Stmt tm tv Unit
  /-- `x = y` -/
  | copyM (x y : Nat) (h : tm y = tm x) : Stmt tm tv Unit
  | copyV (x y : Nat) (h : tv y = tv x) : Stmt tm tv Unit
  /-- `x == y` -/
  | eqM (x y : Nat) (h : tm y = tm x) (d : DecidableEq (tm x)) : Stmt tm tv Bool
  | eqV (x y : Nat) (h : tv y = tv x) (d : DecidableEq (tv x)) : Stmt tm tv Bool
  /-- an element-wise method, `clear`, `resize`, `nvals`, `size` -/
  | mcall (x : Nat) (c : MatCall (tm x)) : Stmt tm tv (Ans (tm x))
  | vcall (x : Nat) (c : VecCall (tv x)) : Stmt tm tv (Ans (tv x))
  | buildM (x : Nat) (dup : tm x → tm x → tm x) (ts : List (Nat × Nat × tm x)) : Stmt tm tv Unit
  | buildV (x : Nat) (dup : tv x → tv x → tv x) (ts : List (Nat × tv x)) : Stmt tm tv Unit
  | tuplesM (x : Nat) : Stmt tm tv (List (Nat × Nat × tm x))
  | tuplesV (x : Nat) : Stmt tm tv (List (Nat × tv x))
  /-- an operation with output `x` -/
  | opM {τ ζ : Type} (x : Nat) (mask : MaskArg tm) (acc : Accum (tm x) τ ζ) (castZ : ζ → tm x)
      (outp : Outp) (e : MOp tm (tm x) ζ τ) : Stmt tm tv Unit
  | opV {τ ζ : Type} (x : Nat) (mask : MaskArg tv) (acc : Accum (tv x) τ ζ) (castZ : ζ → tv x)
      (outp : Outp) (e : VOp tm tv (tv x) ζ τ) : Stmt tm tv Unit
  /-- `assign` of vector `u` to a column (row) of matrix `x` -/
  | assignCol {ζ : Type} (x : Nat) (mask : MaskArg tv) (u : Nat) (acc : Accum (tm x) (tv u) ζ)
      (castZ : ζ → tm x) (outp : Outp) (keep : tm x → ζ) (ri : Indices) (j : Nat) : Stmt tm tv Unit
  | assignRow {ζ : Type} (x : Nat) (mask : MaskArg tv) (u : Nat) (acc : Accum (tm x) (tv u) ζ)
      (castZ : ζ → tm x) (outp : Outp) (keep : tm x → ζ) (i : Nat) (ci : Indices) : Stmt tm tv Unit
  /-- `reduce` to a scalar: `f` and `e` are the monoid, `val` the scalar before -/
  | reduceV {γ τ ζ : Type} (castZ : ζ → γ) (acc : Accum γ τ ζ) (f : τ → τ → τ) (e : τ) (val : γ)
      (u : Nat) (c : tv u → τ) : Stmt tm tv γ
  | reduceM {γ τ ζ : Type} (castZ : ζ → γ) (acc : Accum γ τ ζ) (f : τ → τ → τ) (e : τ) (val : γ)
      (x : Nat) (c : tm x → τ) : Stmt tm tv γ

/-- A program: it ends, or makes a call and continues in a way that may depend on
what the call returned or threw. -/
inductive Program (tm tv : Nat → Type) (ρ : Type) : Type 1 where
  | ret (r : ρ) : Program tm tv ρ
  | step {α : Type} (s : Stmt tm tv α) (k : Except Err α → Program tm tv ρ) : Program tm tv ρ

/-! ### Meaning -/

/-- What the variables hold: a shape and a partial function each. -/
structure AStore (tm tv : Nat → Type) where
  mat : ∀ x, AMat (tm x)
  vec : ∀ x, AVec (tv x)

/-- Change one component of a dependent function. -/
def upd {F : Nat → Type} (f : ∀ x, F x) (x : Nat) (v : F x) : ∀ y, F y :=
  fun y => if h : y = x then h ▸ v else f y

def AStore.setM {tm tv : Nat → Type} (a : AStore tm tv) (x : Nat) (v : AMat (tm x)) : AStore tm tv :=
  { a with mat := upd (F := fun y => AMat (tm y)) a.mat x v }

def AStore.setV {tm tv : Nat → Type} (a : AStore tm tv) (x : Nat) (v : AVec (tv x)) : AStore tm tv :=
  { a with vec := upd (F := fun y => AVec (tv y)) a.vec x v }

variable {tm tv : Nat → Type} {γ ζ τ α ρ : Type}

/-- The value of a matrix argument. -/
def Ref.val (a : AStore tm tv) (r : Ref) : AMat (tm r.x) :=
  if r.tr then ⟨(a.mat r.x).ncols, (a.mat r.x).nrows, Spec.Mat.tr (a.mat r.x).map⟩ else a.mat r.x

/-- The mask's shape is that of the output. -/
def AStore.maskFits (a : AStore tm tv) (mask : MaskArg tm) (m n : Nat) : Prop :=
  match mask with
  | none => True
  | some (_, ⟨z, _⟩) => (a.mat z).nrows = m ∧ (a.mat z).ncols = n

def AStore.maskFitsV (a : AStore tm tv) (mask : MaskArg tv) (n : Nat) : Prop :=
  match mask with
  | none => True
  | some (_, ⟨z, _⟩) => (a.vec z).size = n

/-- Does the mask allow writing to a position? -/
def AStore.allows (a : AStore tm tv) (mask : MaskArg tm) (i j : Nat) : Bool :=
  match mask with
  | none => true
  | some (k, ⟨z, truthy⟩) => Spec.allows truthy k ((a.mat z).map i j)

def AStore.allowsV (a : AStore tm tv) (mask : MaskArg tv) (i : Nat) : Bool :=
  match mask with
  | none => true
  | some (k, ⟨z, truthy⟩) => Spec.allows truthy k ((a.vec z).map i)

/-- The number of selected indices, `n` for all. -/
def Indices.len (ix : Indices) (n : Nat) : Nat := (ix.map List.length).getD n

/-- Every listed index is below `n`. -/
def Indices.below (ix : Indices) (n : Nat) : Prop := ∀ l, ix = some l → ∀ i ∈ l, i < n

/-- The shapes a matrix operation accepts for an output of shape `m × n`. -/
def MOp.shapes (a : AStore tm tv) (m n : Nat) : MOp tm γ ζ τ → Prop
  | .mxm A B _ _ => m = (A.val a).nrows ∧ n = (B.val a).ncols ∧ (A.val a).ncols = (B.val a).nrows
  | .eWiseAdd A B _ | .eWiseMult A B _ =>
    m = (A.val a).nrows ∧ n = (A.val a).ncols ∧ m = (B.val a).nrows ∧ n = (B.val a).ncols
  | .apply A _ => m = (A.val a).nrows ∧ n = (A.val a).ncols
  | .extract A ri ci => m = ri.len (A.val a).nrows ∧ n = ci.len (A.val a).ncols
  | .transpose A => m = (A.val a).ncols ∧ n = (A.val a).nrows
  | .kronecker A B _ =>
    m = (A.val a).nrows * (B.val a).nrows ∧ n = (A.val a).ncols * (B.val a).ncols
  | .assign _ A ri ci => (A.val a).nrows = ri.len m ∧ (A.val a).ncols = ci.len n
  | .assignConst _ _ ri ci => ri.len m ≤ m ∧ ci.len n ≤ n

/-- The listed indices exist. -/
def MOp.inRange (a : AStore tm tv) (m n : Nat) : MOp tm γ ζ τ → Prop
  | .extract A ri ci => ri.below (A.val a).nrows ∧ ci.below (A.val a).ncols
  | .assign _ _ ri ci => ri.below m ∧ ci.below n
  | .assignConst _ _ ri ci => ri.below m ∧ ci.below n
  | _ => True

/-- The content before masking; `C` is the output before the call, of shape
`m × n`. -/
def MOp.content (a : AStore tm tv) (acc : Accum γ τ ζ) (m n : Nat) (C : Spec.Mat γ) :
    MOp tm γ ζ τ → Spec.Mat ζ
  | .mxm A B sr _ => fun i j => Spec.accum acc (C i j)
      (Spec.mxm (A.val a).ncols sr.add sr.mult (A.val a).map (B.val a).map i j)
  | .eWiseAdd A B f => fun i j => Spec.accum acc (C i j)
      (Spec.either f.op f.c1 f.c2 ((A.val a).map i j) ((B.val a).map i j))
  | .eWiseMult A B f => fun i j => Spec.accum acc (C i j)
      (Spec.both f.op ((A.val a).map i j) ((B.val a).map i j))
  | .apply A f => fun i j => Spec.accum acc (C i j) (((A.val a).map i j).map f)
  | .extract A ri ci => fun i j => Spec.accum acc (C i j)
      (Spec.extractMat (A.val a).nrows (A.val a).ncols ri ci (A.val a).map i j)
  | .transpose A => fun i j => Spec.accum acc (C i j) ((A.val a).map j i)
  | .kronecker A B f => fun i j => Spec.accum acc (C i j)
      (Spec.kron (B.val a).nrows (B.val a).ncols f (A.val a).map (B.val a).map i j)
  | .assign keep A ri ci => fun i j => Spec.assignAt keep acc
      (Spec.selected ri m i && Spec.selected ci n j) (C i j)
      (Spec.assignSrcMat m n ri ci (A.val a).map i j)
  | .assignConst keep v ri ci => fun i j => Spec.assignAt keep acc
      (Spec.selected ri m i && Spec.selected ci n j) (C i j) (some v)

/-- The shapes a vector operation accepts for an output of size `n`. -/
def VOp.shapes (a : AStore tm tv) (n : Nat) : VOp tm tv γ ζ τ → Prop
  | .vxm u A _ => n = (A.val a).ncols ∧ (a.vec u).size = (A.val a).nrows
  | .mxv A u _ => n = (A.val a).nrows ∧ (a.vec u).size = (A.val a).ncols
  | .eWiseAdd u v _ | .eWiseMult u v _ => n = (a.vec u).size ∧ n = (a.vec v).size
  | .apply u _ => n = (a.vec u).size
  | .reduce A _ _ => n = (A.val a).nrows
  | .extract u ix => n = ix.len (a.vec u).size
  | .extractCol A ri _ => n = ri.len (A.val a).nrows
  | .assign _ u ix => (a.vec u).size = ix.len n
  | .assignConst _ _ ix => ix.len n ≤ n

/-- The column of a column extraction exists. -/
def VOp.lineOk (a : AStore tm tv) : VOp tm tv γ ζ τ → Prop
  | .extractCol A _ j => j < (A.val a).ncols
  | _ => True

def VOp.inRange (a : AStore tm tv) (n : Nat) : VOp tm tv γ ζ τ → Prop
  | .extract u ix => ix.below (a.vec u).size
  | .extractCol A ri _ => ri.below (A.val a).nrows
  | .assign _ _ ix => ix.below n
  | .assignConst _ _ ix => ix.below n
  | _ => True

def VOp.content (a : AStore tm tv) (acc : Accum γ τ ζ) (n : Nat) (w : Spec.Vec γ) :
    VOp tm tv γ ζ τ → Spec.Vec ζ
  | .vxm u A sr => fun i => Spec.accum acc (w i)
      (Spec.vxm (a.vec u).size sr.add sr.mult (a.vec u).map (A.val a).map i)
  | .mxv A u sr => fun i => Spec.accum acc (w i)
      (Spec.mxv (A.val a).ncols sr.add sr.mult (A.val a).map (a.vec u).map i)
  | .eWiseAdd u v f => fun i => Spec.accum acc (w i)
      (Spec.either f.op f.c1 f.c2 ((a.vec u).map i) ((a.vec v).map i))
  | .eWiseMult u v f => fun i => Spec.accum acc (w i) (Spec.both f.op ((a.vec u).map i) ((a.vec v).map i))
  | .apply u f => fun i => Spec.accum acc (w i) (((a.vec u).map i).map f)
  | .reduce A f c => fun i => Spec.accum acc (w i)
      (Spec.ofold c (fun t y => f t (c y)) ((List.range (A.val a).ncols).map ((A.val a).map i)))
  | .extract u ix => fun i => Spec.accum acc (w i) (Spec.extract (a.vec u).size ix (a.vec u).map i)
  | .extractCol A ri j => fun i => Spec.accum acc (w i)
      (Spec.extract (A.val a).nrows ri (fun k => (A.val a).map k j) i)
  | .assign keep u ix => fun i => Spec.assignAt keep acc (Spec.selected ix n i) (w i)
      (Spec.assignSrc n ix (a.vec u).map i)
  | .assignConst keep v ix => fun i => Spec.assignAt keep acc (Spec.selected ix n i) (w i) (some v)

/-- Write `Z` into a matrix through a mask. -/
def _root_.Spec.AMat.write (C : AMat γ) (castZ : ζ → γ) (allowed : Nat → Nat → Bool) (outp : Outp)
    (Z : Spec.Mat ζ) : AMat γ :=
  { C with map := fun i j => if i < C.nrows ∧ j < C.ncols
                    then Spec.write castZ (allowed i j) outp (C.map i j) (Z i j) else none }

def _root_.Spec.AVec.write (w : AVec γ) (castZ : ζ → γ) (allowed : Nat → Bool) (outp : Outp)
    (z : Spec.Vec ζ) : AVec γ :=
  { w with map := fun i => if i < w.size
                    then Spec.write castZ (allowed i) outp (w.map i) (z i) else none }

/-- A column and a row of a matrix, and their replacement. -/
def _root_.Spec.AMat.col (C : AMat γ) (j : Nat) : AVec γ := ⟨C.nrows, fun i => C.map i j⟩
def _root_.Spec.AMat.row (C : AMat γ) (i : Nat) : AVec γ := ⟨C.ncols, C.map i⟩
def _root_.Spec.AMat.setCol (C : AMat γ) (j : Nat) (v : Spec.Vec γ) : AMat γ :=
  { C with map := fun i k => if k = j then v i else C.map i k }
def _root_.Spec.AMat.setRow (C : AMat γ) (i : Nat) (v : Spec.Vec γ) : AMat γ :=
  { C with map := fun k j => if k = i then v j else C.map k j }

/-- A value of a type that is known to be another. -/
def castTo {F : Type → Type} {α β : Type} (h : α = β) (v : F α) : F β := h ▸ v

open Classical in
/-- Do, in this order: throw `DimensionException` unless the shapes fit, throw
`InvalidIndexException` unless the line exists, throw `IndexOutOfBoundsException`
unless the listed indices exist; otherwise take the new state. -/
noncomputable def guarded {σ : Type} (s : σ) (shapes line range : Prop) (s' : σ) : Except Err Unit × σ :=
  if ¬ shapes then (.error .dimension, s)
  else if ¬ line then (.error .invalidIndex, s)
  else if ¬ range then (.error .indexOutOfBounds, s)
  else (.ok (), s')

/-- The stored elements of a matrix, row by row. -/
def _root_.Spec.AMat.tuples (A : AMat α) : List (Nat × Nat × α) :=
  (List.range A.nrows).flatMap fun i => (List.range A.ncols).filterMap fun j =>
    (A.map i j).map fun x => (i, j, x)

/-- The stored elements of a vector in ascending order. -/
def _root_.Spec.AVec.tuples (v : AVec α) : List (Nat × α) :=
  (List.range v.size).filterMap fun i => (v.map i).map fun x => (i, x)

/-- A fold with a monoid, accumulated into a scalar. -/
def scalarResult (castZ : ζ → γ) (acc : Accum γ τ ζ) (f : τ → τ → τ) (e : τ) (val : γ) (l : List τ) : γ :=
  ((Spec.accum acc (some val) (some (l.foldl f e))).map castZ).getD val

open Classical in
/-- What a call returns or throws, and what the variables hold afterwards. -/
noncomputable def Stmt.spec (a : AStore tm tv) : Stmt tm tv α → Except Err α × AStore tm tv
  | .newM x m n => (.ok (), a.setM x ⟨m, n, fun _ _ => none⟩)
  | .newV x n => if n = 0 then (.error .invalidValue, a) else (.ok (), a.setV x ⟨n, fun _ => none⟩)
  | .denseM x keep rows =>
    if ∃ r ∈ rows, r.length ≠ (rows.headD []).length then (.error .dimension, a)
    else (.ok (), a.setM x ⟨rows.length, (rows.headD []).length,
      fun i j => ((rows[i]?).bind fun r => r[j]?).filter keep⟩)
  | .denseV x xs =>
    if xs = [] then (.error .invalidValue, a) else (.ok (), a.setV x ⟨xs.length, fun i => xs[i]?⟩)
  | .copyM x y h =>
    if (a.mat x).nrows ≠ (a.mat y).nrows ∨ (a.mat x).ncols ≠ (a.mat y).ncols then (.error .dimension, a)
    else (.ok (), a.setM x (castTo h (a.mat y)))
  | .copyV x y h =>
    if (a.vec x).size ≠ (a.vec y).size then (.error .dimension, a)
    else (.ok (), a.setV x (castTo h (a.vec y)))
  | .eqM x y h _ => (.ok (decide (a.mat x = castTo h (a.mat y))), a)
  | .eqV x y h _ => (.ok (decide (a.vec x = castTo h (a.vec y))), a)
  | .mcall x c => (((a.mat x).step c).1, a.setM x ((a.mat x).step c).2)
  | .vcall x c => (((a.vec x).step c).1, a.setV x ((a.vec x).step c).2)
  | .buildM x dup ts =>
    -- the tuples before the first one that is out of range are stored
    let good := ts.takeWhile fun t => t.1 < (a.mat x).nrows ∧ t.2.1 < (a.mat x).ncols
    (if good.length = ts.length then .ok () else .error .indexOutOfBounds,
      a.setM x { a.mat x with map := fun i j => Spec.combinedFrom dup ((a.mat x).map i j)
                                (good.map fun t => ((t.1, t.2.1), t.2.2)) (i, j) })
  | .buildV x dup ts =>
    if ∀ t ∈ ts, t.1 < (a.vec x).size then
      (.ok (), a.setV x { a.vec x with map := Spec.combined dup ts })
    else (.error .indexOutOfBounds, a)
  | .tuplesM x => (.ok (a.mat x).tuples, a)
  | .tuplesV x => (.ok (a.vec x).tuples, a)
  | .opM x mask acc castZ outp e =>
    let C := a.mat x
    guarded a (a.maskFits mask C.nrows C.ncols ∧ e.shapes a C.nrows C.ncols) True
      (e.inRange a C.nrows C.ncols)
      (a.setM x (C.write castZ (a.allows mask) outp (e.content a acc C.nrows C.ncols C.map)))
  | .opV x mask acc castZ outp e =>
    let w := a.vec x
    guarded a (a.maskFitsV mask w.size ∧ e.shapes a w.size) (e.lineOk a) (e.inRange a w.size)
      (a.setV x (w.write castZ (a.allowsV mask) outp (e.content a acc w.size w.map)))
  | .assignCol x mask u acc castZ outp keep ri j =>
    let C := a.mat x
    guarded a (a.maskFitsV mask C.nrows ∧ (a.vec u).size = ri.len C.nrows) (j < C.ncols)
      (ri.below C.nrows)
      (a.setM x (C.setCol j ((C.col j).write castZ (a.allowsV mask) outp fun i =>
        Spec.assignAt keep acc (Spec.selected ri C.nrows i) (C.map i j)
          (Spec.assignSrc C.nrows ri (a.vec u).map i)).map))
  | .assignRow x mask u acc castZ outp keep i ci =>
    let C := a.mat x
    guarded a (a.maskFitsV mask C.ncols ∧ (a.vec u).size = ci.len C.ncols) (i < C.nrows)
      (ci.below C.ncols)
      (a.setM x (C.setRow i ((C.row i).write castZ (a.allowsV mask) outp fun j =>
        Spec.assignAt keep acc (Spec.selected ci C.ncols j) (C.map i j)
          (Spec.assignSrc C.ncols ci (a.vec u).map j)).map))
  | .reduceV castZ acc f e val u c =>
    (.ok (scalarResult castZ acc f e val ((Spec.Vec.vals (a.vec u).size (a.vec u).map).map c)), a)
  | .reduceM castZ acc f e val x c =>
    (.ok (scalarResult castZ acc f e val
      ((Spec.Mat.vals (a.mat x).nrows (a.mat x).ncols (a.mat x).map).map c)), a)

/-- The meaning of a program: what it returns and what the variables hold then. -/
noncomputable def Program.spec (a : AStore tm tv) : Program tm tv ρ → ρ × AStore tm tv
  | .ret r => (r, a)
  | .step s k => (k (s.spec a).1).spec (s.spec a).2

/-- The matrix (vector) variable a call may change. -/
def Stmt.outM : Stmt tm tv α → Option Nat
  | .newM x _ _ | .denseM x _ _ | .copyM x _ _ | .mcall x _ | .buildM x _ _ | .opM x _ _ _ _ _
  | .assignCol x _ _ _ _ _ _ _ _ | .assignRow x _ _ _ _ _ _ _ _ => some x
  | _ => none
def Stmt.outV : Stmt tm tv α → Option Nat
  | .newV x _ | .denseV x _ | .copyV x _ _ | .vcall x _ | .buildV x _ _ | .opV x _ _ _ _ _ => some x
  | _ => none

/-! ### The calls that are left out -/

/-- Without repetitions. -/
def Indices.nodup (ix : Indices) : Prop := ∀ l, ix = some l → l.Nodup

/-- Strictly ascending. -/
def Indices.ascending (ix : Indices) : Prop := ∀ l, ix = some l → l.Pairwise (· < ·)

/-- With `AllIndices`, the two lengths agree. (The code checks none: C26.) -/
def Indices.allFits (ix : Indices) (m n : Nat) : Prop := ix = none → m = n

/-- The calls that the code is known to get right; the others have counterexamples in
C10, C12, C13, C14, C20, C22, C26 and C03, or are left undefined by GraphBLAS (an index
assigned to twice; a reduction with something that is no monoid). -/
def MOp.handled (a : AStore tm tv) (m n : Nat) : MOp tm γ ζ τ → Prop
  | .mxm A B sr via => A.tr → B.tr → (∀ x y, sr.multSwap y x = sr.mult x y) ∧ ∀ x, via x = x
  | .eWiseAdd A B f => ¬ A.tr → B.tr → (∀ x y, f.opA x (f.castBA y) = f.op x y) ∧
      ∀ y, f.c2A (f.castBA y) = f.c2 y
  | .eWiseMult A B f => ¬ A.tr → B.tr → ∀ x y, f.opA x (f.castBA y) = f.op x y
  | .extract A ri ci => ri.allFits m (A.val a).nrows ∧ ci.allFits n (A.val a).ncols
  | .kronecker A B _ =>
    (A.val a).nrows * (B.val a).nrows < 2 ^ 64 ∧ (A.val a).ncols * (B.val a).ncols < 2 ^ 64
  | .assign _ A ri ci => ri.nodup ∧ ci.nodup ∧ ri.allFits m (A.val a).nrows ∧
      ci.allFits n (A.val a).ncols
  | .assignConst _ _ _ ci => ci.ascending
  | _ => True

def VOp.handled (a : AStore tm tv) (n : Nat) : VOp tm tv γ ζ τ → Prop
  | .mxv A _ sr => A.tr → ∀ x y, sr.multSwap y x = sr.mult x y
  | .extract u ix => ix.allFits n (a.vec u).size
  | .extractCol A ri _ => ri.allFits n (A.val a).nrows
  | .assign _ u ix => ix.nodup ∧ ix.allFits n (a.vec u).size
  | .assignConst _ _ ix => ix.ascending
  | _ => True

def Stmt.handled (a : AStore tm tv) : Stmt tm tv α → Prop
  | .denseM _ _ rows => rows ≠ []
  | .buildV _ _ ts => (ts.map Prod.fst).Nodup
  | .opM x _ _ _ _ e => e.handled a (a.mat x).nrows (a.mat x).ncols
  | .opV x _ _ _ _ e => e.handled a (a.vec x).size
  | .assignCol x _ u _ _ _ _ ri _ => ri.nodup ∧ ri.allFits (a.mat x).nrows (a.vec u).size
  | .assignRow x _ u _ _ _ _ _ ci => ci.nodup ∧ ci.allFits (a.mat x).ncols (a.vec u).size
  | .reduceV _ _ f e _ _ _ => ∀ x, f e x = x
  | .reduceM _ _ f e _ _ _ => (∀ x y z, f (f x y) z = f x (f y z)) ∧ (∀ x, f e x = x) ∧ ∀ x, f x e = x
  | _ => True

/-- Every call the program makes is handled. -/
def Program.handled (a : AStore tm tv) : Program tm tv ρ → Prop
  | .ret _ => True
  | .step s k => s.handled a ∧ (k (s.spec a).1).handled (s.spec a).2

end GBTL

import Verif.Model.Helpers
/-
Models of the products of the `sequential` backend:
`/repo/src/graphblas/platforms/sequential/sparse_mxm.hpp`, `sparse_mxv.hpp` and
`sparse_vxm.hpp`. Each function here computes the intermediate result `T`; the
common end of every operation (accumulate into `Z`, write `Z` through the mask)
is `finishMat` / `finishVec`.

`add` and `mult` are the semiring's operations. `mult` includes the conversion of
its operands to the semiring's domains. `a[i]` on a matrix is a checked read.
-/
namespace GBTL
open Spec (Outp MaskKind Accum)

variable {α β γ δ τ ζ μ : Type}

/-- The first half of the common end of every matrix operation:
`LilSparseMatrix<ZScalarType> Z(C.nrows(), C.ncols()); ewise_or_opt_accum(Z, C, T, accum)`,
e.g. `sparse_mxm.hpp` lines 92-101. -/
def accumMat (C : Lil γ) (acc : Accum γ τ ζ) (T : Lil τ) : Except Err (Lil ζ) :=
  ewiseOrOptAccum (Lil.new C.nrows C.ncols) C T acc

/-- `if (dot(val, ...)) T[i].emplace_back(j, val);`, e.g. `sparse_mxm.hpp` lines
215-218: nothing is appended when `dot` returns false. -/
def emplaceIf (T : Lil τ) (i j : Nat) : Option τ → Except Err (Lil τ)
  | some v => do
    let t ← T.row i
    T.pokeRow i (t ++ [(j, v)])
  | none => .ok T

/-- `if (dot(val, ...)) t.emplace_back(i, val);`, e.g. `sparse_mxv.hpp` lines 85-88. -/
def emplaceIf1D (t : Row τ) (i : Nat) : Option τ → Row τ
  | some v => t ++ [(i, v)]
  | none => t

/-- `mxm`, `C<M,z> := A*B`, `sparse_mxm.hpp` lines 76-89. -/
def mxmAB (C : Lil γ) (add : τ → τ → τ) (mult : α → β → τ) (A : Lil α) (B : Lil β) :
    Except Err (Lil τ) :=
  forN A.nrows (Lil.new C.nrows C.ncols) fun i T => do
    let a ← A.row i
    a.foldlM (fun T p => do
      let b ← B.row p.1
      if b.isEmpty then .ok T
      else
        let t ← T.row i
        T.pokeRow i (axpy add mult p.2 t b)) T

/-- `mxm`, `C<M,z> := A'*B`, lines 138-149. -/
def mxmATB (C : Lil γ) (add : τ → τ → τ) (mult : α → β → τ) (A : Lil α) (B : Lil β) :
    Except Err (Lil τ) :=
  forN A.nrows (Lil.new C.nrows C.ncols) fun k T => do
    let a ← A.row k
    let b ← B.row k
    if a.isEmpty || b.isEmpty then .ok T
    else a.foldlM (fun T p => do
      let t ← T.row p.1
      T.pokeRow p.1 (axpy add mult p.2 t b)) T

/-- `mxm`, `C<M,z> := A*B'`, lines 196-226. -/
def mxmABT (C : Lil γ) (add : τ → τ → τ) (mult : α → β → τ) (A : Lil α) (B : Lil β) :
    Except Err (Lil τ) :=
  let T : Lil τ := Lil.new C.nrows C.ncols
  if A.nvals > 0 && B.nvals > 0 then do
    let T ← forN A.nrows T fun i T => do
      let a ← A.row i
      if a.isEmpty then .ok T
      else forN B.nrows T fun j T => do
        let b ← B.row j
        if b.isEmpty then .ok T
        else emplaceIf T i j (dot add mult a b)
    .ok T.recomputeNvals
  else .ok T

/-- `mxm`, `C<M,z> := A'*B'`, lines 271-296. The multiply is called with the
element of `B` first (line 285): `mult` is that call. `via` is the conversion of
a result to the scalar type of `C` and back (line 293). -/
def mxmATBT (C : Lil γ) (add : τ → τ → τ) (mult : β → α → τ) (via : τ → τ) (A : Lil α) (B : Lil β) :
    Except Err (Lil τ) :=
  forN B.nrows (Lil.new C.nrows C.ncols) fun i T => do
    let b ← B.row i
    let tRow ← b.foldlM (fun (tRow : Row τ) p => do
      let a ← A.row p.1
      if a.isEmpty then .ok tRow else .ok (axpy add mult p.2 tRow a)) []
    tRow.foldlM (fun T p => do
      let t ← T.row p.1
      T.pokeRow p.1 (t ++ [(i, via p.2)])) T

/-- `mxv`, `w<m,z> := A*u`, `sparse_mxv.hpp` lines 67-92. -/
def mxvA (w : BVec γ) (add : τ → τ → τ) (mult : α → β → τ) (A : Lil α) (u : BVec β) :
    Except Err (Row τ) :=
  if A.nvals > 0 && u.nvals > 0 then do
    let uc ← u.getContents
    forN w.size [] fun i t => do
      let a ← A.row i
      if a.isEmpty then .ok t
      else .ok (emplaceIf1D t i (dotRev add mult a uc))
  else .ok []

/-- The loop of `vxm`, `w<m,z> := u*A`, `sparse_vxm.hpp` lines 66-79, and of `mxv`,
`w<m,z> := A'*u`, `sparse_mxv.hpp` lines 136-149: the same code, in both the
multiply is called with the element of `u` first. -/
def vxmA (add : τ → τ → τ) (mult : β → α → τ) (u : BVec β) (A : Lil α) : Except Err (Row τ) :=
  if A.nvals > 0 && u.nvals > 0 then
    forN u.size [] fun i t => do
      let h ← u.hasElement i
      if !h then .ok t
      else
        let a ← A.row i
        if a.isEmpty then .ok t
        else
          let x ← u.extractElement i
          .ok (axpy add mult x t a)
  else .ok []

/-- `mxv`, `w<m,z> := A'*u`, `sparse_mxv.hpp` lines 136-149. -/
def mxvAT (add : τ → τ → τ) (mult : β → α → τ) (A : Lil α) (u : BVec β) : Except Err (Row τ) :=
  vxmA add mult u A

/-- `vxm`, `w<m,z> := u*A'`, `sparse_vxm.hpp` lines 121-141. -/
def vxmAT (w : BVec γ) (add : τ → τ → τ) (mult : β → α → τ) (u : BVec β) (A : Lil α) :
    Except Err (Row τ) :=
  if A.nvals > 0 && u.nvals > 0 then do
    let uc ← u.getContents
    forN w.size [] fun i t => do
      let a ← A.row i
      if a.isEmpty then .ok t
      else .ok (emplaceIf1D t i (dot add mult uc a))
  else .ok []

end GBTL

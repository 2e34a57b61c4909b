import Verif.Model.Normalize
import Verif.Model.Betweenness
/-
Model of `markov_cluster` in `/repo/src/algorithms/cluster.hpp`. Line numbers refer to this
file.

Simplification: floating-point values are exact rational numbers; `conv` converts the
graph's scalars to floating point.
-/
namespace GBTL
open Spec (Outp MaskKind Accum)

variable {α : Type}

/-- `x - 1` for an `IndexType`, of 64 bits; lines 480 and 492. -/
def ixPred (x : Nat) : Nat := (x + (2 ^ 64 - 1)) % 2 ^ 64

/-- Power expansion, lines 479-486. -/
def mclExpand (e : Nat) (A : Lil Rat) : Prog (Lil Rat) :=
  forP (ixPred e) A fun _ P =>
    exec (mxm (mMasked P .plain (fun x => x != 0) P) ⟨(· + ·), (· * ·), (· * ·)⟩ id (.plain P) (.plain A))

/-- Inflation, lines 491-501. -/
def mclInflate (r : Nat) (P : Lil Rat) : Prog (Lil Rat) := do
  let I ← forP (ixPred r) P fun _ I =>
    exec (eWiseMultM (mMasked I .plain (fun x => x != 0) I) ⟨(· * ·), id, id, id, (· * ·), id⟩ (.plain I) (.plain P))
  normalizeCols .rat I

/-- `Anorm`, and whether the function has returned; lines 464, 472. -/
structure MclSt where
  A : Lil Rat
  stop : Bool

/-- The body of the loop, lines 473-529. -/
def mclBody (n e r : Nat) (threshold : Rat) (q : MclSt) : Prog MclSt := do
  let P ← mclExpand e q.A
  let I ← mclInflate r P
  let E ← exec (eWiseAddM (mPlain id (Lil.new n n)) ⟨(· - ·), id, id, id, (· - ·), id⟩ (.plain q.A) (.plain I))
  let E ← exec (eWiseMultM (mPlain id E) ⟨(· * ·), id, id, id, (· * ·), id⟩ (.plain E) (.plain E))
  let se ← exec (reduceMS id (.none id) (.of (· + ·) id) 0 (0 : Rat) (.plain E))
  .ok { A := I, stop := decide (se / ((n : Rat) * (n : Rat)) < threshold) }

/-- `markov_cluster`, lines 446-533. -/
def markovCluster (conv : α → Rat) (G : Lil α) (e r : Nat) (threshold : Rat) (maxIters : Nat) : Prog (Lil Rat) := do
  if G.nrows ≠ G.ncols then .error (.err .dimension)
  else do
    let n := G.nrows
    let A ← exec (applyM (mPlain id (Lil.new n n)) conv (.plain G))
    let A ← normalizeCols .rat A
    let q ← forP maxIters { A := A, stop := false } fun _ q => if q.stop then .ok q else mclBody n e r threshold q
    .ok q.A

end GBTL

import Verif.Model.MaxFlow
import Verif.Model.Bfs
import Verif.Model.Metrics
/-
Model of `maxflow_bfs` and `maxflow_ford_fulk` in `/repo/src/algorithms/maxflow.hpp` on
the integer scalar types. Line numbers refer to this file. What an overflowing signed
operation yields is the parameter `ov`, the result of an undefined negation being
`ov x 0`.
-/
namespace GBTL
open Spec (Outp MaskKind Accum)

variable {α : Type}

/-- `AdditiveInverse<T>`; `algebra.hpp` `AdditiveInverse`; lines 373, 387. -/
def ITy.negT (t : ITy) (ov : Int → Int → Int) (x : Int) : Int := valOf (ov x 0) (opAddInv t t x)

/-- Loop body of the search, lines 266-288: the calls of `bfs`. -/
def searchBody (G : Lil α) (ramp : BVec Nat) (s : ParSt) : Prog ParSt := do
  let wave ← exec (eWiseMultV (vPlain id s.wave) ewFirst ramp s.wave)
  let wave ← exec (vxm (waveOutS wave s.parents) minFirst wave (.plain G))
  let parents ← exec (applyV (parOut s.parents) id wave)
  .ok { wave := wave, parents := parents }

/-- The condition of the search, line 266. -/
def searching (sink : Nat) (s : ParSt) : Bool :=
  match s.parents.hasElement sink with
  | .ok b => !b && decide (0 < s.wave.nvals)
  | .error _ => false

/-- The variables of the walk back along the parents: `M` and `curr_vertex`; lines 297-298. -/
structure BackSt where
  M : Lil Bool
  curr : Nat
  deriving DecidableEq, Repr

/-- Loop body of the walk back, lines 299-304. -/
def backBody (parents : BVec Nat) (s : BackSt) : Prog BackSt := do
  let p ← lift (parents.extractElement s.curr)
  let M ← lift (method (s.M.setElement p s.curr true))
  .ok { M := M, curr := p }

/-- `maxflow_bfs`, lines 251-307: the result and the new `M`. `hasElement` throws, at
line 266, when the sink is out of range. -/
def maxflowBfs (fuel : Nat) (G : Lil α) (source sink : Nat) (ramp : BVec Nat) (M : Lil Bool) :
    Prog (Bool × Lil Bool) := do
  let parents ← lift (BVec.new G.nrows)
  let parents ← lift (method (parents.setElement source source))
  let wave ← lift (BVec.new G.ncols)
  let wave ← lift (method (wave.setElement source 1))
  let _ ← lift (parents.hasElement sink)
  let s ← loop (searching sink) (searchBody G ramp) fuel { wave := wave, parents := parents }
  let found ← lift (s.parents.hasElement sink)
  if found then do
    let r ← loop (fun r => decide (r.curr ≠ source)) (backBody s.parents) fuel
      { M := M.clear, curr := sink }
    .ok (true, r.M)
  else .ok (false, M)

/-- The variables of `maxflow_ford_fulk`. `go` is the value of the loop's condition; lines
332-342. -/
structure FFSt where
  M : Lil Bool
  F : Lil Int
  R : Lil Int
  count : Nat
  go : Bool
  deriving DecidableEq, Repr

/-- The condition of the loop, lines 343-344. `count` is not increased when there is no
path. -/
def ffCond (fuel : Nat) (G : Lil Int) (source sink : Nat) (ramp : BVec Nat) (s : FFSt) : Prog FFSt := do
  let (found, M) ← maxflowBfs fuel s.R source sink ramp s.M
  if found then .ok { s with M := M, count := s.count + 1, go := decide (s.count < G.nvals) }
  else .ok { s with M := M, go := false }

/-- `Times<T>` on elements of `Matrix<bool>` and `Matrix<T>`; line 353. -/
def ewTimesBT (t : ITy) (ov : Int → Int → Int) : EW Bool Int Int :=
  { op := fun b x => t.timesT ov (t.conv (ofBool b)) x, c1 := fun b => t.conv (ofBool b), c2 := id,
    castBA := fun x => isTrue x, opA := fun b c => t.timesT ov (t.conv (ofBool b)) (t.conv (ofBool c)),
    c2A := fun b => t.conv (ofBool b) }

/-- `Plus<T>` on two matrices of `T`; lines 378, 390. -/
def ewPlusT (t : ITy) (ov : Int → Int → Int) : EW Int Int Int :=
  ⟨t.plusT ov, id, id, id, t.plusT ov, id⟩

/-- Output `GM` without mask, with `Plus<T>()`; line 372. -/
def plusOutM (t : ITy) (ov : Int → Int → Int) (C : Lil Int) : MOut Int Int Int Bool :=
  { C := C, M := none, truthy := id, acc := .some (t.plusT ov) id id, castZ := id, outp := .merge }

/-- Output `R` with mask `R`, `NoAccumulate()`, `REPLACE`; lines 392-393. -/
def selfOut (C : Lil Int) : MOut Int Int Int Int :=
  { C := C, M := some (.plain, C), truthy := isTrue, acc := .none id, castZ := id, outp := .replace }

/-- Loop body of `maxflow_ford_fulk`, lines 350-393. The initial value of `gamma`, which
is not read, is `0`. -/
def ffBody (t : ITy) (ov : Int → Int → Int) (graph : Lil Int) (s : FFSt) : Prog FFSt := do
  let n := graph.nrows
  let G ← exec (eWiseMultM (mPlain id (Lil.new n n)) (ewTimesBT t ov) (.plain s.M) (.plain s.R))
  let gamma ← exec (reduceMS id (.none id : Accum Int Int Int) (redMin t) (Mon.min.identity t) 0 (.plain G))
  let GM ← exec (applyM (mPlain id (Lil.new n n))
    (fun b => t.timesT ov (t.conv (ofBool b)) gamma) (.plain s.M))
  let GM ← exec (applyM (plusOutM t ov GM) (t.negT ov) (.tr GM))
  let F ← exec (eWiseAddM (plainReplace s.F) (ewPlusT t ov) (.plain s.F) (.plain GM))
  let mF ← exec (applyM (mPlain id (Lil.new n n)) (t.negT ov) (.plain F))
  let R ← exec (eWiseAddM (plainReplace s.R) (ewPlusT t ov) (.plain graph) (.plain mF))
  let R ← exec (applyM (selfOut R) id (.plain R))
  .ok { s with F := F, R := R }

/-- `maxflow_ford_fulk`, lines 310-406. -/
def maxflowFordFulk (fuel : Nat) (t : ITy) (ov : Int → Int → Int) (graph : Lil Int)
    (source sink : Nat) : Prog Int := do
  let n := graph.nrows
  let ramp ← lift (BVec.new n)
  let ramp ← lift (method (ramp.build (fun _ y => y) ((List.range n).map fun i => (i, i))))
  let s ← ffCond fuel graph source sink ramp
    { M := Lil.new n n, F := Lil.new n n, R := graph, count := 0, go := false }
  let s ← loop (fun s => s.go) (fun s => do
      let s ← ffBody t ov graph s
      ffCond fuel graph source sink ramp s) fuel s
  let w ← lift (BVec.new n)
  let w ← exec (extractC (vPlain id w) (.plain s.F) .all sink)
  reduceInto (redPlus t ov) (Mon.plus.identity t) 0 w

end GBTL

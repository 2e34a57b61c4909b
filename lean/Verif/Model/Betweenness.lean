import Verif.Model.Algo
import Verif.Model.KTrussInc
import Verif.Props.Elementwise
/-
Model of the batch versions of vertex betweenness centrality in
`/repo/src/algorithms/bc.hpp`. Line numbers refer to this file.

Simplifications. `float` and `double` values are exact rational numbers: rounding is not
modelled. The path counts are `int32_t`; what an overflowing addition or multiplication
yields is the parameter `ov`. The depth `d`, an `int32_t`, is the length of the list of
the `Sigmas`; it is at most the number of vertices reached from a source, plus one. The
graph's scalar type is a parameter, with its conversions `gI` to `int32_t` and `gF` to
the floating-point type. `fuel` bounds the iterations of the `while` loop.
-/
namespace GBTL
open Spec (Outp MaskKind Accum)

variable {α : Type}

/-- The conversion of `int32_t` to `bool`; lines 138, 366, 533, 715 (`Identity<int32_t,
bool>`) and the masks `complement(NumSP)` of lines 153, 377, 544, 703. -/
def nonzero (x : Int) : Bool := x != 0

/-- `ArithmeticSemiring<int32_t>` on the frontier and the graph; lines 155-157 and 379-380. -/
def pathsFA (ov : Int → Int → Int) (gI : α → Int) : SR Int α Int :=
  ⟨ITy.i32.plusT ov, fun f a => ITy.i32.timesT ov f (gI a), fun a f => ITy.i32.timesT ov (gI a) f⟩

/-- `ArithmeticSemiring<int32_t>` on the graph and the frontier; lines 546-548 and 705-707. -/
def pathsAF (ov : Int → Int → Int) (gI : α → Int) : SR α Int Int :=
  ⟨ITy.i32.plusT ov, fun a f => ITy.i32.timesT ov (gI a) f, fun f a => ITy.i32.timesT ov f (gI a)⟩

/-- `ArithmeticSemiring<float>` on the weights and the graph; lines 204-206 and 419-420. -/
def flowWA (gF : α → Rat) : SR Rat α Rat := ⟨(· + ·), fun w a => w * gF a, fun a w => gF a * w⟩

/-- `ArithmeticSemiring<float>` on the graph and the weights; lines 591-592 and 765-767. -/
def flowAW (gF : α → Rat) : SR α Rat Rat := ⟨(· + ·), fun a w => gF a * w, fun w a => w * gF a⟩

/-- Output `C` without mask and accumulator; `MERGE` or `REPLACE`; lines 102-107, 135-148,
167-181 and the same calls of the other versions. -/
def mWhole {τ γ : Type} (c : τ → γ) (C : Lil γ) (outp : Outp) : MOut γ τ τ Bool :=
  { C := C, M := none, truthy := id, acc := .none id, castZ := c, outp := outp }

/-- Output `C` with a mask, without accumulator, `REPLACE`; lines 152-158, 192-207 and the
same calls of the other versions. -/
def mMasked {γ μ : Type} (C : Lil γ) (k : MaskKind) (truthy : μ → Bool) (M : Lil μ) : MOut γ γ γ μ :=
  { C := C, M := some (k, M), truthy := truthy, acc := .none id, castZ := id, outp := .replace }

/-- The variables of the breadth-first phase: `Frontier`, `NumSP` and the `Sigmas`; lines
101-125, 337-359, 506-527 and 682-698. -/
structure BcSt where
  F : Lil Int
  P : Lil Int
  S : List (Lil Bool)
  deriving DecidableEq, Repr

/-- `Sigma[d] = (bool)Frontier`, lines 134-139, 363-367, 530-534 and 711-716; `r × c` is
the shape. -/
def bcSigma (r c : Nat) (F : Lil Int) : Prog (Lil Bool) :=
  exec (applyM (mWhole id (Lil.new r c) .merge) nonzero (.plain F))

/-- `P = F + P`, lines 143-148, 370-373, 537-540 and 719-723. -/
def bcCount (ov : Int → Int → Int) (P F : Lil Int) : Prog (Lil Int) :=
  exec (eWiseAddM (mWhole id P .merge) ⟨ITy.i32.plusT ov, id, id, id, ITy.i32.plusT ov, id⟩ (.plain P) (.plain F))

/-- `NspInv = 1 ./ P`, lines 166-171, 387-393, 556-562 and 729-735. -/
def bcInv (r c : Nat) (outp : Outp) (P : Lil Int) : Prog (Lil Rat) :=
  exec (applyM (mWhole id (Lil.new r c) outp) (fun x : Int => 1 / (x : Rat)) (.plain P))

/-- `BCu` filled with 1, lines 174-181, 395-402, 564-572 and 737-745. -/
def bcOnes (r c : Nat) (outp : Outp) : Prog (Lil Rat) :=
  exec (assignConstM (mWhole id (Lil.new r c) outp) id (1 : Rat) .all .all)

/-- `W<Sigma[i]> = (1 ./ P) .* U`, lines 192-197, 410-414, 580-586 and 753-759. -/
def bcScale (W : Lil Rat) (S : Lil Bool) (inv U : Lil Rat) : Prog (Lil Rat) :=
  exec (eWiseMultM (mMasked W .plain id S) ⟨(· * ·), id, id, id, (· * ·), id⟩ (.plain inv) (.plain U))

/-- `U += W .* P`, lines 211-216, 424-427, 596-601 and 771-776. -/
def bcAdd (U W : Lil Rat) (P : Lil Int) : Prog (Lil Rat) :=
  exec (eWiseMultM
    { C := U, M := (none : MMask Bool), truthy := id, acc := .some (· + ·) id id, castZ := id, outp := .merge }
    ⟨fun w p => w * ((p : Int) : Rat), id, fun p : Int => (p : Rat), fun p : Int => (p : Rat), (· * ·), id⟩
    (.plain W) (.plain P))

/-- `Sigmas[i]`; beyond the end, undefined behaviour; lines 193, 202, 411, 418, 581, 590,
754, 763. -/
def sigmaAt {τ : Type} (S : List τ) (i : Nat) : Prog τ :=
  match S[i]? with
  | some x => .ok x
  | none => .error (.err .ub)

/-- The body of the backward loop for `i`, lines 187-220, 407-430, 577-603 and 750-779:
`mul W S` is the call `W<S> = A +.* W` of each version. The new `BCu` and `W`. -/
def bcBackBody (mul : Lil Rat → Lil Bool → Prog (Lil Rat)) (S : List (Lil Bool)) (inv : Lil Rat)
    (P : Lil Int) (i : Nat) (q : Lil Rat × Lil Rat) : Prog (Lil Rat × Lil Rat) := do
  let S1 ← sigmaAt S i
  let W ← bcScale q.2 S1 inv q.1
  let S0 ← sigmaAt S (i - 1)
  let W ← mul W S0
  let U ← bcAdd q.1 W P
  .ok (U, W)

/-- `for (int32_t i = d - 1; i > 0; --i)`; lines 187-220, 407-430, 577-603 and 750-779. -/
def bcBack (mul : Lil Rat → Lil Bool → Prog (Lil Rat)) (S : List (Lil Bool)) (inv : Lil Rat)
    (P : Lil Int) (U W : Lil Rat) : Prog (Lil Rat) := do
  let d := S.length
  let q ← forP (d - 1) (U, W) fun j q => bcBackBody mul S inv P (d - 1 - j) q
  .ok q.1

/-- A vector filled with `-nsver`, and the sums of the rows (of the columns, for
`transpose(BCu)`) added to it: lines 434-447, 611-622 and 782-794. -/
def bcSum (n nsver : Nat) (B : Operand Rat) : Prog (BVec Rat) := do
  let w ← lift (BVec.new n)
  let w ← exec (assignConstV (vPlain id w) id (-1 * (nsver : Rat)) .all)
  exec (reduceMV { w := w, m := (none : VMask Bool), truthy := id, acc := .some (· + ·) id id, castZ := id, outp := .merge }
    (.of (· + ·) id) B)

/-- The result as a `std::vector`, lines 279-286, 449-456, 624-631 and 796-803. -/
def bcToStd (n : Nat) (r : BVec Rat) : Prog (List Rat) :=
  forP n (List.replicate n 0) fun k l => do
    let b ← lift (r.hasElement k)
    if b then do
      let x ← lift (r.extractElement k)
      .ok (l.set k x)
    else .ok l

/-- `build` of `nsver` ones at the sources, lines 113-120, 348-355, 522-523 and 690. -/
def bcBuild (r c : Nat) (is js : List Nat) : Prog (Lil Int) :=
  lift (method ((Lil.new r c : Lil Int).buildArrays (fun _ y => y) is js (List.replicate is.length 1)))

/-- The body of the `while` loop of `vertex_betweenness_centrality_batch`, lines 699-726. -/
def bcBatchBody (ov : Int → Int → Int) (gI : α → Int) (A : Lil α) (n nsver : Nat) (q : BcSt) : Prog BcSt := do
  let F ← exec (mxm (mMasked q.F .comp nonzero q.P) (pathsAF ov gI) id (.tr A) (.plain q.F))
  let S ← bcSigma n nsver F
  let P ← bcCount ov q.P F
  .ok { F := F, P := P, S := q.S ++ [S] }

/-- `vertex_betweenness_centrality_batch`, lines 659-806. -/
def bcBatch (fuel : Nat) (ov : Int → Int → Int) (gI : α → Int) (gF : α → Rat) (A : Lil α) (s : List Nat) :
    Prog (List Rat) := do
  let nsver := s.length
  if nsver = 0 then .error (.err .dimension)
  else if A.nrows ≠ A.ncols then .error (.err .dimension)
  else do
    let n := A.ncols
    let F ← bcBuild n nsver s (List.range nsver)
    let q ← loop (fun q => decide (0 < q.F.nvals)) (bcBatchBody ov gI A n nsver) fuel { F := F, P := F, S := [] }
    let inv ← bcInv n nsver .replace q.P
    let U ← bcOnes n nsver .replace
    let U ← bcBack (fun W S => exec (mxm (mMasked W .plain id S) (flowAW gF) id (.plain A) (.plain W)))
      q.S inv q.P U (Lil.new n nsver)
    let r ← bcSum n nsver (.plain U)
    bcToStd n r

/-- The body of the `while` loop of `vertex_betweenness_centrality_batch_alt`, lines
528-552. -/
def bcAltBody (ov : Int → Int → Int) (gI : α → Int) (A : Lil α) (n nsver : Nat) (q : BcSt) : Prog BcSt := do
  let S ← bcSigma n nsver q.F
  let P ← bcCount ov q.P q.F
  let F ← exec (mxm (mMasked q.F .comp nonzero P) (pathsAF ov gI) id (.tr A) (.plain q.F))
  .ok { F := F, P := P, S := q.S ++ [S] }

/-- `vertex_betweenness_centrality_batch_alt`, lines 484-634. -/
def bcAlt (fuel : Nat) (ov : Int → Int → Int) (gI : α → Int) (gF : α → Rat) (A : Lil α) (s : List Nat) :
    Prog (List Rat) := do
  let nsver := s.length
  if nsver = 0 then .error (.err .dimension)
  else if A.nrows ≠ A.ncols then .error (.err .dimension)
  else do
    let n := A.ncols
    let F ← exec (extractM (mWhole gI (Lil.new n nsver) .merge) (.tr A) .all (.list s))
    let P ← bcBuild n nsver s (List.range nsver)
    let q ← loop (fun q => decide (0 < q.F.nvals)) (bcAltBody ov gI A n nsver) fuel { F := F, P := P, S := [] }
    let inv ← bcInv n nsver .replace q.P
    let U ← bcOnes n nsver .replace
    let U ← bcBack (fun W S => exec (mxm (mMasked W .plain id S) (flowAW gF) id (.plain A) (.plain W)))
      q.S inv q.P U (Lil.new n nsver)
    let r ← bcSum n nsver (.plain U)
    bcToStd n r

/-- The body of the `while` loops of `vertex_betweenness_centrality_batch_alt_trans`,
lines 360-383, and of its version 2, lines 129-162. -/
def bcTransBody (ov : Int → Int → Int) (gI : α → Int) (A : Lil α) (n nsver : Nat) (q : BcSt) : Prog BcSt := do
  let S ← bcSigma nsver n q.F
  let P ← bcCount ov q.P q.F
  let F ← exec (mxm (mMasked q.F .comp nonzero P) (pathsFA ov gI) id (.plain q.F) (.plain A))
  .ok { F := F, P := P, S := q.S ++ [S] }

/-- `vertex_betweenness_centrality_batch_alt_trans`, lines 315-459. -/
def bcAltTrans (fuel : Nat) (ov : Int → Int → Int) (gI : α → Int) (gF : α → Rat) (A : Lil α) (s : List Nat) :
    Prog (List Rat) := do
  let nsver := s.length
  if nsver = 0 then .error (.err .dimension)
  else if A.nrows ≠ A.ncols then .error (.err .dimension)
  else do
    let n := A.ncols
    let F ← exec (extractM (mWhole gI (Lil.new nsver n) .merge) (.plain A) (.list s) .all)
    let P ← bcBuild nsver n (List.range nsver) s
    let q ← loop (fun q => decide (0 < q.F.nvals)) (bcTransBody ov gI A n nsver) fuel { F := F, P := P, S := [] }
    let inv ← bcInv nsver n .replace q.P
    let U ← bcOnes nsver n .merge
    let U ← bcBack (fun W S => exec (mxm (mMasked W .plain id S) (flowWA gF) id (.plain W) (.tr A)))
      q.S inv q.P U (Lil.new nsver n)
    let r ← bcSum n nsver (.tr U)
    bcToStd n r

/-- `vertex_betweenness_centrality_batch_alt_trans_v2`, lines 72-289. The breadth-first
phase ends after 10 rounds. -/
def bcAltTransV2 (fuel : Nat) (ov : Int → Int → Int) (gI : α → Int) (gF : α → Rat) (A : Lil α) (s : List Nat) :
    Prog (List Rat) := do
  let nsver := s.length
  if nsver = 0 then .error (.err .dimension)
  else if A.nrows ≠ A.ncols then .error (.err .dimension)
  else do
    let n := A.ncols
    let F ← exec (extractM (mWhole gI (Lil.new nsver n) .merge) (.plain A) (.list s) .all)
    let P ← bcBuild nsver n (List.range nsver) s
    let q ← loop (fun q => decide (0 < q.F.nvals) && decide (q.S.length < 10)) (bcTransBody ov gI A n nsver) fuel
      { F := F, P := P, S := [] }
    let inv ← bcInv nsver n .merge q.P
    let U ← bcOnes nsver n .merge
    let U ← bcBack (fun W S => exec (mxm (mMasked W .plain id S) (flowWA gF) id (.plain W) (.tr A)))
      q.S inv q.P U (Lil.new nsver n)
    let r ← lift (BVec.new n)
    let r ← exec (reduceMV (vReplace r) (.of (· + ·) id) (.tr U))
    let r ← exec (applyV (vReplace r) (fun x => x - (nsver : Rat)) r)
    bcToStd n r

end GBTL

import Verif.Model.KTruss
import Verif.Model.Mis
/-
Model of `k_truss`, on incidence matrices, in `/repo/src/algorithms/k_truss.hpp` on the
integer scalar types. `t` is the scalar type of the matrix. What an overflowing signed
operation yields is the parameter `ov`.
-/
namespace GBTL
open Spec (Outp MaskKind Accum)

/-- `Minus<T>`; `algebra.hpp` `Minus`; line 248. -/
def ITy.minusT (t : ITy) (ov : Int → Int → Int) (x y : Int) : Int :=
  valOf (ov x y) (BOp.minus.run t t t x y)

/-- `FirstEqualsTwo<T>`, lines 38-48. -/
def firstEqualsTwo (t : ITy) (x y : Int) : Int := if x = t.conv 2 then y else 0

/-- `Support2Semiring<T>`, lines 50-51. -/
def support2 (t : ITy) (ov : Int → Int → Int) : SR Int Int Int :=
  ⟨t.plusT ov, firstEqualsTwo t, firstEqualsTwo t⟩

/-- `SupportTest<T>(threshold)(val)`, lines 54-65. -/
def supportTest (t : ITy) (threshold val : Int) : Bool := decide (val < t.conv threshold)

/-- `SupportTest<T, std::greater_equal<T>>(threshold)(val)`, lines 54-65. -/
def supportTestGe (t : ITy) (threshold val : Int) : Bool := decide (t.conv threshold ≤ val)

/-- Output `C` with mask `complement(D)`, `NoAccumulate()`, `REPLACE`; lines 117-121 and
238-242. -/
def offDiag (C : Lil Int) (D : Lil Bool) : MOut Int Int Int Bool :=
  { C := C, M := some (.comp, D), truthy := id, acc := .none id, castZ := id, outp := .replace }

/-- Output `w` without mask and accumulator, `REPLACE`; lines 136-142, 149-151, 173-177,
254-265. -/
def vReplace {γ : Type} (w : BVec γ) : VOut γ γ γ Bool :=
  { w := w, m := none, truthy := id, acc := .none id, castZ := id, outp := .replace }

/-- Output `C` without mask, with `Minus<T>()`, `REPLACE`; lines 246-251. -/
def minusOut (t : ITy) (ov : Int → Int → Int) (C : Lil Int) : MOut Int Int Int Bool :=
  { C := C, M := none, truthy := id, acc := .some (t.minusT ov) id id, castZ := id, outp := .replace }

/-- The loop of lines 99-104: the diagonal mask. -/
def diagMask (n : Nat) : Prog (Lil Bool) :=
  forP n (Lil.new n n) fun i D => lift (method (D.setElement i i true))

/-- A test applied to the supports and the masked call that drops the stored `false`s,
lines 148-154, 172-180 and 260-268. -/
def findEdges (t : ITy) (test : Int → Bool) (m : Nat) (s : BVec Int) : Prog (BVec Bool) := do
  let x ← lift (BVec.new m)
  let x ← exec (applyV (vReplace x) test s)
  exec (applyV (vMasked isTrue x .plain id x .replace) (fun b => t.conv (ofBool b)) x)

/-- The variables of the loop. `stop`: it has been left by `break`; lines 128-155. -/
structure TrussInc where
  E : Lil Int
  R : Lil Int
  s : BVec Int
  x : BVec Bool
  numEdges : Nat
  stop : Bool
  deriving DecidableEq, Repr

/-- The supports, lines 140-143 and 253-256. -/
def supports (t : ITy) (ov : Int → Int → Int) (m : Nat) (R : Lil Int) (ones : BVec Int) : Prog (BVec Int) := do
  let s ← lift (BVec.new m)
  exec (mxv (vReplace s) (support2 t ov) (.plain R) ones)

/-- The body of the loop, lines 157-270. -/
def trussIncBody (t : ITy) (ov : Int → Int → Int) (n k : Nat) (D : Lil Bool) (ones : BVec Int)
    (q : TrussInc) : Prog TrussInc := do
  let xs ← lift (vecTuples q.x)
  let xc ← findEdges t (supportTestGe t (sub2 k)) q.numEdges q.s
  let xcs ← lift (vecTuples xc)
  let Ex ← exec (extractM (plainReplace (Lil.new xs.length n)) (.plain q.E) (.list (xs.map (·.1))) .all)
  let m := xcs.length
  let E ← exec (extractM (plainReplace (Lil.new m n)) (.plain q.E) (.list (xcs.map (·.1))) .all)
  if m = 0 then .ok { q with E := E, numEdges := m, stop := true }
  else do
    let R ← exec (extractM (plainReplace (Lil.new m n)) (.plain q.R) (.list (xcs.map (·.1))) .all)
    let P ← exec (mxm (offDiag (Lil.new n n) D) (arithT t ov) id (.tr Ex) (.plain Ex))
    let R ← exec (mxm (minusOut t ov R) (arithT t ov) id (.plain E) (.plain P))
    let s ← supports t ov m R ones
    let x ← findEdges t (supportTest t (sub2 k)) m s
    .ok { E := E, R := R, s := s, x := x, numEdges := m, stop := false }

/-- `k_truss`, lines 86-274. -/
def kTruss (fuel : Nat) (t : ITy) (ov : Int → Int → Int) (Ein : Lil Int) (k : Nat) : Prog (Lil Int) := do
  let n := Ein.ncols
  let m := Ein.nrows
  let D ← diagMask n
  let A ← exec (mxm (offDiag (Lil.new n n) D) (arithT t ov) id (.tr Ein) (.plain Ein))
  let R ← exec (mxm (mPlain id (Lil.new m n)) (arithT t ov) id (.plain Ein) (.plain A))
  let ones ← lift (BVec.new n)
  let ones ← exec (assignConstV (vReplace ones) id (t.conv 1) (.list (List.range n)))
  let s ← supports t ov m R ones
  let x ← findEdges t (supportTest t (sub2 k)) m s
  let q ← loop (fun q => !q.stop && decide (0 < q.x.nvals)) (trussIncBody t ov n k D ones) fuel
    { E := Ein, R := R, s := s, x := x, numEdges := m, stop := false }
  .ok q.E

end GBTL

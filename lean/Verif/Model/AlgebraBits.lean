import Verif.Model.Algebra
/-
Division and the bitwise operators of `/repo/src/graphblas/algebra.hpp` on `bool` and
the integer types. Line numbers refer to `algebra.hpp`. `Power` is not modelled: it
calls `std::pow`, which computes in floating point.
-/
namespace GBTL

/-- `lhs / rhs` on values of the promoted type `p`: division by zero is undefined, and
so is a signed quotient that does not fit. C++ truncates towards zero. Lines 108, 331. -/
def quot (p : ITy) (x y : Int) : Except Err Int :=
  if y = 0 then .error .ub else arith p (Int.tdiv x y)

/-- `Div`, lines 328-332. -/
def opDiv (d1 d2 d3 : ITy) (x y : Int) : Except Err Int :=
  let p := ITy.common d1 d2
  (quot p (p.conv x) (p.conv y)).map d3.conv

/-- `MultiplicativeInverse`, lines 103-110: `static_cast<D2>(1) / input`. -/
def opMulInv (d1 d2 : ITy) (x : Int) : Except Err Int :=
  let p := ITy.common d2 d1
  (quot p (p.conv (d2.conv 1)) (p.conv x)).map d2.conv

/-- Names of the bitwise binary operators, lines 198-232. -/
inductive BitOp where
  | or | and | xor | xnor
  deriving DecidableEq, Repr

/-- The operators on bit patterns: `BitwiseOr` lines 202-205, `BitwiseAnd` lines 211-214,
`BitwiseXor` lines 220-223, `BitwiseXnor` lines 229-232. -/
def BitOp.bits {w : Nat} (f : BitOp) (a b : BitVec w) : BitVec w :=
  match f with
  | .or => a ||| b
  | .and => a &&& b
  | .xor => a ^^^ b
  | .xnor => ~~~(a ^^^ b)

/-- A bitwise operator on arguments of types `I1`, `I2` with result type `I3`: computed
on the two's complement representations in the common type, converted to `I3`. Lines 204,
213, 222, 231. -/
def BitOp.run (f : BitOp) (d1 d2 d3 : ITy) (x y : Int) : Except Err Int :=
  let p := ITy.common d1 d2
  let z := f.bits (BitVec.ofInt p.width (p.conv x)) (BitVec.ofInt p.width (p.conv y))
  .ok (d3.conv (p.conv z.toNat))

end GBTL

import Verif.Model.Basic
/-
Model of the operators, monoids and semirings of `/repo/src/graphblas/algebra.hpp`
on `bool` and the fixed-width integer types, with C++'s integer promotions, usual
arithmetic conversions and undefined signed overflow. Line numbers refer to
`algebra.hpp`. Floating-point scalars are not modelled. What concerns the C++ language
rather than the library (widths, conversions, promotions, overflow) cites the operators
of `algebra.hpp` that use it.

The platform is the usual 64-bit one: `int` has 32 bits, `int64_t` is `long`,
signed numbers are two's complement, and converting to a signed type wraps.
-/
namespace GBTL

/-- The scalar types: the integer instances of the template parameters `D1`, `D2`, `D3`
of lines 81-339; the overloads of `MyAbs`, lines 43-67, list them. -/
inductive ITy where
  | bool | i8 | i16 | i32 | i64 | u8 | u16 | u32 | u64
  deriving DecidableEq, Repr

namespace ITy

/-- Width in bits (of the value, for `bool`); C++ language, for the types of lines 43-67. -/
def width : ITy → Nat
  | bool => 1
  | i8 | u8 => 8
  | i16 | u16 => 16
  | i32 | u32 => 32
  | i64 | u64 => 64

/-- Is the type signed? C++ language, for the types of lines 43-67. -/
def signed : ITy → Bool
  | i8 | i16 | i32 | i64 => true
  | _ => false

/-- `std::numeric_limits<T>::min()`, used on line 407. -/
def minVal : ITy → Int
  | i8 => -128
  | i16 => -32768
  | i32 => -2147483648
  | i64 => -9223372036854775808
  | _ => 0

/-- `std::numeric_limits<T>::max()`, used on line 454. -/
def maxVal : ITy → Int
  | bool => 1
  | i8 => 127
  | i16 => 32767
  | i32 => 2147483647
  | i64 => 9223372036854775807
  | u8 => 255
  | u16 => 65535
  | u32 => 4294967295
  | u64 => 18446744073709551615

/-- Is `x` a value of the type? C++ language, for the parameters of lines 81-339. -/
def Has (t : ITy) (x : Int) : Prop := t.minVal ≤ x ∧ x ≤ t.maxVal

instance (t : ITy) (x : Int) : Decidable (t.Has x) := inferInstanceAs (Decidable (_ ∧ _))

/-- Implicit conversion of an integer value to the type: to `bool`, "is not zero";
to an unsigned type, modulo `2^w`; to a signed one, two's complement. C++ language, at the
`return` statements of lines 81-339. -/
def conv (t : ITy) (x : Int) : Int :=
  if t = bool then (if x = 0 then 0 else 1)
  else if t.signed then Int.bmod x (2 ^ t.width)
  else x % (2 ^ t.width : Nat)

/-- Integer promotion: types narrower than `int` become `int`. C++ language, for the
operators of lines 100 and 313-331. -/
def promote : ITy → ITy
  | bool | i8 | i16 | u8 | u16 => i32
  | t => t

/-- The common type of two promoted types. C++ language, for the operators of lines
204-331. -/
def commonP : ITy → ITy → ITy
  | i32, t => t
  | t, i32 => t
  | u32, t => t
  | t, u32 => t
  | i64, t => t
  | t, _ => t

/-- Usual arithmetic conversions. C++ language, for the operators of lines 204-331. -/
def common (t1 t2 : ITy) : ITy := commonP t1.promote t2.promote

end ITy

/-- The result of an arithmetic operator evaluated in the promoted type `p`, `x`
being the exact result: signed overflow is undefined, unsigned wraps. C++ language, for
lines 100 and 313-331. -/
def arith (p : ITy) (x : Int) : Except Err Int :=
  if p.signed then (if p.Has x then .ok x else .error .ub) else .ok (p.conv x)

/-- `lhs ∘ rhs` for an arithmetic operator with exact meaning `f`, the result then
converted to `D3`; lines 313, 319, 325. -/
def arithOp (f : Int → Int → Int) (d1 d2 d3 : ITy) (x y : Int) : Except Err Int :=
  let p := ITy.common d1 d2
  (arith p (f (p.conv x) (p.conv y))).map d3.conv

/-- `int` from `bool`; C++ language, for lines 117, 165-192 and 239-269. -/
def ofBool (b : Bool) : Int := if b then 1 else 0

/-- A comparison, in the common type, converted to `D3`; lines 239-269. -/
def cmpOp (f : Int → Int → Bool) (d1 d2 d3 : ITy) (x y : Int) : Int :=
  let p := ITy.common d1 d2
  d3.conv (ofBool (f (p.conv x) (p.conv y)))

/-- Conversion to `bool`, as in lines 117 and 165-192. -/
def isTrue (x : Int) : Bool := x != 0

/-! ### Unary operators -/

/-- `Identity`, lines 81-85. -/
def opIdentity (d2 : ITy) (x : Int) : Except Err Int := .ok (d2.conv x)

/-- `Abs`, lines 87-94, through `detail::MyAbs`, lines 43-67, by argument type: `abs` works in `int`, `labs` in
`long` (undefined for the smallest value), unsigned types are returned as they are. -/
def opAbs (d1 d2 : ITy) (x : Int) : Except Err Int :=
  if d1.signed then (arith d1.promote (if x < 0 then -x else x)).map d2.conv
  else .ok (d2.conv x)

/-- `AdditiveInverse`, lines 97-101. -/
def opAddInv (d1 d2 : ITy) (x : Int) : Except Err Int :=
  let p := d1.promote
  (arith p (-(p.conv x))).map d2.conv

/-- `LogicalNot`, lines 114-118. -/
def opNot (d2 : ITy) (x : Int) : Except Err Int := .ok (d2.conv (ofBool (!isTrue x)))

/-- `BitwiseNot`, lines 120-126: `~x` is `-x-1` in two's complement. -/
def opBitNot (d1 d2 : ITy) (x : Int) : Except Err Int :=
  let p := d1.promote
  .ok (d2.conv (p.conv (-(p.conv x) - 1)))

/-! ### Binary operators -/

/-- Names of the binary operators (lines 162-338) modelled here. `Div` and
the bitwise operators are in `Model/AlgebraBits.lean`, `Power` is not modelled. -/
inductive BOp where
  | lor | land | lxor | lxnor | eq | ne | gt | lt | ge | le | first | second
  | min | max | plus | minus | times
  deriving DecidableEq, Repr

/-- The binary operators on arguments of types `D1`, `D2` with result type `D3`.
`LogicalOr` … `LogicalXnor` lines 162-194, `Equal` … `LessEqual` lines 236-270,
`First`, `Second` lines 274-285, `Min`, `Max` lines 289-299, `Plus`, `Minus`,
`Times` lines 310-326. The two alternatives of the conditional operator in `Min` and
`Max` are converted to their common type. -/
def BOp.run (f : BOp) (d1 d2 d3 : ITy) (x y : Int) : Except Err Int :=
  match f with
  | .lor => .ok (d3.conv (ofBool (isTrue x || isTrue y)))
  | .land => .ok (d3.conv (ofBool (isTrue x && isTrue y)))
  | .lxor => .ok (d3.conv (ofBool ((isTrue x && !isTrue y) || (!isTrue x && isTrue y))))
  | .lxnor => .ok (d3.conv (ofBool ((isTrue x && isTrue y) || (!isTrue x && !isTrue y))))
  | .eq => .ok (cmpOp (fun a b => a == b) d1 d2 d3 x y)
  | .ne => .ok (cmpOp (fun a b => a != b) d1 d2 d3 x y)
  | .gt => .ok (cmpOp (fun a b => decide (b < a)) d1 d2 d3 x y)
  | .lt => .ok (cmpOp (fun a b => decide (a < b)) d1 d2 d3 x y)
  | .ge => .ok (cmpOp (fun a b => decide (b ≤ a)) d1 d2 d3 x y)
  | .le => .ok (cmpOp (fun a b => decide (a ≤ b)) d1 d2 d3 x y)
  | .first => .ok (d3.conv x)
  | .second => .ok (d3.conv y)
  | .min =>
    let p := ITy.common d1 d2
    .ok (d3.conv (if p.conv x < p.conv y then p.conv x else p.conv y))
  | .max =>
    let p := ITy.common d1 d2
    .ok (d3.conv (if p.conv x < p.conv y then p.conv y else p.conv x))
  | .plus => arithOp (· + ·) d1 d2 d3 x y
  | .minus => arithOp (· - ·) d1 d2 d3 x y
  | .times => arithOp (· * ·) d1 d2 d3 x y

/-! ### Monoids -/

/-- The predefined monoids, lines 382-389, 398-414, 445-461. -/
inductive Mon where
  | plus | times | lor | land | lxor | lxnor | max | min
  deriving DecidableEq, Repr

/-- The operator of a monoid, second argument of `GEN_GRAPHBLAS_MONOID` (lines
382-389) and lines 398-461. -/
def Mon.bop : Mon → BOp
  | .plus => .plus
  | .times => .times
  | .lor => .lor
  | .land => .land
  | .lxor => .lxor
  | .lxnor => .lxnor
  | .max => .max
  | .min => .min

/-- `operator()`, lines 373-376, 410-413, 457-460. -/
def Mon.op (m : Mon) (t : ITy) (x y : Int) : Except Err Int := m.bop.run t t t x y

/-- `identity()`, lines 368-371, 405-408, 452-455. -/
def Mon.identity (m : Mon) (t : ITy) : Int :=
  match m with
  | .plus => t.conv 0
  | .times => t.conv 1
  | .lor => t.conv 0
  | .land => t.conv 1
  | .lxor => t.conv 0
  | .lxnor => t.conv 1
  | .max => t.minVal
  | .min => t.maxVal

/-! ### Semirings -/

/-- The predefined semirings, lines 523-570. -/
inductive Semi where
  | arithmetic | minPlus | maxPlus | minTimes | maxTimes | minMax | maxMin | plusMin
  | logical | andOr | xorAnd | xnorOr | minFirst | minSecond | maxFirst | maxSecond
  deriving DecidableEq, Repr

/-- Second argument of `GEN_GRAPHBLAS_SEMIRING`, lines 523-570. -/
def Semi.monoid : Semi → Mon
  | .arithmetic => .plus
  | .minPlus => .min
  | .maxPlus => .max
  | .minTimes => .min
  | .maxTimes => .max
  | .minMax => .min
  | .maxMin => .max
  | .plusMin => .plus
  | .logical => .lor
  | .andOr => .land
  | .xorAnd => .lxor
  | .xnorOr => .lxnor
  | .minFirst => .min
  | .minSecond => .min
  | .maxFirst => .max
  | .maxSecond => .max

/-- Third argument of `GEN_GRAPHBLAS_SEMIRING`, lines 523-570. -/
def Semi.multOp : Semi → BOp
  | .arithmetic => .times
  | .minPlus => .plus
  | .maxPlus => .plus
  | .minTimes => .times
  | .maxTimes => .times
  | .minMax => .max
  | .maxMin => .min
  | .plusMin => .min
  | .logical => .land
  | .andOr => .lor
  | .xorAnd => .land
  | .xnorOr => .lor
  | .minFirst => .first
  | .minSecond => .second
  | .maxFirst => .first
  | .maxSecond => .second

/-- `add` of a semiring with scalar types `D1`, `D2`, `D3`, lines 504-505. -/
def Semi.add (s : Semi) (d3 : ITy) (x y : Int) : Except Err Int := s.monoid.op d3 x y
/-- `mult`, lines 507-508. -/
def Semi.mult (s : Semi) (d1 d2 d3 : ITy) (x y : Int) : Except Err Int :=
  s.multOp.run d1 d2 d3 x y
/-- `zero`, lines 510-511. -/
def Semi.zero (s : Semi) (d3 : ITy) : Int := s.monoid.identity d3

/-! ### Operators taken from a semiring -/

/-- `MultiplicativeOpFromSemiring`, lines 581-598, `multiply_op`, lines 628-633. -/
def multiplyOp (s : Semi) (d1 d2 d3 : ITy) (x y : Int) : Except Err Int := s.mult d1 d2 d3 x y

/-- `AdditiveMonoidFromSemiring`, lines 602-625, `add_monoid`, lines 636-641:
`operator()`, lines 616-621. -/
def addMonoid (s : Semi) (d3 : ITy) (x y : Int) : Except Err Int := s.add d3 x y
/-- Its `identity()`, lines 611-614. -/
def addMonoidIdentity (s : Semi) (d3 : ITy) : Int := s.zero d3

end GBTL

import Verif.Model.AlgebraBits
import Verif.Props.Algebra
/-
C45, continued: division and the bitwise operators.
-/
namespace GBTL
open ITy

/-- `q` is the quotient of `x` by `y`, truncated towards zero: the remainder is smaller
than `y` in absolute value and has the sign of `x`. -/
def IsQuot (x y q : Int) : Prop :=
  ∃ r, x = q * y + r ∧ r.natAbs < y.natAbs ∧ (0 ≤ x → 0 ≤ r) ∧ (x ≤ 0 → r ≤ 0)

/-- Bit `i` of the two's complement representation of `x`. -/
def bitAt (x : Int) (i : Nat) : Prop := x / 2 ^ i % 2 = 1

/-- What a bitwise operator does to a pair of bits. -/
def BitOp.exact : BitOp → Prop → Prop → Prop
  | .or, a, b => a ∨ b
  | .and, a, b => a ∧ b
  | .xor, a, b => ¬ (a ↔ b)
  | .xnor, a, b => (a ↔ b)

/-! ### Division -/

theorem isQuot_tdiv {x y : Int} (hy : y ≠ 0) : IsQuot x y (Int.tdiv x y) := by
  refine ⟨Int.tmod x y, ?_, ?_, ?_, ?_⟩
  · have := Int.tmod_add_mul_tdiv x y
    rw [Int.mul_comm]; omega
  · rw [Int.natAbs_tmod]
    exact Nat.mod_lt _ (by omega)
  · intro h; exact Int.tmod_nonneg y h
  · intro h
    have h1 : 0 ≤ Int.tmod (-x) y := Int.tmod_nonneg y (by omega)
    rw [Int.neg_tmod] at h1
    omega

/-- The quotient is determined. -/
theorem IsQuot.unique {x y q q' : Int} (h : IsQuot x y q) (h' : IsQuot x y q') : q = q' := by
  obtain ⟨r, e, b, p, n⟩ := h
  obtain ⟨r', e', b', p', n'⟩ := h'
  have e2 : (q - q') * y = r' - r := by
    rw [Int.sub_mul]; omega
  have hlt : (r' - r).natAbs < y.natAbs := by
    rcases Int.le_total 0 x with h | h
    · have := p h; have := p' h; omega
    · have := n h; have := n' h; omega
  rw [← e2, Int.natAbs_mul] at hlt
  rcases Nat.eq_zero_or_pos (q - q').natAbs with h | h
  · omega
  · have := Nat.le_mul_of_pos_left y.natAbs h
    omega

/-- **C45**, `Div`: the quotient truncated towards zero whenever the operands survive
the usual arithmetic conversions, the divisor is not zero and the quotient fits. -/
theorem C45_div (d1 d2 d3 : ITy) (x y q : Int) (hx : (common d1 d2).Has x)
    (hy : (common d1 d2).Has y) (h0 : y ≠ 0) (hq : IsQuot x y q) (hc : (common d1 d2).Has q)
    (h3 : d3.Has q) : opDiv d1 d2 d3 x y = .ok q := by
  obtain rfl := (isQuot_tdiv h0).unique hq
  simp only [opDiv, quot, conv_id hx, conv_id hy, if_neg h0, arith_of_has hc, Except.map, conv_id h3]

/-- Division by zero is undefined for all types, and so is dividing the smallest
`int32_t` by `-1`; for `int8_t` the latter wraps. -/
theorem C45_div_undefined (d1 d2 d3 : ITy) (x : Int) :
    opDiv d1 d2 d3 x 0 = .error .ub ∧
    opDiv .i32 .i32 .i32 (-2147483648) (-1) = .error .ub ∧
    opDiv .i8 .i8 .i8 (-128) (-1) = .ok (-128) := by
  refine ⟨?_, by decide, by decide⟩
  simp only [opDiv, quot, conv_id (has_zero (common d1 d2)), if_true]
  rfl

example : IsQuot (-7) 2 (-3) := ⟨-1, by decide, by decide, by decide, by decide⟩
example : opDiv .i32 .i8 .i64 (-7) 2 = .ok (-3) := by decide

theorem common_has_one (d1 d2 : ITy) : (common d1 d2).Has 1 := has_one _

/-- **C45**, `MultiplicativeInverse` on integer types: `1`, `-1` and zero for the
reciprocals of `1`, `-1` and all other numbers but zero, for which it is undefined. The
operand has to survive the usual arithmetic conversions. -/
theorem C45_mult_inverse (d1 d2 : ITy) (x : Int) (hx : (common d2 d1).Has x) :
    (x = 1 → opMulInv d1 d2 x = .ok 1) ∧
    (x = -1 → d2.Has (-1) → opMulInv d1 d2 x = .ok (-1)) ∧
    (1 < x.natAbs → opMulInv d1 d2 x = .ok 0) ∧
    (x = 0 → opMulInv d1 d2 x = .error .ub) := by
  have h1 := conv_id (has_one d2)
  have h2 := conv_id (has_one (common d2 d1))
  have key : ∀ q, x ≠ 0 → IsQuot 1 x q → (common d2 d1).Has q → d2.Has q →
      opMulInv d1 d2 x = .ok q := by
    intro q h0 hq hc h3
    obtain rfl := (isQuot_tdiv h0).unique hq
    simp only [opMulInv, quot, h1, h2, conv_id hx, if_neg h0, arith_of_has hc, Except.map, conv_id h3]
  refine ⟨?_, ?_, ?_, ?_⟩
  · intro h; subst h
    exact key 1 (by decide) ⟨0, by decide, by decide, by decide, by decide⟩ (has_one _) (has_one _)
  · intro h h3; subst h
    exact key (-1) (by decide) ⟨0, by decide, by decide, by decide, by decide⟩ hx h3
  · intro h
    exact key 0 (by omega) ⟨1, by omega, by simpa using h, by decide, by decide⟩ (has_zero _)
      (has_zero _)
  · intro h; subst h
    simp only [opMulInv, quot, conv_id hx, if_true]
    rfl

example : opMulInv .i32 .i32 (-1) = .ok (-1) ∧ opMulInv .u8 .u8 200 = .ok 0 := by decide

/-! ### Bits -/

/-- The bits below `w` are determined by the number modulo `2^w`. -/
theorem bitAt_congr {x y : Int} {w i : Nat} (hi : i < w)
    (h : x % (2 ^ w : Nat) = y % (2 ^ w : Nat)) : bitAt x i ↔ bitAt y i := by
  have key : ∀ z : Int, z / 2 ^ i % 2 = z % (2 ^ w : Nat) / 2 ^ i % 2 := by
    intro z
    obtain ⟨k, rfl⟩ : ∃ k, w = i + (k + 1) := ⟨w - i - 1, by omega⟩
    have hp : ((2 ^ (i + (k + 1)) : Nat) : Int) = 2 ^ i * (2 * 2 ^ k) := by
      rw [Int.natCast_pow, Int.pow_add, Int.pow_succ, Int.mul_comm (_ ^ k)]
      rfl
    have hz := Int.mul_ediv_add_emod z (2 ^ (i + (k + 1)) : Nat)
    generalize z / ((2 ^ (i + (k + 1)) : Nat) : Int) = q at hz
    generalize z % ((2 ^ (i + (k + 1)) : Nat) : Int) = r at hz ⊢
    rw [hp] at hz
    have h2 : (2 : Int) ^ i ≠ 0 := by
      have := Int.pow_pos (n := 2) (m := i) (by decide); omega
    have : z = r + 2 ^ i * (2 * 2 ^ k * q) := by rw [← hz, Int.mul_assoc]; omega
    rw [this, Int.add_mul_ediv_left _ _ h2, Int.mul_assoc, Int.add_mul_emod_self_left]
  unfold bitAt
  rw [key x, key y, h]

/-- Bits of a natural number. -/
theorem bitAt_nat (n i : Nat) : bitAt (n : Int) i ↔ n.testBit i = true := by
  rw [Nat.testBit_eq_decide_div_mod_eq, decide_eq_true_iff]
  unfold bitAt
  have : ((n : Int) / 2 ^ i % 2) = ((n / 2 ^ i % 2 : Nat) : Int) := by simp
  rw [this]; omega

/-- Conversion to a type other than `bool` keeps the bits below its width. -/
theorem bitAt_conv {t : ITy} (ht : t ≠ .bool) (x : Int) {i : Nat} (hi : i < t.width) :
    bitAt (t.conv x) i ↔ bitAt x i := by
  refine bitAt_congr hi ?_
  unfold conv
  rw [if_neg ht]
  split
  · exact Int.bmod_emod
  · exact Int.emod_emod _ _

theorem bitAt_ofInt (w : Nat) (x : Int) {i : Nat} (hi : i < w) :
    (BitVec.ofInt w x).getLsbD i = true ↔ bitAt x i := by
  rw [BitVec.getLsbD, BitVec.toNat_ofInt, ← bitAt_nat]
  have h2 : (0 : Int) < (2 ^ w : Nat) := by exact_mod_cast Nat.two_pow_pos w
  rw [Int.toNat_of_nonneg (Int.emod_nonneg _ (by omega))]
  exact bitAt_congr hi (Int.emod_emod _ _)

/-- The common type is never `bool`. -/
theorem common_not_bool (d1 d2 : ITy) : common d1 d2 ≠ .bool := by
  cases d1 <;> cases d2 <;> decide

/-- Two values of a type with the same bits are equal. -/
theorem bits_unique {t : ITy} {x y : Int} (hx : t.Has x) (hy : t.Has y)
    (h : ∀ i, i < t.width → (bitAt x i ↔ bitAt y i)) : x = y := by
  have key : ∀ w : Nat, (∀ i, i < w → (bitAt x i ↔ bitAt y i)) →
      BitVec.ofInt w x = BitVec.ofInt w y := by
    intro w h
    refine BitVec.eq_of_getLsbD_eq ?_
    intro i hi
    rw [Bool.eq_iff_iff, bitAt_ofInt w x hi, bitAt_ofInt w y hi]
    exact h i hi
  have h1 := congrArg BitVec.toNat (key _ h)
  rw [BitVec.toNat_ofInt, BitVec.toNat_ofInt] at h1
  cases t <;> simp [Has, minVal, maxVal, width] at hx hy h1 <;> omega

/-- **C45**, the bitwise operators: the value computed in the common type of the operands
is the one whose bits are those of the operands combined bit by bit, and the result is
that value, converted. -/
theorem C45_bitwise (f : BitOp) (d1 d2 d3 : ITy) (x y : Int) :
    ∃ z, f.run d1 d2 d3 x y = .ok (d3.conv z) ∧ (common d1 d2).Has z ∧
      ∀ i, i < (common d1 d2).width → (bitAt z i ↔ f.exact (bitAt x i) (bitAt y i)) := by
  refine ⟨_, rfl, has_conv _ _, ?_⟩
  intro i hi
  have hb := common_not_bool d1 d2
  rw [bitAt_conv hb _ hi, bitAt_nat]
  have e1 := bitAt_ofInt _ ((common d1 d2).conv x) hi
  have e2 := bitAt_ofInt _ ((common d1 d2).conv y) hi
  rw [bitAt_conv hb x hi] at e1
  rw [bitAt_conv hb y hi] at e2
  rw [BitVec.testBit_toNat, ← e1, ← e2]
  cases f <;> simp only [BitOp.bits, BitOp.exact, BitVec.getLsbD_or, BitVec.getLsbD_and,
    BitVec.getLsbD_xor, BitVec.getLsbD_not, hi, decide_true]
  · simp
  · simp
  · generalize BitVec.getLsbD _ i = a
    generalize BitVec.getLsbD _ i = b
    cases a <;> cases b <;> simp
  · generalize BitVec.getLsbD _ i = a
    generalize BitVec.getLsbD _ i = b
    cases a <;> cases b <;> simp

/-- **C45**, the bitwise operators on one integer type: all bits of the result. -/
theorem C45_bitwise_same (f : BitOp) (t : ITy) (ht : t ≠ .bool) (x y : Int) :
    ∃ z, f.run t t t x y = .ok z ∧ t.Has z ∧
      ∀ i, i < t.width → (bitAt z i ↔ f.exact (bitAt x i) (bitAt y i)) := by
  obtain ⟨z, e, -, hz⟩ := C45_bitwise f t t t x y
  refine ⟨t.conv z, e, has_conv _ _, ?_⟩
  intro i hi
  rw [bitAt_conv ht z hi]
  refine hz i ?_
  revert hi
  cases t <;> simp [common, promote, commonP, width] <;> omega

/-- **C45**, `BitwiseNot` on an integer type: all bits inverted. -/
theorem C45_bitwise_not (d1 d2 : ITy) (h2 : d2 ≠ .bool) (x : Int) :
    ∃ z, opBitNot d1 d2 x = .ok z ∧ d2.Has z ∧
      ∀ i, i < d2.width → i < d1.promote.width → (bitAt z i ↔ ¬ bitAt x i) := by
  refine ⟨_, rfl, has_conv _ _, ?_⟩
  intro i hi hi1
  have hb : d1.promote ≠ .bool := by cases d1 <;> decide
  rw [bitAt_conv h2 _ hi, bitAt_conv hb _ hi1, ← bitAt_conv hb x hi1]
  generalize d1.promote.conv x = u
  have hp := Int.pow_pos (n := 2) (m := i) (by decide)
  unfold bitAt
  have e : (-u - 1) / 2 ^ i = -(u / 2 ^ i) - 1 := by
    have h := Int.mul_ediv_add_emod u (2 ^ i)
    have h0 := Int.emod_nonneg u (b := 2 ^ i) (by omega)
    have hl := Int.emod_lt_of_pos u hp
    generalize u / 2 ^ i = q at h ⊢
    generalize u % 2 ^ i = r at h h0 hl
    have : -u - 1 = (2 ^ i - 1 - r) + 2 ^ i * (-q - 1) := by
      rw [← h, Int.mul_sub, Int.mul_neg, Int.mul_one]; omega
    rw [this, Int.add_mul_ediv_left _ _ (by omega), Int.ediv_eq_zero_of_lt (by omega) (by omega)]
    omega
  rw [e]; omega

example : BitOp.xor.run .i8 .i8 .i8 (-1) 5 = .ok (-6) ∧ BitOp.and.run .u8 .u16 .u32 255 511 = .ok 255 ∧
    BitOp.xnor.run .u8 .u8 .u8 12 10 = .ok 249 ∧ BitOp.or.run .i32 .i64 .i64 (-8) 3 = .ok (-5) := by
  decide
example : opBitNot .u8 .u8 12 = .ok 243 := by decide

/-- On `bool`, for which they are instantiated as well, `BitwiseOr`, `BitwiseAnd` and
`BitwiseXor` are the logical operators. -/
theorem C45_bitwise_bool (x y : Int) (hx : ITy.bool.Has x) (hy : ITy.bool.Has y) :
    BitOp.or.run .bool .bool .bool x y = BOp.lor.run .bool .bool .bool x y ∧
    BitOp.and.run .bool .bool .bool x y = BOp.land.run .bool .bool .bool x y ∧
    BitOp.xor.run .bool .bool .bool x y = BOp.lxor.run .bool .bool .bool x y := by
  rcases has_bool hx with rfl | rfl <;> rcases has_bool hy with rfl | rfl <;> decide

/-- But `BitwiseNot` and `BitwiseXnor` on `bool` are `true` whatever the operands: the
complement is taken in `int`, where it is not zero. -/
theorem C45_bitwise_not_bool_wrong (x y : Int) (hx : ITy.bool.Has x) (hy : ITy.bool.Has y) :
    opBitNot .bool .bool x = .ok 1 ∧ BitOp.xnor.run .bool .bool .bool x y = .ok 1 := by
  rcases has_bool hx with rfl | rfl <;> rcases has_bool hy with rfl | rfl <;> decide

end GBTL

import Verif.Lemmas.Algebra
/-
C31, C44, C45: the predefined operators, monoids and semirings on `bool` and the
integer types.
-/
namespace GBTL
open ITy

/-! ### C31: monoids -/

/-- C31: `MinMonoid` and `MaxMonoid` are monoids on every type. -/
theorem C31_min_max (t : ITy) :
    Lawful t (Mon.min.op t) (Mon.min.identity t) ∧ Lawful t (Mon.max.op t) (Mon.max.identity t) := by
  have hmin : ∀ {x y}, t.Has x → t.Has y → Mon.min.op t x y = .ok (if x < y then x else y) := by
    intro x y hx hy
    simp only [Mon.op, Mon.bop, BOp.run, common_self, conv_promote hx, conv_promote hy]
    split
    · rw [conv_id hx]
    · rw [conv_id hy]
  have hmax : ∀ {x y}, t.Has x → t.Has y → Mon.max.op t x y = .ok (if x < y then y else x) := by
    intro x y hx hy
    simp only [Mon.op, Mon.bop, BOp.run, common_self, conv_promote hx, conv_promote hy]
    split
    · rw [conv_id hy]
    · rw [conv_id hx]
  have has_if : ∀ {p : Prop} [Decidable p] {x y}, t.Has x → t.Has y → t.Has (if p then x else y) := by
    intro p _ x y hx hy
    split <;> assumption
  constructor
  · refine ⟨has_max t, ?_, ?_, ?_, ?_, ?_⟩
    · intro x y hx hy
      exact ⟨_, hmin hx hy, has_if hx hy⟩
    · intro x hx
      show Mon.min.op t t.maxVal x = _
      rw [hmin (has_max t) hx]
      have := hx.2
      simp only [Except.ok.injEq]
      split <;> omega
    · intro x hx
      show Mon.min.op t x t.maxVal = _
      rw [hmin hx (has_max t)]
      have := hx.2
      simp only [Except.ok.injEq]
      split <;> omega
    · intro x y hx hy
      rw [hmin hx hy, hmin hy hx]
      simp only [Except.ok.injEq]
      split <;> split <;> omega
    · intro x y z hx hy hz
      rw [hmin hx hy, hmin hy hz]
      show Mon.min.op t _ z = Mon.min.op t x _
      rw [hmin (has_if hx hy) hz, hmin hx (has_if hy hz)]
      simp only [Except.ok.injEq]
      repeat' split
      all_goals omega
  · refine ⟨has_min t, ?_, ?_, ?_, ?_, ?_⟩
    · intro x y hx hy
      exact ⟨_, hmax hx hy, has_if hy hx⟩
    · intro x hx
      show Mon.max.op t t.minVal x = _
      rw [hmax (has_min t) hx]
      have := hx.1
      simp only [Except.ok.injEq]
      split <;> omega
    · intro x hx
      show Mon.max.op t x t.minVal = _
      rw [hmax hx (has_min t)]
      have := hx.1
      simp only [Except.ok.injEq]
      split <;> omega
    · intro x y hx hy
      rw [hmax hx hy, hmax hy hx]
      simp only [Except.ok.injEq]
      split <;> split <;> omega
    · intro x y z hx hy hz
      rw [hmax hx hy, hmax hy hz]
      show Mon.max.op t _ z = Mon.max.op t x _
      rw [hmax (has_if hy hx) hz, hmax hx (has_if hz hy)]
      simp only [Except.ok.injEq]
      repeat' split
      all_goals omega

example : Mon.min.op .i8 (Mon.min.identity .i8) (-128) = .ok (-128) := by decide

/-- The values of `bool`. -/
theorem has_bool {x : Int} (h : ITy.bool.Has x) : x = 0 ∨ x = 1 := by
  simp [Has, minVal, maxVal] at h
  omega

/-- C31: the logical monoids are monoids on `bool`. -/
theorem C31_logical (m : Mon) (hm : m = .lor ∨ m = .land ∨ m = .lxor ∨ m = .lxnor) :
    Lawful .bool (m.op .bool) (m.identity .bool) := by
  rcases hm with h | h | h | h <;> subst h <;> refine ⟨by decide, ?_, ?_, ?_, ?_, ?_⟩
  all_goals
    intro x
    first
    | intro y z hx hy hz
      rcases has_bool hx with rfl | rfl <;> rcases has_bool hy with rfl | rfl <;>
        rcases has_bool hz with rfl | rfl <;> decide
    | intro y hx hy
      rcases has_bool hx with rfl | rfl <;> rcases has_bool hy with rfl | rfl <;>
        first
        | exact ⟨0, by decide, by decide⟩
        | exact ⟨1, by decide, by decide⟩
        | decide
    | intro hx
      rcases has_bool hx with rfl | rfl <;> decide

/-- On other types `false` is not an identity of `LogicalOrMonoid` (the source says
so in a comment): it maps every true value to 1. -/
theorem C31_logical_int_wrong :
    ¬ Lawful .i32 (Mon.lor.op .i32) (Mon.lor.identity .i32) := by
  intro h
  have := h.left 5 (by decide)
  exact absurd this (by decide)

/-- C31: `PlusMonoid` is a monoid, wrapping around, on every type but `int32_t` and
`int64_t`. -/
theorem C31_plus (t : ITy) (h32 : t ≠ .i32) (h64 : t ≠ .i64) :
    Lawful t (Mon.plus.op t) (Mon.plus.identity t) := by
  have hp : ∀ {x y}, t.Has x → t.Has y → Mon.plus.op t x y = .ok (t.conv (x + y)) :=
    fun hx hy => plus_total h32 h64 hx hy
  have h0 : Mon.plus.identity t = 0 := conv_id (has_zero t)
  refine ⟨by rw [h0]; exact has_zero t, ?_, ?_, ?_, ?_, ?_⟩
  · intro x y hx hy
    exact ⟨_, hp hx hy, has_conv _ _⟩
  · intro x hx
    rw [h0, hp (has_zero t) hx, Int.zero_add, conv_id hx]
  · intro x hx
    rw [h0, hp hx (has_zero t), Int.add_zero, conv_id hx]
  · intro x y hx hy
    rw [hp hx hy, hp hy hx, Int.add_comm]
  · intro x y z hx hy hz
    rw [hp hx hy, hp hy hz]
    show Mon.plus.op t _ z = Mon.plus.op t x _
    rw [hp (has_conv _ _) hz, hp hx (has_conv _ _)]
    by_cases hb : t = .bool
    · subst hb
      rcases has_bool hx with rfl | rfl <;> rcases has_bool hy with rfl | rfl <;>
        rcases has_bool hz with rfl | rfl <;> decide
    · rw [conv_add_left t hb, conv_add_right t hb, Int.add_assoc]

example : Mon.plus.op .u8 250 10 = .ok 4 := by decide
example : Mon.plus.op .i8 100 100 = .ok (-56) := by decide

/-- C31: `TimesMonoid` is a monoid, wrapping around, on every type but `int32_t`,
`int64_t` and `uint16_t`. -/
theorem C31_times (t : ITy) (h32 : t ≠ .i32) (h64 : t ≠ .i64) (h16 : t ≠ .u16) :
    Lawful t (Mon.times.op t) (Mon.times.identity t) := by
  have hp : ∀ {x y}, t.Has x → t.Has y → Mon.times.op t x y = .ok (t.conv (x * y)) :=
    fun hx hy => times_total h32 h64 h16 hx hy
  have h1 : Mon.times.identity t = 1 := conv_id (has_one t)
  refine ⟨by rw [h1]; exact has_one t, ?_, ?_, ?_, ?_, ?_⟩
  · intro x y hx hy
    exact ⟨_, hp hx hy, has_conv _ _⟩
  · intro x hx
    rw [h1, hp (has_one t) hx, Int.one_mul, conv_id hx]
  · intro x hx
    rw [h1, hp hx (has_one t), Int.mul_one, conv_id hx]
  · intro x y hx hy
    rw [hp hx hy, hp hy hx, Int.mul_comm]
  · intro x y z hx hy hz
    rw [hp hx hy, hp hy hz]
    show Mon.times.op t _ z = Mon.times.op t x _
    rw [hp (has_conv _ _) hz, hp hx (has_conv _ _), conv_mul_left, conv_mul_right, Int.mul_assoc]

example : Mon.times.op .u64 (2 ^ 63) 2 = .ok 0 := by decide

/-- On the types left out, overflow of the promoted `int` (or of `int64_t`) is
undefined behaviour, and one grouping can overflow when the other does not. In
particular the product of two `uint16_t` can overflow `int`. -/
theorem C31_overflow_wrong :
    ¬ Lawful .i32 (Mon.plus.op .i32) (Mon.plus.identity .i32) ∧
    ¬ Lawful .i64 (Mon.times.op .i64) (Mon.times.identity .i64) ∧
    ¬ Lawful .u16 (Mon.times.op .u16) (Mon.times.identity .u16) := by
  refine ⟨?_, ?_, ?_⟩
  · intro h
    have := h.assoc 2147483647 1 (-1) (by decide) (by decide) (by decide)
    exact absurd this (by decide)
  · intro h
    have := h.assoc (2 ^ 62) 4 0 (by decide) (by decide) (by decide)
    exact absurd this (by decide)
  · intro h
    have := h.assoc 65535 65535 0 (by decide) (by decide) (by decide)
    exact absurd this (by decide)

/-- The bind of two applications, both defined. -/
theorem bind_ok {m : Except Err Int} {f : Int → Except Err Int} {r : Int} (h : (m >>= f) = .ok r) :
    ∃ x, m = .ok x ∧ f x = .ok r := by
  cases m with
  | error e => cases h
  | ok x => exact ⟨x, rfl, h⟩

/-- C31 (partial): on every type, including those above, `PlusMonoid` and
`TimesMonoid` have their identity, commute, stay in the type and associate whenever
neither grouping overflows. -/
theorem C31_where_defined_partial (t : ITy) :
    LawfulWhereDefined t (Mon.plus.op t) (Mon.plus.identity t) ∧
    LawfulWhereDefined t (Mon.times.op t) (Mon.times.identity t) := by
  have h0 : Mon.plus.identity t = 0 := conv_id (has_zero t)
  have h1 : Mon.times.identity t = 1 := conv_id (has_one t)
  constructor
  · refine ⟨by rw [h0]; exact has_zero t, ?_, ?_, ?_, ?_, ?_⟩
    · intro x y z hx hy h
      rw [arithOp_ok hx hy h]
      exact has_conv _ _
    · intro x hx
      show arithOp (· + ·) t t t _ x = _
      rw [h0, arithOp_same (has_zero t) hx, Int.zero_add, arith_of_has (has_promote hx)]
      simp [Except.map, conv_id hx]
    · intro x hx
      show arithOp (· + ·) t t t x _ = _
      rw [h0, arithOp_same hx (has_zero t), Int.add_zero, arith_of_has (has_promote hx)]
      simp [Except.map, conv_id hx]
    · intro x y _ _
      exact arithOp_comm Int.add_comm t x y
    · intro x y z r s hx hy hz hr hs
      obtain ⟨xy, e1, e2⟩ := bind_ok hr
      obtain ⟨yz, e3, e4⟩ := bind_ok hs
      have a1 : xy = t.conv (x + y) := arithOp_ok hx hy e1
      have a2 : yz = t.conv (y + z) := arithOp_ok hy hz e3
      subst a1; subst a2
      have a3 : r = t.conv (t.conv (x + y) + z) := arithOp_ok (has_conv _ _) hz e2
      have a4 : s = t.conv (x + t.conv (y + z)) := arithOp_ok hx (has_conv _ _) e4
      rw [a3, a4]
      by_cases hb : t = .bool
      · subst hb
        rcases has_bool hx with rfl | rfl <;> rcases has_bool hy with rfl | rfl <;>
          rcases has_bool hz with rfl | rfl <;> decide
      · rw [conv_add_left t hb, conv_add_right t hb, Int.add_assoc]
  · refine ⟨by rw [h1]; exact has_one t, ?_, ?_, ?_, ?_, ?_⟩
    · intro x y z hx hy h
      rw [arithOp_ok hx hy h]
      exact has_conv _ _
    · intro x hx
      show arithOp (· * ·) t t t _ x = _
      rw [h1, arithOp_same (has_one t) hx, Int.one_mul, arith_of_has (has_promote hx)]
      simp [Except.map, conv_id hx]
    · intro x hx
      show arithOp (· * ·) t t t x _ = _
      rw [h1, arithOp_same hx (has_one t), Int.mul_one, arith_of_has (has_promote hx)]
      simp [Except.map, conv_id hx]
    · intro x y _ _
      exact arithOp_comm Int.mul_comm t x y
    · intro x y z r s hx hy hz hr hs
      obtain ⟨xy, e1, e2⟩ := bind_ok hr
      obtain ⟨yz, e3, e4⟩ := bind_ok hs
      have a1 : xy = t.conv (x * y) := arithOp_ok hx hy e1
      have a2 : yz = t.conv (y * z) := arithOp_ok hy hz e3
      subst a1; subst a2
      have a3 : r = t.conv (t.conv (x * y) * z) := arithOp_ok (has_conv _ _) hz e2
      have a4 : s = t.conv (x * t.conv (y * z)) := arithOp_ok hx (has_conv _ _) e4
      rw [a3, a4, conv_mul_left, conv_mul_right, Int.mul_assoc]

example : (Mon.plus.op .i32 2147483647 (-5) >>= fun s => Mon.plus.op .i32 s 5) = .ok 2147483647 := by
  decide

/-! ### C45: operators -/

theorem ofBool_eq (p : Prop) [Decidable p] : ofBool (decide p) = tf p := by
  unfold ofBool tf
  by_cases h : p <;> simp [h]

theorem has_tf (t : ITy) (p : Prop) [Decidable p] : t.Has (tf p) := by
  unfold tf
  split
  · exact has_one t
  · exact has_zero t

/-- C45: a binary operator computes its mathematical meaning, for all combinations of
scalar types, whenever the operands survive the usual arithmetic conversions and the
exact result fits both the type it is computed in and the result type. -/
theorem C45_binary (f : BOp) (d1 d2 d3 : ITy) (x y : Int)
    (hx : (common d1 d2).Has x) (hy : (common d1 d2).Has y)
    (hc : (common d1 d2).Has (f.exact x y)) (h3 : d3.Has (f.exact x y)) :
    f.run d1 d2 d3 x y = .ok (f.exact x y) := by
  have tr : ∀ z : Int, isTrue z = decide (z ≠ 0) := by
    intro z
    unfold isTrue
    by_cases h : z = 0 <;> simp [h]
  cases f with
  | plus => exact arithOp_exact hx hy hc h3
  | minus => exact arithOp_exact hx hy hc h3
  | times => exact arithOp_exact hx hy hc h3
  | first => simp only [BOp.run, BOp.exact] at *; rw [conv_id h3]
  | second => simp only [BOp.run, BOp.exact] at *; rw [conv_id h3]
  | min =>
    simp only [BOp.run, BOp.exact, conv_id hx, conv_id hy] at *
    have e : (if x < y then x else y) = min x y := by split <;> omega
    rw [e, conv_id h3]
  | max =>
    simp only [BOp.run, BOp.exact, conv_id hx, conv_id hy] at *
    have e : (if x < y then y else x) = max x y := by split <;> omega
    rw [e, conv_id h3]
  | _ =>
    simp only [BOp.run, BOp.exact, cmpOp, conv_id hx, conv_id hy]
    rw [← conv_id (has_tf d3 _), ← ofBool_eq]
    all_goals congr 3 <;> first
      | (rw [tr, tr]; by_cases h1 : x = 0 <;> by_cases h2 : y = 0 <;> simp [h1, h2]; done)
      | (rw [Bool.eq_iff_iff]; simp)

example : BOp.plus.run .i32 .i64 .i64 2147483647 1 = .ok 2147483648 := by decide
example : BOp.lt.run .i8 .u16 .bool (-1) 7 = .ok 1 := by decide

/-- The operands must survive the usual arithmetic conversions: compared with an
`uint32_t`, a negative `int32_t` becomes large. -/
theorem C45_sign_conversion_wrong :
    ¬ ∀ (x y : Int), ITy.i32.Has x → ITy.u32.Has y → BOp.lt.run .i32 .u32 .bool x y = .ok (tf (x < y)) := by
  intro h
  exact absurd (h (-1) 1 (by decide) (by decide)) (by decide)

/-- C45: `Abs`, `AdditiveInverse`, `Identity` and `LogicalNot`. -/
theorem C45_unary (d1 d2 : ITy) (x : Int) (hx : d1.Has x) :
    (d1.promote.Has (x.natAbs : Int) → d2.Has (x.natAbs : Int) → opAbs d1 d2 x = .ok (x.natAbs : Int)) ∧
    (d1.promote.Has (-x) → d2.Has (-x) → opAddInv d1 d2 x = .ok (-x)) ∧
    (d2.Has x → opIdentity d2 x = .ok x) ∧
    opNot d2 x = .ok (tf (x = 0)) := by
  refine ⟨?_, ?_, ?_, ?_⟩
  · intro h1 h2
    have e : (if x < 0 then -x else x) = (x.natAbs : Int) := by split <;> omega
    unfold opAbs
    cases hs : d1.signed
    · have : (x.natAbs : Int) = x := by
        have := hx.1
        cases d1 <;> simp [signed, minVal] at hs this <;> omega
      rw [this] at h2 ⊢
      simp [conv_id h2]
    · simp only [if_true, e, arith_of_has h1, Except.map, conv_id h2]
  · intro h1 h2
    simp only [opAddInv, conv_promote hx, arith_of_has h1, Except.map, conv_id h2]
  · intro h
    simp only [opIdentity, conv_id h]
  · simp only [opNot]
    rw [← conv_id (has_tf d2 _), ← ofBool_eq]
    congr 3
    unfold isTrue
    by_cases h : x = 0 <;> simp [h]

example : opAbs .i8 .i8 (-127) = .ok 127 := by decide

/-- `Abs` of the smallest value: wraps to itself on `int8_t`, undefined on
`int32_t`. -/
theorem C45_abs_min : opAbs .i8 .i8 (-128) = .ok (-128) ∧ opAbs .i32 .i32 (-2147483648) = .error .ub := by
  decide

/-! ### C31: semirings -/

/-- C31: each predefined semiring adds and multiplies as its name says, whenever the
exact result can be represented. -/
theorem C31_semiring (s : Semi) (d1 d2 d3 : ITy) (x y : Int) :
    ((common d1 d2).Has x → (common d1 d2).Has y → (common d1 d2).Has (s.promise.2.exact x y) →
      d3.Has (s.promise.2.exact x y) → s.mult d1 d2 d3 x y = .ok (s.promise.2.exact x y)) ∧
    (d3.Has x → d3.Has y → d3.Has (s.promise.1.exact x y) →
      s.add d3 x y = .ok (s.promise.1.exact x y)) := by
  constructor
  · intro hx hy hc h3
    have : s.multOp = s.promise.2 := by cases s <;> rfl
    show s.multOp.run d1 d2 d3 x y = _
    rw [this]
    exact C45_binary _ d1 d2 d3 x y hx hy hc h3
  · intro hx hy h3
    have : s.monoid.bop = s.promise.1 := by cases s <;> rfl
    show s.monoid.bop.run d3 d3 d3 x y = _
    rw [this]
    exact C45_binary _ d3 d3 d3 x y (by rw [common_self]; exact has_promote hx)
      (by rw [common_self]; exact has_promote hy) (by rw [common_self]; exact has_promote h3) h3

/-- C31: the zero of a semiring is the identity of its addition: on every type if
that is an arithmetic one, on `bool` if it is a logical one. -/
theorem C31_semiring_zero (s : Semi) (t : ITy) (x : Int) (hx : t.Has x)
    (hl : t = .bool ∨ (s ≠ .logical ∧ s ≠ .andOr ∧ s ≠ .xorAnd ∧ s ≠ .xnorOr)) :
    s.add t (s.zero t) x = .ok x ∧ s.add t x (s.zero t) = .ok x := by
  have A := C31_where_defined_partial t
  have B := C31_min_max t
  have C : ∀ m : Mon, (m = .lor ∨ m = .land ∨ m = .lxor ∨ m = .lxnor) → t = .bool →
      m.op t (m.identity t) x = .ok x ∧ m.op t x (m.identity t) = .ok x := by
    intro m hm ht
    subst ht
    exact ⟨(C31_logical m hm).left x hx, (C31_logical m hm).right x hx⟩
  show s.monoid.op t (s.monoid.identity t) x = _ ∧ s.monoid.op t x (s.monoid.identity t) = _
  cases s <;> simp only [Semi.monoid] <;>
    first
    | exact ⟨A.1.left x hx, A.1.right x hx⟩
    | exact ⟨B.1.left x hx, B.1.right x hx⟩
    | exact ⟨B.2.left x hx, B.2.right x hx⟩
    | exact C _ (by simp) (by simpa using hl)

/-- C31: `multiply_op` and `add_monoid` give the operators and the identity the
semiring's name promises. -/
theorem C31_semiring_parts (s : Semi) (d1 d2 d3 : ITy) (x y : Int) :
    ((common d1 d2).Has x → (common d1 d2).Has y → (common d1 d2).Has (s.promise.2.exact x y) →
      d3.Has (s.promise.2.exact x y) → multiplyOp s d1 d2 d3 x y = .ok (s.promise.2.exact x y)) ∧
    (d3.Has x → d3.Has y → d3.Has (s.promise.1.exact x y) →
      addMonoid s d3 x y = .ok (s.promise.1.exact x y)) ∧
    (d3.Has x → (d3 = .bool ∨ (s ≠ .logical ∧ s ≠ .andOr ∧ s ≠ .xorAnd ∧ s ≠ .xnorOr)) →
      addMonoid s d3 (addMonoidIdentity s d3) x = .ok x) :=
  ⟨(C31_semiring s d1 d2 d3 x y).1, (C31_semiring s d1 d2 d3 x y).2,
    fun hx hl => (C31_semiring_zero s d3 x hx hl).1⟩

example : Semi.minPlus.mult .i32 .i32 .i32 3 4 = .ok 7 := by decide
example : Semi.minPlus.add .i32 3 (Semi.minPlus.zero .i32) = .ok 3 := by decide
example : Semi.minSecond.mult .u64 .u64 .u64 3 4 = .ok 4 := by decide

/-! ### C44: the semirings documented as true semirings -/

/-- The operator of a total application. -/
theorem ok_bind (x : Int) (f : Int → Except Err Int) : ((Except.ok x : Except Err Int) >>= f) = f x :=
  rfl

/-- C44: the logical semirings distribute on `bool`. -/
theorem C44_logical (s : Semi) (hs : s = .logical ∨ s = .andOr ∨ s = .xorAnd ∨ s = .xnorOr) :
    Distributes .bool (s.add .bool) (s.mult .bool .bool .bool) := by
  intro x y z hx hy hz
  rcases has_bool hx with rfl | rfl <;> rcases has_bool hy with rfl | rfl <;>
    rcases has_bool hz with rfl | rfl <;> rcases hs with h | h | h | h <;> subst h <;> decide

/-- `Min` and `Max` on one type. -/
theorem run_min {t : ITy} {x y : Int} (hx : t.Has x) (hy : t.Has y) :
    BOp.min.run t t t x y = .ok (min x y) ∧ t.Has (min x y) := by
  have h : t.Has (min x y) := by
    have := hx.1; have := hx.2; have := hy.1; have := hy.2
    constructor <;> omega
  exact ⟨C45_binary .min t t t x y (by rw [common_self]; exact has_promote hx)
    (by rw [common_self]; exact has_promote hy) (by rw [common_self]; exact has_promote h) h, h⟩

theorem run_max {t : ITy} {x y : Int} (hx : t.Has x) (hy : t.Has y) :
    BOp.max.run t t t x y = .ok (max x y) ∧ t.Has (max x y) := by
  have h : t.Has (max x y) := by
    have := hx.1; have := hx.2; have := hy.1; have := hy.2
    constructor <;> omega
  exact ⟨C45_binary .max t t t x y (by rw [common_self]; exact has_promote hx)
    (by rw [common_self]; exact has_promote hy) (by rw [common_self]; exact has_promote h) h, h⟩

/-- C44: `MinMaxSemiring` and `MaxMinSemiring` distribute on every type. -/
theorem C44_min_max (t : ITy) :
    Distributes t (Semi.minMax.add t) (Semi.minMax.mult t t t) ∧
    Distributes t (Semi.maxMin.add t) (Semi.maxMin.mult t t t) := by
  constructor
  · intro x y z hx hy hz
    show (BOp.min.run t t t y z >>= fun s => BOp.max.run t t t x s) =
      (BOp.max.run t t t x y >>= fun p => BOp.max.run t t t x z >>= fun q => BOp.min.run t t t p q) ∧
      (BOp.min.run t t t y z >>= fun s => BOp.max.run t t t s x) =
      (BOp.max.run t t t y x >>= fun p => BOp.max.run t t t z x >>= fun q => BOp.min.run t t t p q)
    rw [(run_min hy hz).1, (run_max hx hy).1, (run_max hx hz).1, (run_max hy hx).1, (run_max hz hx).1]
    simp only [ok_bind]
    rw [(run_max hx (run_min hy hz).2).1, (run_min (run_max hx hy).2 (run_max hx hz).2).1,
      (run_max (run_min hy hz).2 hx).1, (run_min (run_max hy hx).2 (run_max hz hx).2).1]
    simp only [Except.ok.injEq]
    omega
  · intro x y z hx hy hz
    show (BOp.max.run t t t y z >>= fun s => BOp.min.run t t t x s) =
      (BOp.min.run t t t x y >>= fun p => BOp.min.run t t t x z >>= fun q => BOp.max.run t t t p q) ∧
      (BOp.max.run t t t y z >>= fun s => BOp.min.run t t t s x) =
      (BOp.min.run t t t y x >>= fun p => BOp.min.run t t t z x >>= fun q => BOp.max.run t t t p q)
    rw [(run_max hy hz).1, (run_min hx hy).1, (run_min hx hz).1, (run_min hy hx).1, (run_min hz hx).1]
    simp only [ok_bind]
    rw [(run_min hx (run_max hy hz).2).1, (run_max (run_min hx hy).2 (run_min hx hz).2).1,
      (run_min (run_max hy hz).2 hx).1, (run_max (run_min hy hx).2 (run_min hz hx).2).1]
    simp only [Except.ok.injEq]
    omega

/-- C44: `ArithmeticSemiring` distributes, with wrap-around, on every type whose sums
and products cannot overflow. -/
theorem C44_arithmetic (t : ITy) (h32 : t ≠ .i32) (h64 : t ≠ .i64) (h16 : t ≠ .u16) :
    Distributes t (Semi.arithmetic.add t) (Semi.arithmetic.mult t t t) := by
  intro x y z hx hy hz
  show (arithOp (· + ·) t t t y z >>= fun s => arithOp (· * ·) t t t x s) =
      (arithOp (· * ·) t t t x y >>= fun p => arithOp (· * ·) t t t x z >>= fun q =>
        arithOp (· + ·) t t t p q) ∧
      (arithOp (· + ·) t t t y z >>= fun s => arithOp (· * ·) t t t s x) =
      (arithOp (· * ·) t t t y x >>= fun p => arithOp (· * ·) t t t z x >>= fun q =>
        arithOp (· + ·) t t t p q)
  rw [plus_total h32 h64 hy hz, times_total h32 h64 h16 hx hy, times_total h32 h64 h16 hx hz,
    times_total h32 h64 h16 hy hx, times_total h32 h64 h16 hz hx]
  simp only [ok_bind]
  rw [times_total h32 h64 h16 hx (has_conv t (y + z)), times_total h32 h64 h16 (has_conv t (y + z)) hx,
    plus_total h32 h64 (has_conv t (x * y)) (has_conv t (x * z)),
    plus_total h32 h64 (has_conv t (y * x)) (has_conv t (z * x))]
  by_cases hb : t = .bool
  · subst hb
    rcases has_bool hx with rfl | rfl <;> rcases has_bool hy with rfl | rfl <;>
      rcases has_bool hz with rfl | rfl <;> decide
  · rw [conv_mul_left, conv_mul_right, conv_add_left t hb, conv_add_left t hb, conv_add_right t hb,
      conv_add_right t hb, Int.mul_add, Int.add_mul]
    exact ⟨rfl, rfl⟩

/-- One side of distributivity where the exact products are representable. -/
theorem distrib_exact {t : ITy} {f : Int → Int → Int} {g : BOp} {x y z : Int} (hx : t.Has x)
    (hy : t.Has y) (hz : t.Has z) (hxy : t.Has (f x y)) (hxz : t.Has (f x z))
    (hg : ∀ {a b}, t.Has a → t.Has b → g.run t t t a b = .ok (g.exact a b))
    (hcase : g.exact y z = y ∨ g.exact y z = z)
    (hmono : g.exact (f x y) (f x z) = f x (g.exact y z)) :
    (g.run t t t y z >>= fun s => arithOp f t t t x s) =
      (arithOp f t t t x y >>= fun p => arithOp f t t t x z >>= fun q => g.run t t t p q) := by
  have ha : ∀ {a b}, t.Has a → t.Has b → t.Has (f a b) → arithOp f t t t a b = .ok (f a b) := by
    intro a b h1 h2 h3
    exact arithOp_exact (by rw [common_self]; exact has_promote h1)
      (by rw [common_self]; exact has_promote h2) (by rw [common_self]; exact has_promote h3) h3
  rw [hg hy hz, ha hx hy hxy, ha hx hz hxz]
  simp only [ok_bind]
  rw [hg hxy hxz, hmono]
  rcases hcase with h | h <;> rw [h]
  · exact ha hx hy hxy
  · exact ha hx hz hxz

/-- C44 (partial): `MinPlusSemiring` and `MaxPlusSemiring` distribute where no sum
leaves the type. Missing: sums that wrap or overflow, see below. -/
theorem C44_plus_partial (t : ITy) (x y z : Int) (hx : t.Has x) (hy : t.Has y) (hz : t.Has z)
    (hxy : t.Has (x + y)) (hxz : t.Has (x + z)) :
    (Semi.minPlus.add t y z >>= fun s => Semi.minPlus.mult t t t x s) =
      (Semi.minPlus.mult t t t x y >>= fun p => Semi.minPlus.mult t t t x z >>= fun q =>
        Semi.minPlus.add t p q) ∧
    (Semi.maxPlus.add t y z >>= fun s => Semi.maxPlus.mult t t t x s) =
      (Semi.maxPlus.mult t t t x y >>= fun p => Semi.maxPlus.mult t t t x z >>= fun q =>
        Semi.maxPlus.add t p q) := by
  constructor
  · exact distrib_exact (f := (· + ·)) (g := .min) hx hy hz hxy hxz
      (fun h1 h2 => (run_min h1 h2).1) (by simp only [BOp.exact]; omega) (by simp only [BOp.exact]; omega)
  · exact distrib_exact (f := (· + ·)) (g := .max) hx hy hz hxy hxz
      (fun h1 h2 => (run_max h1 h2).1) (by simp only [BOp.exact]; omega) (by simp only [BOp.exact]; omega)

example : ITy.i32.Has 3 ∧ ITy.i32.Has (3 + 4) ∧ ITy.i32.Has (3 + (-9)) := by decide

/-- C44 (partial): `MinTimesSemiring` and `MaxTimesSemiring` distribute over a
non-negative factor where no product leaves the type. -/
theorem C44_times_partial (t : ITy) (x y z : Int) (hx : t.Has x) (hy : t.Has y) (hz : t.Has z)
    (h0 : 0 ≤ x) (hxy : t.Has (x * y)) (hxz : t.Has (x * z)) :
    (Semi.minTimes.add t y z >>= fun s => Semi.minTimes.mult t t t x s) =
      (Semi.minTimes.mult t t t x y >>= fun p => Semi.minTimes.mult t t t x z >>= fun q =>
        Semi.minTimes.add t p q) ∧
    (Semi.maxTimes.add t y z >>= fun s => Semi.maxTimes.mult t t t x s) =
      (Semi.maxTimes.mult t t t x y >>= fun p => Semi.maxTimes.mult t t t x z >>= fun q =>
        Semi.maxTimes.add t p q) := by
  have hm : y ≤ z → x * y ≤ x * z := fun h => Int.mul_le_mul_of_nonneg_left h h0
  have hm' : z ≤ y → x * z ≤ x * y := fun h => Int.mul_le_mul_of_nonneg_left h h0
  constructor
  · refine distrib_exact (f := (· * ·)) (g := .min) hx hy hz hxy hxz
      (fun h1 h2 => (run_min h1 h2).1) (by simp only [BOp.exact]; omega) ?_
    simp only [BOp.exact]
    rcases Int.le_total y z with h | h
    · rw [Int.min_eq_left h, Int.min_eq_left (hm h)]
    · rw [Int.min_eq_right h, Int.min_eq_right (hm' h)]
  · refine distrib_exact (f := (· * ·)) (g := .max) hx hy hz hxy hxz
      (fun h1 h2 => (run_max h1 h2).1) (by simp only [BOp.exact]; omega) ?_
    simp only [BOp.exact]
    rcases Int.le_total y z with h | h
    · rw [Int.max_eq_right h, Int.max_eq_right (hm h)]
    · rw [Int.max_eq_left h, Int.max_eq_left (hm' h)]

example : ITy.u16.Has 200 ∧ ITy.u16.Has (200 * 300) ∧ ITy.u16.Has (200 * 7) := by decide

/-- The source calls `MaxPlusSemiring` a true semiring on signed integers; where a
sum wraps it is not. -/
theorem C44_max_plus_wrong : ¬ Distributes .i8 (Semi.maxPlus.add .i8) (Semi.maxPlus.mult .i8 .i8 .i8) := by
  intro h
  exact absurd (h 100 0 100 (by decide) (by decide) (by decide)).1 (by decide)

/-- The source calls `MinTimesSemiring` a true semiring on signed integers; a
negative factor swaps minimum and maximum. -/
theorem C44_min_times_wrong :
    ¬ Distributes .i32 (Semi.minTimes.add .i32) (Semi.minTimes.mult .i32 .i32 .i32) := by
  intro h
  exact absurd (h (-1) 1 2 (by decide) (by decide) (by decide)).1 (by decide)

/-- The source calls `PlusMinSemiring` a true semiring on unsigned integers. -/
theorem C44_plus_min_wrong :
    ¬ Distributes .u32 (Semi.plusMin.add .u32) (Semi.plusMin.mult .u32 .u32 .u32) := by
  intro h
  exact absurd (h 1 1 1 (by decide) (by decide) (by decide)).1 (by decide)

end GBTL

import Verif.Spec.Algebra
/-
Facts about conversions and overflow.
-/
namespace GBTL
namespace ITy

theorem conv_id {t : ITy} {x : Int} (h : t.Has x) : t.conv x = x := by
  cases t <;> simp [Has, minVal, maxVal] at h <;>
    simp [conv, signed, width, Int.bmod_def] <;> omega

theorem has_conv (t : ITy) (x : Int) : t.Has (t.conv x) := by
  cases t <;> simp [conv, signed, width, Int.bmod_def, Has, minVal, maxVal] <;> omega

theorem has_promote {t : ITy} {x : Int} (h : t.Has x) : t.promote.Has x := by
  cases t <;> simp [Has, minVal, maxVal, promote] at h ⊢ <;> omega

theorem common_self (t : ITy) : common t t = t.promote := by cases t <;> rfl

theorem conv_promote {t : ITy} {x : Int} (h : t.Has x) : t.promote.conv x = x :=
  conv_id (has_promote h)

theorem has_zero (t : ITy) : t.Has 0 := by cases t <;> decide
theorem has_one (t : ITy) : t.Has 1 := by cases t <;> decide
theorem has_min (t : ITy) : t.Has t.minVal := by cases t <;> decide
theorem has_max (t : ITy) : t.Has t.maxVal := by cases t <;> decide

end ITy
open ITy

theorem arith_of_has {p : ITy} {x : Int} (h : p.Has x) : arith p x = .ok x := by
  unfold arith
  cases hs : p.signed <;> simp [h, conv_id h]

theorem arithOp_same {f : Int → Int → Int} {t : ITy} {x y : Int} (hx : t.Has x) (hy : t.Has y) :
    arithOp f t t t x y = (arith t.promote (f x y)).map t.conv := by
  simp only [arithOp, common_self, conv_promote hx, conv_promote hy]

theorem mul_bound {a b : Int} {k : Nat} (ha : a.natAbs ≤ k) (hb : b.natAbs ≤ k) :
    (a * b).natAbs ≤ k * k := by
  rw [Int.natAbs_mul]
  exact Nat.mul_le_mul ha hb

end GBTL

namespace GBTL
open ITy

theorem bind_map_ok {x z : Int} : (Except.ok x : Except Err Int).map (fun _ => z) = .ok z := rfl

/-- Converting twice is converting once. -/
theorem conv_conv (t : ITy) (x : Int) : t.conv (t.conv x) = t.conv x := conv_id (has_conv t x)

/-- A defined arithmetic result is the exact one, converted. -/
theorem arith_ok {t : ITy} {x z : Int} (h : (arith t.promote x).map t.conv = .ok z) :
    z = t.conv x := by
  unfold arith at h
  cases hs : t.promote.signed
  · have : t.promote = t := by cases t <;> simp [promote, signed] at hs ⊢
    simp only [this] at h
    rw [this] at hs
    simp [hs, Except.map] at h
    rw [← h, conv_conv]
  · rw [hs] at h
    by_cases hp : t.promote.Has x
    · simp [hp, Except.map] at h; exact h.symm
    · simp [hp, Except.map] at h

theorem ok_inj {x y : Int} (h : (Except.ok x : Except Err Int) = .ok y) : x = y := by
  cases h; rfl

theorem conv_mul_left (t : ITy) (x y : Int) : t.conv (t.conv x * y) = t.conv (x * y) := by
  by_cases hb : t = .bool
  · subst hb
    simp only [conv, if_true]
    by_cases hx : x = 0
    · simp [hx]
    · by_cases hy : y = 0 <;> simp [hx, hy]
  · cases hs : t.signed
    · simp only [conv, hb, hs, if_false, Bool.false_eq_true]
      rw [Int.mul_emod, Int.emod_emod, ← Int.mul_emod]
    · simp [conv, hb, hs]

theorem conv_add_left (t : ITy) (ht : t ≠ .bool) (x y : Int) :
    t.conv (t.conv x + y) = t.conv (x + y) := by
  cases hs : t.signed <;> simp [conv, ht, hs]

theorem conv_mul_right (t : ITy) (x y : Int) : t.conv (x * t.conv y) = t.conv (x * y) := by
  rw [Int.mul_comm, conv_mul_left, Int.mul_comm]

theorem conv_add_right (t : ITy) (ht : t ≠ .bool) (x y : Int) :
    t.conv (x + t.conv y) = t.conv (x + y) := by
  rw [Int.add_comm, conv_add_left t ht, Int.add_comm]

/-- Types whose sums never overflow: everything but `int32_t` and `int64_t`. -/
theorem plus_total {t : ITy} (h32 : t ≠ .i32) (h64 : t ≠ .i64) {x y : Int} (hx : t.Has x)
    (hy : t.Has y) : arithOp (· + ·) t t t x y = .ok (t.conv (x + y)) := by
  rw [arithOp_same hx hy]
  have key : arith t.promote (x + y) = .ok (t.promote.conv (x + y)) := by
    unfold arith
    cases hs : t.promote.signed
    · simp
    · have : t.promote.Has (x + y) := by
        cases t <;> simp [promote, signed, Has, minVal, maxVal] at hs h32 h64 hx hy ⊢ <;> omega
      simp [this, conv_id this]
  rw [key]
  show Except.ok (t.conv (t.promote.conv (x + y))) = _
  cases hs : t.promote.signed
  · have : t.promote = t := by cases t <;> simp [promote, signed] at hs ⊢
    rw [this, conv_conv]
  · have : t.promote.Has (x + y) := by
      cases t <;> simp [promote, signed, Has, minVal, maxVal] at hs h32 h64 hx hy ⊢ <;> omega
    rw [conv_id this]

theorem times_has {t : ITy} (h32 : t ≠ .i32) (h64 : t ≠ .i64) (h16 : t ≠ .u16)
    (hs : t.promote.signed = true) {x y : Int} (hx : t.Has x) (hy : t.Has y) :
    t.promote.Has (x * y) := by
  have b : ∀ k : Nat, x.natAbs ≤ k → y.natAbs ≤ k → (x * y).natAbs ≤ k * k :=
    fun k h1 h2 => mul_bound h1 h2
  have b1 := b 32768
  cases t <;> simp [promote, signed, Has, minVal, maxVal] at hs h32 h64 h16 hx hy ⊢ <;> omega

theorem times_total {t : ITy} (h32 : t ≠ .i32) (h64 : t ≠ .i64) (h16 : t ≠ .u16) {x y : Int}
    (hx : t.Has x) (hy : t.Has y) : arithOp (· * ·) t t t x y = .ok (t.conv (x * y)) := by
  rw [arithOp_same hx hy]
  unfold arith
  cases hs : t.promote.signed
  · have : t.promote = t := by cases t <;> simp [promote, signed] at hs ⊢
    simp [this, Except.map, conv_conv]
  · simp [times_has h32 h64 h16 hs hx hy, Except.map]

/-- A defined sum is the exact one, converted. -/
theorem arithOp_ok {f : Int → Int → Int} {t : ITy} {x y z : Int} (hx : t.Has x) (hy : t.Has y)
    (h : arithOp f t t t x y = .ok z) : z = t.conv (f x y) := by
  rw [arithOp_same hx hy] at h
  exact arith_ok h

theorem arithOp_exact {f : Int → Int → Int} {d1 d2 d3 : ITy} {x y : Int}
    (hx : (common d1 d2).Has x) (hy : (common d1 d2).Has y) (hc : (common d1 d2).Has (f x y))
    (h3 : d3.Has (f x y)) : arithOp f d1 d2 d3 x y = .ok (f x y) := by
  simp only [arithOp, conv_id hx, conv_id hy, arith_of_has hc, Except.map, conv_id h3]

theorem arithOp_comm {f : Int → Int → Int} (hf : ∀ a b, f a b = f b a) (t : ITy) (x y : Int) :
    arithOp f t t t x y = arithOp f t t t y x := by
  simp only [arithOp]
  rw [hf]

end GBTL

import Verif.Model.Algebra
/-
What it means for a predefined monoid to be a monoid on a scalar type, and the
mathematical meaning of the predefined operators.
-/
namespace GBTL

/-- `op` is a commutative monoid with identity `e` on the values of type `t`: every
application is defined and yields a value of the type. -/
structure Lawful (t : ITy) (op : Int → Int → Except Err Int) (e : Int) : Prop where
  ident : t.Has e
  total : ∀ x y, t.Has x → t.Has y → ∃ z, op x y = .ok z ∧ t.Has z
  left : ∀ x, t.Has x → op e x = .ok x
  right : ∀ x, t.Has x → op x e = .ok x
  comm : ∀ x y, t.Has x → t.Has y → op x y = op y x
  assoc : ∀ x y z, t.Has x → t.Has y → t.Has z →
    (op x y >>= fun xy => op xy z) = (op y z >>= fun yz => op x yz)

/-- The same where an application may be undefined (overflow): the two groupings
agree when both are defined. -/
structure LawfulWhereDefined (t : ITy) (op : Int → Int → Except Err Int) (e : Int) : Prop where
  ident : t.Has e
  closed : ∀ x y z, t.Has x → t.Has y → op x y = .ok z → t.Has z
  left : ∀ x, t.Has x → op e x = .ok x
  right : ∀ x, t.Has x → op x e = .ok x
  comm : ∀ x y, t.Has x → t.Has y → op x y = op y x
  assoc : ∀ x y z r s, t.Has x → t.Has y → t.Has z →
    (op x y >>= fun xy => op xy z) = .ok r → (op y z >>= fun yz => op x yz) = .ok s → r = s

/-- 1 or 0. -/
def tf (p : Prop) [Decidable p] : Int := if p then 1 else 0

/-- What a binary operator computes mathematically. -/
def BOp.exact : BOp → Int → Int → Int
  | .lor, x, y => tf (x ≠ 0 ∨ y ≠ 0)
  | .land, x, y => tf (x ≠ 0 ∧ y ≠ 0)
  | .lxor, x, y => tf (¬ (x ≠ 0 ↔ y ≠ 0))
  | .lxnor, x, y => tf (x ≠ 0 ↔ y ≠ 0)
  | .eq, x, y => tf (x = y)
  | .ne, x, y => tf (x ≠ y)
  | .gt, x, y => tf (x > y)
  | .lt, x, y => tf (x < y)
  | .ge, x, y => tf (x ≥ y)
  | .le, x, y => tf (x ≤ y)
  | .first, x, _ => x
  | .second, _, y => y
  | .min, x, y => Min.min x y
  | .max, x, y => Max.max x y
  | .plus, x, y => x + y
  | .minus, x, y => x - y
  | .times, x, y => x * y

/-- What the name of a semiring promises: its addition and its multiplication. -/
def Semi.promise : Semi → BOp × BOp
  | .arithmetic => (.plus, .times)
  | .minPlus => (.min, .plus)
  | .maxPlus => (.max, .plus)
  | .minTimes => (.min, .times)
  | .maxTimes => (.max, .times)
  | .minMax => (.min, .max)
  | .maxMin => (.max, .min)
  | .plusMin => (.plus, .min)
  | .logical => (.lor, .land)
  | .andOr => (.land, .lor)
  | .xorAnd => (.lxor, .land)
  | .xnorOr => (.lxnor, .lor)
  | .minFirst => (.min, .first)
  | .minSecond => (.min, .second)
  | .maxFirst => (.max, .first)
  | .maxSecond => (.max, .second)

/-- Multiplication distributes over addition, on both sides, on all values of a type
(for applications that are all defined). -/
def Distributes (t : ITy) (add mult : Int → Int → Except Err Int) : Prop :=
  ∀ x y z, t.Has x → t.Has y → t.Has z →
    (add y z >>= fun s => mult x s) =
      (mult x y >>= fun p => mult x z >>= fun q => add p q) ∧
    (add y z >>= fun s => mult s x) =
      (mult y x >>= fun p => mult z x >>= fun q => add p q)

end GBTL

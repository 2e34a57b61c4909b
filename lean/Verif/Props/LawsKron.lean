import Verif.Props.LawsEwise
/-
C73: laws of the Kronecker product across calls, without mask and accumulator, into any
consistent containers of the right shapes. All products of dimensions fit in
`IndexType` (see C22).
-/
namespace GBTL
open Spec (Outp MaskKind Accum osum both either)

variable {α : Type} {m n k m' n' k' m'' n'' : Nat} {add mult : α → α → α} {o1 o2 o3 o4 o5 : Outp}

theorem osumN_add (ha : ∀ x y z, add (add x y) z = add x (add y z)) (a b : Nat) (f : Nat → Option α) :
    osumN add (a + b) f = oadd add (osumN add a f) (osumN add b fun i => f (a + i)) := by
  induction b with
  | zero => exact (oadd_none _).symm
  | succ b ih => rw [← Nat.add_assoc, osumN_succ, ih, osumN_succ, oadd_assoc ha]

/-- A sum over pairs, numbered row by row. -/
theorem osumN_mul (ha : ∀ x y z, add (add x y) z = add x (add y z)) (k k' : Nat) (f : Nat → Nat → Option α) :
    osumN add (k * k') (fun q => f (q / k') (q % k')) = osumN add k fun a => osumN add k' fun b => f a b := by
  by_cases h0 : k' = 0
  · subst h0
    exact (osumN_none k).symm
  induction k with
  | zero => simp [osumN_zero]
  | succ k ih =>
    rw [Nat.succ_mul, osumN_add ha, ih, osumN_succ]
    congr 1
    refine osumN_congr fun b hb => ?_
    have hp : 0 < k' := by omega
    rw [Nat.mul_comm k k', Nat.mul_add_div hp, Nat.div_eq_of_lt hb, Nat.mul_add_mod, Nat.mod_eq_of_lt hb, Nat.add_zero]

theorem div_lt_of_lt_mul {i a b : Nat} (h : i < a * b) : i / b < a := by
  rw [Nat.mul_comm] at h
  exact Nat.div_lt_of_lt_mul h

theorem mod_lt_of_lt_mul {i a b : Nat} (h : i < a * b) : i % b < b := by
  refine Nat.mod_lt _ ?_
  rcases Nat.eq_zero_or_pos b with e | e
  · subst e; simp at h
  · exact e

/-- C73: `(A ⊗ B)(C ⊗ D) = (AC) ⊗ (BD)`. -/
theorem C73_mixed_product (hs : Spec.Semiring add mult) (hc : ∀ x y, mult x y = mult y x) {A B C D : Operand α}
    {X Y L P Q R : Lil α} (hA : A.Of m k) (hB : B.Of m' k') (hC : C.Of k n) (hD : D.Of k' n')
    (h1 : X.Of (m * m') (k * k')) (h2 : Y.Of (k * k') (n * n')) (h3 : L.Of (m * m') (n * n')) (h4 : P.Of m n)
    (h5 : Q.Of m' n') (h6 : R.Of (m * m') (n * n')) (b1 : m * m' < 2 ^ 64) (b2 : k * k' < 2 ^ 64) (b3 : n * n' < 2 ^ 64) :
    ∃ x y p q z, X.into o1 (.kronecker mult A B) = .done x ∧ Y.into o2 (.kronecker mult C D) = .done y ∧
      L.into o3 (.mxm (SR.of add mult) id (.plain x) (.plain y)) = .done z ∧
      P.into o4 (.mxm (SR.of add mult) id A C) = .done p ∧ Q.into o4 (.mxm (SR.of add mult) id B D) = .done q ∧
      R.into o5 (.kronecker mult (.plain p) (.plain q)) = .done z := by
  obtain ⟨x, e1, i1⟩ := into_kronecker (outp := o1) (mult := mult) h1 hA hB b1 b2
  obtain ⟨y, e2, i2⟩ := into_kronecker (outp := o2) (mult := mult) h2 hC hD b2 b3
  obtain ⟨z, e3, i3⟩ := into_mxm (outp := o3) (add := add) (mult := mult) h3 i1.toOf.plain i2.toOf.plain fun _ _ => hc
  obtain ⟨p, e4, i4⟩ := into_mxm (outp := o4) (add := add) (mult := mult) h4 hA hC fun _ _ => hc
  obtain ⟨q, e5, i5⟩ := into_mxm (outp := o4) (add := add) (mult := mult) h5 hB hD fun _ _ => hc
  obtain ⟨w, e6, i6⟩ := into_kronecker (outp := o5) (mult := mult) h6 i4.toOf.plain i5.toOf.plain b1 b3
  have : z = w := by
    refine i3.unique i6 fun i j hi hj => ?_
    have hi1 := div_lt_of_lt_mul hi
    have hi2 := mod_lt_of_lt_mul hi
    have hj1 := div_lt_of_lt_mul hj
    have hj2 := mod_lt_of_lt_mul hj
    have four : ∀ a b c d : Option α, both mult (both mult a b) (both mult c d) = both mult (both mult a c) (both mult b d) := by
      intro a b c d
      rw [both_assoc hs.mult_assoc, both_assoc hs.mult_assoc, ← both_assoc hs.mult_assoc b c d,
        ← both_assoc hs.mult_assoc c b d, both_comm hc b c]
    have lhs : osumN add (k * k') (fun t => both mult (x.get i t) (y.get t j)) =
        osumN add k fun a => osumN add k' fun b =>
          both mult (both mult (A.get (i / m') a) (C.get a (j / n'))) (both mult (B.get (i % m') b) (D.get b (j % n'))) := by
      rw [← osumN_mul hs.add_assoc]
      refine osumN_congr fun t ht => ?_
      rw [i1.get i t hi ht, i2.get t j ht hj]
      exact four _ _ _ _
    have rhs : both mult (p.get (i / m') (j / n')) (q.get (i % m') (j % n')) =
        osumN add k fun a => osumN add k' fun b =>
          both mult (both mult (A.get (i / m') a) (C.get a (j / n'))) (both mult (B.get (i % m') b) (D.get b (j % n'))) := by
      rw [i4.get _ _ hi1 hj1, i5.get _ _ hi2 hj2, osumN_both hs.right]
      exact osumN_congr fun a _ => both_osumN hs.left _ _ _
    exact lhs.trans rhs.symm
  exact ⟨x, y, p, q, z, e1, e2, e3, e4, e5, this ▸ e6⟩

/-- C73: `(A ⊗ B) ⊗ C = A ⊗ (B ⊗ C)`. -/
theorem C73_associative (ha : ∀ x y z, mult (mult x y) z = mult x (mult y z)) {A B C : Operand α} {X Y L R : Lil α}
    (hA : A.Of m n) (hB : B.Of m' n') (hC : C.Of m'' n'') (h1 : X.Of (m * m') (n * n')) (h2 : Y.Of (m' * m'') (n' * n''))
    (h3 : L.Of (m * (m' * m'')) (n * (n' * n''))) (h4 : R.Of (m * (m' * m'')) (n * (n' * n'')))
    (b1 : m * m' < 2 ^ 64) (b2 : n * n' < 2 ^ 64) (b3 : m' * m'' < 2 ^ 64) (b4 : n' * n'' < 2 ^ 64)
    (b5 : m * (m' * m'') < 2 ^ 64) (b6 : n * (n' * n'') < 2 ^ 64) :
    ∃ x y z, X.into o1 (.kronecker mult A B) = .done x ∧ L.into o2 (.kronecker mult (.plain x) C) = .done z ∧
      Y.into o3 (.kronecker mult B C) = .done y ∧ R.into o4 (.kronecker mult A (.plain y)) = .done z := by
  obtain ⟨x, e1, i1⟩ := into_kronecker (outp := o1) (mult := mult) h1 hA hB b1 b2
  obtain ⟨y, e2, i2⟩ := into_kronecker (outp := o3) (mult := mult) h2 hB hC b3 b4
  obtain ⟨z, e3, i3⟩ := into_kronecker (outp := o2) (mult := mult) (m := m * m') (m' := m'') (n := n * n') (n' := n'')
    (by rw [Nat.mul_assoc, Nat.mul_assoc]; exact h3) i1.toOf.plain hC (by rw [Nat.mul_assoc]; exact b5) (by rw [Nat.mul_assoc]; exact b6)
  obtain ⟨w, e4, i4⟩ := into_kronecker (outp := o4) (mult := mult) h4 hA i2.toOf.plain b5 b6
  rw [Nat.mul_assoc, Nat.mul_assoc] at i3
  have : z = w := by
    refine i3.unique i4 fun i j hi hj => ?_
    have hi0 : i < m * m' * m'' := by rw [Nat.mul_assoc]; exact hi
    have hj0 : j < n * n' * n'' := by rw [Nat.mul_assoc]; exact hj
    show both mult (x.get (i / m'') (j / n'')) _ = both mult _ (y.get (i % (m' * m'')) (j % (n' * n'')))
    rw [i1.get _ _ (div_lt_of_lt_mul hi0) (div_lt_of_lt_mul hj0), i2.get _ _ (mod_lt_of_lt_mul hi) (mod_lt_of_lt_mul hj),
      both_assoc ha, Nat.div_div_eq_div_mul, Nat.div_div_eq_div_mul, Nat.mul_comm m'' m', Nat.mul_comm n'' n',
      Nat.mod_mul_left_mod, Nat.mod_mul_left_mod, Nat.mod_mul_left_div_self, Nat.mod_mul_left_div_self]
  exact ⟨x, y, z, e1, e3, e2, this ▸ e4⟩

/-- C73: `(A ⊗ B)ᵀ = Aᵀ ⊗ Bᵀ`. -/
theorem C73_transpose {A B X L R : Lil α} (hA : A.Of m n) (hB : B.Of m' n') (h1 : X.Of (m * m') (n * n'))
    (h2 : L.Of (n * n') (m * m')) (h3 : R.Of (n * n') (m * m')) (b1 : m * m' < 2 ^ 64) (b2 : n * n' < 2 ^ 64) :
    ∃ x z, X.into o1 (.kronecker mult (.plain A) (.plain B)) = .done x ∧ L.into o2 (.transpose (.plain x)) = .done z ∧
      R.into o3 (.kronecker mult (.tr A) (.tr B)) = .done z := by
  obtain ⟨x, e1, i1⟩ := into_kronecker (outp := o1) (mult := mult) h1 hA.plain hB.plain b1 b2
  obtain ⟨z, e2, i2⟩ := into_transpose (outp := o2) h2 i1.toOf.plain
  obtain ⟨w, e3, i3⟩ := into_kronecker (outp := o3) (mult := mult) h3 hA.tr hB.tr b2 b1
  have : z = w := i2.unique i3 fun i j hi hj => i1.get j i hj hi
  exact ⟨x, z, e1, e2, this ▸ e3⟩

/-- C73: `A ⊗ (B + C) = A ⊗ B + A ⊗ C`. -/
theorem C73_distributes_left (hl : ∀ x y z, mult x (add y z) = add (mult x y) (mult x z)) {A B C : Operand α}
    {S X Y L R : Lil α} (hA : A.Of m n) (hB : B.Of m' n') (hC : C.Of m' n') (h1 : S.Of m' n') (h2 : X.Of (m * m') (n * n'))
    (h3 : Y.Of (m * m') (n * n')) (h4 : L.Of (m * m') (n * n')) (h5 : R.Of (m * m') (n * n'))
    (b1 : m * m' < 2 ^ 64) (b2 : n * n' < 2 ^ 64) :
    ∃ s x y z, S.into o1 (.eWiseAdd (EW.of add) B C) = .done s ∧ L.into o2 (.kronecker mult A (.plain s)) = .done z ∧
      X.into o3 (.kronecker mult A B) = .done x ∧ Y.into o4 (.kronecker mult A C) = .done y ∧
      R.into o5 (.eWiseAdd (EW.of add) (.plain x) (.plain y)) = .done z := by
  obtain ⟨s, e1, i1⟩ := into_eWiseAdd (outp := o1) (add := add) h1 hB hC
  obtain ⟨z, e2, i2⟩ := into_kronecker (outp := o2) (mult := mult) h4 hA i1.toOf.plain b1 b2
  obtain ⟨x, e3, i3⟩ := into_kronecker (outp := o3) (mult := mult) h2 hA hB b1 b2
  obtain ⟨y, e4, i4⟩ := into_kronecker (outp := o4) (mult := mult) h3 hA hC b1 b2
  obtain ⟨w, e5, i5⟩ := into_eWiseAdd (outp := o5) (add := add) h5 i3.toOf.plain i4.toOf.plain
  have : z = w := by
    refine i2.unique i5 fun i j hi hj => ?_
    show both mult _ (s.get _ _) = oadd add (x.get i j) (y.get i j)
    rw [i1.get _ _ (mod_lt_of_lt_mul hi) (mod_lt_of_lt_mul hj), i3.get i j hi hj, i4.get i j hi hj, both_oadd hl]
  exact ⟨s, x, y, z, e1, e2, e3, e4, this ▸ e5⟩

/-- C73: `(A + B) ⊗ C = A ⊗ C + B ⊗ C`. -/
theorem C73_distributes_right (hr : ∀ x y z, mult (add x y) z = add (mult x z) (mult y z)) {A B C : Operand α}
    {S X Y L R : Lil α} (hA : A.Of m n) (hB : B.Of m n) (hC : C.Of m' n') (h1 : S.Of m n) (h2 : X.Of (m * m') (n * n'))
    (h3 : Y.Of (m * m') (n * n')) (h4 : L.Of (m * m') (n * n')) (h5 : R.Of (m * m') (n * n'))
    (b1 : m * m' < 2 ^ 64) (b2 : n * n' < 2 ^ 64) :
    ∃ s x y z, S.into o1 (.eWiseAdd (EW.of add) A B) = .done s ∧ L.into o2 (.kronecker mult (.plain s) C) = .done z ∧
      X.into o3 (.kronecker mult A C) = .done x ∧ Y.into o4 (.kronecker mult B C) = .done y ∧
      R.into o5 (.eWiseAdd (EW.of add) (.plain x) (.plain y)) = .done z := by
  obtain ⟨s, e1, i1⟩ := into_eWiseAdd (outp := o1) (add := add) h1 hA hB
  obtain ⟨z, e2, i2⟩ := into_kronecker (outp := o2) (mult := mult) h4 i1.toOf.plain hC b1 b2
  obtain ⟨x, e3, i3⟩ := into_kronecker (outp := o3) (mult := mult) h2 hA hC b1 b2
  obtain ⟨y, e4, i4⟩ := into_kronecker (outp := o4) (mult := mult) h3 hB hC b1 b2
  obtain ⟨w, e5, i5⟩ := into_eWiseAdd (outp := o5) (add := add) h5 i3.toOf.plain i4.toOf.plain
  have : z = w := by
    refine i2.unique i5 fun i j hi hj => ?_
    show both mult (s.get _ _) _ = oadd add (x.get i j) (y.get i j)
    rw [i1.get _ _ (div_lt_of_lt_mul hi) (div_lt_of_lt_mul hj), i3.get i j hi hj, i4.get i j hi hj, oadd_both hr]
  exact ⟨s, x, y, z, e1, e2, e3, e4, this ▸ e5⟩

/-- C73: the Kronecker product of two identities is the identity. -/
theorem C73_identity {e : α} (he : mult e e = e) {X : Lil α} (h1 : X.Of (m * n) (m * n)) (b : m * n < 2 ^ 64) :
    ∃ I J K, scaledIdentity m e = .ok I ∧ scaledIdentity n e = .ok J ∧ scaledIdentity (m * n) e = .ok K ∧
      X.into o1 (.kronecker mult (.plain I) (.plain J)) = .done K := by
  obtain ⟨I, e1, w1, r1, c1, g1⟩ := C41_scaled_identity m e
  obtain ⟨J, e2, w2, r2, c2, g2⟩ := C41_scaled_identity n e
  obtain ⟨K, e3, w3, r3, c3, g3⟩ := C41_scaled_identity (m * n) e
  obtain ⟨z, e4, i4⟩ := into_kronecker (outp := o1) (mult := mult) h1 (Lil.Of.plain ⟨w1, r1, c1⟩) (Lil.Of.plain ⟨w2, r2, c2⟩) b b
  have : z = K := by
    refine i4.unique (Lil.Of.is ⟨w3, r3, c3⟩) fun i j hi hj => ?_
    show both mult (I.get _ _) (J.get _ _) = _
    rw [g1, g2, g3]
    by_cases hij : i = j
    · subst hij
      rw [if_pos ⟨rfl, div_lt_of_lt_mul hi⟩, if_pos ⟨rfl, mod_lt_of_lt_mul hi⟩, if_pos ⟨rfl, hi⟩]
      simp [both, he]
    · have : ¬ (i / n = j / n ∧ i % n = j % n) := by
        rintro ⟨h1, h2⟩
        apply hij
        rw [← Nat.div_add_mod i n, ← Nat.div_add_mod j n, h1, h2]
      rw [if_neg (c := i = j ∧ _) (fun h => hij h.1)]
      by_cases h1 : i / n = j / n
      · rw [if_neg (c := i % n = j % n ∧ _) (fun h => this ⟨h1, h.1⟩)]
        split <;> rfl
      · rw [if_neg (c := i / n = j / n ∧ _) (fun h => h1 h.1)]
        rfl
  exact ⟨I, J, K, e1, e2, e3, this ▸ e4⟩

/-! ### Instances -/

namespace LawEx
def K : Lil Nat := ⟨2, 1, 1, [[(0, 5)], []]⟩
def D : Lil Nat := ⟨1, 2, 1, [[(1, 7)]]⟩
theorem hK : K.Of 2 1 := Lil.of_check (by decide)
theorem hD : D.Of 1 2 := Lil.of_check (by decide)
end LawEx

open LawEx in
example : A.Of 2 2 ∧ K.Of 2 1 ∧ D.Of 1 2 ∧
    (Lil.new 4 2 : Lil Nat).into .merge (.kronecker (· * ·) (.plain A) (.plain K))
      = .done ⟨4, 2, 3, [[(0, 5), (1, 10)], [], [(1, 15)], []]⟩ ∧
    (Lil.new 2 4 : Lil Nat).into .merge (.kronecker (· * ·) (.plain A) (.plain D))
      = .done ⟨2, 4, 3, [[(1, 7), (3, 14)], [(3, 21)]]⟩ ∧
    (Lil.new 4 4 : Lil Nat).into .merge (.mxm sr id (.plain ⟨4, 2, 3, [[(0, 5), (1, 10)], [], [(1, 15)], []]⟩)
      (.plain ⟨2, 4, 3, [[(1, 7), (3, 14)], [(3, 21)]]⟩)) = .done ⟨4, 4, 3, [[(1, 35), (3, 280)], [], [(3, 315)], []]⟩ ∧
    A.into .merge (.mxm sr id (.plain A) (.plain A)) = .done ⟨2, 2, 3, [[(0, 1), (1, 8)], [(1, 9)]]⟩ ∧
    A.into .merge (.mxm sr id (.plain K) (.plain D)) = .done ⟨2, 2, 1, [[(1, 35)], []]⟩ ∧
    (Lil.new 4 4 : Lil Nat).into .merge (.kronecker (· * ·) (.plain ⟨2, 2, 3, [[(0, 1), (1, 8)], [(1, 9)]]⟩)
      (.plain ⟨2, 2, 1, [[(1, 35)], []]⟩)) = .done ⟨4, 4, 3, [[(1, 35), (3, 280)], [], [(3, 315)], []]⟩ :=
  ⟨hA, hK, hD, by decide +kernel, by decide +kernel, by decide +kernel, by decide +kernel, by decide +kernel,
    by decide +kernel⟩

end GBTL

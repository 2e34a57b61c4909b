import Verif.Props.Laws
/-
C71: laws of the element-wise operations, `apply`, `transpose` and `reduce` across
calls. Every call here is without mask and accumulator, into any consistent container
of the right shape (the scalar reductions may have an accumulator).
-/
namespace GBTL
open Spec (Outp MaskKind Accum osum both either)

variable {α : Type} {m n k l : Nat} {add mult : α → α → α} {o1 o2 o3 o4 o5 : Outp}

/-! ### Associativity, commutativity, idempotence, distributivity -/

/-- C71: `(A + B) + C = A + (B + C)`, element-wise. -/
theorem C71_eWiseAdd_associative (ha : ∀ x y z, add (add x y) z = add x (add y z)) {A B C : Operand α} {X Y L R : Lil α}
    (hA : A.Of m n) (hB : B.Of m n) (hC : C.Of m n) (h1 : X.Of m n) (h2 : Y.Of m n) (h3 : L.Of m n) (h4 : R.Of m n) :
    ∃ x y z, X.into o1 (.eWiseAdd (EW.of add) A B) = .done x ∧ L.into o2 (.eWiseAdd (EW.of add) (.plain x) C) = .done z ∧
      Y.into o3 (.eWiseAdd (EW.of add) B C) = .done y ∧ R.into o4 (.eWiseAdd (EW.of add) A (.plain y)) = .done z := by
  obtain ⟨x, e1, i1⟩ := into_eWiseAdd (outp := o1) (add := add) h1 hA hB
  obtain ⟨z, e2, i2⟩ := into_eWiseAdd (outp := o2) (add := add) h3 i1.toOf.plain hC
  obtain ⟨y, e3, i3⟩ := into_eWiseAdd (outp := o3) (add := add) h2 hB hC
  obtain ⟨w, e4, i4⟩ := into_eWiseAdd (outp := o4) (add := add) h4 hA i3.toOf.plain
  have : z = w := by
    refine i2.unique i4 fun i j hi hj => ?_
    show oadd add (x.get i j) _ = oadd add _ (y.get i j)
    rw [i1.get i j hi hj, i3.get i j hi hj, oadd_assoc ha]
  exact ⟨x, y, z, e1, e2, e3, this ▸ e4⟩

/-- C71: `(A .* B) .* C = A .* (B .* C)`. -/
theorem C71_eWiseMult_associative (ha : ∀ x y z, mult (mult x y) z = mult x (mult y z)) {A B C : Operand α} {X Y L R : Lil α}
    (hA : A.Of m n) (hB : B.Of m n) (hC : C.Of m n) (h1 : X.Of m n) (h2 : Y.Of m n) (h3 : L.Of m n) (h4 : R.Of m n) :
    ∃ x y z, X.into o1 (.eWiseMult (EW.of mult) A B) = .done x ∧ L.into o2 (.eWiseMult (EW.of mult) (.plain x) C) = .done z ∧
      Y.into o3 (.eWiseMult (EW.of mult) B C) = .done y ∧ R.into o4 (.eWiseMult (EW.of mult) A (.plain y)) = .done z := by
  obtain ⟨x, e1, i1⟩ := into_eWiseMult (outp := o1) (mult := mult) h1 hA hB
  obtain ⟨z, e2, i2⟩ := into_eWiseMult (outp := o2) (mult := mult) h3 i1.toOf.plain hC
  obtain ⟨y, e3, i3⟩ := into_eWiseMult (outp := o3) (mult := mult) h2 hB hC
  obtain ⟨w, e4, i4⟩ := into_eWiseMult (outp := o4) (mult := mult) h4 hA i3.toOf.plain
  have : z = w := by
    refine i2.unique i4 fun i j hi hj => ?_
    show both mult (x.get i j) _ = both mult _ (y.get i j)
    rw [i1.get i j hi hj, i3.get i j hi hj, both_assoc ha]
  exact ⟨x, y, z, e1, e2, e3, this ▸ e4⟩

/-- C71: both element-wise operations commute if the operator does. -/
theorem C71_eWise_commutative (hc : ∀ x y, add x y = add y x) {A B : Operand α} {X Y Z W : Lil α}
    (hA : A.Of m n) (hB : B.Of m n) (h1 : X.Of m n) (h2 : Y.Of m n) (h3 : Z.Of m n) (h4 : W.Of m n) :
    ∃ x y, X.into o1 (.eWiseAdd (EW.of add) A B) = .done x ∧ Y.into o2 (.eWiseAdd (EW.of add) B A) = .done x ∧
      Z.into o3 (.eWiseMult (EW.of add) A B) = .done y ∧ W.into o4 (.eWiseMult (EW.of add) B A) = .done y := by
  obtain ⟨x, e1, i1⟩ := into_eWiseAdd (outp := o1) (add := add) h1 hA hB
  obtain ⟨x', e2, i2⟩ := into_eWiseAdd (outp := o2) (add := add) h2 hB hA
  obtain ⟨y, e3, i3⟩ := into_eWiseMult (outp := o3) (mult := add) h3 hA hB
  obtain ⟨y', e4, i4⟩ := into_eWiseMult (outp := o4) (mult := add) h4 hB hA
  have a : x = x' := i1.unique i2 fun i j _ _ => oadd_comm hc _ _
  have b : y = y' := i3.unique i4 fun i j _ _ => both_comm hc _ _
  exact ⟨x, y, e1, a ▸ e2, e3, b ▸ e4⟩

/-- C71: `A + A = A .* A = A` for an idempotent operator, such as `Min`, `Max`,
`LogicalOr`, `First`. -/
theorem C71_eWise_idempotent (hi : ∀ x, add x x = x) {A X Y : Lil α} (hA : A.Of m n) (h1 : X.Of m n) (h2 : Y.Of m n) :
    X.into o1 (.eWiseAdd (EW.of add) (.plain A) (.plain A)) = .done A ∧
      Y.into o2 (.eWiseMult (EW.of add) (.plain A) (.plain A)) = .done A := by
  obtain ⟨x, e1, i1⟩ := into_eWiseAdd (outp := o1) (add := add) h1 hA.plain hA.plain
  obtain ⟨y, e2, i2⟩ := into_eWiseMult (outp := o2) (mult := add) h2 hA.plain hA.plain
  have a : x = A := i1.unique hA.is fun i j _ _ => by
    show oadd add (A.get i j) (A.get i j) = _
    cases A.get i j <;> simp [either, hi]
  have b : y = A := i2.unique hA.is fun i j _ _ => by
    show both add (A.get i j) (A.get i j) = _
    cases A.get i j <;> simp [both, hi]
  exact ⟨a ▸ e1, b ▸ e2⟩

/-- C71: `A .* (B + C) = A .* B + A .* C`. -/
theorem C71_eWise_distributes (hd : ∀ x y z, mult x (add y z) = add (mult x y) (mult x z)) {A B C : Operand α}
    {S X Y L R : Lil α} (hA : A.Of m n) (hB : B.Of m n) (hC : C.Of m n) (h1 : S.Of m n) (h2 : X.Of m n) (h3 : Y.Of m n)
    (h4 : L.Of m n) (h5 : R.Of m n) :
    ∃ s x y z, S.into o1 (.eWiseAdd (EW.of add) B C) = .done s ∧ L.into o2 (.eWiseMult (EW.of mult) A (.plain s)) = .done z ∧
      X.into o3 (.eWiseMult (EW.of mult) A B) = .done x ∧ Y.into o4 (.eWiseMult (EW.of mult) A C) = .done y ∧
      R.into o5 (.eWiseAdd (EW.of add) (.plain x) (.plain y)) = .done z := by
  obtain ⟨s, e1, i1⟩ := into_eWiseAdd (outp := o1) (add := add) h1 hB hC
  obtain ⟨z, e2, i2⟩ := into_eWiseMult (outp := o2) (mult := mult) h4 hA i1.toOf.plain
  obtain ⟨x, e3, i3⟩ := into_eWiseMult (outp := o3) (mult := mult) h2 hA hB
  obtain ⟨y, e4, i4⟩ := into_eWiseMult (outp := o4) (mult := mult) h3 hA hC
  obtain ⟨w, e5, i5⟩ := into_eWiseAdd (outp := o5) (add := add) h5 i3.toOf.plain i4.toOf.plain
  have : z = w := by
    refine i2.unique i5 fun i j hi hj => ?_
    show both mult _ (s.get i j) = oadd add (x.get i j) (y.get i j)
    rw [i1.get i j hi hj, i3.get i j hi hj, i4.get i j hi hj, both_oadd hd]
  exact ⟨s, x, y, z, e1, e2, e3, e4, this ▸ e5⟩

/-- C71: the laws for vectors. -/
theorem C71_vector_associative (ha : ∀ x y z, add (add x y) z = add x (add y z)) {a b c x y l r : BVec α}
    (hA : a.Of n) (hB : b.Of n) (hC : c.Of n) (h1 : x.Of n) (h2 : y.Of n) (h3 : l.Of n) (h4 : r.Of n) :
    (∃ x' y' z w, x.into o1 (.eWiseAdd (EW.of add) a b) = .done x' ∧ l.into o2 (.eWiseAdd (EW.of add) x' c) = .done z ∧
      y.into o3 (.eWiseAdd (EW.of add) b c) = .done y' ∧ r.into o4 (.eWiseAdd (EW.of add) a y') = .done w ∧ z.Same w) ∧
    (∃ x' y' z w, x.into o1 (.eWiseMult (EW.of add) a b) = .done x' ∧ l.into o2 (.eWiseMult (EW.of add) x' c) = .done z ∧
      y.into o3 (.eWiseMult (EW.of add) b c) = .done y' ∧ r.into o4 (.eWiseMult (EW.of add) a y') = .done w ∧ z.Same w) := by
  constructor
  · obtain ⟨x', e1, i1⟩ := into_eWiseAddV (outp := o1) (add := add) h1 hA hB
    obtain ⟨z, e2, i2⟩ := into_eWiseAddV (outp := o2) (add := add) h3 i1.toOf hC
    obtain ⟨y', e3, i3⟩ := into_eWiseAddV (outp := o3) (add := add) h2 hB hC
    obtain ⟨w, e4, i4⟩ := into_eWiseAddV (outp := o4) (add := add) h4 hA i3.toOf
    refine ⟨x', y', z, w, e1, e2, e3, e4, i2.same i4 fun i hi => ?_⟩
    rw [i1.get i hi, i3.get i hi, oadd_assoc ha]
  · obtain ⟨x', e1, i1⟩ := into_eWiseMultV (outp := o1) (mult := add) h1 hA hB
    obtain ⟨z, e2, i2⟩ := into_eWiseMultV (outp := o2) (mult := add) h3 i1.toOf hC
    obtain ⟨y', e3, i3⟩ := into_eWiseMultV (outp := o3) (mult := add) h2 hB hC
    obtain ⟨w, e4, i4⟩ := into_eWiseMultV (outp := o4) (mult := add) h4 hA i3.toOf
    refine ⟨x', y', z, w, e1, e2, e3, e4, i2.same i4 fun i hi => ?_⟩
    rw [i1.get i hi, i3.get i hi, both_assoc ha]

theorem C71_vector_commutative (hc : ∀ x y, add x y = add y x) {a b x y l r : BVec α}
    (hA : a.Of n) (hB : b.Of n) (h1 : x.Of n) (h2 : y.Of n) (h3 : l.Of n) (h4 : r.Of n) :
    (∃ z w, x.into o1 (.eWiseAdd (EW.of add) a b) = .done z ∧ y.into o2 (.eWiseAdd (EW.of add) b a) = .done w ∧ z.Same w) ∧
    (∃ z w, l.into o3 (.eWiseMult (EW.of add) a b) = .done z ∧ r.into o4 (.eWiseMult (EW.of add) b a) = .done w ∧ z.Same w) := by
  obtain ⟨x', e1, i1⟩ := into_eWiseAddV (outp := o1) (add := add) h1 hA hB
  obtain ⟨y', e2, i2⟩ := into_eWiseAddV (outp := o2) (add := add) h2 hB hA
  obtain ⟨l', e3, i3⟩ := into_eWiseMultV (outp := o3) (mult := add) h3 hA hB
  obtain ⟨r', e4, i4⟩ := into_eWiseMultV (outp := o4) (mult := add) h4 hB hA
  exact ⟨⟨x', y', e1, e2, i1.same i2 fun i _ => oadd_comm hc _ _⟩, ⟨l', r', e3, e4, i3.same i4 fun i _ => both_comm hc _ _⟩⟩

/-! ### apply -/

/-- C71: applying `f` and then `g` is applying their composition; applying the identity
copies. -/
theorem C71_apply_composes {f g : α → α} {A : Operand α} {X Y Z : Lil α} (hA : A.Of m n) (h1 : X.Of m n) (h2 : Y.Of m n)
    (h3 : Z.Of m n) :
    ∃ x z, X.into o1 (.apply f A) = .done x ∧ Y.into o2 (.apply g (.plain x)) = .done z ∧
      Z.into o3 (.apply (fun a => g (f a)) A) = .done z := by
  obtain ⟨x, e1, i1⟩ := into_apply (outp := o1) (f := f) h1 hA
  obtain ⟨z, e2, i2⟩ := into_apply (outp := o2) (f := g) h2 i1.toOf.plain
  obtain ⟨w, e3, i3⟩ := into_apply (outp := o3) (f := fun a => g (f a)) h3 hA
  have : z = w := by
    refine i2.unique i3 fun i j hi hj => ?_
    show (x.get i j).map g = _
    rw [i1.get i j hi hj]
    cases A.get i j <;> rfl
  exact ⟨x, z, e1, e2, this ▸ e3⟩

theorem C71_apply_identity {A X : Lil α} (hA : A.Of m n) (h1 : X.Of m n) : X.into o1 (.apply id (.plain A)) = .done A := by
  obtain ⟨x, e1, i1⟩ := into_apply (outp := o1) (f := id) h1 hA.plain
  have : x = A := i1.unique hA.is fun i j _ _ => by simp; rfl
  exact this ▸ e1

/-- C71: a function that commutes with the operator commutes with the element-wise
operations. -/
theorem C71_apply_homomorphism {f : α → α} (hf : ∀ x y, f (add x y) = add (f x) (f y)) {A B : Operand α}
    {S L X Y R : Lil α} (hA : A.Of m n) (hB : B.Of m n) (h1 : S.Of m n) (h2 : L.Of m n) (h3 : X.Of m n) (h4 : Y.Of m n)
    (h5 : R.Of m n) :
    (∃ s x y z, S.into o1 (.eWiseAdd (EW.of add) A B) = .done s ∧ L.into o2 (.apply f (.plain s)) = .done z ∧
      X.into o3 (.apply f A) = .done x ∧ Y.into o4 (.apply f B) = .done y ∧
      R.into o5 (.eWiseAdd (EW.of add) (.plain x) (.plain y)) = .done z) ∧
    (∃ s x y z, S.into o1 (.eWiseMult (EW.of add) A B) = .done s ∧ L.into o2 (.apply f (.plain s)) = .done z ∧
      X.into o3 (.apply f A) = .done x ∧ Y.into o4 (.apply f B) = .done y ∧
      R.into o5 (.eWiseMult (EW.of add) (.plain x) (.plain y)) = .done z) := by
  obtain ⟨x, e3, i3⟩ := into_apply (outp := o3) (f := f) h3 hA
  obtain ⟨y, e4, i4⟩ := into_apply (outp := o4) (f := f) h4 hB
  constructor
  · obtain ⟨s, e1, i1⟩ := into_eWiseAdd (outp := o1) (add := add) h1 hA hB
    obtain ⟨z, e2, i2⟩ := into_apply (outp := o2) (f := f) h2 i1.toOf.plain
    obtain ⟨w, e5, i5⟩ := into_eWiseAdd (outp := o5) (add := add) h5 i3.toOf.plain i4.toOf.plain
    have : z = w := by
      refine i2.unique i5 fun i j hi hj => ?_
      show (s.get i j).map f = oadd add (x.get i j) (y.get i j)
      rw [i1.get i j hi hj, i3.get i j hi hj, i4.get i j hi hj]
      cases A.get i j <;> cases B.get i j <;> simp [either, hf]
    exact ⟨s, x, y, z, e1, e2, e3, e4, this ▸ e5⟩
  · obtain ⟨s, e1, i1⟩ := into_eWiseMult (outp := o1) (mult := add) h1 hA hB
    obtain ⟨z, e2, i2⟩ := into_apply (outp := o2) (f := f) h2 i1.toOf.plain
    obtain ⟨w, e5, i5⟩ := into_eWiseMult (outp := o5) (mult := add) h5 i3.toOf.plain i4.toOf.plain
    have : z = w := by
      refine i2.unique i5 fun i j hi hj => ?_
      show (s.get i j).map f = both add (x.get i j) (y.get i j)
      rw [i1.get i j hi hj, i3.get i j hi hj, i4.get i j hi hj]
      cases A.get i j <;> cases B.get i j <;> simp [both, hf]
    exact ⟨s, x, y, z, e1, e2, e3, e4, this ▸ e5⟩

/-! ### transpose -/

/-- C71: the transpose of an element-wise result is the element-wise result of the
transposed views. -/
theorem C71_transpose_of_eWise {A B X Y L R : Lil α} (hA : A.Of m n) (hB : B.Of m n) (h1 : X.Of m n) (h2 : L.Of n m)
    (h3 : R.Of n m) (h4 : Y.Of m n) :
    (∃ x z, X.into o1 (.eWiseAdd (EW.of add) (.plain A) (.plain B)) = .done x ∧ L.into o2 (.transpose (.plain x)) = .done z ∧
      R.into o3 (.eWiseAdd (EW.of add) (.tr A) (.tr B)) = .done z) ∧
    (∃ x z, Y.into o4 (.eWiseMult (EW.of add) (.plain A) (.plain B)) = .done x ∧ L.into o2 (.transpose (.plain x)) = .done z ∧
      R.into o3 (.eWiseMult (EW.of add) (.tr A) (.tr B)) = .done z) := by
  constructor
  · obtain ⟨x, e1, i1⟩ := into_eWiseAdd (outp := o1) (add := add) h1 hA.plain hB.plain
    obtain ⟨z, e2, i2⟩ := into_transpose (outp := o2) h2 i1.toOf.plain
    obtain ⟨w, e3, i3⟩ := into_eWiseAdd (outp := o3) (add := add) h3 hA.tr hB.tr
    have : z = w := i2.unique i3 fun i j hi hj => i1.get j i hj hi
    exact ⟨x, z, e1, e2, this ▸ e3⟩
  · obtain ⟨x, e1, i1⟩ := into_eWiseMult (outp := o4) (mult := add) h4 hA.plain hB.plain
    obtain ⟨z, e2, i2⟩ := into_transpose (outp := o2) h2 i1.toOf.plain
    obtain ⟨w, e3, i3⟩ := into_eWiseMult (outp := o3) (mult := add) h3 hA.tr hB.tr
    have : z = w := i2.unique i3 fun i j hi hj => i1.get j i hj hi
    exact ⟨x, z, e1, e2, this ▸ e3⟩

/-- C71: `transpose` and `apply` commute. -/
theorem C71_transpose_of_apply {f : α → α} {A X T L R : Lil α} (hA : A.Of m n) (h1 : X.Of m n) (h2 : L.Of n m)
    (h3 : T.Of n m) (h4 : R.Of n m) :
    ∃ x t z, X.into o1 (.apply f (.plain A)) = .done x ∧ L.into o2 (.transpose (.plain x)) = .done z ∧
      T.into o3 (.transpose (.plain A)) = .done t ∧ R.into o4 (.apply f (.plain t)) = .done z ∧
      R.into o4 (.apply f (.tr A)) = .done z := by
  obtain ⟨x, e1, i1⟩ := into_apply (outp := o1) (f := f) h1 hA.plain
  obtain ⟨z, e2, i2⟩ := into_transpose (outp := o2) h2 i1.toOf.plain
  obtain ⟨t, e3, i3⟩ := into_transpose (outp := o3) h3 hA.plain
  obtain ⟨w, e4, i4⟩ := into_apply (outp := o4) (f := f) h4 i3.toOf.plain
  obtain ⟨v, e5, i5⟩ := into_apply (outp := o4) (f := f) h4 hA.tr
  have a : z = w := i2.unique i4 fun i j hi hj => by
    show x.get j i = (t.get i j).map f
    rw [i1.get j i hj hi, i3.get i j hi hj]
  have b : z = v := i2.unique i5 fun i j hi hj => i1.get j i hj hi
  exact ⟨x, t, z, e1, e2, e3, a ▸ e4, b ▸ e5⟩

/-! ### reduce -/

/-- C71: the row sums of `A + B` are the sums of the row sums. -/
theorem C71_reduce_of_eWiseAdd (ha : ∀ x y z, add (add x y) z = add x (add y z)) (hc : ∀ x y, add x y = add y x)
    {A B : Operand α} {S : Lil α} {l x y r : BVec α} (hA : A.Of m n) (hB : B.Of m n) (h1 : S.Of m n) (h2 : l.Of m)
    (h3 : x.Of m) (h4 : y.Of m) (h5 : r.Of m) :
    ∃ s x' y' z w, S.into o1 (.eWiseAdd (EW.of add) A B) = .done s ∧ l.into o2 (.reduce (.of add id) (.plain s)) = .done z ∧
      x.into o3 (.reduce (.of add id) A) = .done x' ∧ y.into o4 (.reduce (.of add id) B) = .done y' ∧
      r.into o5 (.eWiseAdd (EW.of add) x' y') = .done w ∧ z.Same w := by
  obtain ⟨s, e1, i1⟩ := into_eWiseAdd (outp := o1) (add := add) h1 hA hB
  obtain ⟨z, e2, i2⟩ := into_reduce (outp := o2) (f := add) h2 i1.toOf.plain
  obtain ⟨x', e3, i3⟩ := into_reduce (outp := o3) (f := add) h3 hA
  obtain ⟨y', e4, i4⟩ := into_reduce (outp := o4) (f := add) h4 hB
  obtain ⟨w, e5, i5⟩ := into_eWiseAddV (outp := o5) (add := add) h5 i3.toOf i4.toOf
  refine ⟨s, x', y', z, w, e1, e2, e3, e4, e5, i2.same i5 fun i hi => ?_⟩
  rw [i3.get i hi, i4.get i hi, ← osumN_oadd ha hc]
  exact osumN_congr fun j hj => i1.get i j hi hj

theorem getD_osumN {f : α → α → α} {e : α} (hl : ∀ x, f e x = x) (n : Nat) (g : Nat → Option α) :
    (osumN f n g).getD e = (Spec.Vec.vals n g).foldl f e := by
  induction n with
  | zero => rfl
  | succ n ih =>
    rw [osumN_succ, Spec.Vec.vals, List.range_succ, List.filterMap_append, List.foldl_append]
    rw [Spec.Vec.vals] at ih
    rw [← ih]
    cases h : g n with
    | none => simp [h, oadd_none]
    | some y => cases osumN f n g <;> simp [h, either, hl]

theorem foldl_append_monoid {f : α → α → α} {e : α} (ha : ∀ x y z, f (f x y) z = f x (f y z)) (hr : ∀ x, f x e = x)
    (hl : ∀ x, f e x = x) (l l' : List α) : (l ++ l').foldl f e = f (l.foldl f e) (l'.foldl f e) := by
  have : ∀ (l' : List α) (x : α), l'.foldl f x = f x (l'.foldl f e) := by
    intro l'
    induction l' with
    | nil => intro x; exact (hr x).symm
    | cons y l' ih =>
      intro x
      rw [List.foldl_cons, List.foldl_cons, ih (f x y), ih (f e y), hl, ha]
  rw [List.foldl_append]
  exact this l' _

theorem getD_osumN_mat {f : α → α → α} {e : α} (ha : ∀ x y z, f (f x y) z = f x (f y z)) (hl : ∀ x, f e x = x)
    (hr : ∀ x, f x e = x) (m n : Nat) (A : Spec.Mat α) :
    (osumN f m fun i => osumN f n (A i)).getD e = (Spec.Mat.vals m n A).foldl f e := by
  induction m with
  | zero => rfl
  | succ m ih =>
    have hs : Spec.Mat.vals (m + 1) n A = Spec.Mat.vals m n A ++ Spec.Vec.vals n (A m) := by
      simp [Spec.Mat.vals, List.range_succ, List.flatMap_append]
    rw [hs, foldl_append_monoid ha hr hl, ← ih, ← getD_osumN hl, osumN_succ]
    cases osumN f m fun i => osumN f n (A i) <;> cases osumN f n (A m) <;> simp [either, hl, hr]

/-- C71: reducing a matrix to a scalar is reducing its rows to a vector and that vector
to a scalar, with the same accumulator; for a commutative monoid one may also reduce the
columns first. -/
theorem C71_reduce_in_two_steps {γ ζ : Type} {castZ : ζ → γ} {acc : Accum γ α ζ} {f : α → α → α} {e : α} {val : γ}
    {A : Lil α} {w : BVec α} {v : BVec α} (ha : ∀ x y z, f (f x y) z = f x (f y z)) (hl : ∀ x, f e x = x)
    (hr : ∀ x, f x e = x) (hA : A.Of m n) (hw : w.Of m) (hv : v.Of n) :
    (∃ x s, w.into o1 (.reduce (.of f id) (.plain A)) = .done x ∧
      reduceVS castZ acc (.of f id) e val x = .done s ∧ reduceMS castZ acc (.of f id) e val (.plain A) = .done s) ∧
    ((∀ x y, f x y = f y x) → ∃ x s, v.into o2 (.reduce (.of f id) (.tr A)) = .done x ∧
      reduceVS castZ acc (.of f id) e val x = .done s ∧ reduceMS castZ acc (.of f id) e val (.plain A) = .done s) := by
  have key : ∀ {B : Operand α} {p q : Nat} {u : BVec α} {o : Outp}, B.Of p q → u.Of p →
      (Spec.Mat.vals p q B.get).foldl f e = (Spec.Mat.vals m n A.get).foldl f e →
      ∃ x s, u.into o (.reduce (.of f id) B) = .done x ∧
      reduceVS castZ acc (.of f id) e val x = .done s ∧ reduceMS castZ acc (.of f id) e val (.plain A) = .done s := by
    intro B p q u o hB hu he
    obtain ⟨x, e1, i1⟩ := into_reduce (outp := o) (f := f) hu hB
    obtain ⟨s, e2, v2⟩ := C17_reduce_vector (castZ := castZ) (acc := acc) (f := f) (c := id) (val := val) hl i1.wf
    obtain ⟨s', e3, v3⟩ := C17_reduce_matrix (castZ := castZ) (acc := acc) (c := id) (val := val) ha hl hr hA.wf
    have hs : s = s' := by
      have : (Spec.Vec.vals x.size x.get).foldl f e = (Spec.Mat.vals A.nrows A.ncols A.get).foldl f e := by
        rw [hA.nrows, hA.ncols, ← he, ← getD_osumN hl, ← getD_osumN_mat ha hl hr, i1.size]
        congr 1
        exact osumN_congr fun i hi => i1.get i hi
      rw [List.map_id] at v2 v3
      rw [this, ← v3] at v2
      exact Option.some.inj v2
    exact ⟨x, s, e1, e2, hs ▸ e3⟩
  refine ⟨key hA.plain hw rfl, fun hc => key hA.tr hv ?_⟩
  refine List.Perm.foldl_eq' (vals_tr_perm m n A.get) ?_ e
  intro x _ y _ z
  rw [ha, ha, hc x y]

open LawEx in
/-- The hypotheses hold of small matrices and the sides are as computed here. -/
example : A.Of 2 2 ∧ B.Of 2 3 ∧ full.Of 2 ∧ u.Of 3 ∧
    A.into .merge (.eWiseAdd (EW.of (· + ·)) (.plain A) (.tr A)) = .done ⟨2, 2, 4, [[(0, 2), (1, 2)], [(0, 2), (1, 6)]]⟩ ∧
    A.into .replace (.eWiseMult (EW.of (· * ·)) (.plain A) (.tr A)) = .done ⟨2, 2, 2, [[(0, 1)], [(1, 9)]]⟩ ∧
    A.into .replace (.apply (fun x => 2 * x) (.plain A)) = .done ⟨2, 2, 3, [[(0, 2), (1, 4)], [(1, 6)]]⟩ ∧
    full.into .merge (.reduce (.of (· + ·) id) (.plain B)) = .done ⟨2, 2, [4, 11], [true, true]⟩ ∧
    reduceVS id (Accum.some (fun x y => x + y) id id) (.of (· + ·) id) 0 100 ⟨2, 2, [4, 11], [true, true]⟩ = .done 115 ∧
    reduceMS id (Accum.some (fun x y => x + y) id id) (.of (· + ·) id) 0 100 (.plain B) = .done 115 :=
  ⟨hA, hB, hfull, hu, by decide +kernel, by decide +kernel, by decide +kernel, by decide +kernel, by decide +kernel,
    by decide +kernel⟩

end GBTL

import Verif.Lemmas.Laws
import Verif.Props.Algebra
import Verif.Props.Utils
/-
C70: laws of products: expressions over several calls that algebra makes equal give
equal results. Every call here is without mask and accumulator, into any consistent
container of the right shape. Equality of matrices is equality of objects.
-/
namespace GBTL
open Spec (Outp MaskKind Accum osum both either)

variable {α : Type} {m n k l : Nat} {add mult : α → α → α} {o1 o2 o3 o4 : Outp}

/-- C70: `(AB)C = A(BC)`. Operands may be transposed views; where both operands of a
product are, the product must be commutative (see C10). -/
theorem C70_mxm_associative (hs : Spec.Semiring add mult) {A B C : Operand α} {AB BC L R : Lil α}
    (hA : A.Of k l) (hB : B.Of l m) (hC : C.Of m n) (h1 : AB.Of k m) (h2 : BC.Of l n) (h3 : L.Of k n) (h4 : R.Of k n)
    (hcomm : (A.isTr ∧ B.isTr) ∨ (B.isTr ∧ C.isTr) → ∀ a b, mult a b = mult b a) :
    ∃ X Y Z, AB.into o1 (.mxm (SR.of add mult) id A B) = .done X ∧ L.into o2 (.mxm (SR.of add mult) id (.plain X) C) = .done Z ∧
      BC.into o3 (.mxm (SR.of add mult) id B C) = .done Y ∧ R.into o4 (.mxm (SR.of add mult) id A (.plain Y)) = .done Z := by
  obtain ⟨X, e1, i1⟩ := into_mxm (outp := o1) (add := add) h1 hA hB fun x y => hcomm (.inl ⟨x, y⟩)
  obtain ⟨Y, e2, i2⟩ := into_mxm (outp := o3) (add := add) h2 hB hC fun x y => hcomm (.inr ⟨x, y⟩)
  obtain ⟨Z, e3, i3⟩ := into_mxm (outp := o2) (add := add) (mult := mult) h3 i1.toOf.plain hC fun x => absurd x (by simp [Operand.isTr])
  obtain ⟨W, e4, i4⟩ := into_mxm (outp := o4) (add := add) (mult := mult) h4 hA i2.toOf.plain fun _ x => absurd x (by simp [Operand.isTr])
  have : Z = W := by
    refine i3.unique i4 fun i j hi hj => ?_
    have ex : osumN add m (fun x => both mult (X.get i x) (C.get x j)) =
        osumN add m fun x => osumN add l fun y => both mult (A.get i y) (both mult (B.get y x) (C.get x j)) :=
      osumN_congr fun x hx => by
        rw [i1.get i x hi hx, osumN_both hs.right]
        exact osumN_congr fun y _ => both_assoc hs.mult_assoc _ _ _
    have ey : osumN add l (fun y => both mult (A.get i y) (Y.get y j)) =
        osumN add l fun y => osumN add m fun x => both mult (A.get i y) (both mult (B.get y x) (C.get x j)) :=
      osumN_congr fun y hy => by rw [i2.get y j hy hj, both_osumN hs.left]
    exact ex.trans ((osumN_swap hs.add_assoc hs.add_comm m l _).trans ey.symm)
  exact ⟨X, Y, Z, e1, e3, e2, this ▸ e4⟩

/-- C70: `A(B + C) = AB + AC`. -/
theorem C70_mxm_distributes_left (hs : Spec.Semiring add mult) {A : Operand α} {B C : Operand α} {S AB AC L R : Lil α}
    (hA : A.Of m k) (hB : B.Of k n) (hC : C.Of k n) (h1 : S.Of k n) (h2 : AB.Of m n) (h3 : AC.Of m n)
    (h4 : L.Of m n) (h5 : R.Of m n) (hcomm : A.isTr → B.isTr ∨ C.isTr → ∀ a b, mult a b = mult b a) :
    ∃ s x y z, S.into o1 (.eWiseAdd (EW.of add) B C) = .done s ∧ L.into o1 (.mxm (SR.of add mult) id A (.plain s)) = .done z ∧
      AB.into o2 (.mxm (SR.of add mult) id A B) = .done x ∧ AC.into o3 (.mxm (SR.of add mult) id A C) = .done y ∧
      R.into o4 (.eWiseAdd (EW.of add) (.plain x) (.plain y)) = .done z := by
  obtain ⟨s, e1, i1⟩ := into_eWiseAdd (outp := o1) (add := add) h1 hB hC
  obtain ⟨z, e2, i2⟩ := into_mxm (outp := o1) (add := add) (mult := mult) h4 hA i1.toOf.plain fun _ x => absurd x (by simp [Operand.isTr])
  obtain ⟨x, e3, i3⟩ := into_mxm (outp := o2) (add := add) h2 hA hB fun x y => hcomm x (.inl y)
  obtain ⟨y, e4, i4⟩ := into_mxm (outp := o3) (add := add) h3 hA hC fun x y => hcomm x (.inr y)
  obtain ⟨w, e5, i5⟩ := into_eWiseAdd (outp := o4) (add := add) h5 i3.toOf.plain i4.toOf.plain
  have : z = w := by
    refine i2.unique i5 fun i j hi hj => ?_
    show _ = oadd add (x.get i j) (y.get i j)
    rw [i3.get i j hi hj, i4.get i j hi hj, ← osumN_oadd hs.add_assoc hs.add_comm]
    refine osumN_congr fun a ha => ?_
    show both mult _ (s.get a j) = _
    rw [i1.get a j ha hj, both_oadd hs.left]
  exact ⟨s, x, y, z, e1, e2, e3, e4, this ▸ e5⟩

/-- C70: `(A + B)C = AC + BC`. -/
theorem C70_mxm_distributes_right (hs : Spec.Semiring add mult) {A B C : Operand α} {S AC BC L R : Lil α}
    (hA : A.Of m k) (hB : B.Of m k) (hC : C.Of k n) (h1 : S.Of m k) (h2 : AC.Of m n) (h3 : BC.Of m n)
    (h4 : L.Of m n) (h5 : R.Of m n) (hcomm : A.isTr ∨ B.isTr → C.isTr → ∀ a b, mult a b = mult b a) :
    ∃ s x y z, S.into o1 (.eWiseAdd (EW.of add) A B) = .done s ∧ L.into o1 (.mxm (SR.of add mult) id (.plain s) C) = .done z ∧
      AC.into o2 (.mxm (SR.of add mult) id A C) = .done x ∧ BC.into o3 (.mxm (SR.of add mult) id B C) = .done y ∧
      R.into o4 (.eWiseAdd (EW.of add) (.plain x) (.plain y)) = .done z := by
  obtain ⟨s, e1, i1⟩ := into_eWiseAdd (outp := o1) (add := add) h1 hA hB
  obtain ⟨z, e2, i2⟩ := into_mxm (outp := o1) (add := add) (mult := mult) h4 i1.toOf.plain hC fun x => absurd x (by simp [Operand.isTr])
  obtain ⟨x, e3, i3⟩ := into_mxm (outp := o2) (add := add) h2 hA hC fun x y => hcomm (.inl x) y
  obtain ⟨y, e4, i4⟩ := into_mxm (outp := o3) (add := add) h3 hB hC fun x y => hcomm (.inr x) y
  obtain ⟨w, e5, i5⟩ := into_eWiseAdd (outp := o4) (add := add) h5 i3.toOf.plain i4.toOf.plain
  have : z = w := by
    refine i2.unique i5 fun i j hi hj => ?_
    show _ = oadd add (x.get i j) (y.get i j)
    rw [i3.get i j hi hj, i4.get i j hi hj, ← osumN_oadd hs.add_assoc hs.add_comm]
    refine osumN_congr fun a ha => ?_
    show both mult (s.get i a) _ = _
    rw [i1.get i a hi ha, oadd_both hs.right]
  exact ⟨s, x, y, z, e1, e2, e3, e4, this ▸ e5⟩

/-- C70: the transpose of a product is the product of the transposes in the opposite
order, whether views of the operands are multiplied or transposed copies; no law of the
addition is needed, because both sides add the same terms in the same order. -/
theorem C70_transpose_of_product (hc : ∀ a b, mult a b = mult b a) {A B AB AT BT T L R : Lil α}
    (hA : A.Of m k) (hB : B.Of k n) (h1 : AB.Of m n) (h2 : T.Of n m) (h3 : L.Of n m) (h4 : AT.Of k m) (h5 : BT.Of n k)
    (h6 : R.Of n m) :
    ∃ x a b z, AB.into o1 (.mxm (SR.of add mult) id (.plain A) (.plain B)) = .done x ∧ T.into o2 (.transpose (.plain x)) = .done z ∧
      L.into o3 (.mxm (SR.of add mult) id (.tr B) (.tr A)) = .done z ∧
      AT.into o4 (.transpose (.plain A)) = .done a ∧ BT.into o4 (.transpose (.plain B)) = .done b ∧
      R.into o4 (.mxm (SR.of add mult) id (.plain b) (.plain a)) = .done z := by
  obtain ⟨x, e1, i1⟩ := into_mxm (outp := o1) (add := add) (mult := mult) h1 hA.plain hB.plain fun _ _ => hc
  obtain ⟨z, e2, i2⟩ := into_transpose (outp := o2) h2 i1.toOf.plain
  obtain ⟨y, e3, i3⟩ := into_mxm (outp := o3) (add := add) (mult := mult) h3 hB.tr hA.tr fun _ _ => hc
  obtain ⟨a, e4, i4⟩ := into_transpose (outp := o4) h4 hA.plain
  obtain ⟨b, e5, i5⟩ := into_transpose (outp := o4) h5 hB.plain
  obtain ⟨w, e6, i6⟩ := into_mxm (outp := o4) (add := add) (mult := mult) h6 i5.toOf.plain i4.toOf.plain fun _ _ => hc
  have zy : z = y := by
    refine i2.unique i3 fun i j hi hj => ?_
    show x.get j i = _
    rw [i1.get j i hj hi]
    exact osumN_congr fun q _ => both_comm hc _ _
  have zw : z = w := by
    refine i2.unique i6 fun i j hi hj => ?_
    show x.get j i = _
    rw [i1.get j i hj hi]
    refine osumN_congr fun q hq => ?_
    show _ = both mult (b.get i q) (a.get q j)
    rw [i5.get i q hi hq, i4.get q j hq hj]
    exact both_comm hc _ _
  exact ⟨x, a, b, z, e1, e2, zy ▸ e3, e4, e5, zw ▸ e6⟩

/-- C70: `(AB)u = A(Bu)`. -/
theorem C70_mxv_of_product (hs : Spec.Semiring add mult) {A B : Operand α} {AB : Lil α} {u b l r : BVec α}
    (hA : A.Of m k) (hB : B.Of k n) (hu : u.Of n) (h1 : AB.Of m n) (h2 : b.Of k) (h3 : l.Of m) (h4 : r.Of m)
    (hcomm : A.isTr ∨ B.isTr → ∀ a b, mult a b = mult b a) :
    ∃ X y z w, AB.into o1 (.mxm (SR.of add mult) id A B) = .done X ∧ l.into o2 (.mxv (SR.of add mult) (.plain X) u) = .done z ∧
      b.into o3 (.mxv (SR.of add mult) B u) = .done y ∧ r.into o4 (.mxv (SR.of add mult) A y) = .done w ∧ z.Same w := by
  obtain ⟨X, e1, i1⟩ := into_mxm (outp := o1) (add := add) h1 hA hB fun x _ => hcomm (.inl x)
  obtain ⟨z, e2, i2⟩ := into_mxv (outp := o2) (add := add) (mult := mult) h3 i1.toOf.plain hu fun x => absurd x (by simp [Operand.isTr])
  obtain ⟨y, e3, i3⟩ := into_mxv (outp := o3) (add := add) h2 hB hu fun x => hcomm (.inr x)
  obtain ⟨w, e4, i4⟩ := into_mxv (outp := o4) (add := add) h4 hA i3.toOf fun x => hcomm (.inl x)
  refine ⟨X, y, z, w, e1, e2, e3, e4, i2.same i4 fun i hi => ?_⟩
  have ex : osumN add n (fun j => both mult (X.get i j) (u.get j)) =
      osumN add n fun j => osumN add k fun q => both mult (A.get i q) (both mult (B.get q j) (u.get j)) :=
    osumN_congr fun j hj => by
      rw [i1.get i j hi hj, osumN_both hs.right]
      exact osumN_congr fun y _ => both_assoc hs.mult_assoc _ _ _
  have ey : osumN add k (fun q => both mult (A.get i q) (y.get q)) =
      osumN add k fun q => osumN add n fun j => both mult (A.get i q) (both mult (B.get q j) (u.get j)) :=
    osumN_congr fun q hq => by rw [i3.get q hq, both_osumN hs.left]
  exact ex.trans ((osumN_swap hs.add_assoc hs.add_comm n k _).trans ey.symm)

/-- C70: `u(AB) = (uA)B`. -/
theorem C70_vxm_of_product (hs : Spec.Semiring add mult) {A B : Operand α} {AB : Lil α} {u a l r : BVec α}
    (hu : u.Of m) (hA : A.Of m k) (hB : B.Of k n) (h1 : AB.Of m n) (h2 : a.Of k) (h3 : l.Of n) (h4 : r.Of n)
    (hcomm : A.isTr → B.isTr → ∀ a b, mult a b = mult b a) :
    ∃ X y z w, AB.into o1 (.mxm (SR.of add mult) id A B) = .done X ∧ l.into o2 (.vxm (SR.of add mult) u (.plain X)) = .done z ∧
      a.into o3 (.vxm (SR.of add mult) u A) = .done y ∧ r.into o4 (.vxm (SR.of add mult) y B) = .done w ∧ z.Same w := by
  obtain ⟨X, e1, i1⟩ := into_mxm (outp := o1) (add := add) h1 hA hB hcomm
  obtain ⟨z, e2, i2⟩ := into_vxm (outp := o2) (add := add) (mult := mult) h3 hu i1.toOf.plain
  obtain ⟨y, e3, i3⟩ := into_vxm (outp := o3) (add := add) (mult := mult) h2 hu hA
  obtain ⟨w, e4, i4⟩ := into_vxm (outp := o4) (add := add) (mult := mult) h4 i3.toOf hB
  refine ⟨X, y, z, w, e1, e2, e3, e4, i2.same i4 fun j hj => ?_⟩
  have ex : osumN add m (fun i => both mult (u.get i) (X.get i j)) =
      osumN add m fun i => osumN add k fun q => both mult (both mult (u.get i) (A.get i q)) (B.get q j) :=
    osumN_congr fun i hi => by
      rw [i1.get i j hi hj, both_osumN hs.left]
      exact osumN_congr fun y _ => (both_assoc hs.mult_assoc _ _ _).symm
  have ey : osumN add k (fun q => both mult (y.get q) (B.get q j)) =
      osumN add k fun q => osumN add m fun i => both mult (both mult (u.get i) (A.get i q)) (B.get q j) :=
    osumN_congr fun q hq => by rw [i3.get q hq, osumN_both hs.right]
  exact ex.trans ((osumN_swap hs.add_assoc hs.add_comm m k _).trans ey.symm)

/-- C70: `Au = uAᵀ` for a commutative product, with `A` itself a matrix or a transposed
view. -/
theorem C70_mxv_is_vxm (hc : ∀ a b, mult a b = mult b a) {A : Lil α} {u w v : BVec α} (hA : A.Of m n) (hu : u.Of n)
    (hw : w.Of m) (hv : v.Of m) :
    ∃ x y, w.into o1 (.mxv (SR.of add mult) (.plain A) u) = .done x ∧ v.into o2 (.vxm (SR.of add mult) u (.tr A)) = .done y ∧
      x.Same y := by
  obtain ⟨x, e1, i1⟩ := into_mxv (outp := o1) (add := add) (mult := mult) hw hA.plain hu fun _ => hc
  obtain ⟨y, e2, i2⟩ := into_vxm (outp := o2) (add := add) (mult := mult) hv hu hA.tr
  exact ⟨x, y, e1, e2, i1.same i2 fun i hi => osumN_congr fun j _ => both_comm hc _ _⟩

theorem C70_mxv_is_vxm_view (hc : ∀ a b, mult a b = mult b a) {A : Lil α} {u w v : BVec α} (hA : A.Of m n) (hu : u.Of m)
    (hw : w.Of n) (hv : v.Of n) :
    ∃ x y, w.into o1 (.mxv (SR.of add mult) (.tr A) u) = .done x ∧ v.into o2 (.vxm (SR.of add mult) u (.plain A)) = .done y ∧
      x.Same y := by
  obtain ⟨x, e1, i1⟩ := into_mxv (outp := o1) (add := add) (mult := mult) hw hA.tr hu fun _ => hc
  obtain ⟨y, e2, i2⟩ := into_vxm (outp := o2) (add := add) (mult := mult) hv hu hA.plain
  exact ⟨x, y, e1, e2, i1.same i2 fun i hi => osumN_congr fun j _ => both_comm hc _ _⟩

/-- C70: column `j` of `AB` is `A` times column `j` of `B`. No law is needed. -/
theorem C70_column_of_product {A B : Operand α} {AB : Lil α} {b c w : BVec α} {j : Nat} (hA : A.Of m k) (hB : B.Of k n)
    (h1 : AB.Of m n) (h2 : b.Of k) (h3 : c.Of m) (h4 : w.Of m) (hj : j < n)
    (hcomm : A.isTr → ∀ a b, mult a b = mult b a) :
    ∃ X x y z, AB.into o1 (.mxm (SR.of add mult) id A B) = .done X ∧ c.into o2 (.extractCol (.plain X) .all j) = .done x ∧
      b.into o3 (.extractCol B .all j) = .done y ∧ w.into o4 (.mxv (SR.of add mult) A y) = .done z ∧ x.Same z := by
  obtain ⟨X, e1, i1⟩ := into_mxm (outp := o1) (add := add) h1 hA hB fun x _ => hcomm x
  obtain ⟨x, e2, i2⟩ := into_extractCol (outp := o2) (ri := .all) h3 i1.toOf.plain rfl trivial hj
  obtain ⟨y, e3, i3⟩ := into_extractCol (outp := o3) (ri := .all) h2 hB rfl trivial hj
  obtain ⟨z, e4, i4⟩ := into_mxv (outp := o4) (add := add) h4 hA i3.toOf hcomm
  refine ⟨X, x, y, z, e1, e2, e3, e4, i2.same i4 fun i hi => ?_⟩
  have hx : ∀ (r : Nat) (f : Spec.Vec α) (i : Nat), i < r → Spec.extract r none f i = f i := by
    intro r f i hi
    simp [Spec.extract, Spec.nth, hi]
  show Spec.extract m none (fun i => X.get i j) i = _
  rw [hx m _ i hi, i1.get i j hi hj]
  refine osumN_congr fun q hq => ?_
  rw [i3.get q hq]
  exact congrArg _ (hx k (fun i => B.get i j) q hq).symm

/-- C70: `scaled_identity(n, e)` is a unit of the product on both sides if `e` is one of
the multiplication. -/
theorem C70_identity_left {A : Operand α} {C : Lil α} {e : α} (he : ∀ x, mult e x = x) (hA : A.Of m n) (hC : C.Of m n) :
    ∃ I Z, scaledIdentity m e = .ok I ∧ C.into o1 (.mxm (SR.of add mult) id (.plain I) A) = .done Z ∧
      Z.Of m n ∧ ∀ i j, i < m → j < n → Z.get i j = A.get i j := by
  obtain ⟨I, e1, w, r, c, g⟩ := C41_scaled_identity m e
  obtain ⟨Z, e2, i2⟩ := into_mxm (outp := o1) (add := add) (mult := mult) hC (Lil.Of.plain ⟨w, r, c⟩) hA
    fun x => absurd x (by simp [Operand.isTr])
  refine ⟨I, Z, e1, e2, i2.toOf, fun i j hi hj => ?_⟩
  rw [i2.get i j hi hj, osumN_single (i := i) hi]
  · show both mult (I.get i i) _ = _
    rw [g, if_pos ⟨rfl, hi⟩]
    cases A.get i j <;> simp [both, he]
  · intro q hq hqi
    show both mult (I.get i q) _ = _
    rw [g, if_neg (fun h => hqi h.1.symm)]
    rfl

theorem C70_identity_right {A : Operand α} {C : Lil α} {e : α} (he : ∀ x, mult x e = x) (hA : A.Of m n) (hC : C.Of m n) :
    ∃ I Z, scaledIdentity n e = .ok I ∧ C.into o1 (.mxm (SR.of add mult) id A (.plain I)) = .done Z ∧
      Z.Of m n ∧ ∀ i j, i < m → j < n → Z.get i j = A.get i j := by
  obtain ⟨I, e1, w, r, c, g⟩ := C41_scaled_identity n e
  obtain ⟨Z, e2, i2⟩ := into_mxm (outp := o1) (add := add) (mult := mult) hC hA (Lil.Of.plain ⟨w, r, c⟩)
    fun _ x => absurd x (by simp [Operand.isTr])
  refine ⟨I, Z, e1, e2, i2.toOf, fun i j hi hj => ?_⟩
  rw [i2.get i j hi hj, osumN_single (i := j) hj]
  · show both mult _ (I.get j j) = _
    rw [g, if_pos ⟨rfl, hj⟩]
    cases A.get i j <;> simp [both, he]
  · intro q hq hqi
    show both mult _ (I.get q j) = _
    rw [g, if_neg (fun h => hqi h.1)]
    cases A.get i q <;> rfl

/-- C70: reducing the rows of `A` is multiplying `A` by a vector full of units. -/
theorem C70_reduce_is_mxv {A : Operand α} {u w v : BVec α} {e : α} (he : ∀ x, mult x e = x) (hA : A.Of m n)
    (hu : u.Of n) (hfull : ∀ i, i < n → u.get i = some e) (hw : w.Of m) (hv : v.Of m)
    (hcomm : A.isTr → ∀ a b, mult a b = mult b a) :
    ∃ x y, w.into o1 (.reduce (.of add id) A) = .done x ∧ v.into o2 (.mxv (SR.of add mult) A u) = .done y ∧ x.Same y := by
  obtain ⟨x, e1, i1⟩ := into_reduce (outp := o1) (f := add) hw hA
  obtain ⟨y, e2, i2⟩ := into_mxv (outp := o2) (add := add) hv hA hu hcomm
  refine ⟨x, y, e1, e2, i1.same i2 fun i hi => osumN_congr fun j hj => ?_⟩
  rw [hfull j hj]
  cases A.get i j <;> simp [both, he]

/-- C70: `A(u + v) = Au + Av`. -/
theorem C70_mxv_linear (hs : Spec.Semiring add mult) {A : Operand α} {u v s x y l r : BVec α} (hA : A.Of m n) (hu : u.Of n)
    (hv : v.Of n) (h1 : s.Of n) (h2 : x.Of m) (h3 : y.Of m) (h4 : l.Of m) (h5 : r.Of m)
    (hcomm : A.isTr → ∀ a b, mult a b = mult b a) :
    ∃ s' x' y' z w, s.into o1 (.eWiseAdd (EW.of add) u v) = .done s' ∧ l.into o1 (.mxv (SR.of add mult) A s') = .done z ∧
      x.into o2 (.mxv (SR.of add mult) A u) = .done x' ∧ y.into o3 (.mxv (SR.of add mult) A v) = .done y' ∧
      r.into o4 (.eWiseAdd (EW.of add) x' y') = .done w ∧ z.Same w := by
  obtain ⟨s', e1, i1⟩ := into_eWiseAddV (outp := o1) (add := add) h1 hu hv
  obtain ⟨z, e2, i2⟩ := into_mxv (outp := o1) (add := add) h4 hA i1.toOf hcomm
  obtain ⟨x', e3, i3⟩ := into_mxv (outp := o2) (add := add) h2 hA hu hcomm
  obtain ⟨y', e4, i4⟩ := into_mxv (outp := o3) (add := add) h3 hA hv hcomm
  obtain ⟨w, e5, i5⟩ := into_eWiseAddV (outp := o4) (add := add) h5 i3.toOf i4.toOf
  refine ⟨s', x', y', z, w, e1, e2, e3, e4, e5, i2.same i5 fun i hi => ?_⟩
  rw [i3.get i hi, i4.get i hi, ← osumN_oadd hs.add_assoc hs.add_comm]
  refine osumN_congr fun j hj => ?_
  rw [i1.get j hj, both_oadd hs.left]

/-! ### Instances -/

namespace LawEx
def A : Lil Nat := ⟨2, 2, 3, [[(0, 1), (1, 2)], [(1, 3)]]⟩
def B : Lil Nat := ⟨2, 3, 3, [[(1, 4)], [(0, 5), (2, 6)]]⟩
def C : Lil Nat := ⟨3, 2, 3, [[(0, 1)], [(0, 7)], [(1, 2)]]⟩
def u : BVec Nat := ⟨3, 2, [2, 0, 3], [true, false, true]⟩
def w2 : BVec Nat := ⟨2, 1, [0, 8], [false, true]⟩
def full : BVec Nat := ⟨2, 2, [1, 1], [true, true]⟩
theorem hA : A.Of 2 2 := Lil.of_check (by decide)
theorem hB : B.Of 2 3 := Lil.of_check (by decide)
theorem hC : C.Of 3 2 := Lil.of_check (by decide)
theorem hu : u.Of 3 := ⟨⟨rfl, rfl, rfl⟩, rfl⟩
theorem hw2 : w2.Of 2 := ⟨⟨rfl, rfl, rfl⟩, rfl⟩
theorem hfull : full.Of 2 := ⟨⟨rfl, rfl, rfl⟩, rfl⟩
theorem nat : Spec.Semiring (α := Nat) (· + ·) (· * ·) :=
  ⟨Nat.add_assoc, Nat.add_comm, Nat.mul_assoc, Nat.mul_add, Nat.add_mul⟩
abbrev sr : SR Nat Nat Nat := SR.of (· + ·) (· * ·)
end LawEx
open LawEx in
/-- The hypotheses hold of small matrices, and the two sides are what the calls give. -/
example : Spec.Semiring (α := Nat) (· + ·) (· * ·) ∧ A.Of 2 2 ∧ B.Of 2 3 ∧ C.Of 3 2 ∧ u.Of 3 ∧
    B.into .merge (.mxm sr id (.plain A) (.plain B)) = .done ⟨2, 3, 5, [[(0, 10), (1, 4), (2, 12)], [(0, 15), (2, 18)]]⟩ ∧
    A.into .merge (.mxm sr id (.plain ⟨2, 3, 5, [[(0, 10), (1, 4), (2, 12)], [(0, 15), (2, 18)]]⟩) (.plain C))
      = .done ⟨2, 2, 4, [[(0, 38), (1, 24)], [(0, 15), (1, 36)]]⟩ ∧
    A.into .replace (.mxm sr id (.plain B) (.plain C)) = .done ⟨2, 2, 3, [[(0, 28)], [(0, 5), (1, 12)]]⟩ ∧
    A.into .replace (.mxm sr id (.plain A) (.plain ⟨2, 2, 3, [[(0, 28)], [(0, 5), (1, 12)]]⟩))
      = .done ⟨2, 2, 4, [[(0, 38), (1, 24)], [(0, 15), (1, 36)]]⟩ ∧
    w2.into .merge (.mxv sr (.plain B) u) = .done ⟨2, 1, [0, 28], [false, true]⟩ ∧
    full.into .merge (.reduce (.of (· + ·) id) (.plain A)) = .done ⟨2, 2, [3, 3], [true, true]⟩ ∧
    full.into .merge (.mxv sr (.plain A) full) = .done ⟨2, 2, [3, 3], [true, true]⟩ :=
  ⟨nat, hA, hB, hC, hu, by decide +kernel, by decide +kernel, by decide +kernel, by decide +kernel, by decide +kernel,
    by decide +kernel, by decide +kernel⟩

/-- The hypotheses are needed: `MinPlusSemiring<uint8_t>` wraps around, and does not
give associative products. -/
theorem C70_min_plus_wrong :
    (∀ x y, ITy.u8.Has x → ITy.u8.Has y →
      Semi.minPlus.add .u8 x y = .ok (min x y) ∧ Semi.minPlus.mult .u8 .u8 .u8 x y = .ok (ITy.u8.conv (x + y))) ∧
    ∃ A B C X Y Z W : Lil Int, A.Of 1 1 ∧ B.Of 1 2 ∧ C.Of 2 1 ∧
      (∀ i j x, A.get i j = some x ∨ B.get i j = some x ∨ C.get i j = some x → ITy.u8.Has x) ∧
      B.into .merge (.mxm (SR.of min fun x y => ITy.u8.conv (x + y)) id (.plain A) (.plain B)) = .done X ∧
      A.into .merge (.mxm (SR.of min fun x y => ITy.u8.conv (x + y)) id (.plain X) (.plain C)) = .done Z ∧
      A.into .merge (.mxm (SR.of min fun x y => ITy.u8.conv (x + y)) id (.plain B) (.plain C)) = .done Y ∧
      A.into .merge (.mxm (SR.of min fun x y => ITy.u8.conv (x + y)) id (.plain A) (.plain Y)) = .done W ∧
      Z ≠ W := by
  constructor
  · intro x y hx hy
    exact ⟨(run_min hx hy).1, plus_total (by decide) (by decide) hx hy⟩
  · refine ⟨⟨1, 1, 1, [[(0, 10)]]⟩, ⟨1, 2, 2, [[(0, 250), (1, 5)]]⟩, ⟨2, 1, 2, [[(0, 0)], [(0, 0)]]⟩,
      ⟨1, 2, 2, [[(0, 4), (1, 15)]]⟩, ⟨1, 1, 1, [[(0, 5)]]⟩, ⟨1, 1, 1, [[(0, 4)]]⟩, ⟨1, 1, 1, [[(0, 15)]]⟩,
      Lil.of_check (by decide), Lil.of_check (by decide), Lil.of_check (by decide), ?_, by decide +kernel,
      by decide +kernel, by decide +kernel, by decide +kernel, by decide⟩
    have mem : ∀ (M : Lil Int), (∀ r ∈ M.rows, ∀ p ∈ r, ITy.u8.Has p.2) → ∀ i j x, M.get i j = some x → ITy.u8.Has x := by
      intro M hM i j x hx
      rw [Lil.get, Lil.rowD] at hx
      cases hr : M.rows[i]? with
      | none => rw [hr] at hx; cases hx
      | some r =>
        rw [hr] at hx
        exact hM r (List.mem_of_getElem? hr) (j, x) (Row.mem_of_get hx)
    intro i j x h
    rcases h with h | h | h <;> refine mem _ ?_ i j x h <;> decide

/-! ### Which predefined semirings these laws cover -/

/-- The values of a scalar type. -/
abbrev ITy.Val (t : ITy) := { x : Int // t.Has x }

/-- `add` and `mult` are what a predefined semiring computes on a scalar type. -/
def Semi.Computes (s : Semi) (t : ITy) (add mult : t.Val → t.Val → t.Val) : Prop :=
  ∀ x y : t.Val, s.add t x.1 y.1 = .ok (add x y).1 ∧ s.mult t t t x.1 y.1 = .ok (mult x y).1

theorem semi_total {s : Semi} {t : ITy} {e : Int} (ha : Lawful t (s.add t) e)
    (hm : ∀ x y, t.Has x → t.Has y → ∃ z, s.mult t t t x y = .ok z ∧ t.Has z)
    (hma : ∀ x y z, t.Has x → t.Has y → t.Has z → (s.mult t t t x y >>= fun xy => s.mult t t t xy z) =
      (s.mult t t t y z >>= fun yz => s.mult t t t x yz))
    (hd : Distributes t (s.add t) (s.mult t t t)) :
    ∃ add mult, s.Computes t add mult ∧ Spec.Semiring add mult ∧
      ((∀ x y, t.Has x → t.Has y → s.mult t t t x y = s.mult t t t y x) → ∀ x y, mult x y = mult y x) := by
  let add : t.Val → t.Val → t.Val := fun x y => ⟨(ha.total x.1 y.1 x.2 y.2).choose, (ha.total x.1 y.1 x.2 y.2).choose_spec.2⟩
  let mult : t.Val → t.Val → t.Val := fun x y => ⟨(hm x.1 y.1 x.2 y.2).choose, (hm x.1 y.1 x.2 y.2).choose_spec.2⟩
  have A : ∀ x y : t.Val, s.add t x.1 y.1 = .ok (add x y).1 := fun x y => (ha.total x.1 y.1 x.2 y.2).choose_spec.1
  have M : ∀ x y : t.Val, s.mult t t t x.1 y.1 = .ok (mult x y).1 := fun x y => (hm x.1 y.1 x.2 y.2).choose_spec.1
  refine ⟨add, mult, fun x y => ⟨A x y, M x y⟩, ⟨?_, ?_, ?_, ?_, ?_⟩, ?_⟩
  · intro x y z
    have := ha.assoc x.1 y.1 z.1 x.2 y.2 z.2
    rw [A x y, A y z, ok_bind, ok_bind, A, A] at this
    exact Subtype.ext (ok_inj this)
  · intro x y
    have := ha.comm x.1 y.1 x.2 y.2
    rw [A x y, A y x] at this
    exact Subtype.ext (ok_inj this)
  · intro x y z
    have := hma x.1 y.1 z.1 x.2 y.2 z.2
    rw [M x y, M y z, ok_bind, ok_bind, M, M] at this
    exact Subtype.ext (ok_inj this)
  · intro x y z
    have := (hd x.1 y.1 z.1 x.2 y.2 z.2).1
    rw [A y z, M x y, M x z, ok_bind, ok_bind, ok_bind, M, A] at this
    exact Subtype.ext (ok_inj this)
  · intro x y z
    have := (hd z.1 x.1 y.1 z.2 x.2 y.2).2
    rw [A x y, M x z, M y z, ok_bind, ok_bind, ok_bind, M, A] at this
    exact Subtype.ext (ok_inj this)
  · intro h x y
    have := h x.1 y.1 x.2 y.2
    rw [M x y, M y x] at this
    exact Subtype.ext (ok_inj this)

/-- The predefined semirings that satisfy the laws, and on which scalar types. -/
def Semi.lawsOn : Semi → ITy → Prop
  | .minMax, _ | .maxMin, _ | .minFirst, _ | .minSecond, _ | .maxFirst, _ | .maxSecond, _ => True
  | .arithmetic, t => t ≠ .i32 ∧ t ≠ .i64 ∧ t ≠ .u16
  | .logical, t | .andOr, t | .xorAnd, t | .xnorOr, t => t = .bool
  | _, _ => False

/-- C70: these semirings satisfy the hypotheses of the laws, and all but the four with
`First` and `Second` have a commutative product. -/
theorem C70_predefined (s : Semi) (t : ITy) (h : s.lawsOn t) :
    ∃ add mult, s.Computes t add mult ∧ Spec.Semiring add mult ∧
      (s ≠ .minFirst → s ≠ .minSecond → s ≠ .maxFirst → s ≠ .maxSecond → ∀ x y, mult x y = mult y x) := by
  have key : ∀ {s : Semi} {e e' : Int}, Lawful t (s.add t) e → Lawful t (s.mult t t t) e' →
      Distributes t (s.add t) (s.mult t t t) →
      ∃ add mult, s.Computes t add mult ∧ Spec.Semiring add mult ∧ ∀ x y, mult x y = mult y x := by
    intro s e e' ha hm hd
    obtain ⟨a, b, h1, h2, h3⟩ := semi_total ha hm.total hm.assoc hd
    exact ⟨a, b, h1, h2, h3 hm.comm⟩
  have key2 : ∀ {s : Semi} {e e' : Int}, Lawful t (s.add t) e → Lawful t (s.mult t t t) e' →
      Distributes t (s.add t) (s.mult t t t) →
      ∃ add mult, s.Computes t add mult ∧ Spec.Semiring add mult ∧
        (s ≠ .minFirst → s ≠ .minSecond → s ≠ .maxFirst → s ≠ .maxSecond → ∀ x y, mult x y = mult y x) := by
    intro s e e' ha hm hd
    obtain ⟨a, b, h1, h2, h3⟩ := key ha hm hd
    exact ⟨a, b, h1, h2, fun _ _ _ _ => h3⟩
  have fst : ∀ x y, t.Has x → BOp.first.run t t t x y = .ok x := fun x y hx => by
    show Except.ok (t.conv x) = _
    rw [ITy.conv_id hx]
  have snd : ∀ x y, t.Has y → BOp.second.run t t t x y = .ok y := fun x y hy => by
    show Except.ok (t.conv y) = _
    rw [ITy.conv_id hy]
  have proj : ∀ {s : Semi} {e : Int}, Lawful t (s.add t) e → (∀ x, t.Has x → s.add t x x = .ok x) →
      (s.multOp = .first ∨ s.multOp = .second) → (s = .minFirst ∨ s = .minSecond ∨ s = .maxFirst ∨ s = .maxSecond) →
      ∃ add mult, s.Computes t add mult ∧ Spec.Semiring add mult ∧
        (s ≠ .minFirst → s ≠ .minSecond → s ≠ .maxFirst → s ≠ .maxSecond → ∀ x y, mult x y = mult y x) := by
    intro s e ha hi hp hn
    have hpp : (∀ x y, t.Has x → s.mult t t t x y = .ok x) ∨ (∀ x y, t.Has y → s.mult t t t x y = .ok y) := by
      rcases hp with hp | hp
      · left; intro x y hx; show s.multOp.run t t t x y = _; rw [hp]; exact fst x y hx
      · right; intro x y hy; show s.multOp.run t t t x y = _; rw [hp]; exact snd x y hy
    have : ∃ add mult, s.Computes t add mult ∧ Spec.Semiring add mult ∧
        ((∀ x y, t.Has x → t.Has y → s.mult t t t x y = s.mult t t t y x) → ∀ x y, mult x y = mult y x) := by
      rcases hpp with hp | hp
      · refine semi_total ha (fun x y hx _ => ⟨x, hp x y hx, hx⟩) ?_ ?_
        · intro x y z hx hy hz
          rw [hp x y hx, hp y z hy, ok_bind, ok_bind, hp x z hx, hp x y hx]
        · intro x y z hx hy hz
          obtain ⟨w, e1, hw⟩ := ha.total y z hy hz
          rw [e1, hp x y hx, hp x z hx, hp y x hy, hp z x hz]
          simp only [ok_bind]
          rw [hp x w hx, hp w x hw, hi x hx, e1]
          exact ⟨rfl, rfl⟩
      · refine semi_total ha (fun x y _ hy => ⟨y, hp x y hy, hy⟩) ?_ ?_
        · intro x y z hx hy hz
          rw [hp x y hy, hp y z hz, ok_bind, ok_bind, hp y z hz, hp x z hz]
        · intro x y z hx hy hz
          obtain ⟨w, e1, hw⟩ := ha.total y z hy hz
          rw [e1, hp x y hy, hp x z hz, hp y x hx, hp z x hx]
          simp only [ok_bind]
          rw [hp x w hw, hp w x hx, hi x hx, e1]
          exact ⟨rfl, rfl⟩
    obtain ⟨a, b, h1, h2, -⟩ := this
    refine ⟨a, b, h1, h2, fun n1 n2 n3 n4 => ?_⟩
    rcases hn with h | h | h | h
    · exact absurd h n1
    · exact absurd h n2
    · exact absurd h n3
    · exact absurd h n4
  have mm := C31_min_max t
  have imin : ∀ x, t.Has x → Mon.min.op t x x = .ok x := fun x hx => by
    show BOp.min.run t t t x x = _
    rw [(run_min hx hx).1]; simp
  have imax : ∀ x, t.Has x → Mon.max.op t x x = .ok x := fun x hx => by
    show BOp.max.run t t t x x = _
    rw [(run_max hx hx).1]; simp
  cases s <;> simp only [Semi.lawsOn] at h
  case arithmetic => exact key2 (s := .arithmetic) (C31_plus t h.1 h.2.1) (C31_times t h.1 h.2.1 h.2.2) (C44_arithmetic t h.1 h.2.1 h.2.2)
  case minMax => exact key2 (s := .minMax) mm.1 mm.2 (C44_min_max t).1
  case maxMin => exact key2 (s := .maxMin) mm.2 mm.1 (C44_min_max t).2
  case logical => subst h; exact key2 (s := .logical) (C31_logical .lor (by simp)) (C31_logical .land (by simp)) (C44_logical .logical (by simp))
  case andOr => subst h; exact key2 (s := .andOr) (C31_logical .land (by simp)) (C31_logical .lor (by simp)) (C44_logical .andOr (by simp))
  case xorAnd => subst h; exact key2 (s := .xorAnd) (C31_logical .lxor (by simp)) (C31_logical .land (by simp)) (C44_logical .xorAnd (by simp))
  case xnorOr => subst h; exact key2 (s := .xnorOr) (C31_logical .lxnor (by simp)) (C31_logical .lor (by simp)) (C44_logical .xnorOr (by simp))
  case minFirst => exact proj (s := .minFirst) mm.1 imin (.inl rfl) (by simp)
  case minSecond => exact proj (s := .minSecond) mm.1 imin (.inr rfl) (by simp)
  case maxFirst => exact proj (s := .maxFirst) mm.2 imax (.inl rfl) (by simp)
  case maxSecond => exact proj (s := .maxSecond) mm.2 imax (.inr rfl) (by simp)

end GBTL

import Verif.Spec.Related
import Verif.Props.Products
import Verif.Props.Elementwise
import Verif.Props.Select
import Verif.Props.AssignConst
import Verif.Lemmas.Laws
import Verif.Lemmas.BetweennessCalls
import Verif.Lemmas.OptDispatch
import Verif.Lemmas.Algo
/-
C108: calls take related arguments to related results.
-/
namespace GBTL
open Spec (Outp MaskKind Accum osum both either ofold)

variable {α α' β β' γ γ' τ τ' ζ ζ' μ μ' : Type} {R : α → α' → Prop} {Q : β → β' → Prop} {T : τ → τ' → Prop} {C : γ → γ' → Prop}
  {Z : ζ → ζ' → Prop}

namespace RelO

theorem map {f : α → τ} {f' : α' → τ'} (h : Rel1 R T f f') {a : Option α} {a' : Option α'} (ha : RelO R a a') :
    RelO T (a.map f) (a'.map f') := by
  cases a <;> cases a' <;> first | exact ha.elim | exact trivial | exact h _ _ ha

theorem both {f : α → β → τ} {f' : α' → β' → τ'} (h : Rel2 R Q T f f') {a : Option α} {a' : Option α'} {b : Option β} {b' : Option β'}
    (ha : RelO R a a') (hb : RelO Q b b') : RelO T (Spec.both f a b) (Spec.both f' a' b') := by
  cases a <;> cases a' <;> cases b <;> cases b' <;>
    first | exact ha.elim | exact hb.elim | exact trivial | exact h _ _ _ _ ha hb

theorem either {f : α → β → τ} {f' : α' → β' → τ'} {c : α → τ} {c' : α' → τ'} {d : β → τ} {d' : β' → τ'} (h : Rel2 R Q T f f')
    (hc : Rel1 R T c c') (hd : Rel1 Q T d d') {a : Option α} {a' : Option α'} {b : Option β} {b' : Option β'}
    (ha : RelO R a a') (hb : RelO Q b b') : RelO T (Spec.either f c d a b) (Spec.either f' c' d' a' b') := by
  cases a <;> cases a' <;> cases b <;> cases b' <;>
    first | exact ha.elim | exact hb.elim | exact trivial | exact h _ _ _ _ ha hb | exact hc _ _ ha | exact hd _ _ hb

theorem osum {add : τ → τ → τ} {add' : τ' → τ' → τ'} (h : Rel2 T T T add add') {κ : Type} (l : List κ) {f : κ → Option τ}
    {f' : κ → Option τ'} (hf : ∀ k ∈ l, RelO T (f k) (f' k)) : RelO T (Spec.osum add (l.map f)) (Spec.osum add' (l.map f')) := by
  unfold Spec.osum
  suffices H : ∀ a a', RelO T a a' → RelO T ((l.map f).foldl _ a) ((l.map f').foldl _ a') from H none none trivial
  induction l with
  | nil => exact fun _ _ h => h
  | cons k l ih =>
    intro a a' ha
    refine ih (fun k hk => hf k (List.mem_cons_of_mem _ hk)) _ _ ?_
    have hk := hf k List.mem_cons_self
    revert ha hk
    generalize f k = b
    generalize f' k = b'
    intro ha hb
    cases a <;> cases a' <;> cases b <;> cases b' <;>
      first | exact ha.elim | exact hb.elim | exact trivial | exact h _ _ _ _ ha hb | exact ha | exact hb

theorem ofold {first : α → τ} {first' : α' → τ'} {next : τ → α → τ} {next' : τ' → α' → τ'} (h1 : Rel1 R T first first')
    (h2 : Rel2 T R T next next') {κ : Type} (l : List κ) {f : κ → Option α} {f' : κ → Option α'} (hf : ∀ k ∈ l, RelO R (f k) (f' k)) :
    RelO T (Spec.ofold first next (l.map f)) (Spec.ofold first' next' (l.map f')) := by
  unfold Spec.ofold
  suffices H : ∀ a a', RelO T a a' → RelO T ((l.map f).foldl _ a) ((l.map f').foldl _ a') from H none none trivial
  induction l with
  | nil => exact fun _ _ h => h
  | cons k l ih =>
    intro a a' ha
    refine ih (fun k hk => hf k (List.mem_cons_of_mem _ hk)) _ _ ?_
    have hk := hf k List.mem_cons_self
    revert ha hk
    generalize f k = b
    generalize f' k = b'
    intro ha hb
    cases a <;> cases a' <;> cases b <;> cases b' <;>
      first | exact ha.elim | exact hb.elim | exact trivial | exact h2 _ _ _ _ ha hb | exact h1 _ _ hb | exact ha

theorem accum {acc : Accum γ τ ζ} {acc' : Accum γ' τ' ζ'} (h : AccRelated C T Z acc acc') {c : Option γ} {c' : Option γ'} {t : Option τ}
    {t' : Option τ'} (hc : RelO C c c') (ht : RelO T t t') : RelO Z (Spec.accum acc c t) (Spec.accum acc' c' t') := by
  cases h with
  | none h => exact map h ht
  | some h1 h2 h3 =>
    cases c <;> cases c' <;> cases t <;> cases t' <;>
      first | exact hc.elim | exact ht.elim | exact trivial | exact h1 _ _ _ _ hc ht | exact h2 _ _ hc | exact h3 _ _ ht

theorem assignAt {keep : γ → ζ} {keep' : γ' → ζ'} (hk : Rel1 C Z keep keep') {acc : Accum γ τ ζ} {acc' : Accum γ' τ' ζ'}
    (h : AccRelated C T Z acc acc') (sel : Bool) {c : Option γ} {c' : Option γ'} {t : Option τ} {t' : Option τ'} (hc : RelO C c c')
    (ht : RelO T t t') : RelO Z (Spec.assignAt keep acc sel c t) (Spec.assignAt keep' acc' sel c' t') := by
  unfold Spec.assignAt
  split
  · exact accum h hc ht
  · cases h with
    | none h => exact map hk hc
    | some h1 h2 h3 => exact map h2 hc

theorem write {f : ζ → γ} {f' : ζ' → γ'} (h : Rel1 Z C f f') (al : Bool) (outp : Outp) {c : Option γ} {c' : Option γ'} {z : Option ζ}
    {z' : Option ζ'} (hc : RelO C c c') (hz : RelO Z z z') : RelO C (Spec.write f al outp c z) (Spec.write f' al outp c' z') := by
  unfold Spec.write
  split
  · exact map h hz
  · cases outp
    · exact hc
    · exact trivial

theorem bind {κ : Type} {a : Option κ} {f : κ → Option α} {f' : κ → Option α'} (h : ∀ k, RelO R (f k) (f' k)) :
    RelO R (a.bind f) (a.bind f') := by
  cases a
  · exact trivial
  · exact h _

end RelO

theorem Operand.Related.facts {A : Operand α} {A' : Operand α'} (h : A.Related R A') :
    A.WF ∧ A'.WF ∧ A'.nrows = A.nrows ∧ A'.ncols = A.ncols ∧ ∀ i j, RelO R (A.get i j) (A'.get i j) := by
  cases h with
  | plain h => exact ⟨h.wf, h.wf', h.nrows, h.ncols, h.get⟩
  | tr h => exact ⟨h.wf, h.wf', h.ncols, h.nrows, fun i j => h.get j i⟩

variable {o : MOut γ τ ζ μ} {o' : MOut γ' τ' ζ' μ'} {v : VOut γ τ ζ μ} {v' : VOut γ' τ' ζ' μ'}

theorem MOut.Related.wfs (h : o.Related C T Z o') : o.WF ∧ o'.WF := ⟨⟨h.out.wf, h.mask⟩, ⟨h.out.wf', h.mask'⟩⟩
theorem VOut.Related.wfs (h : v.Related C T Z v') : v.WF ∧ v'.WF := ⟨⟨h.out.wf, h.mask⟩, ⟨h.out.wf', h.mask'⟩⟩

theorem MOut.Related.holds (h : o.Related C T Z o') {X : Spec.Mat ζ} {X' : Spec.Mat ζ'} (hX : ∀ i j, RelO Z (X i j) (X' i j)) {D : Lil γ}
    {D' : Lil γ'} (i1 : o.Holds X D) (i2 : o'.Holds X' D') : D.Related C D' := by
  refine ⟨i1.wf, i2.wf, i2.nrows.trans (h.out.nrows.trans i1.nrows.symm), i2.ncols.trans (h.out.ncols.trans i1.ncols.symm), fun i j => ?_⟩
  by_cases hr : i < o.C.nrows ∧ j < o.C.ncols
  · rw [i1.get i j hr.1 hr.2, i2.get i j (h.out.nrows ▸ hr.1) (h.out.ncols ▸ hr.2), h.allows, h.outp]
    exact RelO.write h.cast _ _ (h.out.get i j) (hX i j)
  · rw [Sh.out (r := o.C.nrows) (c := o.C.ncols) ⟨i1.wf, i1.nrows, i1.ncols⟩ hr,
      Sh.out (r := o.C.nrows) (c := o.C.ncols) ⟨i2.wf, i2.nrows.trans h.out.nrows, i2.ncols.trans h.out.ncols⟩ hr]
    exact trivial

theorem MOut.Related.yields (h : o.Related C T Z o') {X : Spec.Mat τ} {X' : Spec.Mat τ'} (hX : ∀ i j, RelO T (X i j) (X' i j)) {D : Lil γ}
    {D' : Lil γ'} (i1 : o.Yields X D) (i2 : o'.Yields X' D') : D.Related C D' :=
  h.holds (fun i j => RelO.accum h.acc (h.out.get i j) (hX i j)) i1 i2

theorem VOut.Related.holds (h : v.Related C T Z v') {X : Spec.Vec ζ} {X' : Spec.Vec ζ'} (hX : ∀ i, RelO Z (X i) (X' i)) {D : BVec γ}
    {D' : BVec γ'} (i1 : v.Holds X D) (i2 : v'.Holds X' D') : D.Related C D' := by
  refine ⟨i1.wf, i2.wf, i2.size.trans (h.out.size.trans i1.size.symm), fun i => ?_⟩
  by_cases hr : i < v.w.size
  · rw [i1.get i hr, i2.get i (h.out.size ▸ hr), h.allows, h.outp]
    exact RelO.write h.cast _ _ (h.out.get i) (hX i)
  · rw [i1.wf.get_none (by rw [i1.size]; omega), i2.wf.get_none (by rw [i2.size, h.out.size]; omega)]
    exact trivial

theorem VOut.Related.yields (h : v.Related C T Z v') {X : Spec.Vec τ} {X' : Spec.Vec τ'} (hX : ∀ i, RelO T (X i) (X' i)) {D : BVec γ}
    {D' : BVec γ'} (i1 : v.Yields X D) (i2 : v'.Yields X' D') : D.Related C D' :=
  h.holds (fun i => RelO.accum h.acc (h.out.get i) (hX i)) i1 i2

/-! ### The calls -/

/-- **C108** `mxm`, for every combination of transposed operands. -/
theorem C108_mxm {A : Operand α} {A' : Operand α'} {B : Operand β} {B' : Operand β'} {sr : SR α β τ} {sr' : SR α' β' τ'} {via : τ → τ}
    {via' : τ' → τ'} (h : o.Related C T Z o') (hA : A.Related R A') (hB : B.Related Q B') (hsr : sr.Related R Q T sr')
    (hvia : Rel1 T T via via') (hs : MxmShapes o A B) :
    ∃ D D', mxm o sr via A B = .done D ∧ mxm o' sr' via' A' B' = .done D' ∧ D.Related C D' := by
  obtain ⟨a1, a2, a3, a4, a5⟩ := hA.facts
  obtain ⟨b1, b2, b3, b4, b5⟩ := hB.facts
  have hs' : MxmShapes o' A' B' := ⟨h.fits', h.out.nrows.trans (hs.rows.trans a3.symm), h.out.ncols.trans (hs.cols.trans b4.symm),
    a4.trans (hs.inner.trans b3.symm)⟩
  by_cases hc : A.isTr ∧ B.isTr
  · cases hA with
    | plain _ => exact hc.1.elim
    | tr hA =>
      cases hB with
      | plain _ => exact hc.2.elim
      | tr hB =>
        obtain ⟨D, e, i⟩ := C10_mxm_ATBT_actual (sr := sr) (via := via) h.wfs.1 a1 b1 hs
        obtain ⟨D', e', i'⟩ := C10_mxm_ATBT_actual (sr := sr') (via := via') h.wfs.2 a2 b2 hs'
        refine ⟨D, D', e, e', h.yields (fun i j => RelO.map hvia ?_) i i'⟩
        rw [hA.nrows]
        exact RelO.osum hsr.add _ fun k _ => RelO.both (fun a a' b b' p q => hsr.swap b b' a a' q p) (a5 i k) (b5 k j)
  · obtain ⟨D, e, i⟩ := C10_mxm_transposed_partial (sr := sr) (via := via) h.wfs.1 a1 b1 hs fun x y => absurd ⟨x, y⟩ hc
    obtain ⟨D', e', i'⟩ := C10_mxm_transposed_partial (sr := sr') (via := via') h.wfs.2 a2 b2 hs' fun x y => by
      cases hA <;> cases hB <;> first | exact x.elim | exact y.elim | exact absurd ⟨trivial, trivial⟩ hc
    refine ⟨D, D', e, e', h.yields (fun i j => ?_) i i'⟩
    rw [a4]
    exact RelO.osum hsr.add _ fun k _ => RelO.both hsr.mult (a5 i k) (b5 k j)

/-- **C108** `vxm`. -/
theorem C108_vxm {u : BVec α} {u' : BVec α'} {B : Operand β} {B' : Operand β'} {sr : SR α β τ} {sr' : SR α' β' τ'}
    (h : v.Related C T Z v') (hu : u.Related R u') (hB : B.Related Q B') (hsr : sr.Related R Q T sr') (hs : VxmShapes v u B) :
    ∃ z z', vxm v sr u B = .done z ∧ vxm v' sr' u' B' = .done z' ∧ z.Related C z' := by
  obtain ⟨b1, b2, b3, b4, b5⟩ := hB.facts
  obtain ⟨D, e, i⟩ := C11_vxm (sr := sr) h.wfs.1 hu.wf b1 hs
  obtain ⟨D', e', i'⟩ := C11_vxm (sr := sr') h.wfs.2 hu.wf' b2 ⟨h.fits', h.out.size.trans (hs.out.trans b4.symm),
    hu.size.trans (hs.inner.trans b3.symm)⟩
  refine ⟨D, D', e, e', h.yields (fun j => ?_) i i'⟩
  rw [hu.size]
  exact RelO.osum hsr.add _ fun k _ => RelO.both hsr.mult (hu.get k) (b5 k j)

/-- **C108** `mxv`. -/
theorem C108_mxv {u : BVec β} {u' : BVec β'} {A : Operand α} {A' : Operand α'} {sr : SR α β τ} {sr' : SR α' β' τ'}
    (h : v.Related C T Z v') (hA : A.Related R A') (hu : u.Related Q u') (hsr : sr.Related R Q T sr') (hs : MxvShapes v A u) :
    ∃ z z', mxv v sr A u = .done z ∧ mxv v' sr' A' u' = .done z' ∧ z.Related C z' := by
  obtain ⟨a1, a2, a3, a4, a5⟩ := hA.facts
  have hs' : MxvShapes v' A' u' := ⟨h.fits', h.out.size.trans (hs.out.trans a3.symm), hu.size.trans (hs.inner.trans a4.symm)⟩
  cases hA with
  | plain hA =>
    obtain ⟨D, e, i⟩ := C12_mxv (sr := sr) h.wfs.1 hu.wf a1 hs
    obtain ⟨D', e', i'⟩ := C12_mxv (sr := sr') h.wfs.2 hu.wf' a2 hs'
    refine ⟨D, D', e, e', h.yields (fun i => ?_) i i'⟩
    rw [hA.ncols]
    exact RelO.osum hsr.add _ fun k _ => RelO.both hsr.mult (a5 i k) (hu.get k)
  | tr hA =>
    obtain ⟨D, e, i⟩ := C12_mxv_transposed_actual (sr := sr) h.wfs.1 hu.wf a1 hs
    obtain ⟨D', e', i'⟩ := C12_mxv_transposed_actual (sr := sr') h.wfs.2 hu.wf' a2 hs'
    refine ⟨D, D', e, e', h.yields (fun i => ?_) i i'⟩
    rw [hu.size]
    exact RelO.osum hsr.add _ fun k _ => RelO.both hsr.swap (hu.get k) (hA.get k i)

/-- **C108** `eWiseAdd` and `eWiseMult` of matrices. -/
theorem C108_eWise {A : Operand α} {A' : Operand α'} {B : Operand β} {B' : Operand β'} {f : EW α β τ} {f' : EW α' β' τ'}
    (h : o.Related C T Z o') (hA : A.Related R A') (hB : B.Related Q B') (hf : f.Related R Q T f') (hs : SameShape2 o A B) :
    (∃ D D', eWiseAddM o f A B = .done D ∧ eWiseAddM o' f' A' B' = .done D' ∧ D.Related C D') ∧
      ∃ D D', eWiseMultM o f A B = .done D ∧ eWiseMultM o' f' A' B' = .done D' ∧ D.Related C D' := by
  obtain ⟨a1, a2, a3, a4, a5⟩ := hA.facts
  obtain ⟨b1, b2, b3, b4, b5⟩ := hB.facts
  have hs' : SameShape2 o' A' B' := ⟨h.fits', h.out.ncols.trans (hs.cols.trans a4.symm), h.out.nrows.trans (hs.rows.trans a3.symm),
    a4.trans (hs.cols2.trans b4.symm), a3.trans (hs.rows2.trans b3.symm)⟩
  by_cases hc : ¬ A.isTr ∧ B.isTr
  · cases hA with
    | tr _ => exact absurd trivial hc.1
    | plain hA =>
      cases hB with
      | plain _ => exact hc.2.elim
      | tr hB =>
        constructor
        · obtain ⟨D, e, i⟩ := C13_eWiseAdd_ABT_actual (f := f) h.wfs.1 a1 b1 hs
          obtain ⟨D', e', i'⟩ := C13_eWiseAdd_ABT_actual (f := f') h.wfs.2 a2 b2 hs'
          exact ⟨D, D', e, e', h.yields (fun i j => RelO.either hf.opA hf.c1 hf.c2A (a5 i j) (RelO.map hf.castBA (b5 i j))) i i'⟩
        · obtain ⟨D, e, i⟩ := C14_eWiseMult_ABT_actual (f := f) h.wfs.1 a1 b1 hs
          obtain ⟨D', e', i'⟩ := C14_eWiseMult_ABT_actual (f := f') h.wfs.2 a2 b2 hs'
          exact ⟨D, D', e, e', h.yields (fun i j => RelO.both hf.opA (a5 i j) (RelO.map hf.castBA (b5 i j))) i i'⟩
  · have hc' : ¬ (¬ A'.isTr ∧ B'.isTr) := by cases hA <;> cases hB <;> exact hc
    constructor
    · obtain ⟨D, e, i⟩ := C13_eWiseAdd_matrix_partial (f := f) h.wfs.1 a1 b1 hs fun x y => absurd ⟨x, y⟩ hc
      obtain ⟨D', e', i'⟩ := C13_eWiseAdd_matrix_partial (f := f') h.wfs.2 a2 b2 hs' fun x y => absurd ⟨x, y⟩ hc'
      exact ⟨D, D', e, e', h.yields (fun i j => RelO.either hf.op hf.c1 hf.c2 (a5 i j) (b5 i j)) i i'⟩
    · obtain ⟨D, e, i⟩ := C14_eWiseMult_matrix_partial (f := f) h.wfs.1 a1 b1 hs fun x y => (absurd ⟨x, y⟩ hc)
      obtain ⟨D', e', i'⟩ := C14_eWiseMult_matrix_partial (f := f') h.wfs.2 a2 b2 hs' fun x y => (absurd ⟨x, y⟩ hc')
      exact ⟨D, D', e, e', h.yields (fun i j => RelO.both hf.op (a5 i j) (b5 i j)) i i'⟩

/-- **C108** `apply` to a matrix. -/
theorem C108_apply {A : Operand α} {A' : Operand α'} {f : α → τ} {f' : α' → τ'} (h : o.Related C T Z o') (hA : A.Related R A')
    (hf : Rel1 R T f f') (hs : SameShape o A) :
    ∃ D D', applyM o f A = .done D ∧ applyM o' f' A' = .done D' ∧ D.Related C D' := by
  obtain ⟨a1, a2, a3, a4, a5⟩ := hA.facts
  obtain ⟨D, e, i⟩ := C15_apply_matrix (f := f) h.wfs.1 a1 hs
  obtain ⟨D', e', i'⟩ := C15_apply_matrix (f := f') h.wfs.2 a2 ⟨h.fits', h.out.ncols.trans (hs.cols.trans a4.symm),
    h.out.nrows.trans (hs.rows.trans a3.symm)⟩
  exact ⟨D, D', e, e', h.yields (fun i j => RelO.map hf (a5 i j)) i i'⟩

/-- **C108** `reduce` to a vector. -/
theorem C108_reduce {A : Operand α} {A' : Operand α'} {f : τ → τ → τ} {f' : τ' → τ' → τ'} {c : α → τ} {c' : α' → τ'}
    (h : v.Related C T Z v') (hA : A.Related R A') (hf : Rel2 T T T f f') (hc : Rel1 R T c c') (hs : ReduceShapes v A) :
    ∃ z z', reduceMV v (.of f c) A = .done z ∧ reduceMV v' (.of f' c') A' = .done z' ∧ z.Related C z' := by
  obtain ⟨a1, a2, a3, a4, a5⟩ := hA.facts
  obtain ⟨D, e, i⟩ := C16_reduce_rows_op (f := f) (c := c) h.wfs.1 a1 hs
  obtain ⟨D', e', i'⟩ := C16_reduce_rows_op (f := f') (c := c') h.wfs.2 a2 ⟨h.fits', h.out.size.trans (hs.out.trans a3.symm)⟩
  refine ⟨D, D', e, e', h.yields (fun i => ?_) i i'⟩
  rw [a4]
  exact RelO.ofold hc (fun _ _ _ _ p q => hf _ _ _ _ p (hc _ _ q)) _ fun k _ => a5 i k

/-- **C108** `transpose`. -/
theorem C108_transpose {A : Operand τ} {A' : Operand τ'} (h : o.Related C T Z o') (hA : A.Related T A') (hs : TransposeShapes o A) :
    ∃ D D', transposeM o A = .done D ∧ transposeM o' A' = .done D' ∧ D.Related C D' := by
  obtain ⟨a1, a2, a3, a4, a5⟩ := hA.facts
  obtain ⟨D, e, i⟩ := C21_transpose h.wfs.1 a1 hs
  obtain ⟨D', e', i'⟩ := C21_transpose h.wfs.2 a2 ⟨h.fits', h.out.ncols.trans (hs.cols.trans a3.symm),
    a4.trans (hs.rows.trans h.out.nrows.symm)⟩
  exact ⟨D, D', e, e', h.yields (fun i j => a5 j i) i i'⟩

/-- **C108** `kronecker`, for results whose dimensions fit 64 bits. -/
theorem C108_kronecker_partial {A : Operand α} {A' : Operand α'} {B : Operand β} {B' : Operand β'} {f : α → β → τ} {f' : α' → β' → τ'}
    (h : o.Related C T Z o') (hA : A.Related R A') (hB : B.Related Q B') (hf : Rel2 R Q T f f') (hs : KronShapes o A B)
    (hr : o.C.nrows < 2 ^ 64) (hc : o.C.ncols < 2 ^ 64) :
    ∃ D D', kronecker o f A B = .done D ∧ kronecker o' f' A' B' = .done D' ∧ D.Related C D' := by
  obtain ⟨a1, a2, a3, a4, a5⟩ := hA.facts
  obtain ⟨b1, b2, b3, b4, b5⟩ := hB.facts
  obtain ⟨D, e, i⟩ := C22_kronecker_partial (f := f) h.wfs.1 a1 b1 hs hr hc
  obtain ⟨D', e', i'⟩ := C22_kronecker_partial (f := f') (A := A') (B := B') h.wfs.2 a2 b2
    ⟨h.fits', by rw [a4, b4, h.out.ncols]; exact hs.cols, by rw [a3, b3, h.out.nrows]; exact hs.rows⟩ (h.out.nrows ▸ hr) (h.out.ncols ▸ hc)
  refine ⟨D, D', e, e', h.yields (fun i j => ?_) i i'⟩
  rw [b3, b4]
  exact RelO.both hf (a5 _ _) (b5 _ _)

/-- **C108** `extract` of a matrix. -/
theorem C108_extract {A : Operand τ} {A' : Operand τ'} {ri ci : Idx} (h : o.Related C T Z o') (hA : A.Related T A')
    (h1 : ri.len o.C.nrows = o.C.nrows) (h2 : ci.len o.C.ncols = o.C.ncols) (hr : ri.below A.nrows) (hc : ci.below A.ncols) :
    ∃ D D', extractM o A ri ci = .done D ∧ extractM o' A' ri ci = .done D' ∧ D.Related C D' := by
  obtain ⟨a1, a2, a3, a4, a5⟩ := hA.facts
  obtain ⟨D, e, i⟩ := C18_extract_matrix h.wfs.1 a1 h.fits h1 h2 hr hc
  obtain ⟨D', e', i'⟩ := C18_extract_matrix (A := A') (ri := ri) (ci := ci) h.wfs.2 a2 h.fits' (h.out.nrows ▸ h1) (h.out.ncols ▸ h2)
    (a3 ▸ hr) (a4 ▸ hc)
  refine ⟨D, D', e, e', h.yields (fun i j => ?_) i i'⟩
  rw [a3, a4]
  exact RelO.bind fun r => RelO.bind fun c => a5 r c

/-- **C108** `assign` of a matrix. -/
theorem C108_assign {A : Operand τ} {A' : Operand τ'} {keep : γ → ζ} {keep' : γ' → ζ'} {ri ci : Idx} (h : o.Related C T Z o')
    (hA : A.Related T A') (hk : Rel1 C Z keep keep') (hlr : ri.len A.nrows = A.nrows) (hlc : ci.len A.ncols = A.ncols)
    (hr : ri.inside A.nrows o.C.nrows) (hc : ci.inside A.ncols o.C.ncols) (hrn : ri.nodup) (hcn : ci.nodup) :
    ∃ D D', assignM o keep A ri ci = .done D ∧ assignM o' keep' A' ri ci = .done D' ∧ D.Related C D' := by
  obtain ⟨a1, a2, a3, a4, a5⟩ := hA.facts
  obtain ⟨D, e, i⟩ := C19_assign_matrix (keep := keep) h.wfs.1 a1 h.fits hlr hlc hr hc hrn hcn
  obtain ⟨D', e', i'⟩ := C19_assign_matrix (keep := keep') (A := A') (ri := ri) (ci := ci) h.wfs.2 a2 h.fits' (a3 ▸ hlr) (a4 ▸ hlc)
    (by rw [a3, h.out.nrows]; exact hr) (by rw [a4, h.out.ncols]; exact hc) hrn hcn
  refine ⟨D, D', e, e', h.holds (fun i j => ?_) i i'⟩
  rw [a3, a4]
  exact RelO.assignAt hk h.acc _ (h.out.get i j) (RelO.bind fun r => RelO.bind fun c => a5 r c)

/-- **C108** `assign` of a constant to a matrix, to columns in ascending order. -/
theorem C108_assign_constant_partial {x : τ} {x' : τ'} {keep : γ → ζ} {keep' : γ' → ζ'} {ri ci : Idx} (h : o.Related C T Z o')
    (hx : T x x') (hk : Rel1 C Z keep keep') (hs : ConstMShapes o ri ci) (hs' : ConstMShapes o' ri ci) (hr : ri.below o.C.nrows)
    (hc : ci.below o.C.ncols) (ha : ci.ascending) :
    ∃ D D', assignConstM o keep x ri ci = .done D ∧ assignConstM o' keep' x' ri ci = .done D' ∧ D.Related C D' := by
  obtain ⟨D, e, i⟩ := C20_assign_const_matrix_partial (keep := keep) (x := x) h.wfs.1 hs hr hc ha
  obtain ⟨D', e', i'⟩ := C20_assign_const_matrix_partial (keep := keep') (x := x') h.wfs.2 hs' (h.out.nrows ▸ hr) (h.out.ncols ▸ hc) ha
  refine ⟨D, D', e, e', h.holds (fun i j => ?_) i i'⟩
  rw [h.out.nrows, h.out.ncols]
  refine RelO.assignAt hk h.acc _ (h.out.get i j) ?_
  split
  · exact hx
  · exact trivial

/-- **C108** `assign` of a constant under a mask, to rows and columns in any order. -/
theorem C108_assign_constant_masked {x : τ} {x' : τ'} {keep : γ → ζ} {keep' : γ' → ζ'} {ri ci : List Nat} (h : o.Related C T Z o')
    (hx : T x x') (hk : Rel1 C Z keep keep') (hs : ConstMShapes o (.list ri) (.list ci)) (hs' : ConstMShapes o' (.list ri) (.list ci))
    (hr : ∀ i ∈ ri, i < o.C.nrows) (hc : ∀ j ∈ ci, j < o.C.ncols) (hm : o.M ≠ none) (hm' : o'.M ≠ none) :
    ∃ D D', assignConstM o keep x (.list ri) (.list ci) = .done D ∧ assignConstM o' keep' x' (.list ri) (.list ci) = .done D' ∧
      D.Related C D' := by
  obtain ⟨D, e, i⟩ := C20_assign_const_matrix_masked (keep := keep) (x := x) h.wfs.1 hs hr hc hm
  obtain ⟨D', e', i'⟩ := C20_assign_const_matrix_masked (keep := keep') (x := x') h.wfs.2 hs' (h.out.nrows ▸ hr) (h.out.ncols ▸ hc) hm'
  refine ⟨D, D', e, e', h.holds (fun i j => RelO.assignAt hk h.acc _ (h.out.get i j) ?_) i i'⟩
  unfold Spec.leadConst
  split
  · split
    · exact hx
    · exact trivial
  · exact trivial

/-- **C108** `assign` of a constant to a vector, to indices in ascending order. -/
theorem C108_assign_constant_vector_partial {x : τ} {x' : τ'} {keep : γ → ζ} {keep' : γ' → ζ'} {ix : Idx} (h : v.Related C T Z v')
    (hx : T x x') (hk : Rel1 C Z keep keep') (hs : ConstVShapes v ix) (hs' : ConstVShapes v' ix) (hb : ix.below v.w.size)
    (ha : ix.ascending) :
    ∃ z z', assignConstV v keep x ix = .done z ∧ assignConstV v' keep' x' ix = .done z' ∧ z.Related C z' := by
  obtain ⟨D, e, i⟩ := C20_assign_const_vector_partial (keep := keep) (x := x) h.wfs.1 hs hb ha
  obtain ⟨D', e', i'⟩ := C20_assign_const_vector_partial (keep := keep') (x := x') h.wfs.2 hs' (h.out.size ▸ hb) ha
  refine ⟨D, D', e, e', h.holds (fun i => ?_) i i'⟩
  rw [h.out.size]
  refine RelO.assignAt hk h.acc _ (h.out.get i) ?_
  split
  · exact hx
  · exact trivial

/-- **C108** The operations on vectors. -/
theorem C108_vectors {u : BVec α} {u' : BVec α'} {x : BVec β} {x' : BVec β'} {f : EW α β τ} {f' : EW α' β' τ'} {g : α → τ} {g' : α' → τ'}
    (h : v.Related C T Z v') (hu : u.Related R u') (hx : x.Related Q x') (hf : f.Related R Q T f') (hg : Rel1 R T g g')
    (hs : SameSize2 v u x) :
    (∃ z z', eWiseAddV v f u x = .done z ∧ eWiseAddV v' f' u' x' = .done z' ∧ z.Related C z') ∧
    (∃ z z', eWiseMultV v f u x = .done z ∧ eWiseMultV v' f' u' x' = .done z' ∧ z.Related C z') ∧
      ∃ z z', applyV v g u = .done z ∧ applyV v' g' u' = .done z' ∧ z.Related C z' := by
  have hs' : SameSize2 v' u' x' := ⟨h.fits', h.out.size.trans (hs.size.trans hu.size.symm), hu.size.trans (hs.size2.trans hx.size.symm)⟩
  refine ⟨?_, ?_, ?_⟩
  · obtain ⟨D, e, i⟩ := C13_eWiseAdd_vector (f := f) h.wfs.1 hu.wf hx.wf hs
    obtain ⟨D', e', i'⟩ := C13_eWiseAdd_vector (f := f') h.wfs.2 hu.wf' hx.wf' hs'
    exact ⟨D, D', e, e', h.yields (fun i => RelO.either hf.op hf.c1 hf.c2 (hu.get i) (hx.get i)) i i'⟩
  · obtain ⟨D, e, i⟩ := C14_eWiseMult_vector (f := f) h.wfs.1 hu.wf hx.wf hs
    obtain ⟨D', e', i'⟩ := C14_eWiseMult_vector (f := f') h.wfs.2 hu.wf' hx.wf' hs'
    exact ⟨D, D', e, e', h.yields (fun i => RelO.both hf.op (hu.get i) (hx.get i)) i i'⟩
  · obtain ⟨D, e, i⟩ := C15_apply_vector (f := g) h.wfs.1 hu.wf ⟨hs.mask, hs.size⟩
    obtain ⟨D', e', i'⟩ := C15_apply_vector (f := g') h.wfs.2 hu.wf' ⟨hs'.mask, hs'.size⟩
    exact ⟨D, D', e, e', h.yields (fun i => RelO.map hg (hu.get i)) i i'⟩

theorem C108_extract_vector {u : BVec τ} {u' : BVec τ'} {ix : Idx} (h : v.Related C T Z v') (hu : u.Related T u')
    (hl : ix.len v.w.size = v.w.size) (hb : ix.below u.size) :
    ∃ z z', extractV v u ix = .done z ∧ extractV v' u' ix = .done z' ∧ z.Related C z' := by
  obtain ⟨D, e, i⟩ := C18_extract_vector h.wfs.1 hu.wf h.fits hl hb
  obtain ⟨D', e', i'⟩ := C18_extract_vector (u := u') (ix := ix) h.wfs.2 hu.wf' h.fits' (h.out.size ▸ hl) (hu.size ▸ hb)
  refine ⟨D, D', e, e', h.yields (fun i => ?_) i i'⟩
  rw [hu.size]
  exact RelO.bind hu.get

theorem C108_assign_vector {u : BVec τ} {u' : BVec τ'} {keep : γ → ζ} {keep' : γ' → ζ'} {ix : Idx} (h : v.Related C T Z v')
    (hu : u.Related T u') (hk : Rel1 C Z keep keep') (hl : ix.len u.size = u.size) (hi : ix.inside u.size v.w.size) (hn : ix.nodup) :
    ∃ z z', assignV v keep u ix = .done z ∧ assignV v' keep' u' ix = .done z' ∧ z.Related C z' := by
  obtain ⟨D, e, i⟩ := C19_assign_vector (keep := keep) h.wfs.1 hu.wf h.fits hl hi hn
  obtain ⟨D', e', i'⟩ := C19_assign_vector (keep := keep') (u := u') (ix := ix) h.wfs.2 hu.wf' h.fits' (hu.size ▸ hl)
    (by rw [hu.size, h.out.size]; exact hi) hn
  refine ⟨D, D', e, e', h.holds (fun i => ?_) i i'⟩
  rw [hu.size]
  exact RelO.assignAt hk h.acc _ (h.out.get i) (RelO.bind hu.get)

theorem C108_extract_column {A : Operand τ} {A' : Operand τ'} {ri : Idx} {j : Nat} (h : v.Related C T Z v') (hA : A.Related T A')
    (hl : ri.len v.w.size = v.w.size) (hr : ri.below A.nrows) (hj : j < A.ncols) :
    ∃ z z', extractC v A ri j = .done z ∧ extractC v' A' ri j = .done z' ∧ z.Related C z' := by
  obtain ⟨a1, a2, a3, a4, a5⟩ := hA.facts
  obtain ⟨D, e, i⟩ := C18_extract_column h.wfs.1 a1 h.fits hl hr hj
  obtain ⟨D', e', i'⟩ := C18_extract_column (A := A') (ri := ri) (j := j) h.wfs.2 a2 h.fits' (h.out.size ▸ hl) (a3 ▸ hr) (a4 ▸ hj)
  refine ⟨D, D', e, e', h.yields (fun i => ?_) i i'⟩
  rw [a3]
  exact RelO.bind fun r => a5 r j

/-! ### Consequences -/

/-- **C108, patterns.** Containers with elements at the same positions, whatever these are, have the same number of elements. With the
relation that always holds, the theorems above say that the positions of the results depend on those of the arguments only. -/
theorem C108_same_number {A : Lil α} {A' : Lil α'} (h : A.Related R A') : A'.nvals = A.nvals := by
  rw [h.wf.nvals_eq, h.wf'.nvals_eq, Spec.Mat.count, Spec.Mat.count, h.nrows, h.ncols]
  congr 1
  refine List.map_congr_left fun i _ => ?_
  unfold Spec.Vec.count
  congr 1
  refine List.filter_congr fun j _ => ?_
  have := h.get i j
  revert this
  cases A.get i j <;> cases A'.get i j <;> intro hh <;> first | exact hh.elim | rfl

theorem C108_same_number_vector {u : BVec α} {u' : BVec α'} (h : u.Related R u') : u'.nvals = u.nvals := by
  rw [h.wf.nvals_eq, h.wf'.nvals_eq, h.size]
  unfold Spec.Vec.count
  congr 1
  refine List.filter_congr fun j _ => ?_
  have := h.get j
  revert this
  cases u.get j <;> cases u'.get j <;> intro hh <;> first | exact hh.elim | rfl

/-- An output without mask and accumulator. -/
def noMask (D : Lil γ) (p : Outp) : MOut γ γ γ Unit := ⟨D, none, fun _ => true, .none id, id, p⟩

theorem noMask_related {D : Lil γ} {D' : Lil γ'} (p : Outp) (h : D.Related C D') : (noMask D p).Related C C C (noMask D' p) :=
  ⟨h, (by intro k M e; cases e), (by intro k M e; cases e), (by intro k M e; cases e), (by intro k M e; cases e), fun _ _ => rfl,
    .none fun _ _ h => h, fun _ _ h => h, rfl⟩

theorem apply_image {f : α → β} {A : Lil α} {D : Lil β} {p : Outp} (hA : A.WF) (hD : D.Of A.nrows A.ncols) :
    ∃ A', applyM (noMask D p) f (.plain A) = .done A' ∧ A.Related (fun x y => y = f x) A' := by
  obtain ⟨A', e, i⟩ := C15_apply_matrix (o := noMask D p) (f := f) (A := .plain A) ⟨hD.wf, by intro k M e; cases e⟩ hA
    ⟨(by intro k M e; cases e), hD.ncols, hD.nrows⟩
  refine ⟨A', e, hA, i.wf, i.nrows.trans hD.nrows, i.ncols.trans hD.ncols, fun a b => ?_⟩
  by_cases hr : a < A.nrows ∧ b < A.ncols
  · rw [i.get a b (hD.nrows.symm ▸ hr.1) (hD.ncols.symm ▸ hr.2)]
    show RelO _ (A.get a b) ((((A.get a b).map f).map id).map id)
    cases A.get a b
    · exact trivial
    · exact rfl
  · rw [Sh.out (r := A.nrows) (c := A.ncols) ⟨hA, rfl, rfl⟩ hr,
      Sh.out (r := A.nrows) (c := A.ncols) ⟨i.wf, i.nrows.trans hD.nrows, i.ncols.trans hD.ncols⟩ hr]
    exact trivial

theorem Lil.Related.image {f : α → β} {A : Lil α} {A' A'' : Lil β} (h : A.Related (fun x y => y = f x) A')
    (h' : A.Related (fun x y => y = f x) A'') : A' = A'' := by
  refine Lil.ext_get h.wf' h'.wf' (h.nrows.trans h'.nrows.symm) (h.ncols.trans h'.ncols.symm) fun a b _ _ => ?_
  have h1 := h.get a b
  have h2 := h'.get a b
  revert h1 h2
  cases A.get a b <;> cases A'.get a b <;> cases A''.get a b <;> intro h1 h2 <;>
    first | exact h1.elim | exact h2.elim | rfl | exact congrArg some (Eq.trans h1 (Eq.symm h2))

/-- **C108, homomorphisms.** If `f` takes sums to sums and products to products, it makes no difference whether it is applied to the
product of two matrices, or to the matrices before they are multiplied; the types may differ. -/
theorem C108_homomorphism {f : α → β} {add mult : α → α → α} {add' mult' : β → β → β} (hadd : ∀ x y, f (add x y) = add' (f x) (f y))
    (hmult : ∀ x y, f (mult x y) = mult' (f x) (f y)) {A B P X : Lil α} {A₀ B₀ P' D A' B' : Lil β} {p q r s : Outp} (hA : A.WF) (hB : B.WF)
    (hk : A.ncols = B.nrows) (hP : P.Of A.nrows B.ncols) (hA₀ : A₀.Of A.nrows A.ncols) (hB₀ : B₀.Of B.nrows B.ncols)
    (hP' : P'.Of A.nrows B.ncols) (hD : D.Of A.nrows B.ncols)
    (eX : mxm (noMask P p) (SR.of add mult) id (.plain A) (.plain B) = .done X)
    (eA : applyM (noMask A₀ q) f (.plain A) = .done A') (eB : applyM (noMask B₀ r) f (.plain B) = .done B') :
    mxm (noMask P' p) (SR.of add' mult') id (.plain A') (.plain B') = applyM (noMask D s) f (.plain X) := by
  obtain ⟨A1, e1, rA⟩ := apply_image (f := f) (p := q) hA hA₀
  cases eA.symm.trans e1
  obtain ⟨B1, e2, rB⟩ := apply_image (f := f) (p := r) hB hB₀
  cases eB.symm.trans e2
  obtain ⟨P₂, e3, rP⟩ := apply_image (f := f) (p := p) hP.wf (D := P') (by rw [hP.nrows, hP.ncols]; exact hP')
  obtain ⟨Y, Y', g1, g2, rY⟩ := C108_mxm (noMask_related p rP) (.plain rA) (.plain rB) (sr := SR.of add mult) (sr' := SR.of add' mult')
    (via := id) (via' := id)
    ⟨fun a a' b b' p q => by cases p; cases q; exact (hadd a b).symm, fun a a' b b' p q => by cases p; cases q; exact (hmult a b).symm,
      fun a a' b b' p q => by cases p; cases q; exact (hmult a b).symm⟩ (fun _ _ h => h)
    ⟨(by intro k M e; cases e), hP.nrows, hP.ncols, hk⟩
  cases eX.symm.trans g1
  have hX : X.Of A.nrows B.ncols := by
    obtain ⟨X', e, i⟩ := into_mxm (outp := p) (add := add) (mult := mult) hP (Lil.Of.plain (X := A) ⟨hA, rfl, rfl⟩)
      (Lil.Of.plain (X := B) ⟨hB, hk.symm, rfl⟩) fun h => h.elim
    cases (show mxm (noMask P p) (SR.of add mult) id (.plain A) (.plain B) = .done X' from e).symm.trans g1
    exact i.toOf
  obtain ⟨E, e4, rE⟩ := apply_image (f := f) (p := s) hX.wf (D := D) (by rw [hX.nrows, hX.ncols]; exact hD)
  obtain ⟨U, e5, i5⟩ := C09_mxm (o := noMask P' p) (sr := SR.of add' mult') (via := id) (A := A') (B := B')
    ⟨hP'.wf, by intro k M e; cases e⟩ rA.wf' rB.wf' ⟨(by intro k M e; cases e), hP'.nrows.trans rA.nrows.symm,
      hP'.ncols.trans rB.ncols.symm, rA.ncols.trans (hk.trans rB.nrows.symm)⟩
  obtain ⟨V, e6, i6⟩ := C09_mxm (o := noMask P₂ p) (sr := SR.of add' mult') (via := id) (A := A') (B := B')
    ⟨rP.wf', by intro k M e; cases e⟩ rA.wf' rB.wf' ⟨(by intro k M e; cases e), rP.nrows.trans (hP.nrows.trans rA.nrows.symm),
      rP.ncols.trans (hP.ncols.trans rB.ncols.symm), rA.ncols.trans (hk.trans rB.nrows.symm)⟩
  cases g2.symm.trans e6
  have h1 : P₂.nrows = P'.nrows := (rP.nrows.trans hP.nrows).trans hP'.nrows.symm
  have h2 : P₂.ncols = P'.ncols := (rP.ncols.trans hP.ncols).trans hP'.ncols.symm
  have : U = Y' := by
    refine Lil.ext_get i5.wf i6.wf (i5.nrows.trans (h1.symm.trans i6.nrows.symm)) (i5.ncols.trans (h2.symm.trans i6.ncols.symm))
      fun a b ha hb => ?_
    rw [i5.nrows] at ha
    rw [i5.ncols] at hb
    exact (i5.get a b ha hb).trans (i6.get a b (h1.symm ▸ ha) (h2.symm ▸ hb)).symm
  rw [e5, e4, this, rY.image rE]

def Ex.rel : Lil Nat := ⟨2, 2, 3, [[(0, 1), (1, 2)], [(1, 0)]]⟩
def Ex.rel' : Lil Nat := ⟨2, 2, 3, [[(0, 4), (1, 2)], [(1, 7)]]⟩

theorem Ex.rel_le : Ex.rel.Related (· ≤ ·) Ex.rel' := by
  have h1 : Ex.rel.WF := Lil.wf_chk (by decide +kernel)
  have h2 : Ex.rel'.WF := Lil.wf_chk (by decide +kernel)
  refine ⟨h1, h2, rfl, rfl, fun i j => ?_⟩
  by_cases hr : i < 2 ∧ j < 2
  · have : ∀ i < 2, ∀ j < 2, (Ex.rel.get i j).isSome = (Ex.rel'.get i j).isSome ∧
        (Ex.rel.get i j).getD 0 ≤ (Ex.rel'.get i j).getD 0 := by decide +kernel
    have := this i hr.1 j hr.2
    revert this
    cases Ex.rel.get i j <;> cases Ex.rel'.get i j <;> intro h <;> first | exact trivial | exact h.2 | exact absurd h.1 (by simp)
  · rw [Sh.out (r := 2) (c := 2) ⟨h1, rfl, rfl⟩ hr, Sh.out (r := 2) (c := 2) ⟨h2, rfl, rfl⟩ hr]
    exact trivial

theorem Ex.new_rel (i j : Nat) : RelO (α := Nat) (α' := Nat) (· ≤ ·) ((Lil.new 2 2).get i j) ((Lil.new 2 2).get i j) := by
  cases (Lil.new 2 2 : Lil Nat).get i j
  · exact trivial
  · exact Nat.le_refl _

/-- Counting walks, and asking whether there is one: `0 < x` takes sums to "or" and products to "and". -/
example : ∃ X A' Y, mxm (noMask (Lil.new 2 2) .merge) (SR.of (· + ·) (· * ·)) id (.plain Ex.rel) (.plain Ex.rel) = .done X ∧
    applyM (noMask (Lil.new 2 2) .merge) (fun x => decide (0 < x)) (.plain Ex.rel) = .done A' ∧
    mxm (noMask (Lil.new 2 2) .merge) (SR.of (· || ·) (· && ·)) id (.plain A') (.plain A') = .done Y ∧
    applyM (noMask (Lil.new 2 2) .replace) (fun x => decide (0 < x)) (.plain X) = .done Y ∧ X.get 0 1 = some 2 ∧ Y.get 0 1 = some true := by
  refine ⟨⟨2, 2, 3, [[(0, 1), (1, 2)], [(1, 0)]]⟩, ⟨2, 2, 3, [[(0, true), (1, true)], [(1, false)]]⟩,
    ⟨2, 2, 3, [[(0, true), (1, true)], [(1, false)]]⟩, ?_⟩
  decide +kernel

/-- Smaller weights, shorter walks: the hypotheses of `C108_mxm` for (min, +) and `≤`. -/
example : ∃ D D', mxm (noMask (Lil.new 2 2) .merge) (SR.of min (· + ·)) id (.plain Ex.rel) (.tr Ex.rel) = .done D ∧
    mxm (noMask (Lil.new 2 2) .merge) (SR.of min (· + ·)) id (.plain Ex.rel') (.tr Ex.rel') = .done D' ∧ D.Related (· ≤ ·) D' :=
  C108_mxm (noMask_related .merge ⟨Lil.new_wf 2 2, Lil.new_wf 2 2, rfl, rfl, Ex.new_rel⟩) (.plain Ex.rel_le) (.tr Ex.rel_le)
    ⟨fun _ _ _ _ p q => by simp only [SR.of]; omega, fun _ _ _ _ p q => Nat.add_le_add p q, fun _ _ _ _ p q => by simp only [SR.of]; omega⟩
    (fun _ _ h => h) ⟨(by intro k M e; cases e), rfl, rfl, rfl⟩

/-- Elements that cancel are stored, as zero. -/
example : mxm (noMask (Lil.new 1 1) .merge) (SR.of (· + ·) (· * ·)) id (.plain (⟨1, 2, 2, [[(0, 1), (1, 1)]]⟩ : Lil Int))
    (.plain ⟨2, 1, 2, [[(0, 5)], [(0, -5)]]⟩) = .done ⟨1, 1, 1, [[(0, 0)]]⟩ := by decide +kernel

end GBTL

import Verif.Spec.Laws
import Verif.Lemmas.Algo
import Verif.Props.Products
import Verif.Props.Elementwise
import Verif.Props.Select
/- Sums of partial values, and what a call without mask and accumulator leaves. -/
namespace GBTL
open Spec (Outp MaskKind Accum osum both either)

variable {α : Type} {m n k l : Nat} {add mult : α → α → α}

/-! ### Sums -/

/-- Sum over `0 ≤ k < n` of the values present. -/
abbrev osumN (add : α → α → α) (n : Nat) (f : Nat → Option α) : Option α := osum add ((List.range n).map f)

abbrev oadd (add : α → α → α) : Option α → Option α → Option α := either add id id

theorem osumN_zero (f : Nat → Option α) : osumN add 0 f = none := rfl

theorem osumN_succ (n : Nat) (f : Nat → Option α) : osumN add (n + 1) f = oadd add (osumN add n f) (f n) := by
  rw [osumN, List.range_succ, List.map_append, List.map_cons, List.map_nil, osum_append]
  show _ = oadd add (osum add ((List.range n).map f)) (f n)
  cases osum add ((List.range n).map f) <;> cases f n <;> rfl

theorem osumN_congr {f g : Nat → Option α} (h : ∀ i, i < n → f i = g i) : osumN add n f = osumN add n g := by
  rw [osumN, osumN]
  congr 1
  exact List.map_congr_left fun i hi => h i (List.mem_range.1 hi)

theorem oadd_none (x : Option α) : oadd add x none = x := by cases x <;> rfl
theorem none_oadd (x : Option α) : oadd add none x = x := by cases x <;> rfl

theorem oadd_assoc (ha : ∀ x y z, add (add x y) z = add x (add y z)) (x y z : Option α) :
    oadd add (oadd add x y) z = oadd add x (oadd add y z) := by
  cases x <;> cases y <;> cases z <;> simp [either, ha]

theorem oadd_comm (hc : ∀ x y, add x y = add y x) (x y : Option α) : oadd add x y = oadd add y x := by
  cases x <;> cases y <;> simp [either, hc]

theorem osumN_none (n : Nat) : osumN add n (fun _ => none) = none := by
  induction n with
  | zero => rfl
  | succ n ih => rw [osumN_succ, ih]; rfl

theorem osumN_oadd (ha : ∀ x y z, add (add x y) z = add x (add y z)) (hc : ∀ x y, add x y = add y x)
    (n : Nat) (f g : Nat → Option α) :
    osumN add n (fun i => oadd add (f i) (g i)) = oadd add (osumN add n f) (osumN add n g) := by
  induction n with
  | zero => rfl
  | succ n ih =>
    rw [osumN_succ, osumN_succ, osumN_succ, ih, oadd_assoc ha, oadd_assoc ha, ← oadd_assoc ha (osumN add n g),
      oadd_comm hc (osumN add n g) (f n), oadd_assoc ha]

/-- Exchange of two summations. -/
theorem osumN_swap (ha : ∀ x y z, add (add x y) z = add x (add y z)) (hc : ∀ x y, add x y = add y x)
    (m n : Nat) (f : Nat → Nat → Option α) :
    osumN add m (fun i => osumN add n (f i)) = osumN add n (fun j => osumN add m fun i => f i j) := by
  induction m with
  | zero => exact (osumN_none n).symm
  | succ m ih =>
    rw [osumN_succ, ih, ← osumN_oadd ha hc]
    exact osumN_congr fun j _ => (osumN_succ m _).symm

theorem both_oadd (hl : ∀ x y z, mult x (add y z) = add (mult x y) (mult x z)) (x y z : Option α) :
    both mult x (oadd add y z) = oadd add (both mult x y) (both mult x z) := by
  cases x <;> cases y <;> cases z <;> simp [either, both, hl]

theorem oadd_both (hr : ∀ x y z, mult (add x y) z = add (mult x z) (mult y z)) (x y z : Option α) :
    both mult (oadd add x y) z = oadd add (both mult x z) (both mult y z) := by
  cases x <;> cases y <;> cases z <;> simp [either, both, hr]

theorem both_osumN (hl : ∀ x y z, mult x (add y z) = add (mult x y) (mult x z)) (x : Option α) (n : Nat)
    (f : Nat → Option α) : both mult x (osumN add n f) = osumN add n fun i => both mult x (f i) := by
  induction n with
  | zero => cases x <;> rfl
  | succ n ih => rw [osumN_succ, both_oadd hl, ih, osumN_succ]

theorem osumN_both (hr : ∀ x y z, mult (add x y) z = add (mult x z) (mult y z)) (x : Option α) (n : Nat)
    (f : Nat → Option α) : both mult (osumN add n f) x = osumN add n fun i => both mult (f i) x := by
  induction n with
  | zero => rfl
  | succ n ih => rw [osumN_succ, oadd_both hr, ih, osumN_succ]

theorem both_assoc (ha : ∀ x y z, mult (mult x y) z = mult x (mult y z)) (x y z : Option α) :
    both mult (both mult x y) z = both mult x (both mult y z) := by
  cases x <;> cases y <;> cases z <;> simp [both, ha]

theorem both_comm (hc : ∀ x y, mult x y = mult y x) (x y : Option α) : both mult x y = both mult y x := by
  cases x <;> cases y <;> simp [both]
  exact hc _ _

/-- A sum with one term. -/
theorem osumN_single {i : Nat} (hi : i < n) {f : Nat → Option α} (h : ∀ k, k < n → k ≠ i → f k = none) :
    osumN add n f = f i := by
  induction n with
  | zero => omega
  | succ n ih =>
    rw [osumN_succ]
    by_cases e : i = n
    · subst e
      rw [osumN_congr (g := fun _ => none) fun k hk => h k (by omega) (by omega), osumN_none, none_oadd]
    · rw [ih (by omega) fun k hk => h k (by omega), h n (by omega) (fun e' => e e'.symm), oadd_none]

/-! ### Contents -/

/-- The matrix has that shape and content. -/
structure Lil.Con (X : Lil α) (m n : Nat) (f : Spec.Mat α) : Prop extends X.Of m n where
  get : ∀ i j, i < m → j < n → X.get i j = f i j

structure BVec.Con (x : BVec α) (n : Nat) (f : Spec.Vec α) : Prop extends x.Of n where
  get : ∀ i, i < n → x.get i = f i

theorem Lil.Con.unique {X Y : Lil α} {f g : Spec.Mat α} (hX : X.Con m n f) (hY : Y.Con m n g)
    (h : ∀ i j, i < m → j < n → f i j = g i j) : X = Y := by
  have hg : ∀ i j, X.get i j = Y.get i j := by
    intro i j
    by_cases hij : i < m ∧ j < n
    · rw [hX.get i j hij.1 hij.2, hY.get i j hij.1 hij.2, h i j hij.1 hij.2]
    · have e1 := hX.nrows
      have e2 := hX.ncols
      have e3 := hY.nrows
      have e4 := hY.ncols
      rw [hX.wf.toWFr.get_none (by omega), hY.wf.toWFr.get_none (by omega)]
  have hr := Lil.rows_ext hX.wf.toWFr hY.wf.toWFr (hX.nrows.trans hY.nrows.symm) hg
  have hn : X.nvals = Y.nvals := by rw [hX.wf.count, hY.wf.count, hr]
  cases X; cases Y
  simp only [Lil.mk.injEq]
  exact ⟨hX.nrows.trans hY.nrows.symm, hX.ncols.trans hY.ncols.symm, hn, hr⟩

theorem BVec.Con.same {X Y : BVec α} {f g : Spec.Vec α} (hX : X.Con n f) (hY : Y.Con n g)
    (h : ∀ i, i < n → f i = g i) : X.Same Y := by
  refine ⟨hX.size.trans hY.size.symm, fun i => ?_⟩
  by_cases hi : i < n
  · rw [hX.get i hi, hY.get i hi, h i hi]
  · have e1 := hX.size
    have e3 := hY.size
    rw [hX.wf.get_none (by omega), hY.wf.get_none (by omega)]

/-- For examples: shape and consistency by evaluation. -/
theorem Lil.of_check {A : Lil α} (h : A.rows.length = m ∧ A.nrows = m ∧ A.ncols = n ∧
    (∀ r ∈ A.rows, (r.map (·.1)).Pairwise (· < ·) ∧ ∀ j ∈ r.map (·.1), j < n) ∧ A.nvals = (A.rows.map List.length).sum) :
    A.Of m n := by
  obtain ⟨h1, h2, h3, h4, h5⟩ := h
  refine ⟨⟨⟨h1.trans h2.symm, fun r hr => ⟨?_, fun p hp => ?_⟩⟩, h5⟩, h2, h3⟩
  · exact List.pairwise_map.1 (h4 r hr).1
  · rw [h3]; exact (h4 r hr).2 p.1 (List.mem_map.2 ⟨p, hp, rfl⟩)

theorem Lil.Of.is {X : Lil α} (h : X.Of m n) : X.Con m n X.get := ⟨h, fun _ _ _ _ => rfl⟩
theorem BVec.Of.is {X : BVec α} (h : X.Of n) : X.Con n X.get := ⟨h, fun _ _ => rfl⟩

/-- An operand of that shape. -/
structure Operand.Of (A : Operand α) (m n : Nat) : Prop where
  wf : A.WF
  nrows : A.nrows = m
  ncols : A.ncols = n

theorem Lil.Of.plain {X : Lil α} (h : X.Of m n) : (Operand.plain X).Of m n := ⟨h.wf, h.nrows, h.ncols⟩
theorem Lil.Of.tr {X : Lil α} (h : X.Of m n) : (Operand.tr X).Of n m := ⟨h.wf, h.ncols, h.nrows⟩

theorem yields_is {C C' : Lil α} {outp : Outp} {T : Spec.Mat α} (hC : C.Of m n)
    (h : (⟨C, none, fun _ => true, .none id, id, outp⟩ : MOut α α α Unit).Yields T C') : C'.Con m n T := by
  refine ⟨⟨h.wf, h.nrows.trans hC.nrows, h.ncols.trans hC.ncols⟩, fun i j hi hj => ?_⟩
  rw [h.get i j (by rw [hC.nrows]; exact hi) (by rw [hC.ncols]; exact hj)]
  show Option.map id (Option.map id (T i j)) = _
  simp

theorem yields_isV {w w' : BVec α} {outp : Outp} {t : Spec.Vec α} (hw : w.Of n)
    (h : (⟨w, none, fun _ => true, .none id, id, outp⟩ : VOut α α α Unit).Yields t w') : w'.Con n t := by
  refine ⟨⟨h.wf, h.size.trans hw.size⟩, fun i hi => ?_⟩
  rw [h.get i (by rw [hw.size]; exact hi)]
  show Option.map id (Option.map id (t i)) = _
  simp

theorem into_wf {C : Lil α} {outp : Outp} (hC : C.Of m n) :
    (⟨C, none, fun _ => true, .none id, id, outp⟩ : MOut α α α Unit).WF := ⟨hC.wf, by intro k M e; cases e⟩
theorem into_wfV {w : BVec α} {outp : Outp} (hw : w.Of n) :
    (⟨w, none, fun _ => true, .none id, id, outp⟩ : VOut α α α Unit).WF := ⟨hw.wf, by intro k M e; cases e⟩

section calls
variable {C X : Lil α} {w : BVec α} {outp : Outp} {A B : Operand α}

theorem into_mxm (hC : C.Of m n) (hA : A.Of m k) (hB : B.Of k n)
    (hsw : A.isTr → B.isTr → ∀ a b, mult a b = mult b a) :
    ∃ X, C.into outp (.mxm (SR.of add mult) id A B) = .done X ∧
      X.Con m n fun i j => osumN add k fun x => both mult (A.get i x) (B.get x j) := by
  obtain ⟨X, h1, h2⟩ := C10_mxm_transposed_partial (o := ⟨C, none, fun _ => true, .none id, id, outp⟩) (μ := Unit)
    (sr := SR.of add mult) (via := id) (into_wf hC) hA.wf hB.wf
    ⟨(by intro k M e; cases e), hC.nrows.trans hA.nrows.symm, hC.ncols.trans hB.ncols.symm,
      hA.ncols.trans hB.nrows.symm⟩
    fun ha hb => ⟨fun a b => hsw ha hb b a, fun _ => rfl⟩
  refine ⟨X, h1, ?_⟩
  have := yields_is hC h2
  rw [hA.ncols] at this
  exact this

theorem into_mxv {u : BVec α} (hw : w.Of m) (hA : A.Of m k) (hu : u.Of k)
    (hsw : A.isTr → ∀ a b, mult a b = mult b a) :
    ∃ x, w.into outp (.mxv (SR.of add mult) A u) = .done x ∧
      x.Con m fun i => osumN add k fun j => both mult (A.get i j) (u.get j) := by
  obtain ⟨X, h1, h2⟩ := C12_mxv_partial (o := ⟨w, none, fun _ => true, .none id, id, outp⟩) (μ := Unit)
    (sr := SR.of add mult) (into_wfV hw) hu.wf hA.wf
    ⟨(by intro k M e; cases e), hw.size.trans hA.nrows.symm, hu.size.trans hA.ncols.symm⟩
    fun ha a b => hsw ha b a
  refine ⟨X, h1, ?_⟩
  have := yields_isV hw h2
  rw [hA.ncols] at this
  exact this

theorem into_vxm {u : BVec α} (hw : w.Of n) (hu : u.Of k) (hA : A.Of k n) :
    ∃ x, w.into outp (.vxm (SR.of add mult) u A) = .done x ∧
      x.Con n fun j => osumN add k fun i => both mult (u.get i) (A.get i j) := by
  obtain ⟨X, h1, h2⟩ := C11_vxm (o := ⟨w, none, fun _ => true, .none id, id, outp⟩) (μ := Unit)
    (sr := SR.of add mult) (into_wfV hw) hu.wf hA.wf
    ⟨(by intro k M e; cases e), hw.size.trans hA.ncols.symm, hu.size.trans hA.nrows.symm⟩
  refine ⟨X, h1, ?_⟩
  have := yields_isV hw h2
  rw [hu.size] at this
  exact this

theorem into_eWiseAdd (hC : C.Of m n) (hA : A.Of m n) (hB : B.Of m n) :
    ∃ X, C.into outp (.eWiseAdd (EW.of add) A B) = .done X ∧
      X.Con m n fun i j => oadd add (A.get i j) (B.get i j) := by
  obtain ⟨X, h1, h2⟩ := C13_eWiseAdd_same_type (o := ⟨C, none, fun _ => true, .none id, id, outp⟩) (μ := Unit)
    (op := add) (c1 := id) (c2 := id) (into_wf hC) hA.wf hB.wf
    ⟨(by intro k M e; cases e), hC.ncols.trans hA.ncols.symm, hC.nrows.trans hA.nrows.symm,
      hA.ncols.trans hB.ncols.symm, hA.nrows.trans hB.nrows.symm⟩
  exact ⟨X, h1, yields_is hC h2⟩

theorem into_eWiseMult (hC : C.Of m n) (hA : A.Of m n) (hB : B.Of m n) :
    ∃ X, C.into outp (.eWiseMult (EW.of mult) A B) = .done X ∧
      X.Con m n fun i j => both mult (A.get i j) (B.get i j) := by
  obtain ⟨X, h1, h2⟩ := C14_eWiseMult_same_type (o := ⟨C, none, fun _ => true, .none id, id, outp⟩) (μ := Unit)
    (op := mult) (c1 := id) (c2 := id) (into_wf hC) hA.wf hB.wf
    ⟨(by intro k M e; cases e), hC.ncols.trans hA.ncols.symm, hC.nrows.trans hA.nrows.symm,
      hA.ncols.trans hB.ncols.symm, hA.nrows.trans hB.nrows.symm⟩
  exact ⟨X, h1, yields_is hC h2⟩

theorem into_eWiseAddV {u v : BVec α} (hw : w.Of n) (hu : u.Of n) (hv : v.Of n) :
    ∃ x, w.into outp (.eWiseAdd (EW.of add) u v) = .done x ∧ x.Con n fun i => oadd add (u.get i) (v.get i) := by
  obtain ⟨X, h1, h2⟩ := C13_eWiseAdd_vector (o := ⟨w, none, fun _ => true, .none id, id, outp⟩) (μ := Unit)
    (f := EW.of add) (into_wfV hw) hu.wf hv.wf
    ⟨(by intro k M e; cases e), hw.size.trans hu.size.symm, hu.size.trans hv.size.symm⟩
  exact ⟨X, h1, yields_isV hw h2⟩

theorem into_eWiseMultV {u v : BVec α} (hw : w.Of n) (hu : u.Of n) (hv : v.Of n) :
    ∃ x, w.into outp (.eWiseMult (EW.of mult) u v) = .done x ∧ x.Con n fun i => both mult (u.get i) (v.get i) := by
  obtain ⟨X, h1, h2⟩ := C14_eWiseMult_vector (o := ⟨w, none, fun _ => true, .none id, id, outp⟩) (μ := Unit)
    (f := EW.of mult) (into_wfV hw) hu.wf hv.wf
    ⟨(by intro k M e; cases e), hw.size.trans hu.size.symm, hu.size.trans hv.size.symm⟩
  exact ⟨X, h1, yields_isV hw h2⟩

theorem into_apply {f : α → α} (hC : C.Of m n) (hA : A.Of m n) :
    ∃ X, C.into outp (.apply f A) = .done X ∧ X.Con m n fun i j => (A.get i j).map f := by
  obtain ⟨X, h1, h2⟩ := C15_apply_matrix (o := ⟨C, none, fun _ => true, .none id, id, outp⟩) (μ := Unit)
    (f := f) (into_wf hC) hA.wf
    ⟨(by intro k M e; cases e), hC.ncols.trans hA.ncols.symm, hC.nrows.trans hA.nrows.symm⟩
  exact ⟨X, h1, yields_is hC h2⟩

theorem into_applyV {f : α → α} {u : BVec α} (hw : w.Of n) (hu : u.Of n) :
    ∃ x, w.into outp (.apply f u) = .done x ∧ x.Con n fun i => (u.get i).map f := by
  obtain ⟨X, h1, h2⟩ := C15_apply_vector (o := ⟨w, none, fun _ => true, .none id, id, outp⟩) (μ := Unit)
    (f := f) (into_wfV hw) hu.wf ⟨(by intro k M e; cases e), hw.size.trans hu.size.symm⟩
  exact ⟨X, h1, yields_isV hw h2⟩

theorem into_transpose (hC : C.Of n m) (hA : A.Of m n) :
    ∃ X, C.into outp (.transpose A) = .done X ∧ X.Con n m fun i j => A.get j i := by
  obtain ⟨X, h1, h2⟩ := C21_transpose (o := ⟨C, none, fun _ => true, .none id, id, outp⟩) (μ := Unit)
    (into_wf hC) hA.wf
    ⟨(by intro k M e; cases e), hC.ncols.trans hA.nrows.symm, hA.ncols.trans hC.nrows.symm⟩
  exact ⟨X, h1, yields_is hC h2⟩

theorem into_kronecker {m' n' : Nat} (hC : C.Of (m * m') (n * n')) (hA : A.Of m n) (hB : B.Of m' n')
    (h1 : m * m' < 2 ^ 64) (h2 : n * n' < 2 ^ 64) :
    ∃ X, C.into outp (.kronecker mult A B) = .done X ∧
      X.Con (m * m') (n * n') fun i j => both mult (A.get (i / m') (j / n')) (B.get (i % m') (j % n')) := by
  obtain ⟨X, e1, e2⟩ := C22_kronecker_partial (o := ⟨C, none, fun _ => true, .none id, id, outp⟩) (μ := Unit)
    (f := mult) (into_wf hC) hA.wf hB.wf
    ⟨(by intro k M e; cases e), by rw [hA.ncols, hB.ncols]; exact hC.ncols, by rw [hA.nrows, hB.nrows]; exact hC.nrows⟩
    (by show C.nrows < _; rw [hC.nrows]; exact h1) (by show C.ncols < _; rw [hC.ncols]; exact h2)
  refine ⟨X, e1, ?_⟩
  have := yields_is hC e2
  rw [hB.nrows, hB.ncols] at this
  exact this

theorem into_reduce {f : α → α → α} (hw : w.Of m) (hA : A.Of m n) :
    ∃ x, w.into outp (.reduce (.of f id) A) = .done x ∧ x.Con m fun i => osumN f n (A.get i) := by
  obtain ⟨X, h1, h2⟩ := C16_reduce_rows_op (o := ⟨w, none, fun _ => true, .none id, id, outp⟩) (μ := Unit)
    (f := f) (c := id) (into_wfV hw) hA.wf ⟨(by intro k M e; cases e), hw.size.trans hA.nrows.symm⟩
  refine ⟨X, h1, ?_⟩
  have := yields_isV hw h2
  rw [hA.ncols] at this
  refine ⟨this.toOf, fun i hi => ?_⟩
  rw [this.get i hi, osumN]
  generalize (List.range n).map (A.get i) = l
  unfold Spec.ofold Spec.osum
  congr 1
  funext a b
  cases a <;> cases b <;> rfl

theorem into_extract {A : Operand α} {m' n' : Nat} {ri ci : Idx} (hC : C.Of m n) (hA : A.Of m' n')
    (h1 : ri.len m = m) (h2 : ci.len n = n) (h3 : ri.below m') (h4 : ci.below n') :
    ∃ X, C.into outp (.extract A ri ci) = .done X ∧ X.Con m n (Spec.extractMat m' n' ri.sel ci.sel A.get) := by
  obtain ⟨X, e1, e2⟩ := C18_extract_matrix (o := ⟨C, none, fun _ => true, .none id, id, outp⟩) (μ := Unit)
    (ri := ri) (ci := ci) (into_wf hC) hA.wf (by intro k M e; cases e) (by simp only [hC.nrows, h1])
    (by simp only [hC.ncols, h2]) (by rw [hA.nrows]; exact h3) (by rw [hA.ncols]; exact h4)
  refine ⟨X, e1, ?_⟩
  have := yields_is hC e2
  rw [hA.nrows, hA.ncols] at this
  exact this

theorem into_extractV {u : BVec α} {n' : Nat} {ix : Idx} (hw : w.Of n) (hu : u.Of n') (h1 : ix.len n = n)
    (h2 : ix.below n') :
    ∃ x, w.into outp (.extract u ix) = .done x ∧ x.Con n (Spec.extract n' ix.sel u.get) := by
  obtain ⟨X, e1, e2⟩ := C18_extract_vector (o := ⟨w, none, fun _ => true, .none id, id, outp⟩) (μ := Unit)
    (ix := ix) (into_wfV hw) hu.wf (by intro k M e; cases e) (by simp only [hw.size, h1])
    (by rw [hu.size]; exact h2)
  refine ⟨X, e1, ?_⟩
  have := yields_isV hw e2
  rw [hu.size] at this
  exact this

theorem into_extractCol {ri : Idx} {j : Nat} (hw : w.Of k) (hA : A.Of m n) (h1 : ri.len k = k)
    (h2 : ri.below m) (hj : j < n) :
    ∃ x, w.into outp (.extractCol A ri j) = .done x ∧ x.Con k (Spec.extract m ri.sel fun i => A.get i j) := by
  obtain ⟨X, e1, e2⟩ := C18_extract_column (o := ⟨w, none, fun _ => true, .none id, id, outp⟩) (μ := Unit)
    (ri := ri) (j := j) (into_wfV hw) hA.wf (by intro k M e; cases e) (by simp only [hw.size, h1])
    (by rw [hA.nrows]; exact h2) (by rw [hA.ncols]; exact hj)
  refine ⟨X, e1, ?_⟩
  have := yields_isV hw e2
  rw [hA.nrows] at this
  exact this

end calls
end GBTL

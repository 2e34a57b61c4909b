import Verif.Lemmas.Kron
import Verif.Spec.Frontend
namespace GBTL
open Spec (Outp MaskKind Accum both either osum)
open Row

variable {α β γ δ τ ζ μ ν σ ρ : Type}

/-! ### checks -/

/-- A check that passes exactly when `P` holds and else throws `DimensionException`. -/
structure Dim (x : Except Err Unit) (P : Prop) : Prop where
  ok : P → x = .ok ()
  err : ¬ P → x = .error .dimension

theorem Dim.seq {x y : Except Err Unit} {P Q : Prop} (hx : Dim x P) (hy : Dim y Q) :
    Dim (do x; y) (P ∧ Q) := by
  constructor
  · rintro ⟨hp, hq⟩
    rw [hx.ok hp]; exact hy.ok hq
  · intro h
    by_cases hp : P
    · rw [hx.ok hp]; exact hy.err fun hq => h ⟨hp, hq⟩
    · rw [hx.err hp]; rfl

theorem Dim.iff {x : Except Err Unit} {P Q : Prop} (hx : Dim x P) (h : P ↔ Q) : Dim x Q :=
  ⟨fun hq => hx.ok (h.2 hq), fun hq => hx.err fun hp => hq (h.1 hp)⟩

theorem dim_eq (a b : Nat) : Dim (eqCheck a b) (a = b) := by
  constructor
  · intro h; simp [eqCheck, check, h]
  · intro h; simp [eqCheck, check, h]

theorem dim_rows (M : MMask μ) (n : Nat) : Dim (M.rowCheck n) (∀ k A, M = some (k, A) → A.nrows = n) := by
  cases M with
  | none => exact ⟨fun _ => rfl, fun h => absurd (by intro k A e; cases e) h⟩
  | some p =>
    obtain ⟨k, A⟩ := p
    refine (dim_eq n A.nrows).iff ⟨fun h k' A' e => ?_, fun h => (h k A rfl).symm⟩
    cases e; exact h.symm

theorem dim_cols (M : MMask μ) (n : Nat) : Dim (M.colCheck n) (∀ k A, M = some (k, A) → A.ncols = n) := by
  cases M with
  | none => exact ⟨fun _ => rfl, fun h => absurd (by intro k A e; cases e) h⟩
  | some p =>
    obtain ⟨k, A⟩ := p
    refine (dim_eq n A.ncols).iff ⟨fun h k' A' e => ?_, fun h => (h k A rfl).symm⟩
    cases e; exact h.symm

theorem dim_size (m : VMask μ) (n : Nat) : Dim (m.sizeCheck n) (m.Fits n) := by
  cases m with
  | none => exact ⟨fun _ => rfl, fun h => absurd (by intro k A e; cases e) h⟩
  | some p =>
    obtain ⟨k, v⟩ := p
    refine (dim_eq n v.size).iff ⟨fun h k' A' e => ?_, fun h => (h k v rfl).symm⟩
    cases e; exact h.symm

theorem fits_iff {M : MMask μ} {m n : Nat} : M.Fits m n ↔
    (∀ k A, M = some (k, A) → A.nrows = m) ∧ (∀ k A, M = some (k, A) → A.ncols = n) :=
  ⟨fun h => ⟨fun k A e => (h k A e).1, fun k A e => (h k A e).2⟩,
    fun h k A e => ⟨h.1 k A e, h.2 k A e⟩⟩

theorem dim_len (ix : Idx) (n : Nat) : Dim (ix.lenCheck n) (ix.len n = n) := by
  cases ix with
  | list l => exact (dim_eq n l.length).iff ⟨fun h => h.symm, fun h => Eq.symm h⟩
  | all => exact ⟨fun _ => rfl, fun h => absurd rfl h⟩

theorem dim_within (ix : Idx) (n : Nat) : Dim (ix.withinCheck n) (ix.len 0 ≤ n) := by
  cases ix with
  | list l =>
    constructor
    · intro h; simp only [Idx.len] at h; simp [Idx.withinCheck, check, h]
    · intro h; simp only [Idx.len] at h; simp [Idx.withinCheck, check, h]
  | all => exact ⟨fun _ => rfl, fun h => absurd (Nat.zero_le _) h⟩

theorem MMask.ok_of {M : MMask μ} {m n : Nat} (h1 : M.WF) (h2 : M.Fits m n) : M.OK m n := by
  cases M with
  | none => trivial
  | some p => exact ⟨h1 _ _ rfl, h2 _ _ rfl⟩

theorem VMask.ok_of {M : VMask μ} {n : Nat} (h1 : M.WF) (h2 : M.Fits n) : M.OK n := by
  cases M with
  | none => trivial
  | some p => exact ⟨h1 _ _ rfl, h2 _ _ rfl⟩

/-! ### the common shape -/

theorem run_threw {s : σ} {e : Err} (he : e ≠ .ub) {pre : Except Err ρ} {post : ρ → Except Err σ}
    (h : pre = .error e) : run s pre post = .threw e s := by
  subst h; cases e <;> simp_all [run]

theorem run_done {s s' : σ} {z : ρ} {pre : Except Err ρ} {post : ρ → Except Err σ}
    (h : pre = .ok z) (h2 : post z = .ok s') : run s pre post = .done s' := by
  subst h; simp [run, h2, finish]

theorem MOut.op_ok {o : MOut γ τ ζ μ} {checks : Except Err Unit} {T : Except Err (Lil τ)} {T' : Lil τ}
    (ho : o.WF) (hm : o.M.Fits o.C.nrows o.C.ncols) (hc : checks = .ok ()) (hT : T = .ok T')
    (hw : T'.WFr) (hr : T'.nrows = o.C.nrows) (hcs : T'.ncols = o.C.ncols) {R : Spec.Mat τ}
    (hR : ∀ i j, i < o.C.nrows → j < o.C.ncols → T'.get i j = R i j) :
    ∃ C', o.op checks T = .done C' ∧ o.Yields R C' := by
  obtain ⟨Z, C', h1, h2, h3, h4, h5, h6⟩ := matrix_tail o.truthy o.castZ o.M o.acc o.outp ho.out hw hr
    hcs (MMask.ok_of ho.mask hm)
  refine ⟨C', run_done (z := Z) ?_ h2, ⟨h3, h4, h5, ?_⟩⟩
  · rw [hc, hT]; exact h1
  · intro i j hi hj
    rw [h6, hR i j hi hj]

theorem VOut.op_ok {o : VOut γ τ ζ μ} {checks : Except Err Unit} {t : Except Err (Row τ)} {t' : Row τ}
    (ho : o.WF) (hm : o.m.Fits o.w.size) (hc : checks = .ok ()) (ht : t = .ok t')
    (hw : Row.OK o.w.size t') {R : Spec.Vec τ}
    (hR : ∀ i, i < o.w.size → Row.get t' i = R i) :
    ∃ w', o.op checks t = .done w' ∧ o.Yields R w' := by
  obtain ⟨z, w', h1, h2, h3, h4, h5⟩ := vector_tail o.truthy o.castZ o.m o.acc o.outp ho.out hw
    (VMask.ok_of ho.mask hm)
  refine ⟨w', run_done (z := z) ?_ h2, ⟨h3, h4, ?_⟩⟩
  · rw [hc, ht]; exact h1
  · intro i hi
    rw [h5, hR i hi]

theorem MOut.op_threw {o : MOut γ τ ζ μ} {checks : Except Err Unit} {T : Except Err (Lil τ)} {e : Err}
    (he : e ≠ .ub) (h : checks = .error e) : o.op checks T = .threw e o.C :=
  run_threw he (by rw [h]; rfl)

theorem VOut.op_threw {o : VOut γ τ ζ μ} {checks : Except Err Unit} {t : Except Err (Row τ)} {e : Err}
    (he : e ≠ .ub) (h : checks = .error e) : o.op checks t = .threw e o.w :=
  run_threw he (by rw [h]; rfl)

theorem MOut.op_threw' {o : MOut γ τ ζ μ} {checks : Except Err Unit} {T : Except Err (Lil τ)} {e : Err}
    (he : e ≠ .ub) (hc : checks = .ok ()) (h : T = .error e) : o.op checks T = .threw e o.C :=
  run_threw he (by rw [hc, h]; rfl)

theorem VOut.op_threw' {o : VOut γ τ ζ μ} {checks : Except Err Unit} {t : Except Err (Row τ)} {e : Err}
    (he : e ≠ .ub) (hc : checks = .ok ()) (h : t = .error e) : o.op checks t = .threw e o.w :=
  run_threw he (by rw [hc, h]; rfl)

theorem MOut.stencil_ok {o : MOut γ τ ζ μ} {keep : γ → ζ} {ri ci : List Nat}
    {checks : Except Err Unit} {T : Except Err (Lil τ)} {T' : Lil τ} (ho : o.WF)
    (hm : o.M.Fits o.C.nrows o.C.ncols) (hc : checks = .ok ()) (hT : T = .ok T')
    (hw : T'.WFr) (hr : T'.nrows = o.C.nrows) (hcs : T'.ncols = o.C.ncols)
    (hn : ∀ i j, (searchIndices (.list ri) i && searchIndices (.list ci) j) = false → T'.get i j = none) :
    ∃ C', o.opStencil keep ri ci checks T = .done C' ∧
      o.Holds (fun i j => Spec.assignAt keep o.acc
        (searchIndices (.list ri) i && searchIndices (.list ci) j) (o.C.get i j) (T'.get i j)) C' := by
  obtain ⟨Z, z1, z2, z3, z4, z5⟩ := stencil_spec keep (.list ri) (.list ci) o.acc ho.out.toWFr hw hr hcs hn
  obtain ⟨C', g1, g2, g3, g4, g5⟩ := writeWithOptMask_spec o.truthy o.castZ o.M o.outp ho.out z2.toWFr
    z3 z4 (MMask.ok_of ho.mask hm)
  refine ⟨C', run_done (z := Z) ?_ g1, ⟨g2, g3, g4, ?_⟩⟩
  · rw [hc, hT]; exact z1
  · intro i j _ _
    rw [g5, z5]

theorem VOut.stencil_ok {o : VOut γ τ ζ μ} {keep : γ → ζ} {ix : List Nat}
    {checks : Except Err Unit} {t : Except Err (Row τ)} {t' : Row τ} (ho : o.WF)
    (hm : o.m.Fits o.w.size) (hc : checks = .ok ()) (ht : t = .ok t')
    (hw : Row.OK o.w.size t')
    (hn : ∀ i, searchIndices (.list ix) i = false → Row.get t' i = none) :
    ∃ w', o.opStencil keep ix checks t = .done w' ∧
      o.Holds (fun i => Spec.assignAt keep o.acc (searchIndices (.list ix) i) (o.w.get i)
        (Row.get t' i)) w' := by
  obtain ⟨z, z1, z2, z3⟩ := stencil1D_spec keep (.list ix) o.acc ho.out hw hn
  obtain ⟨w', g1, g2, g3, g4⟩ := writeWithOptMask1D_spec o.truthy o.castZ o.m o.outp ho.out z2
    (VMask.ok_of ho.mask hm)
  refine ⟨w', run_done (z := z) ?_ g1, ⟨g2, g3, ?_⟩⟩
  · rw [hc, ht]; exact z1
  · intro i _
    rw [g4, z3]

theorem MOut.stencil_threw {o : MOut γ τ ζ μ} {keep : γ → ζ} {ri ci : List Nat}
    {checks : Except Err Unit} {T : Except Err (Lil τ)} {e : Err}
    (he : e ≠ .ub) (h : checks = .error e) : o.opStencil keep ri ci checks T = .threw e o.C :=
  run_threw he (by rw [h]; rfl)

theorem VOut.stencil_threw {o : VOut γ τ ζ μ} {keep : γ → ζ} {ix : List Nat}
    {checks : Except Err Unit} {t : Except Err (Row τ)} {e : Err}
    (he : e ≠ .ub) (h : checks = .error e) : o.opStencil keep ix checks t = .threw e o.w :=
  run_threw he (by rw [h]; rfl)

theorem MOut.stencil_threw' {o : MOut γ τ ζ μ} {keep : γ → ζ} {ri ci : List Nat}
    {checks : Except Err Unit} {T : Except Err (Lil τ)} {e : Err}
    (he : e ≠ .ub) (hc : checks = .ok ()) (h : T = .error e) :
    o.opStencil keep ri ci checks T = .threw e o.C :=
  run_threw he (by rw [hc, h]; rfl)

theorem VOut.stencil_threw' {o : VOut γ τ ζ μ} {keep : γ → ζ} {ix : List Nat}
    {checks : Except Err Unit} {t : Except Err (Row τ)} {e : Err}
    (he : e ≠ .ub) (hc : checks = .ok ()) (h : t = .error e) :
    o.opStencil keep ix checks t = .threw e o.w :=
  run_threw he (by rw [hc, h]; rfl)

/-! ### the check sequences -/

theorem dim_mxm (o : MOut γ τ ζ μ) (A : Operand α) (B : Operand β) :
    Dim (do
      o.M.rowCheck o.C.nrows
      o.M.colCheck o.C.ncols
      eqCheck o.C.nrows A.nrows
      eqCheck o.C.ncols B.ncols
      eqCheck A.ncols B.nrows) (MxmShapes o A B) :=
  ((dim_rows _ _).seq ((dim_cols _ _).seq ((dim_eq _ _).seq ((dim_eq _ _).seq (dim_eq _ _))))).iff
    ⟨fun ⟨a, b, c, d, e⟩ => ⟨fits_iff.2 ⟨a, b⟩, c, d, e⟩,
      fun h => ⟨(fits_iff.1 h.mask).1, (fits_iff.1 h.mask).2, h.rows, h.cols, h.inner⟩⟩

theorem dim_vxm (o : VOut γ τ ζ μ) (u : BVec α) (A : Operand β) :
    Dim (do
      o.m.sizeCheck o.w.size
      eqCheck o.w.size A.ncols
      eqCheck u.size A.nrows) (VxmShapes o u A) :=
  ((dim_size _ _).seq ((dim_eq _ _).seq (dim_eq _ _))).iff
    ⟨fun ⟨a, b, c⟩ => ⟨a, b, c⟩, fun h => ⟨h.mask, h.out, h.inner⟩⟩

theorem dim_mxv (o : VOut γ τ ζ μ) (A : Operand α) (u : BVec β) :
    Dim (do
      o.m.sizeCheck o.w.size
      eqCheck o.w.size A.nrows
      eqCheck u.size A.ncols) (MxvShapes o A u) :=
  ((dim_size _ _).seq ((dim_eq _ _).seq (dim_eq _ _))).iff
    ⟨fun ⟨a, b, c⟩ => ⟨a, b, c⟩, fun h => ⟨h.mask, h.out, h.inner⟩⟩

theorem dim_same2V (o : VOut γ τ ζ μ) (u : BVec α) (v : BVec β) :
    Dim (o.checks2 u v) (SameSize2 o u v) :=
  ((dim_size _ _).seq ((dim_eq _ _).seq (dim_eq _ _))).iff
    ⟨fun ⟨a, b, c⟩ => ⟨a, b, c⟩, fun h => ⟨h.mask, h.size, h.size2⟩⟩

theorem dim_same2 (o : MOut γ τ ζ μ) (A : Operand α) (B : Operand β) :
    Dim (o.checks2 A B) (SameShape2 o A B) :=
  ((dim_cols _ _).seq ((dim_rows _ _).seq ((dim_eq _ _).seq ((dim_eq _ _).seq
    ((dim_eq _ _).seq (dim_eq _ _)))))).iff
    ⟨fun ⟨a, b, c, d, e, f⟩ => ⟨fits_iff.2 ⟨b, a⟩, c, d, e, f⟩,
      fun h => ⟨(fits_iff.1 h.mask).2, (fits_iff.1 h.mask).1, h.cols, h.rows, h.cols2, h.rows2⟩⟩

theorem dim_same (o : MOut γ τ ζ μ) (A : Operand α) :
    Dim (do
      o.M.colCheck o.C.ncols
      o.M.rowCheck o.C.nrows
      eqCheck o.C.ncols A.ncols
      eqCheck o.C.nrows A.nrows) (SameShape o A) :=
  ((dim_cols _ _).seq ((dim_rows _ _).seq ((dim_eq _ _).seq (dim_eq _ _)))).iff
    ⟨fun ⟨a, b, c, d⟩ => ⟨fits_iff.2 ⟨b, a⟩, c, d⟩,
      fun h => ⟨(fits_iff.1 h.mask).2, (fits_iff.1 h.mask).1, h.cols, h.rows⟩⟩

theorem dim_sameV (o : VOut γ τ ζ μ) (u : BVec α) :
    Dim (do
      o.m.sizeCheck o.w.size
      eqCheck o.w.size u.size) (SameSize o u) :=
  ((dim_size _ _).seq (dim_eq _ _)).iff ⟨fun ⟨a, b⟩ => ⟨a, b⟩, fun h => ⟨h.mask, h.size⟩⟩

theorem dim_reduce (o : VOut γ τ ζ μ) (A : Operand α) :
    Dim (do
      o.m.sizeCheck o.w.size
      eqCheck o.w.size A.nrows) (ReduceShapes o A) :=
  ((dim_size _ _).seq (dim_eq _ _)).iff ⟨fun ⟨a, b⟩ => ⟨a, b⟩, fun h => ⟨h.mask, h.out⟩⟩

theorem dim_transpose (o : MOut γ τ ζ μ) (A : Operand α) :
    Dim (do
      o.M.rowCheck o.C.nrows
      o.M.colCheck o.C.ncols
      eqCheck o.C.ncols A.nrows
      eqCheck A.ncols o.C.nrows) (TransposeShapes o A) :=
  ((dim_rows _ _).seq ((dim_cols _ _).seq ((dim_eq _ _).seq (dim_eq _ _)))).iff
    ⟨fun ⟨a, b, c, d⟩ => ⟨fits_iff.2 ⟨a, b⟩, c, d⟩,
      fun h => ⟨(fits_iff.1 h.mask).1, (fits_iff.1 h.mask).2, h.cols, h.rows⟩⟩

end GBTL

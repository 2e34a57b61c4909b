import Verif.Spec.Normalize
import Verif.Model.Normalize
import Verif.Lemmas.EdgeBcCalls
import Verif.Props.Shapes
/-
C60: normalising the rows or the columns of a matrix.
-/
namespace GBTL
open Spec

variable {α β τ γ : Type} {r c m n : Nat}

theorem sumOf_eq (n : Nat) (v : Vec Rat) : sumOf n v = rsum n fun j => (v j).getD 0 := rsum_eq _ _

/-- A sum with at least one stored term. -/
theorem osum_ratS {m : Nat} {f : Nat → Option Rat} (h : ∃ k, k < m ∧ f k ≠ none) :
    osum (· + ·) ((List.range m).map f) = some (sumOf m f) := by
  rw [sumOf_eq]
  induction m with
  | zero => obtain ⟨k, hk, -⟩ := h; omega
  | succ m ih =>
    rw [List.range_succ, List.map_append, List.map_cons, List.map_nil, osum_append, rsum]
    by_cases h' : ∃ k, k < m ∧ f k ≠ none
    · rw [ih h']
      cases f m with
      | none => simp [Rat.add_zero]
      | some x => simp
    · have h0 : ∀ k, k < m → f k = none := fun k hk => Classical.byContradiction fun hc => h' ⟨k, hk, hc⟩
      rw [osum_range_none.2 h0, rsum_eq_zero (fun i hi => by rw [h0 i hi]; rfl)]
      obtain ⟨k, hk, hk2⟩ := h
      have : k = m := Classical.byContradiction fun hc => hk2 (h0 k (by omega))
      subst this
      cases hf : f k with
      | none => exact absurd hf hk2
      | some x => simp [Rat.zero_add]

/-- A product of matrices of any shapes, written over a matrix without mask. -/
theorem mxmR_ok {C : Lil γ} {A : Lil α} {B : Lil β} {sr : SR α β γ} {via : γ → γ} (hC : Sh r c C) (hA : Sh r m A)
    (hB : Sh m c B) :
    ∃ C', exec (mxm (mPlain id C) sr via (.plain A) (.plain B)) = .ok C' ∧ Sh r c C' ∧
      ∀ i j, i < r → j < c → C'.get i j =
        osum sr.add ((List.range m).map fun k => both sr.mult (A.get i k) (B.get k j)) := by
  obtain ⟨C', e, y⟩ := C09_mxm (o := mWhole id C .merge) (sr := sr) (via := via) (A := A) (B := B) (mWhole_wf hC.wf) hA.wf hB.wf
    ⟨noMaskFitsM, hC.nr.trans hA.nr.symm, hC.nc.trans hB.nc.symm, hA.nc.trans hB.nr.symm⟩
  obtain ⟨h1, h2⟩ := whole_yields hC y
  refine ⟨C', by rw [show mPlain id C = mWhole id C .merge from rfl, e, exec_done], h1, fun i j hi hj => ?_⟩
  rw [h2 i j hi hj, hA.nc]
  simp
  rfl

/-- The sums of the rows. -/
theorem rowSumR_ok {w : BVec τ} {A : Lil τ} {add : τ → τ → τ} (hw : Sz r w) (hA : Sh r c A) :
    ∃ w', exec (reduceMV (vPlain id w) (.of add id) (.plain A)) = .ok w' ∧ Sz r w' ∧
      ∀ i, i < r → w'.get i = osum add ((List.range c).map (A.get i)) := by
  obtain ⟨w', e, y⟩ := C16_reduce_rows_op (o := vPlain id w) (f := add) (c := id) (A := .plain A) (vPlain_wf hw.wf) hA.wf
    ⟨vPlain_fits _, hw.sz.trans hA.nr.symm⟩
  obtain ⟨h1, h2⟩ := vP_yields hw y
  refine ⟨w', by rw [e, exec_done], h1, fun i hi => ?_⟩
  rw [h2 i hi, ofold_osum_id, Option.map_id, id]
  show osum add ((List.range A.ncols).map (A.get i)) = _
  rw [hA.nc]

/-- The sums of the columns. -/
theorem colSum_ok {w : BVec τ} {A : Lil τ} {add : τ → τ → τ} (hw : Sz c w) (hA : Sh r c A) :
    ∃ w', exec (reduceMV (vPlain id w) (.of add id) (.tr A)) = .ok w' ∧ Sz c w' ∧
      ∀ j, j < c → w'.get j = osum add ((List.range r).map fun i => A.get i j) := by
  obtain ⟨w', e, y⟩ := C16_reduce_rows_op (o := vPlain id w) (f := add) (c := id) (A := .tr A) (vPlain_wf hw.wf) hA.wf
    ⟨vPlain_fits _, hw.sz.trans hA.nc.symm⟩
  obtain ⟨h1, h2⟩ := vP_yields hw y
  refine ⟨w', by rw [e, exec_done], h1, fun i hi => ?_⟩
  rw [h2 i hi, ofold_osum_id, Option.map_id, id]
  show osum add ((List.range A.nrows).map fun k => A.get k i) = _
  rw [hA.nr]

/-- What `normalize_rows` computes, for any scalar type. -/
theorem normalizeRows_get [Inhabited τ] {o : NormOps τ} {A : Lil τ} (hA : Sh r c A) (hr : 0 < r) :
    ∃ B, normalizeRows o A = .ok B ∧ Sh r c B ∧
      ∀ i j, i < r → j < c → B.get i j =
        both o.times ((osum o.add ((List.range c).map (A.get i))).map o.inv) (A.get i j) := by
  obtain ⟨w0, e0, z0, -⟩ := newV (τ := τ) hr
  obtain ⟨w1, e1, z1, g1⟩ := rowSumR_ok (add := o.add) z0 hA
  obtain ⟨w2, e2, z2, g2⟩ := applyVP_ok (f := o.inv) z1 z1
  obtain ⟨D, e3, zD, gD⟩ := diagV_ok z2
  obtain ⟨B, e4, zB, gB⟩ := mxmR_ok (sr := ⟨o.add, o.times, o.times⟩) (via := id) hA zD hA
  refine ⟨B, ?_, zB, fun i j hi hj => ?_⟩
  · unfold normalizeRows
    rw [hA.nr, e0]
    simp only [lift_ok, prog_bind_ok]
    rw [e1]
    simp only [prog_bind_ok]
    rw [e2]
    simp only [prog_bind_ok]
    rw [e3]
    exact e4
  · rw [gB i j hi hj, osum_single hi (fun k _ hk => by rw [gD, if_neg (fun e => hk e.symm)]; rfl), gD,
        if_pos rfl, g2 i hi, g1 i hi]

/-- What `normalize_cols` computes for a square matrix, for any scalar type. -/
theorem normalizeCols_get [Inhabited τ] {o : NormOps τ} {A : Lil τ} (hA : Sh n n A) (hr : 0 < n) :
    ∃ B, normalizeCols o A = .ok B ∧ Sh n n B ∧
      ∀ i j, i < n → j < n → B.get i j =
        both o.times (A.get i j) ((osum o.add ((List.range n).map fun k => A.get k j)).map o.inv) := by
  obtain ⟨w0, e0, z0, -⟩ := newV (τ := τ) hr
  obtain ⟨w1, e1, z1, g1⟩ := colSum_ok (add := o.add) z0 hA
  obtain ⟨w2, e2, z2, g2⟩ := applyVP_ok (f := o.inv) z1 z1
  obtain ⟨D, e3, zD, gD⟩ := diagV_ok z2
  obtain ⟨B, e4, zB, gB⟩ := mxmR_ok (sr := ⟨o.add, o.times, o.times⟩) (via := id) hA hA zD
  refine ⟨B, ?_, zB, fun i j hi hj => ?_⟩
  · unfold normalizeCols
    rw [hA.nr, e0]
    simp only [lift_ok, prog_bind_ok]
    rw [e1]
    simp only [prog_bind_ok]
    rw [e2]
    simp only [prog_bind_ok]
    rw [e3]
    exact e4
  · rw [gB i j hi hj, osum_single hj (fun k _ hk => by rw [gD, if_neg hk]; cases A.get i k <;> rfl), gD,
        if_pos rfl, g2 j hj, g1 j hj]

theorem normalizeRows_rat {A : Lil Rat} (hA : Sh r c A) (hr : 0 < r) :
    ∃ B, normalizeRows .rat A = .ok B ∧ Sh r c B ∧ ∀ i j, B.get i j = rowsNormalized c A.get i j := by
  obtain ⟨B, e, zB, gB⟩ := normalizeRows_get (o := .rat) hA hr
  refine ⟨B, e, zB, fun i j => ?_⟩
  by_cases hij : i < r ∧ j < c
  · rw [gB i j hij.1 hij.2, rowsNormalized]
    cases hx : A.get i j with
    | none => cases Option.map NormOps.rat.inv (osum NormOps.rat.add ((List.range c).map (A.get i))) <;> rfl
    | some x =>
      rw [show NormOps.rat.add = (· + ·) from rfl, osum_ratS ⟨j, hij.2, by rw [hx]; simp⟩]
      show some (1 / sumOf c (A.get i) * x) = some (x / sumOf c (A.get i))
      congr 1
      grind
  · rw [zB.out hij, rowsNormalized, hA.out hij]; rfl

theorem normalizeCols_rat {A : Lil Rat} (hA : Sh n n A) (hr : 0 < n) :
    ∃ B, normalizeCols .rat A = .ok B ∧ Sh n n B ∧ ∀ i j, B.get i j = colsNormalized n A.get i j := by
  obtain ⟨B, e, zB, gB⟩ := normalizeCols_get (o := .rat) hA hr
  refine ⟨B, e, zB, fun i j => ?_⟩
  by_cases hij : i < n ∧ j < n
  · rw [gB i j hij.1 hij.2, colsNormalized]
    cases hx : A.get i j with
    | none => rfl
    | some x =>
      rw [show NormOps.rat.add = (· + ·) from rfl, osum_ratS ⟨i, hij.1, by rw [hx]; simp⟩]
      show some (x * (1 / sumOf n (fun k => A.get k j))) = some (x / sumOf n (fun k => A.get k j))
      congr 1
      grind
  · rw [zB.out hij, colsNormalized, hA.out hij]; rfl

/-- A vector divided by its sum has the sum 1. -/
theorem sumOf_div {v u : Vec Rat} (h0 : sumOf n v ≠ 0) (h : ∀ i, i < n → u i = (v i).map fun x => x / sumOf n v) :
    sumOf n u = 1 := by
  rw [sumOf_eq, rsum_congr (g := fun j => (v j).getD 0 / sumOf n v), rsum_div, ← sumOf_eq]
  · grind
  · intro k hk
    rw [h k hk]
    cases v k with
    | none => simp; grind
    | some x => rfl

/-- **C60** `normalize_rows` divides every element by the sum of its row, whatever the
shape of the matrix, and keeps the positions of the stored elements; `hs` says that no
row with elements has the sum zero. Then every row with elements has the sum 1. -/
theorem C60_normalize_rows {A : Lil Rat} (hA : A.WF) (hr : 0 < A.nrows)
    (hs : ∀ i, (∃ j, A.get i j ≠ none) → sumOf A.ncols (A.get i) ≠ 0) :
    ∃ B, normalizeRows .rat A = .ok B ∧ B.WF ∧ B.nrows = A.nrows ∧ B.ncols = A.ncols ∧
      (∀ i j, B.get i j = rowsNormalized A.ncols A.get i j) ∧
      ∀ i, (∃ j, A.get i j ≠ none) → sumOf B.ncols (B.get i) = 1 := by
  obtain ⟨B, e, zB, hg⟩ := normalizeRows_rat ⟨hA, rfl, rfl⟩ hr
  refine ⟨B, e, zB.wf, zB.nr, zB.nc, hg, fun i hi => ?_⟩
  rw [zB.nc]
  exact sumOf_div (hs i hi) fun j _ => hg i j

/-- **C60** `normalize_cols` divides every element of a square matrix by the sum of its
column. -/
theorem C60_normalize_cols_partial {A : Lil Rat} (hA : A.WF) (hr : 0 < A.nrows) (hsq : A.ncols = A.nrows)
    (hs : ∀ j, (∃ i, A.get i j ≠ none) → sumOf A.nrows (fun i => A.get i j) ≠ 0) :
    ∃ B, normalizeCols .rat A = .ok B ∧ B.WF ∧ B.nrows = A.nrows ∧ B.ncols = A.ncols ∧
      (∀ i j, B.get i j = colsNormalized A.nrows A.get i j) ∧
      ∀ j, (∃ i, A.get i j ≠ none) → sumOf B.nrows (fun i => B.get i j) = 1 := by
  obtain ⟨B, e, zB, hg⟩ := normalizeCols_rat ⟨hA, rfl, hsq⟩ hr
  refine ⟨B, e, zB.wf, zB.nr, zB.nc.trans hsq.symm, hg, fun j hj => ?_⟩
  rw [zB.nr]
  exact sumOf_div (hs j hj) fun i _ => hg i j

/-- **C60**, refuted for matrices that are not square: `normalize_cols` throws
`DimensionException` (for every scalar type, and whatever the elements are). -/
theorem C60_normalize_cols_disproof [Inhabited τ] {o : NormOps τ} {A : Lil τ} (hA : A.WF) (hr : 0 < A.nrows)
    (hsq : A.ncols ≠ A.nrows) : normalizeCols o A = .error (.err .dimension) := by
  obtain ⟨w0, e0, z0, -⟩ := newV (τ := τ) hr
  have := (C26_reduce (o := vPlain id w0) (f := o.add) (c := id) (A := .tr A) (vPlain_wf z0.wf) hA).1
    (fun h => hsq (h.out.symm.trans z0.sz))
  unfold normalizeCols
  rw [e0]
  simp only [lift_ok, prog_bind_ok]
  rw [this]
  rfl

/-! ### a concrete case -/

/-- `[[1, 3, -], [-, -, 5]]`. -/
def normEx : Lil Rat := { nrows := 2, ncols := 3, nvals := 3, rows := [[(0, 1), (1, 3)], [(2, 5)]] }

/-- `[[1, 3], [1, -]]`. -/
def normSq : Lil Rat := { nrows := 2, ncols := 2, nvals := 3, rows := [[(0, 1), (1, 3)], [(0, 1)]] }

theorem normEx_wf : normEx.WF := Lil.wf_chk (by decide +kernel)
theorem normSq_wf : normSq.WF := Lil.wf_chk (by decide +kernel)

example : ∃ B, normalizeRows .rat normEx = .ok B ∧ B.get 0 1 = some (3 / 4) ∧ B.get 1 2 = some 1 ∧ B.get 1 0 = none := by
  obtain ⟨B, e, -, -, -, h, -⟩ := C60_normalize_rows normEx_wf (by decide) (by
    rintro i ⟨j, hj⟩
    have hlt := some_lt normEx_wf hj
    exact (show ∀ i, i < 2 → sumOf 3 (normEx.get i) ≠ 0 by decide +kernel) i hlt.1)
  exact ⟨B, e, by rw [h]; decide +kernel, by rw [h]; decide +kernel, by rw [h]; decide +kernel⟩

example : ∃ B, normalizeCols .rat normSq = .ok B ∧ B.get 0 0 = some (1 / 2) ∧ B.get 0 1 = some 1 := by
  obtain ⟨B, e, -, -, -, h, -⟩ := C60_normalize_cols_partial normSq_wf (by decide) rfl (by
    rintro j ⟨i, hi⟩
    have hlt := some_lt normSq_wf hi
    exact (show ∀ j, j < 2 → sumOf 2 (fun i => normSq.get i j) ≠ 0 by decide +kernel) j hlt.2)
  exact ⟨B, e, by rw [h]; decide +kernel, by rw [h]; decide +kernel⟩

example : normalizeCols .rat normEx = .error (.err .dimension) :=
  C60_normalize_cols_disproof normEx_wf (by decide) (by decide)

/-- **C60**, refuted for integer types: the inverse is rounded to zero, so that a row
with a sum greater than 1 becomes a row of zeros. -/
theorem C60_normalize_int_disproof {t : ITy} {ov : Int → Int → Int} {A : Lil Int} {i : Nat} {s : Int}
    (hA : A.WF) (hs : osum (t.plusT ov) ((List.range A.ncols).map (A.get i)) = some s) (h2 : 2 ≤ s)
    (hfit : ∀ j x, A.get i j = some x → t.Has x) :
    ∃ B, normalizeRows (.int t ov) A = .ok B ∧ ∀ j, A.get i j ≠ none → B.get i j = some 0 := by
  have hi : i < A.nrows := by
    refine Nat.lt_of_not_le fun h => ?_
    rw [osum_range_none.2 (fun k _ => (Sh.mk hA rfl rfl : Sh A.nrows A.ncols A).out (by omega))] at hs
    cases hs
  obtain ⟨B, e, zB, gB⟩ := normalizeRows_get (o := .int t ov) ⟨hA, rfl, rfl⟩ (by omega)
  refine ⟨B, e, fun j hj => ?_⟩
  rw [gB i j hi (some_lt hA hj).2, show (NormOps.int t ov).add = t.plusT ov from rfl, hs]
  cases hx : A.get i j with
  | none => exact absurd hx hj
  | some x =>
    show some (t.timesT ov (Int.tdiv 1 s) x) = some 0
    have h0 : t.Has 0 := by cases t <;> decide
    rw [Int.tdiv_eq_zero_of_lt (by omega) (by omega), ITy.timesT_eq ov h0 (hfit j x hx) (by rw [Int.zero_mul]; exact h0),
      Int.zero_mul]

example (ov : Int → Int → Int) : ∃ B, normalizeRows (.int .i32 ov)
    ({ nrows := 1, ncols := 2, nvals := 2, rows := [[(0, 1), (1, 1)]] } : Lil Int) = .ok B ∧
    ∀ j, j < 2 → B.get 0 j = some 0 := by
  obtain ⟨B, e, h⟩ := C60_normalize_int_disproof (t := .i32) (ov := ov) (i := 0) (s := 2)
    (A := { nrows := 1, ncols := 2, nvals := 2, rows := [[(0, 1), (1, 1)]] }) (Lil.wf_chk (by decide +kernel))
    (by
      show some (ITy.i32.plusT ov 1 1) = some 2
      rw [ITy.plusT_eq ov (by decide) (by decide) (by decide)]
      rfl) (by decide) (by
      intro j x hx
      have hj : j < 2 := (some_lt (i := 0) (j := j) (A := ({ nrows := 1, ncols := 2, nvals := 2, rows := [[(0, 1), (1, 1)]] } : Lil Int))
        (Lil.wf_chk (by decide +kernel)) (by rw [hx]; simp)).2
      have : j = 0 ∨ j = 1 := by omega
      rcases this with rfl | rfl <;> cases hx <;> decide)
  exact ⟨B, e, fun j hj => h j ((show ∀ j, j < 2 →
    ({ nrows := 1, ncols := 2, nvals := 2, rows := [[(0, 1), (1, 1)]] } : Lil Int).get 0 j ≠ none by decide +kernel) j hj)⟩

theorem tdiv_one {z : Int} (hz : z ≠ 0) : Int.tdiv 1 z = if z = 1 then 1 else if z = -1 then -1 else 0 := by
  split
  · rename_i h; subst h; rfl
  · split
    · rename_i h; subst h; rfl
    · rename_i h1 h2
      rcases Int.lt_or_gt_of_ne hz with h | h
      · have : Int.tdiv 1 z = -(Int.tdiv 1 (-z)) := by rw [Int.tdiv_neg]; omega
        rw [this, Int.tdiv_eq_zero_of_lt (by omega) (by omega)]; rfl
      · exact Int.tdiv_eq_zero_of_lt (by omega) (by omega)

/-- The product with the inverse in an integer type. -/
theorem times_inv {t : ITy} (ov : Int → Int → Int) {z x : Int} (h0 : z ≠ 0) (hz : t.Has z) (hx : t.Has x)
    (hn : z = -1 → t.Has (-x)) :
    t.timesT ov (Int.tdiv 1 z) x = (if z = 1 then x else if z = -1 then -x else 0) ∧
    t.timesT ov x (Int.tdiv 1 z) = (if z = 1 then x else if z = -1 then -x else 0) := by
  have hz0 : t.Has 0 := by cases t <;> decide
  rw [tdiv_one h0]
  split
  · rename_i h
    rw [h] at hz
    rw [ITy.timesT_eq ov hz hx (by rw [Int.one_mul]; exact hx), ITy.timesT_eq ov hx hz (by rw [Int.mul_one]; exact hx),
      Int.one_mul, Int.mul_one]
    exact ⟨rfl, rfl⟩
  · split
    · rename_i h
      rw [h] at hz
      have := hn h
      rw [ITy.timesT_eq ov hz hx (by rw [show -1 * x = -x by omega]; exact this),
        ITy.timesT_eq ov hx hz (by rw [show x * -1 = -x by omega]; exact this)]
      exact ⟨by omega, by omega⟩
    · rw [ITy.timesT_eq ov hz0 hx (by rw [Int.zero_mul]; exact hz0), ITy.timesT_eq ov hx hz0 (by rw [Int.mul_zero]; exact hz0),
        Int.zero_mul, Int.mul_zero]
      exact ⟨rfl, rfl⟩

/-- **C60** What `normalize_rows` does in an integer type in which the sums fit and are not
zero: a row with the sum 1 is kept, one with the sum -1 is negated, all others become
zeros. -/
theorem C60_normalize_rows_int {t : ITy} {ov : Int → Int → Int} {A : Lil Int} {s : Nat → Int} (hA : A.WF) (hr : 0 < A.nrows)
    (hfit : ∀ i j x, A.get i j = some x → t.Has x ∧ (s i = -1 → t.Has (-x)))
    (hs : ∀ i, (∃ j, A.get i j ≠ none) →
      osum (t.plusT ov) ((List.range A.ncols).map (A.get i)) = some (s i) ∧ s i ≠ 0 ∧ t.Has (s i)) :
    ∃ B, normalizeRows (.int t ov) A = .ok B ∧ B.WF ∧ B.nrows = A.nrows ∧ B.ncols = A.ncols ∧
      ∀ i j, B.get i j = (A.get i j).map fun x => if s i = 1 then x else if s i = -1 then -x else 0 := by
  have zA : Sh A.nrows A.ncols A := ⟨hA, rfl, rfl⟩
  obtain ⟨B, e, zB, gB⟩ := normalizeRows_get (o := .int t ov) zA hr
  refine ⟨B, e, zB.wf, zB.nr, zB.nc, fun i j => ?_⟩
  by_cases hij : i < A.nrows ∧ j < A.ncols
  · rw [gB i j hij.1 hij.2]
    cases hx : A.get i j with
    | none => cases (osum _ _ : Option Int) <;> rfl
    | some x =>
      obtain ⟨h1, h2, h3⟩ := hs i ⟨j, by rw [hx]; simp⟩
      rw [show (NormOps.int t ov).add = t.plusT ov from rfl, h1]
      show some (t.timesT ov (Int.tdiv 1 (s i)) x) = _
      rw [(times_inv ov h2 h3 (hfit i j x hx).1 (hfit i j x hx).2).1]
      rfl
  · rw [zB.out hij, zA.out hij]; rfl

/-- **C60** The same of `normalize_cols` and the columns of a square matrix. -/
theorem C60_normalize_cols_int {t : ITy} {ov : Int → Int → Int} {A : Lil Int} {s : Nat → Int} (hA : A.WF) (hr : 0 < A.nrows)
    (hsq : A.ncols = A.nrows) (hfit : ∀ i j x, A.get i j = some x → t.Has x ∧ (s j = -1 → t.Has (-x)))
    (hs : ∀ j, (∃ i, A.get i j ≠ none) →
      osum (t.plusT ov) ((List.range A.nrows).map fun i => A.get i j) = some (s j) ∧ s j ≠ 0 ∧ t.Has (s j)) :
    ∃ B, normalizeCols (.int t ov) A = .ok B ∧ B.WF ∧ B.nrows = A.nrows ∧ B.ncols = A.ncols ∧
      ∀ i j, B.get i j = (A.get i j).map fun x => if s j = 1 then x else if s j = -1 then -x else 0 := by
  have zA : Sh A.nrows A.nrows A := ⟨hA, rfl, hsq⟩
  obtain ⟨B, e, zB, gB⟩ := normalizeCols_get (o := .int t ov) zA hr
  refine ⟨B, e, zB.wf, zB.nr, zB.nc.trans hsq.symm, fun i j => ?_⟩
  by_cases hij : i < A.nrows ∧ j < A.nrows
  · rw [gB i j hij.1 hij.2]
    cases hx : A.get i j with
    | none => rfl
    | some x =>
      obtain ⟨h1, h2, h3⟩ := hs j ⟨i, by rw [hx]; simp⟩
      rw [show (NormOps.int t ov).add = t.plusT ov from rfl, h1]
      show some (t.timesT ov x (Int.tdiv 1 (s j))) = _
      rw [(times_inv ov h2 h3 (hfit i j x hx).1 (hfit i j x hx).2).2]
      rfl
  · rw [zB.out hij, zA.out hij]; rfl

/-- `[[-, 2, -1], [1, 1, -], [-2, 1, -]]`. -/
def normInt : Lil Int :=
  { nrows := 3, ncols := 3, nvals := 6, rows := [[(1, 2), (2, -1)], [(0, 1), (1, 1)], [(0, -2), (1, 1)]] }

/-- The hypotheses of both hold of it. -/
example : normInt.WF ∧
    (∀ i, i < 3 → ∀ j, j < 3 → ∀ x ∈ normInt.get i j, ITy.Has .i32 x ∧ ITy.Has .i32 (-x)) ∧
    (∀ i, i < 3 → osum (ITy.plusT .i32 fun _ _ => 0) ((List.range 3).map (normInt.get i)) = some ([1, 2, -1].getD i 0)) ∧
    (∀ j, j < 3 → osum (ITy.plusT .i32 fun _ _ => 0) ((List.range 3).map fun i => normInt.get i j) = some ([-1, 4, -1].getD j 0)) ∧
    (∃ B, normalizeRows (.int .i32 fun _ _ => 0) normInt = .ok B ∧
      B.rows = [[(1, 2), (2, -1)], [(0, 0), (1, 0)], [(0, 2), (1, -1)]]) ∧
    ∃ B, normalizeCols (.int .i32 fun _ _ => 0) normInt = .ok B ∧
      B.rows = [[(1, 0), (2, 1)], [(0, -1), (1, 0)], [(0, 2), (1, 0)]] :=
  ⟨Lil.wf_chk (by decide), by decide +kernel, by decide +kernel, by decide +kernel, ⟨_, rfl, by decide +kernel⟩, ⟨_, rfl, by decide +kernel⟩⟩

end GBTL

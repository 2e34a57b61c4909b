import Verif.Spec.Markov
import Verif.Model.Markov
import Verif.Lemmas.PageRankMath
/-
What the calls of Markov clustering compute.
-/
namespace GBTL
open Spec

variable {α σ : Type} {n : Nat}

/-- A loop that is left at the first round with `err`. -/
theorem stop_loop {stop : σ → Bool} {b : σ → Prog σ} {q : σ} (I : Nat → σ → Prop) (err : Nat → Prop)
    (step : ∀ k q, I k q → ∃ q', b q = .ok q' ∧ I (k + 1) q' ∧ (stop q' = true ↔ err k)) (h : I 0 q) (hs : stop q = false) (N : Nat) :
    ∃ q' k, (forP N q fun _ q => if stop q then .ok q else b q) = .ok q' ∧
      I k q' ∧ k ≤ N ∧ (∀ j, j + 1 < k → ¬ err j) ∧ (k = N ∨ 0 < k ∧ err (k - 1)) := by
  obtain ⟨q', e, k, hi, hk, h1, h2⟩ := forP_inv (b := fun _ q => if stop q then .ok q else b q)
    (fun i q => ∃ k, I k q ∧ k ≤ i ∧ (stop q = false → k = i ∧ ∀ j, j < k → ¬ err j) ∧
      (stop q = true → (∀ j, j + 1 < k → ¬ err j) ∧ 0 < k ∧ err (k - 1)))
    N q ⟨0, h, Nat.le_refl _, fun _ => ⟨rfl, fun j hj => absurd hj (by omega)⟩, fun h' => by (rw [hs] at h'; cases h')⟩
    (by
      rintro i q hiN ⟨k, hi, hk, h1, h2⟩
      cases hst : stop q with
      | true => exact ⟨q, by simp, k, hi, by omega, fun h' => by (rw [hst] at h'; cases h'), fun _ => h2 hst⟩
      | false =>
        obtain ⟨hki, hj⟩ := h1 hst
        subst hki
        obtain ⟨q', e, hi', hs'⟩ := step k q hi
        refine ⟨q', by simpa using e, k + 1, hi', Nat.le_refl _, ?_, ?_⟩
        · intro h'
          refine ⟨rfl, fun j hjk => ?_⟩
          rcases Nat.lt_or_ge j k with h3 | h3
          · exact hj j h3
          · have : j = k := by omega
            subst this
            intro h4
            rw [hs'.2 h4] at h'
            cases h'
        · intro h'
          exact ⟨fun j hjk => hj j (by omega), by omega, hs'.1 h'⟩)
  refine ⟨q', k, e, hi, hk, ?_⟩
  cases hst : stop q' with
  | false => exact ⟨fun j hj => (h1 hst).2 j (by omega), Or.inl (h1 hst).1⟩
  | true => exact ⟨(h2 hst).1, Or.inr (h2 hst).2⟩

theorem mpower_succ (A : Nat → Nat → Rat) (e i j : Nat) : mpower n A (e + 1) i j = rsum n fun l => mpower n A e i l * A l j := by
  rw [mpower, rsum_eq]

theorem mpower_one (A : Nat → Nat → Rat) {i : Nat} (hi : i < n) (j : Nat) : mpower n A 1 i j = A i j := by
  rw [mpower_succ, rsum_single hi (fun l _ hl => by rw [mpower, if_neg (fun h => hl h.symm), Rat.zero_mul]), mpower, if_pos rfl, Rat.one_mul]

theorem mpower_congr {A B : Nat → Nat → Rat} (h : ∀ i j, i < n → j < n → A i j = B i j) (e : Nat) :
    ∀ i j, i < n → j < n → mpower n A e i j = mpower n B e i j := by
  induction e with
  | zero => intro i j _ _; rfl
  | succ e ih =>
    intro i j hi hj
    rw [mpower_succ, mpower_succ]
    exact rsum_congr fun l hl => by rw [ih i l hi hl, h l j hl hj]

theorem colNorm_eq (A : Nat → Nat → Rat) (i j : Nat) : colNorm n A i j = A i j / rsum n fun k => A k j := by
  rw [colNorm, rsum_eq]

theorem colNorm_congr {A B : Nat → Nat → Rat} (h : ∀ i j, i < n → j < n → A i j = B i j) :
    ∀ i j, i < n → j < n → colNorm n A i j = colNorm n B i j := by
  intro i j hi hj
  rw [colNorm_eq, colNorm_eq, h i j hi hj, rsum_congr fun k hk => h k j hk hj]

theorem inflate_congr {A B : Nat → Nat → Rat} {r : Nat} (h : ∀ i j, i < n → j < n → A i j = B i j) :
    ∀ i j, i < n → j < n → inflate n r A i j = inflate n r B i j :=
  colNorm_congr fun i j hi hj => by rw [h i j hi hj]

/-- The stored elements are positive. -/
abbrev PosM (A : Lil Rat) : Prop := PosW A.get

/-- Wherever there are elements at `(i, l)` and `(l, j)` there is one at `(i, j)`. -/
def TransM (A : Lil Rat) : Prop := ∀ i l j, A.get i l ≠ none → A.get l j ≠ none → A.get i j ≠ none

theorem PosW.any {W : Mat Rat} (h : PosW W) (i j : Nat) : (W i j).any (fun x => x != 0) = true ↔ W i j ≠ none := by
  cases hx : W i j with
  | none => simp
  | some x =>
    have := h i j x hx
    have h0 : x ≠ 0 := by grind
    simp [h0]

theorem both_ne {a b : Option Rat} : both (· * ·) a b ≠ none ↔ a ≠ none ∧ b ≠ none := by
  cases a <;> cases b <;> simp [both]

theorem both_getD (a b : Option Rat) : (both (· * ·) a b).getD 0 = a.getD 0 * b.getD 0 := by
  cases a <;> cases b <;> simp [both, Rat.zero_mul, Rat.mul_zero]

theorem ixPred_eq {e : Nat} (h1 : 0 < e) (h2 : e < 2 ^ 64) : ixPred e + 1 = e := by
  unfold ixPred; omega

/-- One step of the expansion. -/
theorem mclStep_ok {A P : Lil Rat} (hA : Sh n n A) (hP : Sh n n P) (pA : PosM A) (pP : PosM P) :
    ∃ P', exec (mxm (mMasked P .plain (fun x => x != 0) P) ⟨(· + ·), (· * ·), (· * ·)⟩ id (.plain P) (.plain A)) = .ok P' ∧
      Sh n n P' ∧ PosM P' ∧
      (∀ i j, P'.get i j ≠ none ↔ P.get i j ≠ none ∧ ∃ l, P.get i l ≠ none ∧ A.get l j ≠ none) ∧
      ∀ i j, P'.get i j ≠ none → (P'.get i j).getD 0 = rsum n fun l => dense P.get i l * dense A.get l j := by
  classical
  obtain ⟨P', e, y⟩ := C09_mxm (o := mMasked P .plain (fun x => x != 0) P) (sr := ⟨(· + ·), (· * ·), (· * ·)⟩) (via := id) (A := P) (B := A)
    ⟨hP.wf, maskOKM hP.wf⟩ hP.wf hA.wf ⟨maskFitsM rfl rfl, hP.nr.trans hP.nr.symm, hP.nc.trans hA.nc.symm, hP.nc.trans hA.nr.symm⟩
  obtain ⟨h1, h2⟩ := masked_yields hP y
  have hval : ∀ i j, P'.get i j = if P.get i j ≠ none ∧ ∃ l, P.get i l ≠ none ∧ A.get l j ≠ none then
      some (rsum n fun l => dense P.get i l * dense A.get l j) else none := by
    intro i j
    by_cases hij : i < n ∧ j < n
    · rw [h2 i j hij.1 hij.2, hP.nc]
      show (if (P.get i j).any (fun x => x != 0) = true then _ else none) = _
      by_cases hp : P.get i j ≠ none
      · rw [if_pos ((PosW.any pP i j).2 hp)]
        by_cases hl : ∃ l, P.get i l ≠ none ∧ A.get l j ≠ none
        · rw [if_pos ⟨hp, hl⟩]
          obtain ⟨l, hl1, hl2⟩ := hl
          have hln : l < n := by have := (some_lt hP.wf hl1).2; rw [hP.nc] at this; exact this
          show osum (· + ·) ((List.range n).map fun k => both (· * ·) (P.get i k) (A.get k j)) = _
          rw [osum_ratS ⟨l, hln, both_ne.2 ⟨hl1, hl2⟩⟩, sumOf_eq]
          congr 1
          exact rsum_congr fun k _ => both_getD _ _
        · rw [if_neg (fun h => hl h.2)]
          exact osum_range_none.2 fun l _ => Classical.byContradiction fun h => hl ⟨l, both_ne.1 h⟩
      · rw [if_neg (fun h => hp ((PosW.any pP i j).1 h)), if_neg (fun h => hp h.1)]
    · rw [h1.out hij, if_neg (fun h => h.1 (hP.out hij))]
  have hne : ∀ i j, P'.get i j ≠ none ↔ P.get i j ≠ none ∧ ∃ l, P.get i l ≠ none ∧ A.get l j ≠ none := by
    intro i j
    rw [hval]
    split <;> simp_all
  refine ⟨P', by rw [e, exec_done], h1, ?_, hne, ?_⟩
  · intro i j x hx
    rw [hval] at hx
    split at hx
    next h =>
      injection hx with hx
      subst hx
      obtain ⟨l, hl1, hl2⟩ := h.2
      have hln : l < n := by have := (some_lt hP.wf hl1).2; rw [hP.nc] at this; exact this
      have hp : PosW (fun (_ : Nat) k => both (· * ·) (P.get i k) (A.get k j)) := by
        intro _ k z hz
        cases ha : P.get i k with
        | none => simp [ha, both] at hz
        | some a =>
          cases hb : A.get k j with
          | none => simp [ha, hb, both] at hz
          | some b =>
            simp only [ha, hb, both, Option.some.injEq] at hz
            rw [← hz]
            exact Rat.mul_pos (pP i k a ha) (pA k j b hb)
      have := sumOf_pos hp (u := 0) hln (both_ne.2 ⟨hl1, hl2⟩)
      rw [sumOf_eq] at this
      rw [rsum_congr (f := fun l => dense P.get i l * dense A.get l j) (g := fun k => (both (· * ·) (P.get i k) (A.get k j)).getD 0) (fun k _ => (both_getD (P.get i k) (A.get k j)).symm)]
      exact this
    next => cases hx
  · intro i j hne'
    rw [hval]
    rw [if_pos ((hne i j).1 hne')]
    rfl

/-- The expansion: no element appears at a new position; the result is the power if the
positions are transitive. -/
theorem mclExpand_ok {A : Lil Rat} {e : Nat} (he : 0 < e) (he2 : e < 2 ^ 64) (hA : Sh n n A) (pA : PosM A) :
    ∃ P, mclExpand e A = .ok P ∧ Sh n n P ∧ PosM P ∧ (∀ i j, P.get i j ≠ none → A.get i j ≠ none) ∧
      (TransM A → TransM P ∧ ∀ i j, i < n → j < n → dense P.get i j = mpower n (dense A.get) e i j) := by
  obtain ⟨P, e1, h1, h2, h3, h4⟩ := forP_inv
    (b := fun _ P => exec (mxm (mMasked P .plain (fun x => x != 0) P) ⟨(· + ·), (· * ·), (· * ·)⟩ id (.plain P) (.plain A)))
    (fun k P => Sh n n P ∧ PosM P ∧ (∀ i j, P.get i j ≠ none → A.get i j ≠ none) ∧
      (TransM A → (∀ i l j, P.get i l ≠ none → A.get l j ≠ none → P.get i j ≠ none) ∧
        ∀ i j, i < n → j < n → dense P.get i j = mpower n (dense A.get) (k + 1) i j)) (ixPred e) A
    ⟨hA, pA, fun _ _ h => h, fun ht => ⟨ht, fun i j hi _ => (mpower_one _ hi j).symm⟩⟩
    (by
      rintro k P hk ⟨h1, h2, h3, h4⟩
      obtain ⟨P', e, z, p, hne, hv⟩ := mclStep_ok hA h1 pA h2
      refine ⟨P', e, z, p, fun i j h => h3 i j ((hne i j).1 h).1, fun ht => ?_⟩
      obtain ⟨h5, h6⟩ := h4 ht
      refine ⟨fun i l j hil hlj => ?_, fun i j hi hj => ?_⟩
      · have hil' := ((hne i l).1 hil).1
        exact (hne i j).2 ⟨h5 i l j hil' hlj, l, hil', hlj⟩
      · rw [mpower_succ, rsum_congr (fun l hl => by rw [← h6 i l hi hl])]
        by_cases hp : P'.get i j ≠ none
        · exact hv i j hp
        · have hp' : P'.get i j = none := Classical.byContradiction hp
          rw [dense, hp']
          symm
          refine rsum_eq_zero fun l hl => ?_
          by_cases ha : P.get i l = none
          · rw [dense, ha]; exact Rat.zero_mul _
          · by_cases hb : A.get l j = none
            · rw [dense, dense, hb]; exact Rat.mul_zero _
            · exact absurd ((hne i j).2 ⟨h5 i l j ha hb, l, ha, hb⟩) hp)
  refine ⟨P, e1, h1, h2, h3, fun ht => ?_⟩
  obtain ⟨h5, h6⟩ := h4 ht
  refine ⟨fun i l j hil hlj => h5 i l j hil (h3 l j hlj), fun i j hi hj => ?_⟩
  rw [h6 i j hi hj, ixPred_eq he he2]

theorem rat_pow_pos {x : Rat} (h : 0 < x) (k : Nat) : 0 < x ^ k := by
  induction k with
  | zero => rw [Rat.pow_zero]; decide
  | succ k ih => rw [Rat.pow_succ]; exact Rat.mul_pos ih h

theorem rat_div_pos {x y : Rat} (hx : 0 < x) (hy : 0 < y) : 0 < x / y := by
  rw [Rat.div_def]
  exact Rat.mul_pos hx (Rat.inv_pos.2 hy)

/-- The columns of a matrix of positive elements, normalised. -/
theorem normCols_ok {A : Lil Rat} (hn : 0 < n) (hA : Sh n n A) (pA : PosM A) :
    ∃ B, normalizeCols .rat A = .ok B ∧ Sh n n B ∧ PosM B ∧ (∀ i j, B.get i j ≠ none ↔ A.get i j ≠ none) ∧
      (∀ i j, i < n → j < n → dense B.get i j = colNorm n (dense A.get) i j) ∧
      ∀ j, (∃ i, B.get i j ≠ none) → sumOf n (fun i => B.get i j) = 1 := by
  obtain ⟨B, e, z, g⟩ := normalizeCols_rat hA hn
  have hcol : ∀ i j, A.get i j ≠ none → 0 < sumOf n (fun k => A.get k j) := by
    intro i j h
    have hi := (some_lt hA.wf h).1
    rw [hA.nr] at hi
    exact sumOf_pos (W := fun j k => A.get k j) (fun j k x hx => pA k j x hx) (u := j) hi h
  refine ⟨B, e, z, ?_, fun i j => ?_, fun i j hi hj => ?_, fun j hj => ?_⟩
  · intro i j x hx
    rw [g, colsNormalized] at hx
    cases ha : A.get i j with
    | none => rw [ha] at hx; cases hx
    | some a =>
      rw [ha] at hx
      simp only [Option.map_some, Option.some.injEq] at hx
      rw [← hx]
      exact rat_div_pos (pA i j a ha) (hcol i j (by rw [ha]; simp))
  · rw [g, colsNormalized]; simp
  · rw [dense, g, colsNormalized, colNorm_eq]
    rw [show (rsum n fun k => dense A.get k j) = sumOf n (fun k => A.get k j) from (sumOf_eq _ _).symm]
    rw [dense]
    cases A.get i j with
    | none => simp; grind
    | some a => rfl
  · obtain ⟨i, hi⟩ := hj
    rw [g, colsNormalized] at hi
    have hne : A.get i j ≠ none := fun h => hi (by rw [h]; rfl)
    have := hcol i j hne
    exact sumOf_div (v := fun i => A.get i j) (by grind) fun k _ => g k j

/-- Inflation. -/
theorem mclInflate_ok {P : Lil Rat} {r R : Nat} (hn : 0 < n) (hR : ixPred r + 1 = R) (hP : Sh n n P) (pP : PosM P) :
    ∃ I, mclInflate r P = .ok I ∧ Sh n n I ∧ PosM I ∧ (∀ i j, I.get i j ≠ none ↔ P.get i j ≠ none) ∧
      (∀ i j, i < n → j < n → dense I.get i j = inflate n R (dense P.get) i j) ∧
      ∀ j, (∃ i, I.get i j ≠ none) → sumOf n (fun i => I.get i j) = 1 := by
  obtain ⟨J, e1, h1, h2⟩ := forP_inv
    (b := fun _ I => exec (eWiseMultM (mMasked I .plain (fun x => x != 0) I) ⟨(· * ·), id, id, id, (· * ·), id⟩ (.plain I) (.plain P)))
    (fun k I => Sh n n I ∧ ∀ i j, I.get i j = (P.get i j).map fun x => x ^ (k + 1)) (ixPred r) P
    ⟨hP, fun i j => by cases P.get i j <;> simp [Rat.pow_succ, Rat.pow_zero, Rat.one_mul]⟩
    (by
      rintro k I hk ⟨h1, h2⟩
      obtain ⟨I', e, y⟩ := C14_eWiseMult_same_type (o := mMasked I .plain (fun x => x != 0) I) (op := (· * ·)) (c1 := id) (c2 := id)
        (A := .plain I) (B := .plain P) ⟨h1.wf, maskOKM h1.wf⟩ h1.wf hP.wf
        ⟨maskFitsM rfl rfl, rfl, rfl, h1.nc.trans hP.nc.symm, h1.nr.trans hP.nr.symm⟩
      obtain ⟨z, g⟩ := masked_yields h1 y
      refine ⟨I', by rw [e, exec_done], z, fun i j => ?_⟩
      by_cases hij : i < n ∧ j < n
      · rw [g i j hij.1 hij.2]
        show (if (I.get i j).any (fun x => x != 0) = true then both (· * ·) (I.get i j) (P.get i j) else none) = _
        rw [h2]
        cases hp : P.get i j with
        | none => rfl
        | some x =>
          have hx := rat_pow_pos (pP i j x hp) (k + 1)
          have hx0 : x ^ (k + 1) ≠ 0 := by grind
          simp only [Option.map_some, Option.any_some]
          rw [if_pos (by simp [hx0])]
          simp only [both]
          rw [Rat.pow_succ x (k + 1)]
      · rw [z.out hij, hP.out hij]; rfl)
  have hJ : ∀ i j, J.get i j = (P.get i j).map fun x => x ^ R := fun i j => by rw [h2, hR]
  have pJ : PosM J := by
    intro i j x hx
    rw [hJ] at hx
    cases hp : P.get i j with
    | none => rw [hp] at hx; cases hx
    | some y =>
      rw [hp] at hx
      simp only [Option.map_some, Option.some.injEq] at hx
      rw [← hx]
      exact rat_pow_pos (pP i j y hp) R
  obtain ⟨I, e2, z2, p2, n2, v2, c2⟩ := normCols_ok hn h1 pJ
  refine ⟨I, ?_, z2, p2, fun i j => ?_, fun i j hi hj => ?_, c2⟩
  · unfold mclInflate
    rw [e1]
    exact e2
  · rw [n2, hJ]; simp
  · rw [v2 i j hi hj, inflate]
    refine colNorm_congr (fun i j _ _ => ?_) i j hi hj
    rw [dense, hJ, dense]
    cases P.get i j with
    | some x => rfl
    | none =>
      obtain ⟨k, rfl⟩ : ∃ k, R = k + 1 := ⟨ixPred r, hR.symm⟩
      simp [Rat.pow_succ, Rat.mul_zero]

theorem foldl_mvals (m n : Nat) (A : Mat Rat) (a : Rat) :
    ((Mat.vals m n A).map id).foldl (· + ·) a = a + rsum m fun i => sumOf n (A i) := by
  induction m with
  | zero => show a = a + 0; rw [Rat.add_zero]
  | succ m ih =>
    rw [Mat.vals, List.range_succ, List.flatMap_append, List.map_append, List.foldl_append, ← Mat.vals, ih]
    rw [show List.flatMap (fun i => Vec.vals n (A i)) [m] = Vec.vals n (A m) by simp]
    rw [foldl_vals, rsum, Rat.add_assoc]

/-- The mean squared change. -/
theorem mclErr_ok {A I : Lil Rat} (hA : Sh n n A) (hI : Sh n n I) : ∃ E E',
    exec (eWiseAddM (mPlain id (Lil.new n n)) ⟨(· - ·), id, id, id, (· - ·), id⟩ (.plain A) (.plain I)) = .ok E ∧
    exec (eWiseMultM (mPlain id E) ⟨(· * ·), id, id, id, (· * ·), id⟩ (.plain E) (.plain E)) = .ok E' ∧
    exec (reduceMS id (.none id) (.of (· + ·) id) 0 (0 : Rat) (.plain E')) =
      .ok (rsum n fun i => rsum n fun j => (dense A.get i j - dense I.get i j) * (dense A.get i j - dense I.get i j)) := by
  obtain ⟨E, e1, z1, g1⟩ := addM_ok (add := fun x y : Rat => x - y) (Sh.new n n) hA hI
  obtain ⟨E', e2, y⟩ := C14_eWiseMult_same_type (o := mWhole id E .merge) (op := fun x y : Rat => x * y) (c1 := id) (c2 := id)
    (A := .plain E) (B := .plain E) (mWhole_wf z1.wf) z1.wf z1.wf ⟨noMaskFitsM, rfl, rfl, rfl, rfl⟩
  obtain ⟨z2, g2⟩ := whole_yields z1 y
  refine ⟨E, E', e1, by rw [show mPlain id E = mWhole id E .merge from rfl, e2, exec_done], ?_⟩
  obtain ⟨v, e3, h⟩ := C17_reduce_matrix (castZ := (id : Rat → Rat)) (acc := .none (id : Rat → Rat)) (f := (· + ·)) (e := 0) (c := id)
    (val := (0 : Rat)) (A := E') Rat.add_assoc Rat.zero_add Rat.add_zero z2.wf
  rw [e3, exec_done]
  rw [foldl_mvals, Rat.zero_add, z2.nr, z2.nc] at h
  simp [Spec.accum] at h
  rw [h]
  congr 1
  refine rsum_congr fun i hi => ?_
  rw [sumOf_eq]
  refine rsum_congr fun j hj => ?_
  rw [g2 i j hi hj]
  show (Option.map id (both (fun x y : Rat => x * y) (E.get i j) (E.get i j))).getD 0 = _
  rw [g1 i j hi hj, dense, dense]
  cases A.get i j <;> cases I.get i j <;> simp [both, either] <;> grind

end GBTL

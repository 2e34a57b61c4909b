import Verif.Lemmas.Triangle
/-
C38: triangle counting.
-/
namespace GBTL
open Spec

/-- `A` is an `n × n` matrix with stored values 0 and 1, and it stores 1 exactly where
`P` holds. -/
structure Is01 (n : Nat) (P : Nat → Nat → Bool) (A : Lil Int) : Prop where
  wf : A.WF
  nrows : A.nrows = n
  ncols : A.ncols = n
  vals : ∀ i j x, A.get i j = some x → x = 0 ∨ x = 1
  one : ∀ i j, A.get i j = some 1 ↔ P i j = true

/-- The strictly lower triangular part of an adjacency relation. -/
def lower (adj : Nat → Nat → Bool) (i j : Nat) : Bool := j < i && adj i j
/-- The strictly upper triangular part. -/
def upper (adj : Nat → Nat → Bool) (i j : Nat) : Bool := i < j && adj i j

variable {n : Nat} {P Q : Nat → Nat → Bool} {A B : Lil Int}

theorem Is01.val (h : Is01 n P A) (i j : Nat) : Val (A.get i j) (ind (P i j)) := by
  unfold Val
  cases hg : A.get i j with
  | none =>
    cases hp : P i j with
    | false => rfl
    | true => rw [(h.one i j).2 hp] at hg; cases hg
  | some x =>
    cases hp : P i j with
    | true =>
      rw [(h.one i j).2 hp] at hg; cases hg; rfl
    | false =>
      rcases h.vals i j x hg with rfl | rfl
      · rfl
      · rw [(h.one i j).1 hg] at hp; cases hp

theorem ITy.conv01 (t : ITy) {x : Int} (h : x = 0 ∨ x = 1) : t.conv x = x := by
  rcases h with rfl | rfl <;> cases t <;> decide

theorem val_both {t : ITy} {ov : Int → Int → Int} {a b : Option Int} {g h : Nat} (ha : Val a g) (hb : Val b h)
    (hg : (g : Int) ≤ t.maxVal) (hh : (h : Int) ≤ t.maxVal) (hm : ((g * h : Nat) : Int) ≤ t.maxVal) :
    Val (both (t.timesT ov) a b) (g * h) := by
  cases a with
  | none =>
    have := Val.none.1 ha
    subst this
    rw [Nat.zero_mul]; rfl
  | some x =>
    cases b with
    | none =>
      have := Val.none.1 hb
      subst this
      rfl
    | some y =>
      have hx : x = g := ha
      have hy : y = h := hb
      show t.timesT ov x y = ((g * h : Nat) : Int)
      rw [Int.natCast_mul] at hm ⊢
      rw [← hx, ← hy] at hm ⊢
      exact ITy.timesT_eq ov (ITy.has_nn (by omega) (by omega)) (ITy.has_nn (by omega) (by omega))
        (ITy.has_nn (Int.mul_nonneg (by omega) (by omega)) hm)

/-- The product of two 0/1 matrices counts wedges. -/
theorem val_mxm (t : ITy) (ov : Int → Int → Int) {f g : Nat → Option Int} {p q : Nat → Bool}
    (hf : ∀ k, Val (f k) (ind (p k))) (hg : ∀ k, Val (g k) (ind (q k))) (hn : (n : Int) ≤ t.maxVal) :
    Val (osum (t.plusT ov) ((List.range n).map fun k => both (t.timesT ov) (f k) (g k)))
      (sumTo n fun k => ind (p k) * ind (q k)) := by
  have h1 := t.one_le_max
  have hle : ∀ k, ind (p k) * ind (q k) ≤ 1 := by
    intro k; rw [← ind_and]; exact ind_le _
  refine osum_val (adds_plusT t ov) ?_ ?_
  · intro k _
    have := ind_le (p k)
    have := ind_le (q k)
    have := hle k
    exact val_both (hf k) (hg k) (by omega) (by omega) (by omega)
  · have := sumTo_le (n := n) (c := 1) (f := fun k => ind (p k) * ind (q k)) fun k _ => hle k
    omega

theorem wedges_le {p q : Nat → Bool} : (sumTo n fun k => ind (p k) * ind (q k)) ≤ n := by
  have := sumTo_le (n := n) (c := 1) (f := fun k => ind (p k) * ind (q k)) fun k _ => by
    rw [← ind_and]; exact ind_le _
  omega

theorem sumInto_val {t : ITy} {ov : Int → Int → Int} {C : Lil Int} (hC : C.WF) {g : Nat → Nat → Nat}
    (hr : C.nrows = n) (hc : C.ncols = n) (hv : ∀ i j, i < n → j < n → Val (C.get i j) (g i j))
    (hM : (sumTo n (fun i => sumTo n (g i)) : Int) ≤ t.maxVal) (x : Int) :
    sumInto t ov x C = .ok (sumTo n (fun i => sumTo n (g i)) : Int) := by
  subst hr
  have := reduceMat_val (adds_plusT t ov) hC (g := g) (by rw [hc]; exact hv) (by rw [hc]; exact hM)
  rw [hc] at this
  unfold sumInto reduceMS redPlus
  simp only [this]
  rfl

theorem byL_wf {L : Lil Int} (hL : L.WF) : (byL (Lil.new L.nrows L.ncols) L).WF :=
  ⟨Lil.new_wf _ _, fun _ _ h => by cases h; exact hL⟩

theorem byL_fits {L : Lil Int} :
    (byL (Lil.new L.nrows L.ncols) L).M.Fits (Lil.new L.nrows L.ncols : Lil Int).nrows
      (Lil.new L.nrows L.ncols : Lil Int).ncols :=
  fun _ _ h => by cases h; exact ⟨rfl, rfl⟩

/-- A product written through the mask `L`. -/
theorem byL_val {L C : Lil Int} {T : Mat Int} {g : Nat → Nat → Nat} (hL : Is01 n P L)
    (y : (byL (Lil.new L.nrows L.ncols) L).Yields T C) (hT : ∀ i j, Val (T i j) (g i j)) (i j : Nat)
    (hi : i < n) (hj : j < n) : Val (C.get i j) (ind (P i j) * g i j) := by
  have := y.get i j (by show i < L.nrows; rw [hL.nrows]; exact hi) (by show j < L.ncols; rw [hL.ncols]; exact hj)
  rw [this]
  have hnew : (Lil.new L.nrows L.ncols : Lil Int).get i j = none := Lil.get_new ..
  have hT := hT i j
  cases hg : L.get i j with
  | none =>
    have : P i j = false := by
      cases hp : P i j with
      | false => rfl
      | true => rw [(hL.one i j).2 hp] at hg; cases hg
    simp [byL, MMask.allows, Spec.write, Spec.accum, Spec.allows, hg, hnew, this, ind, Val]
  | some x =>
    rcases hL.vals i j x hg with rfl | rfl
    · have : P i j = false := by
        cases hp : P i j with
        | false => rfl
        | true => rw [(hL.one i j).2 hp] at hg; cases hg
      simp [byL, MMask.allows, Spec.write, Spec.accum, Spec.allows, hg, hnew, this, ind, Val, isTrue]
    · have : P i j = true := (hL.one i j).1 hg
      simp [byL, MMask.allows, Spec.write, Spec.accum, Spec.allows, hg, hnew, this, ind, isTrue]
      exact hT

/-! ### the sums the algorithms compute -/

theorem sum_once {adj : Nat → Nat → Bool} {f : Nat → Nat → Nat → Nat} (h : ∀ i j k, f i j k = tri adj k j i) :
    (sumTo n fun i => sumTo n fun j => sumTo n fun k => f i j k) = triangles n adj := by
  rw [triangles_eq]
  have : (fun i => sumTo n fun j => sumTo n fun k => f i j k) = fun i => sumTo n fun j => sumTo n fun k => tri adj k j i := by
    funext i; congr 1; funext j; congr 1; funext k; exact h i j k
  rw [this]
  -- i j k ↦ k j i
  rw [sumTo_comm n n fun i j => sumTo n fun k => tri adj k j i]
  have h2 : (fun j => sumTo n fun i => sumTo n fun k => tri adj k j i) =
      fun j => sumTo n fun k => sumTo n fun i => tri adj k j i := by
    funext j; exact sumTo_comm n n fun i k => tri adj k j i
  rw [h2, sumTo_comm n n fun j k => sumTo n fun i => tri adj k j i]

theorem sum_once' {adj : Nat → Nat → Bool} {f : Nat → Nat → Nat → Nat} (h : ∀ i j k, f i j k = tri adj k i j) :
    (sumTo n fun i => sumTo n fun j => sumTo n fun k => f i j k) = triangles n adj := by
  rw [sumTo_comm n n fun i j => sumTo n fun k => f i j k]
  exact sum_once (f := fun i j k => f j i k) fun i j k => h j i k

theorem sum_noT {adj : Nat → Nat → Bool} {f : Nat → Nat → Nat → Nat} (h : ∀ i j k, f i j k = tri adj j k i) :
    (sumTo n fun i => sumTo n fun j => sumTo n fun k => f i j k) = triangles n adj := by
  have h2 : (fun i => sumTo n fun j => sumTo n fun k => f i j k) =
      fun i => sumTo n fun k => sumTo n fun j => f i j k := by
    funext i; exact sumTo_comm n n fun j k => f i j k
  rw [h2]
  exact sum_once (f := fun i j k => f i k j) fun i j k => h i k j

theorem prod_lower {adj : Nat → Nat → Bool} (hu : Undirected adj) (i j k : Nat) :
    ind (lower adj i j) * (ind (lower adj i k) * ind (upper adj k j)) = tri adj k j i := by
  rw [← ind_and, ← ind_and, tri]
  congr 1
  rw [lower, lower, upper, hu.symm i j, hu.symm i k]
  by_cases h1 : j < i <;> by_cases h2 : k < j <;> simp [h1, h2]
  have : k < i := by omega
  simp only [this, decide_true, Bool.true_and]
  cases adj j i <;> cases adj k i <;> cases adj k j <;> rfl

theorem prod_upper {adj : Nat → Nat → Bool} (hu : Undirected adj) (i j k : Nat) :
    ind (upper adj i j) * (ind (lower adj i k) * ind (upper adj k j)) = tri adj k i j := by
  rw [← ind_and, ← ind_and, tri]
  congr 1
  rw [lower, upper, upper, hu.symm i k]
  by_cases h1 : i < j <;> by_cases h2 : k < i <;> simp [h1, h2]
  have : k < j := by omega
  simp only [this, decide_true, Bool.true_and]
  cases adj i j <;> cases adj k i <;> cases adj k j <;> rfl

theorem prod_noT {adj : Nat → Nat → Bool} (hu : Undirected adj) (i j k : Nat) :
    ind (lower adj i j) * (ind (lower adj i k) * ind (lower adj k j)) = tri adj j k i := by
  rw [← ind_and, ← ind_and, tri]
  congr 1
  rw [lower, lower, lower, hu.symm i k, hu.symm i j, hu.symm k j]
  by_cases h1 : k < i <;> by_cases h2 : j < k <;> simp [h1, h2]
  have : j < i := by omega
  simp only [this, decide_true, Bool.true_and]
  cases adj j i <;> cases adj k i <;> cases adj j k <;> rfl

theorem lower_or_upper {adj : Nat → Nat → Bool} (hu : Undirected adj) (i j : Nat) :
    ind (adj i j) = ind (lower adj i j) + ind (upper adj i j) := by
  rw [lower, upper]
  rcases Nat.lt_trichotomy i j with h | h | h
  · have : ¬ j < i := by omega
    simp [h, this, ind]
  · subst h; simp [hu.irrefl, ind]
  · have : ¬ i < j := by omega
    simp [h, this, ind]

/-! ### the algorithms -/

variable {t : ITy} {ov : Int → Int → Int} {adj : Nat → Nat → Bool} {lo up : Nat → Nat → Bool} {N : Nat}

/-- What the algorithms need of the two halves `lo` and `up` of an adjacency matrix to
count `N` triangles. The lower and the upper triangle have it (`halves`), and so have
other ways of directing the edges (`Props/TriangleDemo.lean`). -/
structure Halves (n N : Nat) (lo up : Nat → Nat → Bool) : Prop where
  once : (sumTo n fun i => sumTo n fun j => sumTo n fun k => ind (lo i j) * (ind (lo i k) * ind (up k j))) = N
  other : (sumTo n fun i => sumTo n fun j => sumTo n fun k => ind (up i j) * (ind (lo i k) * ind (up k j))) = N
  chain : (sumTo n fun i => sumTo n fun j => sumTo n fun k => ind (lo i j) * (ind (lo i k) * ind (lo k j))) = N
  flip : ∀ i j, lo j i = up i j

theorem lower_tr (hu : Undirected adj) (i j : Nat) : lower adj j i = upper adj i j := by
  rw [lower, upper, hu.symm i j]

theorem halves (n : Nat) (hu : Undirected adj) : Halves n (triangles n adj) (lower adj) (upper adj) :=
  ⟨sum_once fun i j k => prod_lower hu i j k, sum_once' fun i j k => prod_upper hu i j k,
    sum_noT fun i j k => prod_noT hu i j k, lower_tr hu⟩

theorem masked_spec {sr : SR Int Int Int} {L : Lil Int} {Bo : Operand Int} {g : Nat → Nat → Nat → Nat}
    {T : Mat Int} {C : Lil Int} (hL : Is01 n (lo) L)
    (e : mxm (byL (Lil.new L.nrows L.ncols) L) sr id (.plain L) Bo = .done C)
    (y : (byL (Lil.new L.nrows L.ncols) L).Yields T C)
    (hT : ∀ i j, Val (T i j) (sumTo n fun k => g i j k))
    (hs : (sumTo n fun i => sumTo n fun j => sumTo n fun k => ind (lo i j) * g i j k) = N)
    (ht : (N : Int) ≤ t.maxVal) :
    (do let B ← exec (mxm (byL (Lil.new L.nrows L.ncols) L) sr id (.plain L) Bo); sumInto t ov 0 B)
      = (.ok (N : Int) : Prog Int) := by
  rw [e, exec_done, prog_bind_ok]
  have hmul : (fun i => sumTo n fun j => sumTo n fun k => ind (lo i j) * g i j k) =
      fun i => sumTo n fun j => ind (lo i j) * sumTo n fun k => g i j k := by
    funext i; congr 1; funext j; exact sumTo_mul n _ _
  rw [hmul] at hs
  rw [sumInto_val (g := fun i j => ind (lo i j) * sumTo n fun k => g i j k) y.wf
    (by rw [y.nrows]; exact hL.nrows) (by rw [y.ncols]; exact hL.ncols)
    (byL_val hL y hT) (by rw [hs]; exact ht), hs]

theorem masked_halves {L U : Lil Int} (hu : Halves n N lo up) (hL : Is01 n (lo) L) (hU : Is01 n (up) U)
    (hn : (n : Int) ≤ t.maxVal) (ht : (N : Int) ≤ t.maxVal) :
    triangleCountMasked t ov L U = .ok (N : Int) := by
  obtain ⟨C, e, y⟩ := C09_mxm (o := byL (Lil.new L.nrows L.ncols) L) (sr := arithT t ov) (via := id) (A := L)
    (B := U) (byL_wf hL.wf) hL.wf hU.wf ⟨byL_fits, rfl, by show L.ncols = U.ncols; rw [hL.ncols, hU.ncols],
      by show L.ncols = U.nrows; rw [hL.ncols, hU.nrows]⟩
  refine masked_spec (g := fun i j k => ind (lo i k) * ind (up k j)) hL e y ?_ ?_ ht
  · intro i j
    show Val (osum (t.plusT ov) ((List.range L.ncols).map fun k => both (t.timesT ov) (L.get i k) (U.get k j))) _
    rw [hL.ncols]
    exact val_mxm t ov (fun k => hL.val i k) (fun k => hU.val k j) hn
  · exact hu.once

theorem maskedT_halves {L : Lil Int} (hu : Halves n N lo up) (hL : Is01 n (lo) L)
    (hn : (n : Int) ≤ t.maxVal) (ht : (N : Int) ≤ t.maxVal) :
    triangleCountMaskedT t ov L = .ok (N : Int) := by
  obtain ⟨C, e, y⟩ := C10_mxm_ABT (o := byL (Lil.new L.nrows L.ncols) L) (sr := arithT t ov) (via := id) (A := L)
    (B := L) (byL_wf hL.wf) hL.wf hL.wf ⟨byL_fits, rfl, by show L.ncols = L.nrows; rw [hL.ncols, hL.nrows], rfl⟩
  refine masked_spec (g := fun i j k => ind (lo i k) * ind (up k j)) hL e y ?_ ?_ ht
  · intro i j
    show Val (osum (t.plusT ov) ((List.range L.ncols).map fun k => both (t.timesT ov) (L.get i k) (L.get j k))) _
    rw [hL.ncols]
    exact val_mxm t ov (fun k => hL.val i k) (fun k => by rw [← hu.flip]; exact hL.val j k) hn
  · exact hu.once

theorem masked_noT_halves {L : Lil Int} (hu : Halves n N lo up) (hL : Is01 n (lo) L)
    (hn : (n : Int) ≤ t.maxVal) (ht : (N : Int) ≤ t.maxVal) :
    triangleCountMaskedNoT t ov L = .ok (N : Int) := by
  obtain ⟨C, e, y⟩ := C09_mxm (o := byL (Lil.new L.nrows L.ncols) L) (sr := arithT t ov) (via := id) (A := L)
    (B := L) (byL_wf hL.wf) hL.wf hL.wf ⟨byL_fits, rfl, rfl, by show L.ncols = L.nrows; rw [hL.ncols, hL.nrows]⟩
  refine masked_spec (g := fun i j k => ind (lo i k) * ind (lo k j)) hL e y ?_ ?_ ht
  · intro i j
    show Val (osum (t.plusT ov) ((List.range L.ncols).map fun k => both (t.timesT ov) (L.get i k) (L.get k j))) _
    rw [hL.ncols]
    exact val_mxm t ov (fun k => hL.val i k) (fun k => hL.val k j) hn
  · exact hu.chain

theorem appendixB7_halves {L : Lil Int} (hu : Halves n N lo up) (hL : Is01 n (lo) L)
    (hn : n < 2 ^ 64) (ht : N < 2 ^ 64) :
    triangleCountB7 ov L = .ok (N : Int) := by
  have hmax : ITy.maxVal .u64 = 18446744073709551615 := rfl
  obtain ⟨C, e, y⟩ := C10_mxm_ABT (o := byL (Lil.new L.nrows L.ncols) L) (sr := arithConv .u64 ov) (via := id)
    (A := L) (B := L) (byL_wf hL.wf) hL.wf hL.wf
    ⟨byL_fits, rfl, by show L.ncols = L.nrows; rw [hL.ncols, hL.nrows], rfl⟩
  have hsq : L.nrows = L.ncols := by rw [hL.ncols, hL.nrows]
  have e' : triangleCountB7 ov L = (do
      let B ← exec (mxm (byL (Lil.new L.nrows L.ncols) L) (arithConv .u64 ov) id (.plain L) (.tr L))
      sumInto .u64 ov 0 B) := by rw [← hsq]; rfl
  rw [e']
  refine masked_spec (g := fun i j k => ind (lo i k) * ind (up k j)) hL e y ?_ ?_ (by omega)
  · intro i j
    have : (Spec.mxm L.ncols (arithConv .u64 ov).add (arithConv .u64 ov).mult L.get (Spec.Mat.tr L.get) i j) =
        osum (ITy.plusT .u64 ov) ((List.range n).map fun k => both (ITy.timesT .u64 ov) (L.get i k) (L.get j k)) := by
      unfold Spec.mxm
      rw [hL.ncols]
      congr 1
      refine List.map_congr_left fun k _ => ?_
      show both _ (L.get i k) (L.get j k) = _
      cases h1 : L.get i k with
      | none => rfl
      | some x =>
        cases h2 : L.get j k with
        | none => rfl
        | some z =>
          show some (ITy.timesT .u64 ov (ITy.conv .u64 x) (ITy.conv .u64 z)) = some _
          rw [ITy.conv01 .u64 (hL.vals _ _ _ h1), ITy.conv01 .u64 (hL.vals _ _ _ h2)]
    rw [this]
    exact val_mxm .u64 ov (fun k => hL.val i k) (fun k => by rw [← hu.flip]; exact hL.val j k)
      (by omega)
  · exact hu.once

theorem halfT_two (t : ITy) (m : Nat) (h : ((2 * m : Nat) : Int) ≤ t.maxVal) : halfT t (2 * m : Nat) = (m : Int) := by
  have hm : t.Has (m : Int) := ITy.has_nn (by omega) (by omega)
  unfold halfT
  by_cases hb : t = .bool
  · subst hb
    have : m = 0 := by
      have : ITy.maxVal .bool = 1 := rfl
      omega
    subst this; rfl
  · have : t.conv 2 = 2 := by cases t <;> first | exact absurd rfl hb | rfl
    rw [this, show ((2 * m : Nat) : Int).tdiv 2 = m by rw [Int.natCast_mul]; exact Int.mul_tdiv_cancel_left _ (by decide)]
    exact ITy.conv_id hm

theorem plainReplace_yields {C C' : Lil Int} {T : Mat Int} (h : (plainReplace C).Yields T C') :
    C'.WF ∧ C'.nrows = C.nrows ∧ C'.ncols = C.ncols ∧
      ∀ i j, i < C.nrows → j < C.ncols → C'.get i j = T i j := by
  refine ⟨h.wf, h.nrows, h.ncols, ?_⟩
  intro i j hi hj
  rw [h.get i j hi hj]
  simp [plainReplace, MMask.allows, Spec.write, Spec.accum]

theorem newGBTL_halves {L U : Lil Int} (hu : Halves n N lo up) (hL : Is01 n (lo) L) (hU : Is01 n (up) U)
    (hn : (n : Int) ≤ t.maxVal) (ht : ((2 * N : Nat) : Int) ≤ t.maxVal) :
    triangleCountNew t ov L U = .ok (N : Int) := by
  have hone := t.one_le_max
  obtain ⟨B, e1, y1⟩ := C09_mxm (o := mPlain id (Lil.new L.nrows L.ncols)) (sr := arithT t ov) (via := id) (A := L)
    (B := U) ⟨Lil.new_wf _ _, noMaskOKM⟩ hL.wf hU.wf ⟨noMaskFitsM, rfl, by show L.ncols = U.ncols; rw [hL.ncols, hU.ncols],
      by show L.ncols = U.nrows; rw [hL.ncols, hU.nrows]⟩
  obtain ⟨b1, b2, b3, b4⟩ := plain_yieldsM y1
  have b2 : B.nrows = n := b2.trans hL.nrows
  have b3 : B.ncols = n := b3.trans hL.ncols
  have hB : ∀ i j, i < n → j < n → Val (B.get i j) (sumTo n fun k => ind (lo i k) * ind (up k j)) := by
    intro i j hi hj
    rw [b4 i j (by show i < L.nrows; rw [hL.nrows]; exact hi) (by show j < L.ncols; rw [hL.ncols]; exact hj), Option.map_id]
    show Val (osum (t.plusT ov) ((List.range L.ncols).map fun k => both (t.timesT ov) (L.get i k) (U.get k j))) _
    rw [hL.ncols]
    exact val_mxm t ov (fun k => hL.val i k) (fun k => hU.val k j) hn
  have hmul : ∀ (R : Nat → Nat → Bool) (i j : Nat),
      ind (R i j) * (sumTo n fun k => ind (lo i k) * ind (up k j)) ≤ n := by
    intro R i j
    have h1 := wedges_le (n := n) (p := lo i) (q := fun k => up k j)
    cases R i j with
    | false => simp [ind]
    | true => simpa [ind] using h1
  have hprod : ∀ (R : Nat → Nat → Bool) (D : Lil Int), Is01 n R D → ∀ i j, i < n → j < n →
      Val (both (t.timesT ov) (D.get i j) (B.get i j))
        (ind (R i j) * (sumTo n fun k => ind (lo i k) * ind (up k j))) := by
    intro R D hD i j hi hj
    have h1 := wedges_le (n := n) (p := lo i) (q := fun k => up k j)
    have h2 := ind_le (R i j)
    have h3 := hmul R i j
    exact val_both (hD.val i j) (hB i j hi hj) (by omega) (by omega) (by omega)
  obtain ⟨C, e2, y2⟩ := C14_eWiseMult_same_type (o := plainReplace (Lil.new L.nrows L.ncols)) (op := t.timesT ov)
    (c1 := id) (c2 := id) (A := .plain L) (B := .plain B) ⟨Lil.new_wf _ _, noMaskOKM⟩ hL.wf b1
    ⟨noMaskFitsM, rfl, rfl, by show L.ncols = B.ncols; rw [hL.ncols, b3], by show L.nrows = B.nrows; rw [hL.nrows, b2]⟩
  obtain ⟨c1, c2, c3, c4⟩ := plainReplace_yields y2
  have c2 : C.nrows = n := c2.trans hL.nrows
  have c3 : C.ncols = n := c3.trans hL.ncols
  obtain ⟨C', e3, y3⟩ := C14_eWiseMult_same_type (o := plainReplace C) (op := t.timesT ov)
    (c1 := id) (c2 := id) (A := .plain U) (B := .plain B) ⟨c1, noMaskOKM⟩ hU.wf b1
    ⟨noMaskFitsM, by show C.ncols = U.ncols; rw [c3, hU.ncols], by show C.nrows = U.nrows; rw [c2, hU.nrows],
      by show U.ncols = B.ncols; rw [hU.ncols, b3], by show U.nrows = B.nrows; rw [hU.nrows, b2]⟩
  obtain ⟨d1, d2, d3, d4⟩ := plainReplace_yields y3
  have d2 : C'.nrows = n := d2.trans c2
  have d3 : C'.ncols = n := d3.trans c3
  have s1 : (sumTo n fun i => sumTo n fun j => ind (lo i j) *
      (sumTo n fun k => ind (lo i k) * ind (up k j))) = N := by
    rw [← hu.once]
    congr 1; funext i; congr 1; funext j; exact (sumTo_mul n _ _).symm
  have s2 : (sumTo n fun i => sumTo n fun j => ind (up i j) *
      (sumTo n fun k => ind (lo i k) * ind (up k j))) = N := by
    rw [← hu.other]
    congr 1; funext i; congr 1; funext j; exact (sumTo_mul n _ _).symm
  have r1 := sumInto_val (t := t) (ov := ov) c1 c2 c3 (g := fun i j => ind (lo i j) *
      (sumTo n fun k => ind (lo i k) * ind (up k j))) (by
    intro i j hi hj
    rw [c4 i j (by show i < L.nrows; rw [hL.nrows]; exact hi) (by show j < L.ncols; rw [hL.ncols]; exact hj)]
    exact hprod _ _ hL i j hi hj) (by rw [s1]; omega) 0
  rw [s1] at r1
  have r2 := reduceMat_val (adds_plusT t ov) d1 (g := fun i j => ind (up i j) *
      (sumTo n fun k => ind (lo i k) * ind (up k j))) (by
    intro i j hi hj
    rw [d2] at hi; rw [d3] at hj
    rw [d4 i j (by rw [c2]; exact hi) (by rw [c3]; exact hj)]
    exact hprod _ _ hU i j hi hj) (by rw [d2, d3, s2]; omega)
  rw [d2, d3, s2] at r2
  have r3 : reduceMS id (.some (t.plusT ov) id id : Accum Int Int Int) (redPlus t ov) 0 (N : Int)
      (.plain C') = .done (2 * N : Nat) := by
    unfold reduceMS redPlus
    simp only [r2]
    show Outcome.done (t.plusT ov _ _) = _
    rw [adds_plusT t ov _ _ (by omega) (by omega) (by omega)]
    congr 1; omega
  rw [triangleCountNew, e1, exec_done, prog_bind_ok,
    show ewTimes t ov = ⟨t.timesT ov, id, id, id, t.timesT ov, id⟩ from rfl, e2, exec_done, prog_bind_ok,
    r1, prog_bind_ok, e3, exec_done, prog_bind_ok, r3, exec_done, prog_bind_ok, halfT_two t _ ht]

/-- **C38**, `triangle_count_masked(L, U)`: for the strictly lower and upper parts of
the adjacency matrix of an undirected graph, the number of triangles. -/
theorem C38_masked {L U : Lil Int} (hu : Undirected adj) (hL : Is01 n (lower adj) L) (hU : Is01 n (upper adj) U)
    (hn : (n : Int) ≤ t.maxVal) (ht : (triangles n adj : Int) ≤ t.maxVal) :
    triangleCountMasked t ov L U = .ok (triangles n adj : Int) :=
  masked_halves (halves n hu) hL hU hn ht

/-- **C38**, `triangle_count_masked(L)`. -/
theorem C38_maskedT {L : Lil Int} (hu : Undirected adj) (hL : Is01 n (lower adj) L)
    (hn : (n : Int) ≤ t.maxVal) (ht : (triangles n adj : Int) ≤ t.maxVal) :
    triangleCountMaskedT t ov L = .ok (triangles n adj : Int) :=
  maskedT_halves (halves n hu) hL hn ht

/-- **C38**, `triangle_count_masked_noT(L)`. -/
theorem C38_masked_noT {L : Lil Int} (hu : Undirected adj) (hL : Is01 n (lower adj) L)
    (hn : (n : Int) ≤ t.maxVal) (ht : (triangles n adj : Int) ≤ t.maxVal) :
    triangleCountMaskedNoT t ov L = .ok (triangles n adj : Int) :=
  masked_noT_halves (halves n hu) hL hn ht

/-- **C38**, `triangle_count_appendixB7(L)`, for a matrix of any integer type. -/
theorem C38_appendixB7 {L : Lil Int} (hu : Undirected adj) (hL : Is01 n (lower adj) L)
    (hn : n < 2 ^ 64) (ht : triangles n adj < 2 ^ 64) :
    triangleCountB7 ov L = .ok (triangles n adj : Int) :=
  appendixB7_halves (halves n hu) hL hn ht

/-- **C38**, `triangle_count_newGBTL(L, U)`. -/
theorem C38_newGBTL {L U : Lil Int} (hu : Undirected adj) (hL : Is01 n (lower adj) L) (hU : Is01 n (upper adj) U)
    (hn : (n : Int) ≤ t.maxVal) (ht : ((2 * triangles n adj : Nat) : Int) ≤ t.maxVal) :
    triangleCountNew t ov L U = .ok (triangles n adj : Int) :=
  newGBTL_halves (halves n hu) hL hU hn ht

/-- **C38**, `triangle_count(graph)`. -/
theorem C38_triangle_count {G : Lil Int} (hu : Undirected adj) (hG : Is01 n adj G)
    (hn : (n : Int) ≤ t.maxVal) (ht : ((2 * triangles n adj : Nat) : Int) ≤ t.maxVal) :
    triangleCount t ov G = .ok (triangles n adj : Int) := by
  have hone := t.one_le_max
  obtain ⟨L, U, e0, l1, u1, l2, l3, u2, u3, l4, u4⟩ := C41_split G (Lil.new G.nrows G.ncols)
    (Lil.new G.nrows G.ncols) hG.wf (Lil.new_wf _ _) (Lil.new_wf _ _) ⟨rfl, rfl⟩ ⟨rfl, rfl⟩
    (fun i j => Lil.get_new ..) (fun i j => Lil.get_new ..)
  have hL : Is01 n (lower adj) L := by
    refine ⟨l1, l2.trans hG.nrows, l3.trans hG.ncols, ?_, ?_⟩
    · intro i j x hx
      rw [l4] at hx
      split at hx
      · exact hG.vals i j x hx
      · cases hx
    · intro i j
      rw [l4, lower]
      by_cases h : j ≤ i
      · rw [if_pos h, hG.one]
        by_cases h' : j < i
        · simp [h']
        · have : i = j := by omega
          subst this; simp [hu.irrefl]
      · have : ¬ j < i := by omega
        simp [h, this]
  have hU : Is01 n (upper adj) U := by
    refine ⟨u1, u2.trans hG.nrows, u3.trans hG.ncols, ?_, ?_⟩
    · intro i j x hx
      rw [u4] at hx
      split at hx
      · exact hG.vals i j x hx
      · cases hx
    · intro i j
      rw [u4, upper]
      by_cases h : i < j
      · rw [if_pos h, hG.one]; simp [h]
      · simp [h]
  obtain ⟨B, e1, y1⟩ := C09_mxm (o := mPlain id (Lil.new G.nrows G.ncols)) (sr := arithT t ov) (via := id) (A := L)
    (B := U) ⟨Lil.new_wf _ _, noMaskOKM⟩ hL.wf hU.wf ⟨noMaskFitsM, l2.symm, u3.symm,
      by show L.ncols = U.nrows; rw [hL.ncols, hU.nrows]⟩
  obtain ⟨b1, b2, b3, b4⟩ := plain_yieldsM y1
  have b2 : B.nrows = n := b2.trans hG.nrows
  have b3 : B.ncols = n := b3.trans hG.ncols
  have hB : ∀ i j, i < n → j < n → Val (B.get i j) (sumTo n fun k => ind (lower adj i k) * ind (upper adj k j)) := by
    intro i j hi hj
    rw [b4 i j (by show i < G.nrows; rw [hG.nrows]; exact hi) (by show j < G.ncols; rw [hG.ncols]; exact hj), Option.map_id]
    show Val (osum (t.plusT ov) ((List.range L.ncols).map fun k => both (t.timesT ov) (L.get i k) (U.get k j))) _
    rw [hL.ncols]
    exact val_mxm t ov (fun k => hL.val i k) (fun k => hU.val k j) hn
  obtain ⟨C, e2, y2⟩ := C14_eWiseMult_same_type (o := mPlain id (Lil.new G.nrows G.ncols)) (op := t.timesT ov)
    (c1 := id) (c2 := id) (A := .plain G) (B := .plain B) ⟨Lil.new_wf _ _, noMaskOKM⟩ hG.wf b1
    ⟨noMaskFitsM, rfl, rfl, by show G.ncols = B.ncols; rw [hG.ncols, b3], by show G.nrows = B.nrows; rw [hG.nrows, b2]⟩
  obtain ⟨c1, c2, c3, c4⟩ := plain_yieldsM y2
  have s1 : (sumTo n fun i => sumTo n fun j => ind (adj i j) *
      (sumTo n fun k => ind (lower adj i k) * ind (upper adj k j))) = 2 * triangles n adj := by
    have h1 := sum_once (n := n) (fun i j k => prod_lower hu i j k)
    have h2 := sum_once' (n := n) (fun i j k => prod_upper hu i j k)
    rw [show 2 * triangles n adj = triangles n adj + triangles n adj by omega]
    conv => rhs; rw [← h1]; arg 2; rw [h1, ← h2]
    rw [← sumTo_add]
    congr 1; funext i
    rw [← sumTo_add]
    congr 1; funext j
    rw [sumTo_mul, sumTo_mul, lower_or_upper hu, Nat.add_mul]
  have r1 := sumInto_val (t := t) (ov := ov) c1 (c2.trans hG.nrows) (c3.trans hG.ncols) (g := fun i j => ind (adj i j) *
      (sumTo n fun k => ind (lower adj i k) * ind (upper adj k j))) (by
    intro i j hi hj
    rw [c4 i j (by show i < G.nrows; rw [hG.nrows]; exact hi) (by show j < G.ncols; rw [hG.ncols]; exact hj), Option.map_id]
    have h1 := wedges_le (n := n) (p := lower adj i) (q := fun k => upper adj k j)
    have h2 := ind_le (adj i j)
    refine val_both (hG.val i j) (hB i j hi hj) (by omega) (by omega) ?_
    cases adj i j with
    | false => simp [ind]; omega
    | true =>
      show ((1 * _ : Nat) : Int) ≤ _
      rw [Nat.one_mul]; omega) (by rw [s1]; exact ht) 0
  rw [s1] at r1
  rw [triangleCount, e0, lift_ok, prog_bind_ok]
  simp only
  rw [e1, exec_done, prog_bind_ok,
    show ewTimes t ov = ⟨t.timesT ov, id, id, id, t.timesT ov, id⟩ from rfl, e2, exec_done, prog_bind_ok,
    r1, prog_bind_ok, halfT_two t _ ht]

/-! ### concrete arguments -/

namespace Ex

/-- Four vertices, edges 01, 02, 12, 13, 23: triangles 012 and 123. A zero is stored
at (0,3), (3,0). -/
def tg : Lil Int :=
  ⟨4, 4, 12, [[(1, 1), (2, 1), (3, 0)], [(0, 1), (2, 1), (3, 1)], [(0, 1), (1, 1), (3, 1)], [(0, 0), (1, 1), (2, 1)]]⟩
def tgL : Lil Int := ⟨4, 4, 6, [[], [(0, 1)], [(0, 1), (1, 1)], [(0, 0), (1, 1), (2, 1)]]⟩
def tgU : Lil Int := ⟨4, 4, 5, [[(1, 1), (2, 1)], [(2, 1), (3, 1)], [(3, 1)], []]⟩
def tadj (i j : Nat) : Bool := tg.get i j == some 1

theorem is01_of {A : Lil Int} {P : Nat → Nat → Bool} (hA : A.WF) (hsq : A.ncols = A.nrows)
    (hv : ∀ r ∈ A.rows, ∀ p ∈ r, p.2 = 0 ∨ p.2 = 1)
    (hP : ∀ i j, P i j = true → i < A.nrows ∧ j < A.nrows)
    (h1 : ∀ i, i < A.nrows → ∀ j, j < A.nrows → (A.get i j = some 1 ↔ P i j = true)) : Is01 A.nrows P A := by
  refine ⟨hA, rfl, hsq, fun i j x hx => get_chk hA (P := fun x => x = 0 ∨ x = 1) hv hx, ?_⟩
  intro i j
  by_cases h : i < A.nrows ∧ j < A.nrows
  · exact h1 i h.1 j h.2
  · constructor
    · intro h'
      have := some_lt hA (i := i) (j := j) (by rw [h']; simp)
      exact absurd ⟨this.1, by omega⟩ h
    · intro h'; exact absurd (hP i j h') h

theorem tg_wf : tg.WF := Lil.wf_chk (by decide)

theorem tadj_lt {i j : Nat} (h : tadj i j = true) : i < 4 ∧ j < 4 := by
  have h : tg.get i j = some 1 := by simpa [tadj] using h
  exact some_lt tg_wf (by rw [h]; simp)

theorem tadj_undirected : Undirected tadj := by
  have hf : ∀ i j, ¬ (i < 4 ∧ j < 4) → tadj i j = false := by
    intro i j h
    cases ht : tadj i j with
    | false => rfl
    | true => exact absurd (tadj_lt ht) h
  constructor
  · intro i j
    by_cases h : i < 4 ∧ j < 4
    · exact (by decide +kernel : ∀ i, i < 4 → ∀ j, j < 4 → tadj i j = tadj j i) i h.1 j h.2
    · rw [hf i j h, hf j i (by omega)]
  · intro i
    by_cases h : i < 4
    · exact (by decide +kernel : ∀ i, i < 4 → tadj i i = false) i h
    · exact hf i i (by omega)

theorem tg_is : Is01 4 tadj tg :=
  is01_of tg_wf rfl (by decide) (fun _ _ h => tadj_lt h) (by decide +kernel)
theorem tgL_is : Is01 4 (lower tadj) tgL :=
  is01_of (A := tgL) (P := lower tadj) (Lil.wf_chk (by decide)) rfl (by decide)
    (fun i j h => tadj_lt (by unfold lower at h; exact (Bool.and_eq_true_iff.1 h).2)) (by decide +kernel)
theorem tgU_is : Is01 4 (upper tadj) tgU :=
  is01_of (A := tgU) (P := upper tadj) (Lil.wf_chk (by decide)) rfl (by decide)
    (fun i j h => tadj_lt (by unfold upper at h; exact (Bool.and_eq_true_iff.1 h).2)) (by decide +kernel)

theorem tadj_two : triangles 4 tadj = 2 := by decide +kernel

end Ex

example : triangleCount .i32 (fun _ _ => 0) Ex.tg = .ok 2 := by
  have := C38_triangle_count (t := .i32) (ov := fun _ _ => 0) Ex.tadj_undirected Ex.tg_is (by decide)
    (by rw [Ex.tadj_two]; decide)
  rwa [Ex.tadj_two] at this
example : triangleCountMasked .u8 (fun _ _ => 0) Ex.tgL Ex.tgU = .ok 2 := by
  have := C38_masked (t := .u8) (ov := fun _ _ => 0) Ex.tadj_undirected Ex.tgL_is Ex.tgU_is (by decide)
    (by rw [Ex.tadj_two]; decide)
  rwa [Ex.tadj_two] at this
example : triangleCountMaskedT .u8 (fun _ _ => 0) Ex.tgL = .ok 2 := by
  have := C38_maskedT (t := .u8) (ov := fun _ _ => 0) Ex.tadj_undirected Ex.tgL_is (by decide)
    (by rw [Ex.tadj_two]; decide)
  rwa [Ex.tadj_two] at this
example : triangleCountMaskedNoT .u8 (fun _ _ => 0) Ex.tgL = .ok 2 := by
  have := C38_masked_noT (t := .u8) (ov := fun _ _ => 0) Ex.tadj_undirected Ex.tgL_is (by decide)
    (by rw [Ex.tadj_two]; decide)
  rwa [Ex.tadj_two] at this
example : triangleCountNew .i64 (fun _ _ => 0) Ex.tgL Ex.tgU = .ok 2 := by
  have := C38_newGBTL (t := .i64) (ov := fun _ _ => 0) Ex.tadj_undirected Ex.tgL_is Ex.tgU_is (by decide)
    (by rw [Ex.tadj_two]; decide)
  rwa [Ex.tadj_two] at this
example : triangleCountB7 (fun _ _ => 0) Ex.tgL = .ok 2 := by
  have := C38_appendixB7 (ov := fun _ _ => 0) Ex.tadj_undirected Ex.tgL_is (by decide)
    (by rw [Ex.tadj_two]; decide)
  rwa [Ex.tadj_two] at this

end GBTL

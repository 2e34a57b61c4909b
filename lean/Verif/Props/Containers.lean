import Verif.Lemmas.Containers2
/-
Properties C01-C07 and C42: the containers.

`Spec.AVec`, `Spec.AMat` and `Spec.combined` (file `Verif/Spec/Containers.lean`)
are the specification; `BVec.get`, `Lil.get` (file `Verif/Spec/Abs.lean`) read the
stored element at a position. `WF` is the consistency invariant: arrays have
the declared shape, rows are strictly ascending and in range, `nvals` is the
number of stored elements.
-/
namespace GBTL
open Spec

variable {α : Type}

/-! ## C01 -/

/-- After any sequence of calls on a fresh vector, each call gives the answer
the abstract finite map gives (values, `nvals`, exceptions). -/
theorem C01_vector_is_finite_map [Inhabited α] (n : Nat) (hn : n ≠ 0) (calls : List (VecCall α)) :
    ∃ v : BVec α, BVec.new n = .ok v ∧
      (runCalls BVec.call v calls).1 = (runCalls AVec.step ⟨n, fun _ => none⟩ calls).1 := by
  obtain ⟨v, hv, hw, hs, hg⟩ := BVec.new_spec (α := α) hn
  exact ⟨v, hv, (sim_run (R := VSim) (fun s t c h => vsim_step h c) calls v ⟨n, fun _ => none⟩
    ⟨hw, hs, hg⟩).1⟩

/-- A call that throws leaves a consistent vector exactly as it was. -/
theorem C01_throw_changes_nothing [Inhabited α] (v : BVec α) (hv : v.WF) (c : VecCall α) (e : Err)
    (h : (v.call c).1 = .error e) : (v.call c).2 = v := by
  cases c with
  | set i x =>
    by_cases hi : i < v.size
    · obtain ⟨w, hw, -⟩ := BVec.setElement_spec hv hi x
      simp [BVec.call, hw] at h
    · have e : v.setElement i x = (.error .indexOutOfBounds, v) := by
        rw [BVec.setElement, if_pos (by omega)]
      simp [BVec.call, e]
  | remove i =>
    by_cases hi : i < v.size
    · obtain ⟨w, hw, -⟩ := BVec.removeElement_spec hv hi
      simp [BVec.call, hw] at h
    · have e : v.removeElement i = (.error .indexOutOfBounds, v) := by
        rw [BVec.removeElement, if_pos (by omega)]
      simp [BVec.call, e]
  | clear => simp [BVec.call] at h
  | resize n =>
    by_cases hn : n = 0
    · simp [BVec.call, BVec.resize, hn]
    · simp [BVec.call, BVec.resize, hn] at h
  | has i => simp only [BVec.call]; cases v.hasElement i <;> rfl
  | extract i => simp only [BVec.call]; cases v.extractElement i <;> rfl
  | nvals => rfl
  | size => rfl

-- a concrete history: set 2, overwrite, set 0, remove 2, out of range, absent
example : ∃ v : BVec Nat, BVec.new 3 = .ok v ∧
    (runCalls BVec.call v [.set 2 7, .set 2 8, .extract 2, .set 0 1, .nvals, .remove 2, .extract 2,
      .extract 3, .nvals]).1
    = [.ok .unit, .ok .unit, .ok (.val 8), .ok .unit, .ok (.num 2), .ok .unit, .error .noValue,
       .error .indexOutOfBounds, .ok (.num 1)] := ⟨_, rfl, by decide⟩

/-! ## C02 -/

/-- After any sequence of calls on a fresh matrix, each call gives the answer
the abstract finite map gives. -/
theorem C02_matrix_is_finite_map (m n : Nat) (calls : List (MatCall α)) :
    (runCalls Lil.call (Lil.new m n : Lil α) calls).1
      = (runCalls AMat.step ⟨m, n, fun _ _ => none⟩ calls).1 :=
  (sim_run (R := MSim) (fun s t c h => msim_step h c) calls _ _
    ⟨Lil.new_wf m n, rfl, rfl, fun i j => by simp [Lil.get]⟩).1

/-- A call that throws leaves a consistent matrix exactly as it was. -/
theorem C02_throw_changes_nothing (A : Lil α) (hA : A.WF) (c : MatCall α) (e : Err)
    (h : (A.call c).1 = .error e) : (A.call c).2 = A := by
  cases c with
  | set i j x =>
    by_cases hi : i < A.nrows ∧ j < A.ncols
    · obtain ⟨w, hw, -⟩ := Lil.setElement_spec hA hi.1 hi.2 x
      simp [Lil.call, hw] at h
    · have e : A.setElement i j x = (.error .indexOutOfBounds, A) := by
        rw [Lil.setElement, Lil.setElementMerge, if_pos (by omega)]
      simp [Lil.call, e]
  | setMerge i j x m =>
    by_cases hi : i < A.nrows ∧ j < A.ncols
    · obtain ⟨w, hw, -⟩ := Lil.setElementMerge_spec hA hi.1 hi.2 x m
      simp [Lil.call, hw] at h
    · have e : A.setElementMerge i j x m = (.error .indexOutOfBounds, A) := by
        rw [Lil.setElementMerge, if_pos (by omega)]
      simp [Lil.call, e]
  | remove i j =>
    by_cases hi : i < A.nrows ∧ j < A.ncols
    · obtain ⟨w, hw, -⟩ := Lil.removeElement_spec hA hi.1 hi.2
      simp [Lil.call, hw] at h
    · have e : A.removeElement i j = (.error .indexOutOfBounds, A) := by
        rw [Lil.removeElement, if_pos (by omega)]
      simp [Lil.call, e]
  | clear => simp [Lil.call] at h
  | resize m n =>
    by_cases hn : m = 0 ∨ n = 0
    · simp only [Lil.call, Lil.resize, if_pos hn]
    · simp [Lil.call, Lil.resize, hn] at h
  | has i j => simp only [Lil.call]; cases A.hasElement i j <;> rfl
  | extract i j => simp only [Lil.call]; cases A.extractElement i j <;> rfl
  | nvals => rfl
  | shape => rfl

example :
    (runCalls Lil.call (Lil.new 2 3 : Lil Nat) [.set 1 2 7, .set 1 0 4, .setMerge 1 2 1 (· + ·),
      .extract 1 2, .nvals, .remove 1 0, .has 1 0, .extract 0 3, .nvals]).1
    = [.ok .unit, .ok .unit, .ok .unit, .ok (.val 8), .ok (.num 2), .ok .unit, .ok (.bool false),
       .error .indexOutOfBounds, .ok (.num 1)] := by decide

/-! ## C03 -/

/-- The full statement of C03 for in-range tuples. It is false: see
`C03_vector_build_nvals_wrong`. -/
def C03_statement : Prop := ∀ (v : BVec Nat) (dup : Nat → Nat → Nat) (ts : List (Nat × Nat)),
  v.WF → (∀ t ∈ ts, t.1 < v.size) →
  ∃ w, v.build dup ts = (.ok (), w) ∧ w.size = v.size ∧ (∀ i, w.get i = combined dup ts i) ∧
    w.nvals = Vec.count w.size w.get

/-- `build` with a repeated index reports too many stored elements. -/
theorem C03_vector_build_nvals_wrong : ¬ C03_statement := by
  intro h
  obtain ⟨w, hw, -, -, hn⟩ := h ⟨2, 0, [0, 0], [false, false]⟩ (· + ·) [(1, 3), (1, 4)]
    ⟨rfl, rfl, rfl⟩ (by decide)
  have e : BVec.build (⟨2, 0, [0, 0], [false, false]⟩ : BVec Nat) (· + ·) [(1, 3), (1, 4)]
    = (.ok (), ⟨2, 2, [0, 7], [false, true]⟩) := by decide
  rw [e] at hw
  have hw' : (⟨2, 2, [0, 7], [false, true]⟩ : BVec Nat) = w := (Prod.mk.injEq .. ▸ hw).2
  subst hw'
  revert hn
  decide

/-- Everything C03 says about the stored elements holds; missing from the full
statement is the value of `nvals` when an index is repeated. -/
theorem C03_vector_build_partial [Inhabited α] (v : BVec α) (dup : α → α → α)
    (ts : List (Nat × α)) (h : ∀ t ∈ ts, t.1 < v.size) :
    ∃ w, v.build dup ts = (.ok (), w) ∧ w.size = v.size ∧ (∀ i, w.get i = combined dup ts i) ∧
      w.nvals = ts.length ∧
      ((ts.map Prod.fst).Nodup → w.WF ∧ w.nvals = Vec.count w.size w.get) := by
  obtain ⟨w, e, hs, l1, l2, hn, hg⟩ := BVec.build_spec v dup ts h
  refine ⟨w, e, hs, hg, hn, ?_⟩
  intro hnd
  have hc : w.nvals = BVec.countBits w.bitmap := by
    rw [BVec.countBits_eq_count l1 l2, hn, Vec.count, ← List.length_map (f := Prod.fst)]
    apply List.Perm.length_eq
    rw [List.perm_ext_iff_of_nodup hnd
      (List.Pairwise.filter _ List.nodup_range)]
    intro i
    simp only [List.mem_map, List.mem_filter, List.mem_range, hg]
    constructor
    · rintro ⟨t, ht, rfl⟩
      have := (Lil.combined_nodup dup ts hnd t.1 t.2).2 ht
      exact ⟨by rw [hs]; exact h t ht, by simp [this]⟩
    · rintro ⟨_, hi⟩
      obtain ⟨x, hx⟩ := Option.isSome_iff_exists.1 hi
      exact ⟨(i, x), (Lil.combined_nodup dup ts hnd i x).1 hx, rfl⟩
  exact ⟨⟨l1, l2, hc⟩, by rw [hc, BVec.countBits_eq_count l1 l2]⟩

/-- An out-of-range index makes `build` throw and leaves the vector unchanged. -/
theorem C03_vector_build_out_of_range [Inhabited α] (v : BVec α) (dup : α → α → α)
    (ts : List (Nat × α)) (h : ∃ t ∈ ts, v.size ≤ t.1) :
    v.build dup ts = (.error .indexOutOfBounds, v) := by
  rw [BVec.build, BVec.buildLoop_oob _ _ _ _ _ (by simp) (by simp) h]

/-- Arrays of different lengths make `build` throw and leave the vector unchanged. -/
theorem C03_vector_build_length_mismatch [Inhabited α] (v : BVec α) (dup : α → α → α)
    (is : List Nat) (xs : List α) (h : is.length ≠ xs.length) :
    v.buildArrays dup is xs = (.error .dimension, v) := by
  rw [BVec.buildArrays, if_pos h]

example : (BVec.build (⟨3, 1, [9, 0, 0], [true, false, false]⟩ : BVec Nat) (· * 10 + ·)
    [(2, 3), (1, 4), (2, 5)]).2.get 2 = some 35 := by decide

/-! ## C04 -/

/-- `Matrix::build`: at every coordinate the given values, combined left to right
with `dup`, an existing element being the first operand; `nvals` is right. -/
theorem C04_matrix_build (A : Lil α) (hA : A.WF) (dup : α → α → α) (ts : List (Nat × Nat × α))
    (h : ∀ t ∈ ts, t.1 < A.nrows ∧ t.2.1 < A.ncols) :
    ∃ B, A.build dup ts = (.ok (), B) ∧ B.WF ∧ B.nrows = A.nrows ∧ B.ncols = A.ncols ∧
      (∀ i j, B.get i j = combinedFrom dup (A.get i j)
        (ts.map fun t => ((t.1, t.2.1), t.2.2)) (i, j)) ∧
      B.nvals = Mat.count B.nrows B.ncols B.get := by
  obtain ⟨B, e, hB, h1, h2, h3⟩ := Lil.build_spec dup ts A hA h
  exact ⟨B, e, hB, h1, h2, h3, hB.nvals_eq⟩

/-- On an empty matrix: exactly the given values. -/
theorem C04_matrix_build_empty (m n : Nat) (dup : α → α → α) (ts : List (Nat × Nat × α))
    (h : ∀ t ∈ ts, t.1 < m ∧ t.2.1 < n) :
    ∃ B, (Lil.new m n : Lil α).build dup ts = (.ok (), B) ∧ B.WF ∧
      (∀ i j, B.get i j = combined dup (ts.map fun t => ((t.1, t.2.1), t.2.2)) (i, j)) ∧
      B.nvals = Mat.count m n B.get := by
  obtain ⟨B, e, hB, h1, h2, h3⟩ := Lil.build_spec dup ts (Lil.new m n) (Lil.new_wf m n) h
  refine ⟨B, e, hB, ?_, ?_⟩
  · intro i j
    rw [h3]
    simp [Lil.get, combinedFrom]
  · rw [hB.nvals_eq, h1, h2]; rfl

/-- The first out-of-range tuple makes `build` throw; the tuples before it have
been stored (the call is not atomic) and the matrix is consistent. -/
theorem C04_matrix_build_out_of_range (A : Lil α) (hA : A.WF) (dup : α → α → α)
    (pre post : List (Nat × Nat × α)) (bad : Nat × Nat × α)
    (hpre : ∀ t ∈ pre, t.1 < A.nrows ∧ t.2.1 < A.ncols)
    (hbad : A.nrows ≤ bad.1 ∨ A.ncols ≤ bad.2.1) :
    ∃ B, A.build dup (pre ++ bad :: post) = (.error .indexOutOfBounds, B) ∧ B.WF ∧
      A.build dup pre = (.ok (), B) := by
  induction pre generalizing A with
  | nil =>
    obtain ⟨i, j, x⟩ := bad
    refine ⟨A, ?_, hA, rfl⟩
    simp only [List.nil_append, Lil.build, Lil.setElementMerge]
    rw [if_pos hbad]
  | cons t pre ih =>
    obtain ⟨i, j, x⟩ := t
    obtain ⟨hi, hj⟩ := hpre _ (List.mem_cons_self ..)
    obtain ⟨B, e, hB, hn, hc, -⟩ := Lil.setElementMerge_spec hA hi hj x dup
    obtain ⟨D, h1, h2, h3⟩ := ih B hB
      (fun t ht => by rw [hn, hc]; exact hpre t (List.mem_cons_of_mem _ ht))
      (by rw [hn, hc]; exact hbad)
    exact ⟨D, by simp only [List.cons_append, Lil.build, e, h1], h2, by simp only [Lil.build, e, h3]⟩

example : ((Lil.new 2 2 : Lil Nat).build (· * 10 + ·) [(1, 1, 3), (0, 1, 4), (1, 1, 5)]).2.rows
    = [[(1, 4)], [(1, 35)]] := by decide

/-! ## C05 -/

theorem C05_vector_resize [Inhabited α] (v : BVec α) (hv : v.WF) (n : Nat) (hn : n ≠ 0) :
    ∃ w, v.resize n = (.ok (), w) ∧ w.size = n ∧
      (∀ i, w.get i = if i < n then v.get i else none) ∧ w.nvals = Vec.count n w.get ∧ w.WF := by
  obtain ⟨h1, h2, h3⟩ := BVec.resizeBackend_spec hv n
  exact ⟨_, by rw [BVec.resize, if_neg hn], h2, h3, by rw [h1.nvals_eq, h2], h1⟩

theorem C05_vector_resize_zero [Inhabited α] (v : BVec α) :
    v.resize 0 = (.error .invalidValue, v) := rfl

theorem C05_matrix_resize (A : Lil α) (hA : A.WF) (m n : Nat) (hm : m ≠ 0) (hn : n ≠ 0) :
    ∃ B, A.resize m n = (.ok (), B) ∧ B.nrows = m ∧ B.ncols = n ∧
      (∀ i j, B.get i j = if i < m ∧ j < n then A.get i j else none) ∧
      B.nvals = Mat.count m n B.get ∧ B.WF := by
  obtain ⟨h1, h2, h2', h3⟩ := Lil.resizeBackend_spec hA m n
  exact ⟨_, by rw [Lil.resize, if_neg (by omega)], h2, h2', h3, by rw [h1.nvals_eq, h2, h2'], h1⟩

theorem C05_matrix_resize_zero (A : Lil α) (m n : Nat) (h : m = 0 ∨ n = 0) :
    A.resize m n = (.error .invalidValue, A) := by rw [Lil.resize, if_pos h]

example : (⟨3, 2, [5, 6, 7], [true, false, true]⟩ : BVec Nat).WF := ⟨rfl, rfl, rfl⟩
example : (BVec.resize (⟨3, 2, [5, 6, 7], [true, false, true]⟩ : BVec Nat) 2).2
    = ⟨2, 1, [5, 6], [true, false]⟩ := by decide
/-- A 2x3 matrix used in examples. -/
def exMat : Lil Nat := ⟨2, 3, 3, [[(0, 1), (2, 2)], [(1, 3)]]⟩
theorem exMat_wf : exMat.WF :=
  ⟨⟨rfl, by intro r hr; simp [exMat] at hr; rcases hr with rfl | rfl <;>
    exact ⟨by simp [Row.Sorted], by simp [exMat]⟩⟩, rfl⟩
example : (exMat.resize 3 2).2 = ⟨3, 2, 2, [[(0, 1)], [(1, 3)], []]⟩ := by decide

/-! ## C06 -/

/-- Vector equality on consistent vectors is equality of size and content. -/
theorem C06_vector_eq [DecidableEq α] (a b : BVec α) (ha : a.WF) (hb : b.WF) :
    ∃ r, a.eq b = .ok r ∧ (r = true ↔ a.size = b.size ∧ ∀ i, a.get i = b.get i) := by
  by_cases hs : a.size = b.size
  · by_cases hn : a.nvals = b.nvals
    · obtain ⟨r, hr, hiff⟩ := BVec.eqLoop_spec ha.vlen ha.blen hb.vlen hb.blen (List.range a.size)
        (fun i hi => by rw [List.mem_range] at hi; omega)
      refine ⟨r, by simp [BVec.eq, hs, hn]; rw [← hs]; exact hr, ?_⟩
      rw [hiff]
      constructor
      · intro h
        refine ⟨hs, fun i => ?_⟩
        by_cases hi : i < a.size
        · exact h i (List.mem_range.2 hi)
        · rw [ha.get_none (by omega), hb.get_none (by omega)]
      · intro h i _; exact h.2 i
    · refine ⟨false, by simp [BVec.eq, hn], ?_⟩
      simp only [Bool.false_eq_true, false_iff]
      rintro ⟨_, h⟩
      apply hn
      rw [ha.nvals_eq, hb.nvals_eq, hs, count_congr h]
  · exact ⟨false, by simp [BVec.eq, hs], by simp [hs]⟩

/-- Matrix equality on consistent matrices is equality of shape and content. -/
theorem C06_matrix_eq [DecidableEq α] (A B : Lil α) (hA : A.WF) (hB : B.WF) :
    A.eq B = true ↔ A.nrows = B.nrows ∧ A.ncols = B.ncols ∧ ∀ i j, A.get i j = B.get i j := by
  simp only [Lil.eq, Bool.and_eq_true, beq_iff_eq]
  constructor
  · rintro ⟨⟨⟨h1, h2⟩, _⟩, h4⟩
    refine ⟨h1, h2, ?_⟩
    intro i j
    simp only [Lil.get, Lil.rowD, h4]
  · rintro ⟨h1, h2, h3⟩
    have hr := Lil.rows_ext hA.toWFr hB.toWFr h1 h3
    exact ⟨⟨⟨h1, h2⟩, by rw [hA.count, hB.count, hr]⟩, hr⟩

-- leftover values behind cleared bits do not matter
example : BVec.eq (⟨2, 1, [5, 6], [true, false]⟩ : BVec Nat) ⟨2, 1, [5, 9], [true, false]⟩
    = .ok true := by decide
example : Lil.eq exMat exMat = true ∧ Lil.eq exMat (exMat.setElement 0 0 9).2 = false := by decide

/-! ## C07 -/

/-- `extractTuples` of a vector: ascending, exactly the stored elements,
`nvals` of them. -/
theorem C07_vector_tuples (v : BVec α) (hv : v.WF) :
    ∃ ts : List (Nat × α), v.extractTuples = .ok ts ∧ ts.Pairwise (fun p q => p.1 < q.1) ∧
      (∀ i x, (i, x) ∈ ts ↔ v.get i = some x) ∧ ts.length = v.nvals := by
  obtain ⟨r, e, hok, hg, hl⟩ := BVec.getContents_spec hv
  refine ⟨r, e, hok.sorted, ?_, hl⟩
  intro i x
  rw [← hg, Row.get_eq_some_iff hok.sorted]

/-- Building an empty vector of the same size from them gives an equal vector. -/
theorem C07_vector_round_trip [Inhabited α] [DecidableEq α] (v w0 : BVec α) (hv : v.WF)
    (hw0 : w0.size = v.size) (dup : α → α → α) :
    ∃ ts w, v.extractTuples = .ok ts ∧ w0.build dup ts = (.ok (), w) ∧ w.WF ∧
      w.eq v = .ok true := by
  obtain ⟨ts, e, hs, hm, -⟩ := C07_vector_tuples v hv
  have hb : ∀ t ∈ ts, t.1 < w0.size := by
    intro t ht
    rcases Nat.lt_or_ge t.1 w0.size with h | h
    · exact h
    · have := (hm t.1 t.2).1 ht
      rw [hv.get_none (by omega)] at this; cases this
  have hnd : (ts.map Prod.fst).Nodup := by
    rw [List.Nodup, List.pairwise_map]
    exact hs.imp fun h => Nat.ne_of_lt h
  obtain ⟨w, hw, hsz, hg, -, hwf⟩ := C03_vector_build_partial w0 dup ts hb
  refine ⟨ts, w, e, hw, (hwf hnd).1, ?_⟩
  obtain ⟨r, hr, hiff⟩ := C06_vector_eq w v (hwf hnd).1 hv
  rw [hr, hiff.2 ⟨by omega, ?_⟩]
  intro i
  apply Option.ext
  intro x
  rw [hg, Lil.combined_nodup dup ts hnd, hm]

/-- `extractTuples` of a matrix: row-major ascending, exactly the stored
elements, `nvals` of them. -/
theorem C07_matrix_tuples (A : Lil α) (hA : A.WF) :
    A.extractTuples.Pairwise (fun p q => p.1 < q.1 ∨ (p.1 = q.1 ∧ p.2.1 < q.2.1)) ∧
      (∀ i j x, (i, j, x) ∈ A.extractTuples ↔ A.get i j = some x) ∧
      A.extractTuples.length = A.nvals :=
  ⟨Lil.extractTuples_sorted hA.toWFr, Lil.mem_extractTuples hA.toWFr,
   by rw [Lil.extractTuples_length, hA.count]⟩

/-- Building an empty matrix of the same shape from them gives an equal matrix. -/
theorem C07_matrix_round_trip [DecidableEq α] (A : Lil α) (hA : A.WF) (dup : α → α → α) :
    ∃ B, (Lil.new A.nrows A.ncols : Lil α).build dup A.extractTuples = (.ok (), B) ∧ B.WF ∧
      B.eq A = true := by
  obtain ⟨hs, hm, -⟩ := C07_matrix_tuples A hA
  have hb : ∀ t ∈ A.extractTuples, t.1 < A.nrows ∧ t.2.1 < A.ncols := by
    rintro ⟨i, j, x⟩ ht
    have := (hm i j x).1 ht
    constructor
    · rcases Nat.lt_or_ge i A.nrows with h | h
      · exact h
      · rw [hA.toWFr.get_none (Or.inl h)] at this; cases this
    · rcases Nat.lt_or_ge j A.ncols with h | h
      · exact h
      · rw [hA.toWFr.get_none (Or.inr h)] at this; cases this
  have hnd : ((A.extractTuples.map fun t => ((t.1, t.2.1), t.2.2)).map Prod.fst).Nodup := by
    rw [List.Nodup, List.pairwise_map, List.pairwise_map]
    refine hs.imp fun {p q} h e => ?_
    simp only [Prod.mk.injEq] at e
    omega
  obtain ⟨B, e, hB, h1, h2, hg, -⟩ := C04_matrix_build (Lil.new A.nrows A.ncols) (Lil.new_wf ..)
    dup A.extractTuples hb
  refine ⟨B, e, hB, ?_⟩
  rw [C06_matrix_eq B A hB hA]
  refine ⟨h1, h2, ?_⟩
  intro i j
  apply Option.ext
  intro x
  rw [hg]
  have hz : (Lil.new A.nrows A.ncols : Lil α).get i j = none := by simp [Lil.get]
  rw [hz, ← hm i j x]
  show combined dup _ (i, j) = some x ↔ _
  rw [Lil.combined_nodup dup _ hnd (i, j) x, List.mem_map]
  constructor
  · rintro ⟨t, ht, e⟩
    obtain ⟨a, b, c⟩ := t
    simp only [Prod.mk.injEq] at e
    obtain ⟨⟨rfl, rfl⟩, rfl⟩ := e
    exact ht
  · intro h; exact ⟨_, h, rfl⟩

example : exMat.extractTuples = [(0, 0, 1), (0, 2, 2), (1, 1, 3)] := by decide
example : BVec.extractTuples (⟨3, 2, [5, 6, 7], [true, false, true]⟩ : BVec Nat)
    = .ok [(0, 5), (2, 7)] := by decide

/-! ## C42 -/

/-- A vector constructed with a size stores nothing; size zero is rejected. -/
theorem C42_vector_new [Inhabited α] (n : Nat) :
    (n = 0 ∧ (BVec.new n : Except Err (BVec α)) = .error .invalidValue) ∨
    (∃ v : BVec α, BVec.new n = .ok v ∧ v.WF ∧ v.size = n ∧ v.nvals = 0 ∧ ∀ i, v.get i = none) := by
  by_cases hn : n = 0
  · left; exact ⟨hn, by rw [BVec.new, if_pos hn]⟩
  · right
    obtain ⟨v, e, hw, hs, hg⟩ := BVec.new_spec (α := α) hn
    refine ⟨v, e, hw, hs, ?_, hg⟩
    rw [BVec.new, if_neg hn] at e
    cases e; rfl

/-- A vector constructed from dense data stores every element. -/
theorem C42_vector_dense (xs : List α) (h : xs ≠ []) :
    ∃ v, BVec.ofDense xs = .ok v ∧ v.WF ∧ v.size = xs.length ∧ v.nvals = xs.length ∧
      ∀ i, v.get i = xs[i]? := by
  have hl : xs.length ≠ 0 := by simpa using h
  refine ⟨_, by rw [BVec.ofDense, if_neg hl],
    ⟨rfl, by simp, by simp [BVec.countBits_replicate_true]⟩, rfl, rfl, ?_⟩
  intro i
  simp only [BVec.get, List.getElem?_replicate]
  by_cases hi : i < xs.length
  · simp [hi]
  · simp [hi]

/-- A vector constructed from dense data and a zero stores exactly the elements
different from the zero. -/
theorem C42_vector_dense_zero [Inhabited α] [DecidableEq α] (xs : List α) (zero : α) (h : xs ≠ []) :
    ∃ v, BVec.ofDenseZero xs zero = .ok v ∧ v.WF ∧ v.size = xs.length ∧
      ∀ i, v.get i = (xs[i]?).filter fun x => x ≠ zero := by
  have hl : xs.length ≠ 0 := by simpa using h
  let P : Nat → BVec α → Prop := fun k v => v.WF ∧ v.size = xs.length ∧
    ∀ i, v.get i = if i < k then (xs[i]?).filter fun x => x ≠ zero else none
  obtain ⟨v0, e0, hw0, hs0, hg0⟩ := BVec.new_spec (α := α) hl
  have hstart : (⟨xs.length, 0, List.replicate xs.length default,
      List.replicate xs.length false⟩ : BVec α) = v0 := by
    rw [BVec.new, if_neg hl] at e0; cases e0; rfl
  have hloop : ∃ v, BVec.ofDenseZeroLoop xs zero v0 = .ok v ∧ P xs.length v := by
    apply forN_inv P
    · exact ⟨hw0, hs0, by intro i; simp [hg0]⟩
    · rintro i v hi ⟨hw, hs, hg⟩
      rw [rd_ok hi, Except.bind_ok']
      have hiv : i < v.vals.length := by rw [hw.vlen, hs]; exact hi
      have hib : i < v.bitmap.length := by rw [hw.blen, hs]; exact hi
      have hnone : v.get i = none := by rw [hg i]; simp
      have hbit : v.bitmap[i]? = some false := by
        rw [BVec.bit_eq hw.vlen hw.blen (by omega), hnone]; rfl
      by_cases hx : xs[i] ≠ zero
      · refine ⟨{ v with vals := v.vals.set i xs[i], bitmap := v.bitmap.set i true,
                         nvals := v.nvals + 1 }, ?_, ?_, hs, ?_⟩
        · rw [if_pos hx, wr_ok hiv, wr_ok hib]; rfl
        · exact ⟨by simp [hw.vlen], by simp [hw.blen], by
            simp only [BVec.countBits_set_true hbit, hw.count]⟩
        · intro k
          have hgk := hg k
          simp only [BVec.get] at hgk
          simp only [BVec.get, List.getElem?_set]
          by_cases hk : i = k
          · subst hk
            simp [hiv, hib, hi, Option.filter, hx]
          · rw [if_neg hk, if_neg hk, hgk]
            by_cases hlt : k < i
            · rw [if_pos hlt, if_pos (by omega)]
            · rw [if_neg hlt, if_neg (by omega)]
      · refine ⟨v, by rw [if_neg hx], hw, hs, ?_⟩
        intro k
        rw [hg k]
        by_cases hk : k = i
        · subst hk
          simp only [ne_eq, Decidable.not_not] at hx
          simp [hi, hx, Option.filter]
        · by_cases hlt : k < i
          · rw [if_pos hlt, if_pos (by omega)]
          · rw [if_neg hlt, if_neg (by omega)]
  obtain ⟨v, e, hw, hs, hg⟩ := hloop
  refine ⟨v, by rw [BVec.ofDenseZero, if_neg hl, hstart, e], hw, hs, ?_⟩
  intro i
  rw [hg i]
  split
  · rfl
  · next hi => rw [List.getElem?_eq_none (by omega)]; rfl

theorem BVec.assignDenseLoop_eq (xs : List α) (k : Nat) (vals : List α) (bm : List Bool)
    (h1 : k + xs.length = vals.length) (h2 : k + xs.length = bm.length) :
    BVec.assignDenseLoop xs k vals bm
      = .ok (vals.take k ++ xs, bm.take k ++ List.replicate xs.length true) := by
  induction xs generalizing k vals bm with
  | nil =>
    simp only [List.length_nil, Nat.add_zero] at h1 h2
    subst h1
    simp [BVec.assignDenseLoop, List.take_of_length_le (Nat.le_of_eq h2.symm)]
  | cons x xs ih =>
    simp only [List.length_cons] at h1 h2
    have e1 : wr vals k x = .ok (vals.set k x) := if_pos (by omega)
    have e2 : wr bm k true = .ok (bm.set k true) := if_pos (by omega)
    simp only [BVec.assignDenseLoop, e1, e2, bind, Except.bind]
    rw [ih (k + 1) _ _ (by simp; omega) (by simp; omega)]
    have t1 : (vals.set k x).take (k + 1) = vals.take k ++ [x] := by
      rw [List.take_add_one, List.take_set_of_le (by omega)]
      simp [show k < vals.length by omega]
    have t2 : (bm.set k true).take (k + 1) = bm.take k ++ [true] := by
      rw [List.take_add_one, List.take_set_of_le (by omega)]
      simp [show k < bm.length by omega]
    rw [t1, t2]
    simp [List.replicate_succ]

/-- Assigning dense data to a vector of the same size stores every element and removes
what was there before; with another size it throws and changes nothing. -/
theorem C42_vector_assign_dense (v : BVec α) (hv : v.WF) (xs : List α) :
    (xs.length ≠ v.size ∧ v.assignDense xs = (.error .dimension, v)) ∨
    (∃ w, v.assignDense xs = (.ok (), w) ∧ w.WF ∧ w.size = v.size ∧ w.nvals = v.size ∧
      ∀ i, w.get i = xs[i]?) := by
  by_cases h : xs.length = v.size
  · right
    refine ⟨⟨v.size, v.size, xs, List.replicate xs.length true⟩, ?_,
      ⟨h, by simp [h], by simp [BVec.countBits_replicate_true, h]⟩, rfl, rfl, fun i => ?_⟩
    · simp only [BVec.assignDense, h, ne_eq, not_true_eq_false, if_false]
      rw [BVec.assignDenseLoop_eq xs 0 _ _ (by rw [hv.1]; omega) (by rw [hv.2]; omega)]
      simp [h]
    · simp only [BVec.get, List.getElem?_replicate]
      by_cases hi : i < xs.length
      · simp [hi]
      · simp [hi]
  · exact .inl ⟨h, by simp [BVec.assignDense, h]⟩

example : (BVec.assignDense ⟨3, 1, [4, 9, 9], [true, false, false]⟩ [5, 0, 7])
    = (.ok (), ⟨3, 3, [5, 0, 7], [true, true, true]⟩) := by decide

/-- Empty dense data is rejected. -/
theorem C42_vector_dense_empty [Inhabited α] [DecidableEq α] (zero : α) :
    BVec.ofDense ([] : List α) = .error .invalidValue ∧
    BVec.ofDenseZero ([] : List α) zero = .error .invalidValue := ⟨rfl, rfl⟩

/-- The size-and-value constructor stores the value everywhere. Missing: it
reports `nvals` = 0 (`C42_vector_fill_nvals_wrong`). -/
theorem C42_vector_fill_partial (n : Nat) (x : α) :
    ∃ v, BVec.newFill n x = .ok v ∧ v.size = n ∧
      ∀ i, v.get i = if i < n then some x else none := by
  refine ⟨_, rfl, rfl, ?_⟩
  intro i
  simp only [BVec.get, List.getElem?_replicate]
  by_cases hi : i < n <;> simp [hi]

/-- `Vector(n, value)` reports zero stored elements although it stores `n`, for
every positive `n`; two such equal-content vectors then compare unequal. -/
theorem C42_vector_fill_nvals_wrong [DecidableEq α] (n : Nat) (hn : n ≠ 0) (x : α) :
    ∃ v w, BVec.newFill n x = .ok v ∧ BVec.ofDense (List.replicate n x) = .ok w ∧
      v.nvals = 0 ∧ Vec.count v.size v.get = n ∧ (∀ i, v.get i = w.get i) ∧
      v.eq w = .ok false := by
  obtain ⟨v, e, hs, hg⟩ := C42_vector_fill_partial n x
  obtain ⟨w, e', hw, hs', hn', hg'⟩ := C42_vector_dense (List.replicate n x)
    (by simpa using hn)
  have hv0 : v.nvals = 0 := by cases e; rfl
  refine ⟨v, w, e, e', hv0, ?_, ?_, ?_⟩
  · cases e
    have := BVec.countBits_eq_count (v := ⟨n, 0, List.replicate n x, List.replicate n true⟩)
      (by simp) (by simp)
    rw [← this, BVec.countBits_replicate_true]
  · intro i
    rw [hg, hg', List.getElem?_replicate]
  · simp only [List.length_replicate] at hn'
    rw [BVec.eq, if_pos]
    right; omega

/-- A matrix constructed with a shape stores nothing. -/
theorem C42_matrix_new (m n : Nat) :
    (Lil.new m n : Lil α).WF ∧ (Lil.new m n : Lil α).nrows = m ∧ (Lil.new m n : Lil α).ncols = n ∧
      (Lil.new m n : Lil α).nvals = 0 ∧ ∀ i j, (Lil.new m n : Lil α).get i j = none :=
  ⟨Lil.new_wf m n, rfl, rfl, rfl, fun i j => by simp [Lil.get]⟩

theorem denseLoop_spec (n : Nat) (keep : α → Bool) (val : List (List α))
    (h : ∀ r ∈ val, r.length = n) :
    ∃ rows k, Lil.denseLoop n keep val = .ok (rows, k) ∧ rows.length = val.length ∧
      k = (rows.map List.length).sum ∧ (∀ r ∈ rows, Row.OK n r) ∧
      ∀ (i j : Nat), Row.get ((rows[i]?).getD []) j =
        ((val[i]?).bind fun r => r[j]?).filter keep := by
  induction val with
  | nil => exact ⟨[], 0, rfl, rfl, rfl, by simp, by simp⟩
  | cons r val ih =>
    obtain ⟨rows, k, e, hl, hk, hok, hg⟩ := ih fun s hs => h s (List.mem_cons_of_mem _ hs)
    have hr := h r (List.mem_cons_self ..)
    have hrow : Row.OK n (((List.range r.length).zip r).filter fun p => keep p.2) := by
      refine ⟨?_, ?_⟩
      · apply List.Pairwise.filter
        rw [List.pairwise_iff_getElem]
        intro i j hi hj hij
        simpa using hij
      · intro p hp
        have := (List.of_mem_zip (List.mem_filter.1 hp).1).1
        rw [List.mem_range] at this; omega
    refine ⟨_, _, by rw [Lil.denseLoop, if_neg (by simp [hr]), e]; rfl, by simp [hl], by simp [hk],
      ?_, ?_⟩
    · intro s hs
      rcases List.mem_cons.1 hs with rfl | hs
      · exact hrow
      · exact hok s hs
    · intro i j
      cases i with
      | succ i => simpa using hg i j
      | zero =>
        simp only [List.getElem?_cons_zero, Option.getD_some, Option.bind_some]
        apply Option.ext
        intro x
        rw [Row.get_eq_some_iff hrow.sorted, List.mem_filter, Option.filter_eq_some_iff]
        constructor
        · rintro ⟨h1, h2⟩
          obtain ⟨i, hi, e⟩ := List.getElem_of_mem h1
          simp only [List.getElem_zip, List.getElem_range, Prod.mk.injEq] at e
          obtain ⟨rfl, rfl⟩ := e
          exact ⟨by simp at hi; simp [hi], h2⟩
        · rintro ⟨h1, h2⟩
          obtain ⟨hj, rfl⟩ := List.getElem?_eq_some_iff.1 h1
          refine ⟨?_, h2⟩
          rw [List.mem_iff_getElem]
          exact ⟨j, by simpa using hj, by simp⟩

/-- A matrix constructed from rectangular dense data stores exactly the elements
that pass `keep` (all of them, or those different from the given zero). -/
theorem C42_matrix_dense (keep : α → Bool) (val : List (List α)) (n : Nat) (hne : val ≠ [])
    (h : ∀ r ∈ val, r.length = n) :
    ∃ A, Lil.ofDense keep val = .ok A ∧ A.WF ∧ A.nrows = val.length ∧ A.ncols = n ∧
      ∀ i j, A.get i j = ((val[i]?).bind fun r => r[j]?).filter keep := by
  cases val with
  | nil => exact absurd rfl hne
  | cons r0 val =>
    have h0 : r0.length = n := h r0 (List.mem_cons_self ..)
    obtain ⟨rows, k, e, hl, hk, hok, hg⟩ := denseLoop_spec n keep (r0 :: val) h
    refine ⟨⟨(r0 :: val).length, n, k, rows⟩, ?_, ⟨⟨hl, hok⟩, hk⟩, rfl, rfl, hg⟩
    simp only [Lil.ofDense, h0, e]
    rfl

theorem denseLoop_ragged (n : Nat) (keep : α → Bool) (val : List (List α))
    (h : ∃ r ∈ val, r.length ≠ n) : Lil.denseLoop n keep val = .error .dimension := by
  induction val with
  | nil => simp at h
  | cons r val ih =>
    rw [Lil.denseLoop]
    by_cases hr : r.length ≠ n
    · rw [if_pos hr]
    · rw [if_neg hr, ih]; rfl
      obtain ⟨s, hs, he⟩ := h
      rcases List.mem_cons.1 hs with rfl | hs
      · exact absurd he hr
      · exact ⟨s, hs, he⟩

/-- Ragged dense data is rejected. -/
theorem C42_matrix_dense_ragged (keep : α → Bool) (r0 : List α) (val : List (List α))
    (h : ∃ r ∈ val, r.length ≠ r0.length) :
    Lil.ofDense keep (r0 :: val) = .error .dimension := by
  obtain ⟨r, hr, he⟩ := h
  simp only [Lil.ofDense]
  rw [denseLoop_ragged r0.length keep (r0 :: val) ⟨r, List.mem_cons_of_mem _ hr, he⟩]; rfl

example : Lil.ofDense (fun x => x != 0) [[1, 0, 2], [0, 3, 0]] = .ok exMat := by decide
example : BVec.ofDenseZero [5, 0, 7] 0 = .ok ⟨3, 2, [5, 0, 7], [true, false, true]⟩ := by decide

end GBTL

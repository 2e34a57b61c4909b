import Verif.Spec.Tuples
import Verif.Lemmas.Tuples
import Verif.Props.Containers
import Verif.Props.Utils
/-
C75: extracting the tuples into the caller's arrays.
-/
namespace GBTL
open Spec (VFilled MFilled Vec.count combined)

variable {α β : Type}

/-- The tuples of a vector whose arrays have its size, whatever it reports as `nvals`. -/
theorem BVec.tuples_raw {v : BVec α} (h1 : v.vals.length = v.size) (h2 : v.bitmap.length = v.size) :
    ∃ ts : Row α, v.extractTuples = .ok ts ∧ ts.Pairwise (fun p q => p.1 < q.1) ∧
      (∀ i x, (i, x) ∈ ts ↔ v.get i = some x) ∧ ts.length = Vec.count v.size v.get := by
  have := C07_vector_tuples { v with nvals := countBits v.bitmap } ⟨h1, h2, rfl⟩
  obtain ⟨ts, e, hs, hm, hl⟩ := this
  refine ⟨ts, ?_, hs, hm, by rw [hl]; exact countBits_eq_count h1 h2⟩
  rw [BVec.extractTuples, BVec.contentsLoop_eq h1 h2 _ (by simp)]
  rw [BVec.extractTuples, BVec.contentsLoop_eq (by exact h1) (by exact h2) _ (by simp)] at e
  exact e

/-- **C75**, what is written: for a vector whose arrays have its size, whatever it reports as
`nvals`, arrays with room for all stored elements are filled, and too short an array is
written past its end. -/
theorem C75_vector_writes (v : BVec α) (h1 : v.vals.length = v.size) (h2 : v.bitmap.length = v.size)
    (c : α → β) (is : List Nat) (xs : List β) :
    (Vec.count v.size v.get ≤ is.length → Vec.count v.size v.get ≤ xs.length →
      ∃ is' xs', v.tuplesInto c is xs = .ok (is', xs') ∧
        VFilled v.get c (Vec.count v.size v.get) is xs is' xs') ∧
    (is.length < Vec.count v.size v.get ∨ xs.length < Vec.count v.size v.get →
      v.tuplesInto c is xs = .error .ub) := by
  obtain ⟨ts, e, hs, hm, hl⟩ := BVec.tuples_raw h1 h2
  rw [BVec.tuplesInto_eq c e, ← hl]
  constructor
  · intro g1 g2
    rw [if_pos ⟨g1, g2⟩]
    refine ⟨_, _, rfl, ⟨put_length (by simpa using g1), put_length (by simpa using g2)⟩, ⟨g1, g2⟩, ?_, ?_, ?_, ?_⟩
    · intro k hk
      refine ⟨ts[k].1, ts[k].2, ?_, ?_, (hm _ _).1 (List.getElem_mem hk)⟩
      · rw [put_zero_getElem?, if_pos (by simpa using hk)]; simp [hk]
      · rw [put_zero_getElem?, if_pos (by simpa using hk)]; simp [hk]
    · intro i x hx
      obtain ⟨k, hk, ek⟩ := List.getElem_of_mem ((hm i x).2 hx)
      refine ⟨k, hk, ?_⟩
      rw [put_zero_getElem?, if_pos (by simpa using hk)]; simp [hk, ek]
    · intro k l i j hkl hl' hi hj
      rw [put_zero_getElem?, if_pos (by simp; omega)] at hi hj
      rw [List.getElem?_map, List.getElem?_eq_getElem (by omega)] at hi hj
      cases hi; cases hj
      exact List.pairwise_iff_getElem.1 hs k l (by omega) hl' hkl
    · intro k hk
      constructor <;> rw [put_zero_getElem?, if_neg (by simp; omega)]
  · intro h
    rw [if_neg (by omega)]

/-- **C75**, vectors: arrays of at least `nvals()` elements are filled with exactly the stored
elements, and nothing else is written. Missing from the full statement: vectors that report a
wrong `nvals()`, refuted in `C75_fill_overruns` and `C75_build_leaves_rest`. -/
theorem C75_vector_partial (v : BVec α) (hv : v.WF) (c : α → β) (is : List Nat) (xs : List β)
    (h1 : v.nvals ≤ is.length) (h2 : v.nvals ≤ xs.length) :
    ∃ is' xs', v.tuplesInto c is xs = .ok (is', xs') ∧ VFilled v.get c v.nvals is xs is' xs' := by
  have hn : v.nvals = Vec.count v.size v.get := by rw [hv.count, BVec.countBits_eq_count hv.vlen hv.blen]
  rw [hn] at h1 h2 ⊢
  exact (C75_vector_writes v hv.vlen hv.blen c is xs).1 h1 h2

example : (⟨3, 2, [5, 0, 7], [true, false, true]⟩ : BVec Nat).WF ∧
    (⟨3, 2, [5, 0, 7], [true, false, true]⟩ : BVec Nat).tuplesInto (· + 1) [9, 9, 9] [8, 8, 8] =
      .ok ([0, 2, 9], [6, 8, 8]) := ⟨⟨rfl, rfl, rfl⟩, by decide⟩

/-- **C75**, matrices: arrays of at least `nvals()` elements are filled with exactly the stored
elements, row by row, and nothing else is written. -/
theorem C75_matrix (A : Lil α) (hA : A.WF) (c : α → β) (is js : List Nat) (xs : List β)
    (h1 : A.nvals ≤ is.length) (h2 : A.nvals ≤ js.length) (h3 : A.nvals ≤ xs.length) :
    ∃ is' js' xs', A.tuplesInto c is js xs = .ok (is', js', xs') ∧
      MFilled A.get c A.nvals is js xs is' js' xs' := by
  obtain ⟨hs, hm, hl⟩ := C07_matrix_tuples A hA
  rw [Lil.tuplesInto_eq, hl, if_pos ⟨h1, h2, h3⟩]
  refine ⟨_, _, _, rfl, ⟨put_length (by simpa [hl] using h1), put_length (by simpa [hl] using h2),
    put_length (by simpa [hl] using h3)⟩, ⟨h1, h2, h3⟩, ?_, ?_, ?_, ?_⟩
  · intro k hk
    rw [← hl] at hk
    refine ⟨A.extractTuples[k].1, A.extractTuples[k].2.1, A.extractTuples[k].2.2, ?_, ?_, ?_,
      (hm _ _ _).1 (List.getElem_mem hk)⟩ <;>
    · rw [put_zero_getElem?, if_pos (by simpa using hk)]; simp [hk]
  · intro i j x hx
    obtain ⟨k, hk, ek⟩ := List.getElem_of_mem ((hm i j x).2 hx)
    refine ⟨k, by omega, ?_, ?_⟩ <;>
    · rw [put_zero_getElem?, if_pos (by simpa using hk)]; simp [hk, ek]
  · intro k l i j i' j' hkl hl' hi hj hi' hj'
    rw [← hl] at hl'
    rw [put_zero_getElem?, if_pos (by simp; omega)] at hi hj hi' hj'
    rw [List.getElem?_map, List.getElem?_eq_getElem (by omega)] at hi hj hi' hj'
    cases hi; cases hj; cases hi'; cases hj'
    exact List.pairwise_iff_getElem.1 hs k l (by omega) hl' hkl
  · intro k hk
    refine ⟨?_, ?_, ?_⟩ <;> rw [put_zero_getElem?, if_neg (by simp; omega)]

/-- **C75**, matrices: an array shorter than `nvals()` is written past its end. -/
theorem C75_matrix_short (A : Lil α) (hA : A.WF) (c : α → β) (is js : List Nat) (xs : List β)
    (h : is.length < A.nvals ∨ js.length < A.nvals ∨ xs.length < A.nvals) :
    A.tuplesInto c is js xs = .error .ub := by
  rw [Lil.tuplesInto_eq, (C07_matrix_tuples A hA).2.2, if_neg (by omega)]

example : (⟨2, 3, 3, [[(0, 5), (2, 7)], [(1, 4)]]⟩ : Lil Nat).WF ∧
    (⟨2, 3, 3, [[(0, 5), (2, 7)], [(1, 4)]]⟩ : Lil Nat).tuplesInto id [9, 9, 9, 9] [8, 8, 8] [6, 6, 6] =
      .ok ([0, 0, 1, 9], [0, 2, 1], [5, 7, 4]) ∧
    (⟨2, 3, 3, [[(0, 5), (2, 7)], [(1, 4)]]⟩ : Lil Nat).tuplesInto id [9, 9, 9, 9] [8, 8] [6, 6, 6] =
      .error .ub := by
  refine ⟨⟨⟨rfl, ?_⟩, by decide⟩, by decide, by decide⟩
  intro r hr
  have : r = [(0, 5), (2, 7)] ∨ r = [(1, 4)] := by simpa using hr
  rcases this with rfl | rfl <;> exact ⟨by simp [Row.Sorted], by decide⟩

/-! ### copying a container through arrays of `nvals()` elements -/

/-- **C75**: extracting into arrays of exactly `nvals()` elements and building a vector of the
same size from them gives an equal vector. -/
theorem C75_vector_copy_partial [Inhabited α] [DecidableEq α] (v w0 : BVec α) (hv : v.WF)
    (hw0 : w0.size = v.size) (dup : α → α → α) (is : List Nat) (xs : List α)
    (h1 : is.length = v.nvals) (h2 : xs.length = v.nvals) :
    ∃ is' xs' w, v.tuplesInto id is xs = .ok (is', xs') ∧ w0.buildArrays dup is' xs' = (.ok (), w) ∧
      w.WF ∧ w.eq v = .ok true := by
  obtain ⟨ts, w, e, hb, hw, hq⟩ := C07_vector_round_trip v w0 hv hw0 dup
  obtain ⟨ts', e', -, -, hl⟩ := C07_vector_tuples v hv
  rw [e] at e'; cases e'
  rw [BVec.tuplesInto_eq id e, if_pos (by omega)]
  refine ⟨_, _, w, rfl, ?_, hw, hq⟩
  rw [put_zero_full (by simp; omega), put_zero_full (by simp; omega), BVec.buildArrays, if_neg (by simp), List.zip_map']
  simpa using hb

/-- **C75**: the same for matrices. -/
theorem C75_matrix_copy [DecidableEq α] (A : Lil α) (hA : A.WF) (dup : α → α → α) (is js : List Nat)
    (xs : List α) (h1 : is.length = A.nvals) (h2 : js.length = A.nvals) (h3 : xs.length = A.nvals) :
    ∃ is' js' xs' B, A.tuplesInto id is js xs = .ok (is', js', xs') ∧
      (Lil.new A.nrows A.ncols : Lil α).buildArrays dup is' js' xs' = (.ok (), B) ∧ B.WF ∧ B.eq A = true := by
  obtain ⟨B, hb, hB, hq⟩ := C07_matrix_round_trip A hA dup
  have hl := (C07_matrix_tuples A hA).2.2
  rw [Lil.tuplesInto_eq, if_pos (by omega)]
  refine ⟨_, _, _, B, rfl, ?_, hB, hq⟩
  rw [put_zero_full (by simp; omega), put_zero_full (by simp; omega), put_zero_full (by simp; omega), Lil.buildArrays,
    if_neg (by simp), List.zip_map', List.zip_map']
  simpa using hb

example : (⟨3, 2, [5, 0, 7], [true, false, true]⟩ : BVec Nat).tuplesInto id [9, 9] [8, 8] = .ok ([0, 2], [5, 7]) ∧
    (⟨3, 1, [1, 1, 1], [false, true, false]⟩ : BVec Nat).buildArrays (fun _ y => y) [0, 2] [5, 7] =
      (.ok (), ⟨3, 2, [5, 0, 7], [true, false, true]⟩) := by decide

/-! ### vectors that report a wrong `nvals()` -/

/-- **C75** refuted for `Vector(n, value)`: it reports no stored elements, so extracting into
arrays of `nvals()` elements writes past their end, for every positive `n`. -/
theorem C75_fill_overruns (n : Nat) (hn : n ≠ 0) (x : α) (c : α → β) :
    ∃ v, BVec.newFill n x = .ok v ∧ v.nvals = 0 ∧
      ∀ is xs, is.length = v.nvals → xs.length = v.nvals → v.tuplesInto c is xs = .error .ub := by
  obtain ⟨v, e, hs, hg⟩ := C42_vector_fill_partial n x
  have h0 : v.nvals = 0 := by cases e; rfl
  have h1 : v.vals.length = v.size := by cases e; simp
  have h2 : v.bitmap.length = v.size := by cases e; simp
  refine ⟨v, e, h0, fun is xs l1 l2 => (C75_vector_writes v h1 h2 c is xs).2 (.inl ?_)⟩
  have : Vec.count v.size v.get = n := by
    rw [Vec.count, List.filter_eq_self.2, List.length_range, hs]
    intro i hi
    rw [hg, if_pos (by rw [← hs]; simpa using hi)]
    rfl
  omega

theorem length_lt_of_repeat {m l : List Nat} (hd : ¬ m.Nodup) (hl : l.Nodup) (hs : l ⊆ m) : l.length < m.length := by
  obtain ⟨m', h1, h2⟩ : ∃ m' : List Nat, m ⊆ m' ∧ m'.length < m.length := by
    clear hs
    induction m with
    | nil => exact absurd List.nodup_nil hd
    | cons a m ih =>
      by_cases ha : a ∈ m
      · exact ⟨m, by simp [ha], by simp⟩
      · obtain ⟨m', h1, h2⟩ := ih fun h => hd (List.nodup_cons.2 ⟨ha, h⟩)
        exact ⟨a :: m', by simpa using h1.trans (by simp), by simpa using h2⟩
  exact Nat.lt_of_le_of_lt (hl.length_le_of_subset (hs.trans h1)) h2

/-- **C75** refuted for `build` with a repeated index: it reports as many elements as there are
tuples, and of the arrays of `nvals()` elements the places behind the stored elements keep
what the caller had there. -/
theorem C75_build_leaves_rest [Inhabited α] (v : BVec α) (dup : α → α → α) (ts : List (Nat × α))
    (h : ∀ t ∈ ts, t.1 < v.size) (hd : ¬ (ts.map Prod.fst).Nodup) (c : α → β) :
    ∃ w, v.build dup ts = (.ok (), w) ∧ Vec.count w.size w.get < w.nvals ∧
      ∀ is xs, is.length = w.nvals → xs.length = w.nvals →
        ∃ is' xs', w.tuplesInto c is xs = .ok (is', xs') ∧
          ∀ k, Vec.count w.size w.get ≤ k → is'[k]? = is[k]? ∧ xs'[k]? = xs[k]? := by
  obtain ⟨w, e, hs, l1, l2, hn, hg⟩ := BVec.build_spec v dup ts h
  have hlt : Vec.count w.size w.get < w.nvals := by
    rw [hn, Vec.count]
    have hsub : ((List.range w.size).filter fun i => (w.get i).isSome) ⊆ ts.map Prod.fst := by
      intro i hi
      rw [List.mem_filter, hg] at hi
      refine Classical.byContradiction fun hni => ?_
      have : ts.filter (fun t => t.1 = i) = [] := by
        rw [List.filter_eq_nil_iff]
        intro t ht e
        exact hni (List.mem_map.2 ⟨t, ht, by simpa using e⟩)
      rw [combined, this] at hi
      simp at hi
    have := length_lt_of_repeat hd (List.Pairwise.filter _ List.nodup_range) hsub
    rwa [List.length_map] at this
  refine ⟨w, e, hlt, fun is xs g1 g2 => ?_⟩
  obtain ⟨is', xs', e', hf⟩ := (C75_vector_writes w l1 l2 c is xs).1 (by omega) (by omega)
  exact ⟨is', xs', e', hf.rest⟩

example : (∀ t ∈ [(2, 5), (0, 1), (2, 6)], t.1 < (⟨3, 0, [0, 0, 0], [false, false, false]⟩ : BVec Nat).size) ∧
    ¬ ([(2, 5), (0, 1), (2, 6)].map (Prod.fst : Nat × Nat → Nat)).Nodup ∧
    (⟨3, 3, [1, 0, 11], [true, false, true]⟩ : BVec Nat).tuplesInto id [9, 9, 9] [8, 8, 8] =
      .ok ([0, 2, 9], [1, 11, 8]) := by decide

/-- What this does to a library function: `diag` of such a vector stores an element that the
vector does not have. -/
theorem C75_diag_of_build_wrong :
    ∃ (v w : BVec Int) (D : Lil Int), v.build (fun _ y => y) [(2, 5), (2, 6)] = (.ok (), w) ∧
      w.get 0 = none ∧ diag id w = .ok D ∧ D.get 0 0 = some 0 ∧ D.get 2 2 = some 6 :=
  ⟨⟨3, 0, [0, 0, 0], [false, false, false]⟩, ⟨3, 2, [0, 0, 6], [false, false, true]⟩,
    ⟨3, 3, 2, [[(0, 0)], [], [(2, 6)]]⟩, by decide +kernel⟩

end GBTL

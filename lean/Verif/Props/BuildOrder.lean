import Verif.Props.Containers
import Verif.Lemmas.Laws
import Verif.Lemmas.OptDispatch
/-
C106: the order and the batches in which the elements of a container are given.
-/
namespace GBTL
open Spec (Outp combined combinedFrom)

variable {α : Type} {m n : Nat} {dup : α → α → α} {o1 : Outp}

theorem combinedFrom_perm {ι : Type} [DecidableEq ι] (ha : ∀ x y z, dup (dup x y) z = dup x (dup y z))
    (hc : ∀ x y, dup x y = dup y x) {ts ts' : List (ι × α)} (h : ts.Perm ts') (old : Option α) (i : ι) :
    combinedFrom dup old ts i = combinedFrom dup old ts' i := by
  induction h generalizing old with
  | nil => rfl
  | cons t _ ih => obtain ⟨k, x⟩ := t; rw [combinedFrom_cons, combinedFrom_cons, ih, ih]
  | swap t t' l =>
    obtain ⟨k, x⟩ := t
    obtain ⟨k', x'⟩ := t'
    simp only [combinedFrom_cons]
    by_cases h1 : k = i <;> by_cases h2 : k' = i <;> simp only [h1, h2, if_true, if_false]
    congr 1
    cases old with
    | none => exact congrArg some (hc _ _)
    | some y => exact congrArg some ((ha _ _ _).trans ((congrArg _ (hc _ _)).trans (ha _ _ _).symm))
  | trans _ _ ih1 ih2 => exact (ih1 old).trans (ih2 old)

theorem combinedFrom_append {ι : Type} [DecidableEq ι] (ts ts' : List (ι × α)) (old : Option α) (i : ι) :
    combinedFrom dup old (ts ++ ts') i = combinedFrom dup (combinedFrom dup old ts i) ts' i := by
  induction ts generalizing old with
  | nil => rw [List.nil_append, combinedFrom_nil]
  | cons t ts ih =>
    obtain ⟨k, x⟩ := t
    rw [List.cons_append, combinedFrom_cons, combinedFrom_cons, ih, ih]
    split <;> rfl

/-- **C106** With an associative and commutative `dup` the order of the tuples does not matter. -/
theorem C106_matrix_any_order (ha : ∀ x y z, dup (dup x y) z = dup x (dup y z)) (hc : ∀ x y, dup x y = dup y x) {A : Lil α}
    (hA : A.WF) {ts ts' : List (Nat × Nat × α)} (h : ts.Perm ts') (hr : ∀ t ∈ ts, t.1 < A.nrows ∧ t.2.1 < A.ncols) :
    ∃ B, A.build dup ts = (.ok (), B) ∧ A.build dup ts' = (.ok (), B) := by
  obtain ⟨B, e, h1, h2, h3, h4, -⟩ := C04_matrix_build A hA dup ts hr
  obtain ⟨B', e', h1', h2', h3', h4', -⟩ := C04_matrix_build A hA dup ts' fun t ht => hr t (h.mem_iff.mpr ht)
  have : B = B' := Lil.ext_get h1 h1' (h2.trans h2'.symm) (h3.trans h3'.symm) fun i j _ _ => by
    rw [h4, h4', combinedFrom_perm ha hc (h.map _)]
  exact ⟨B, e, this ▸ e'⟩

/-- **C106** With any `dup`, only the order of the tuples with the same coordinates matters. -/
theorem C106_matrix_same_order {A : Lil α} (hA : A.WF) {ts ts' : List (Nat × Nat × α)}
    (h : ∀ i j, ts.filter (fun t => t.1 = i ∧ t.2.1 = j) = ts'.filter fun t => t.1 = i ∧ t.2.1 = j)
    (hr : ∀ t ∈ ts, t.1 < A.nrows ∧ t.2.1 < A.ncols) :
    ∃ B, A.build dup ts = (.ok (), B) ∧ A.build dup ts' = (.ok (), B) := by
  obtain ⟨B, e, h1, h2, h3, h4, -⟩ := C04_matrix_build A hA dup ts hr
  obtain ⟨B', e', h1', h2', h3', h4', -⟩ := C04_matrix_build A hA dup ts' fun t ht => by
    have : t ∈ ts'.filter fun s => s.1 = t.1 ∧ s.2.1 = t.2.1 := by simp [ht]
    rw [← h] at this
    exact hr t (List.mem_filter.mp this).1
  have key : ∀ l : List (Nat × Nat × α), ∀ i j, ((l.map fun t => ((t.1, t.2.1), t.2.2)).filter fun t => t.1 = (i, j)).map Prod.snd
      = (l.filter fun t => t.1 = i ∧ t.2.1 = j).map fun t => t.2.2 := fun l i j => by
    rw [List.filter_map, List.map_map]
    simp only [Function.comp_def, Prod.mk.injEq]
  have : B = B' := Lil.ext_get h1 h1' (h2.trans h2'.symm) (h3.trans h3'.symm) fun i j _ _ => by
    rw [h4, h4']
    simp only [combinedFrom, combined, key, h i j]
  exact ⟨B, e, this ▸ e'⟩

/-- **C106** A matrix can be built in batches. -/
theorem C106_matrix_batches {A : Lil α} (hA : A.WF) {ts ts' : List (Nat × Nat × α)}
    (hr : ∀ t ∈ ts ++ ts', t.1 < A.nrows ∧ t.2.1 < A.ncols) :
    ∃ B C, A.build dup ts = (.ok (), B) ∧ B.build dup ts' = (.ok (), C) ∧ A.build dup (ts ++ ts') = (.ok (), C) := by
  obtain ⟨B, e, h1, h2, h3, h4, -⟩ := C04_matrix_build A hA dup ts fun t ht => hr t (List.mem_append_left _ ht)
  obtain ⟨C, e', h1', h2', h3', h4', -⟩ := C04_matrix_build B h1 dup ts' fun t ht => by
    rw [h2, h3]; exact hr t (List.mem_append_right _ ht)
  obtain ⟨D, e'', h1'', h2'', h3'', h4'', -⟩ := C04_matrix_build A hA dup (ts ++ ts') hr
  have : C = D := Lil.ext_get h1' h1'' (by omega) (by omega) fun i j _ _ => by
    rw [h4', h4, h4'', List.map_append, combinedFrom_append]
  exact ⟨B, C, e, e', this ▸ e''⟩

theorem combinedFrom_oadd {ι : Type} [DecidableEq ι] (ha : ∀ x y z, dup (dup x y) z = dup x (dup y z)) (ts : List (ι × α))
    (old : Option α) (i : ι) : combinedFrom dup old ts i = oadd dup old (combinedFrom dup none ts i) := by
  induction ts generalizing old with
  | nil => rw [combinedFrom_nil, combinedFrom_nil, oadd_none]
  | cons t ts ih =>
    obtain ⟨k, x⟩ := t
    rw [combinedFrom_cons, combinedFrom_cons]
    split
    · rw [ih, ih (Spec.mergeInto dup none x), ← oadd_assoc ha]
      cases old <;> rfl
    · exact ih old

/-- **C106** Batches built into matrices of their own are put together by `eWiseAdd`. -/
theorem C106_matrix_union (ha : ∀ x y z, dup (dup x y) z = dup x (dup y z)) {ts ts' : List (Nat × Nat × α)} {D : Lil α}
    (hD : D.Of m n) (hr : ∀ t ∈ ts ++ ts', t.1 < m ∧ t.2.1 < n) :
    ∃ A B C, (Lil.new m n).build dup ts = (.ok (), A) ∧ (Lil.new m n).build dup ts' = (.ok (), B) ∧
      D.into o1 (.eWiseAdd (EW.of dup) (.plain A) (.plain B)) = .done C ∧ (Lil.new m n).build dup (ts ++ ts') = (.ok (), C) := by
  obtain ⟨A, e, h1, h2, h3, h4, -⟩ := C04_matrix_build (Lil.new m n) (Lil.new_wf m n) dup ts fun t ht => hr t (List.mem_append_left _ ht)
  obtain ⟨B, e', h1', h2', h3', h4', -⟩ := C04_matrix_build (Lil.new m n) (Lil.new_wf m n) dup ts' fun t ht => hr t (List.mem_append_right _ ht)
  obtain ⟨C, e'', h1'', h2'', h3'', h4'', -⟩ := C04_matrix_build (Lil.new m n) (Lil.new_wf m n) dup (ts ++ ts') hr
  obtain ⟨X, e3, i3⟩ := into_eWiseAdd (outp := o1) (add := dup) hD (Lil.Of.plain (X := A) ⟨h1, h2, h3⟩) (Lil.Of.plain (X := B) ⟨h1', h2', h3'⟩)
  have : X = C := i3.unique (Y := C) (g := C.get) ⟨⟨h1'', h2'', h3''⟩, fun _ _ _ _ => rfl⟩ fun i j _ _ => by
    show oadd dup (A.get i j) (B.get i j) = C.get i j
    rw [h4, h4', h4'', List.map_append, combinedFrom_append, Lil.get_new, ← combinedFrom_oadd ha]
  exact ⟨A, B, C, e, e', this ▸ e3, e''⟩

theorem combinedFrom_swap (ts : List (Nat × Nat × α)) (old : Option α) (i j : Nat) :
    combinedFrom dup old ((ts.map fun t => (t.2.1, t.1, t.2.2)).map fun t => ((t.1, t.2.1), t.2.2)) (j, i) =
      combinedFrom dup old (ts.map fun t => ((t.1, t.2.1), t.2.2)) (i, j) := by
  induction ts generalizing old with
  | nil => simp only [List.map_nil, combinedFrom_nil]
  | cons t ts ih =>
    simp only [List.map_cons, combinedFrom_cons, ih, Prod.mk.injEq, and_comm (a := t.2.1 = j)]

/-- **C106** Exchanging the coordinates of every tuple transposes the matrix. -/
theorem C106_matrix_swapped {ts : List (Nat × Nat × α)} {D : Lil α} (hD : D.Of n m) (hr : ∀ t ∈ ts, t.1 < m ∧ t.2.1 < n) :
    ∃ A C, (Lil.new m n).build dup ts = (.ok (), A) ∧ D.into o1 (.transpose (.plain A)) = .done C ∧
      (Lil.new n m).build dup (ts.map fun t => (t.2.1, t.1, t.2.2)) = (.ok (), C) := by
  obtain ⟨A, e, h1, h2, h3, h4, -⟩ := C04_matrix_build (Lil.new m n) (Lil.new_wf m n) dup ts hr
  obtain ⟨C, e'', h1'', h2'', h3'', h4'', -⟩ := C04_matrix_build (Lil.new n m) (Lil.new_wf n m) dup (ts.map fun t => (t.2.1, t.1, t.2.2))
    fun t ht => by
      obtain ⟨s, hs, rfl⟩ := List.mem_map.mp ht
      exact (hr s hs).symm
  obtain ⟨X, e3, i3⟩ := into_transpose (outp := o1) hD (Lil.Of.plain (X := A) ⟨h1, h2, h3⟩)
  have : X = C := i3.unique (Y := C) (g := C.get) ⟨⟨h1'', h2'', h3''⟩, fun _ _ _ _ => rfl⟩ fun i j _ _ => by
    show A.get j i = C.get i j
    rw [h4, h4'', combinedFrom_swap, Lil.get_new, Lil.get_new]
  exact ⟨A, C, e, this ▸ e3, e''⟩

/-- **C106** The same for vectors: neither what is stored nor the number of elements the vector reports depends on the order. -/
theorem C106_vector_any_order [Inhabited α] (ha : ∀ x y z, dup (dup x y) z = dup x (dup y z)) (hc : ∀ x y, dup x y = dup y x)
    (v : BVec α) {ts ts' : List (Nat × α)} (h : ts.Perm ts') (hr : ∀ t ∈ ts, t.1 < v.size) :
    ∃ w w', v.build dup ts = (.ok (), w) ∧ v.build dup ts' = (.ok (), w') ∧ w.Same w' ∧ w.nvals = w'.nvals := by
  obtain ⟨w, e, h1, h2, h3, -⟩ := C03_vector_build_partial v dup ts hr
  obtain ⟨w', e', h1', h2', h3', -⟩ := C03_vector_build_partial v dup ts' fun t ht => hr t (h.mem_iff.mpr ht)
  exact ⟨w, w', e, e', ⟨h1.trans h1'.symm, fun i => by rw [h2, h2']; exact combinedFrom_perm ha hc h none i⟩,
    by rw [h3, h3', h.length_eq]⟩

/-- **C106** A vector, unlike a matrix, is not built in batches: the second `build` discards the first. -/
theorem C106_vector_rebuilt [Inhabited α] (v : BVec α) {ts ts' : List (Nat × α)} (hr : ∀ t ∈ ts ++ ts', t.1 < v.size) :
    ∃ w x y, v.build dup ts = (.ok (), w) ∧ w.build dup ts' = (.ok (), x) ∧ v.build dup ts' = (.ok (), y) ∧ x.Same y ∧
      x.nvals = y.nvals := by
  obtain ⟨w, e, h1, h2, h3, -⟩ := C03_vector_build_partial v dup ts fun t ht => hr t (List.mem_append_left _ ht)
  obtain ⟨x, e', h1', h2', h3', -⟩ := C03_vector_build_partial w dup ts' fun t ht => by rw [h1]; exact hr t (List.mem_append_right _ ht)
  obtain ⟨y, e'', h1'', h2'', h3'', -⟩ := C03_vector_build_partial v dup ts' fun t ht => hr t (List.mem_append_right _ ht)
  exact ⟨w, x, y, e, e', e'', ⟨by omega, fun i => by rw [h2', h2'']⟩, by rw [h3', h3'']⟩

/-! ### Concrete cases -/

example : let ts : List (Nat × Nat × Int) := [(0, 1, 5), (1, 0, 2), (0, 1, 7)]
    let A : Lil Int := ⟨2, 2, 2, [[(1, 12)], [(0, 2)]]⟩
    ts.Perm [(0, 1, 7), (0, 1, 5), (1, 0, 2)] ∧ (Lil.new 2 2).build (· + ·) ts = (.ok (), A) ∧
    (Lil.new 2 2).build (· + ·) [(0, 1, 7), (0, 1, 5), (1, 0, 2)] = (.ok (), A) ∧
    ((Lil.new 2 2).build (· + ·) [(0, 1, 5)]).2.build (· + ·) [(1, 0, 2), (0, 1, 7)] = (.ok (), A) ∧
    (Lil.new 2 2).build (· + ·) (ts.map fun t => (t.2.1, t.1, t.2.2)) = (.ok (), ⟨2, 2, 2, [[(1, 2)], [(0, 12)]]⟩) ∧
    (Lil.new 2 2).build (· - ·) ts = (.ok (), ⟨2, 2, 2, [[(1, -2)], [(0, 2)]]⟩) ∧
    (Lil.new 2 2).build (· - ·) [(1, 0, 2), (0, 1, 5), (0, 1, 7)] = (.ok (), ⟨2, 2, 2, [[(1, -2)], [(0, 2)]]⟩) := by
  decide +kernel

/-- Subtraction does depend on the order of the tuples with the same coordinates. -/
example : (Lil.new 1 1 : Lil Int).build (· - ·) [(0, 0, 5), (0, 0, 7)] ≠ (Lil.new 1 1).build (· - ·) [(0, 0, 7), (0, 0, 5)] := by
  decide +kernel

end GBTL

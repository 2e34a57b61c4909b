import Verif.Lemmas.Print
import Verif.Props.Containers
/-
C76: what printing a container writes.
-/
namespace GBTL
open Spec (cell Readable vectorText matrixText matrixLine decimal Vec.count Mat.count)

variable {α : Type}

/-! ### the text -/

theorem vprintHead_eq (ty : List Char) (v : BVec α) : v.printHead ty = Spec.vectorHead ty v.size v.nvals := by
  unfold BVec.printHead Spec.vectorHead showIdx
  simp only [← List.append_assoc, ← String.toList_append]
  rfl

theorem mprintHead_eq (ty : List Char) (A : Lil α) : A.printHead ty = Spec.matrixHead ty A.nrows A.ncols A.nvals := by
  unfold Lil.printHead Spec.matrixHead showIdx
  simp only [← List.append_assoc, ← String.toList_append]
  rfl

/-- **C76**, vectors: the text says the size, the number of stored elements and, in order, what
is at each position. Missing from the full statement: the vector of size 0
(`C76_empty_vector_undefined`). -/
theorem C76_vector_text_partial (ty : List Char) (sh : α → List Char) (v : BVec α) (hv : v.WF) (hs : v.size ≠ 0) :
    v.printInfo ty sh = .ok (vectorText ty sh v.size (Vec.count v.size v.get) v.get) := by
  have hn : v.nvals = Vec.count v.size v.get := by rw [hv.count, BVec.countBits_eq_count hv.vlen hv.blen]
  rw [BVec.printInfo, BVec.printFirst_eq sh hv.vlen hv.blen (by omega), Except.bind_ok',
    BVec.printLoop_eq sh hv.vlen hv.blen _ (by intro i hi; rw [List.mem_range'_1] at hi; omega), Except.bind_ok',
    vectorText, range_pos (n := v.size) (by omega), List.map_cons, intercalate_cons, ← hn, List.map_map]
  rw [vprintHead_eq]
  simp only [List.append_assoc, Function.comp_def]

/-- **C76**, matrices: the text says the shape, the number of stored elements and, row by row,
what is at each position. (No matrix without rows or columns can be constructed, C42.) -/
theorem C76_matrix_text (ty : List Char) (sh : α → List Char) (A : Lil α) (hA : A.WF) (hm : A.nrows ≠ 0) (hn : A.ncols ≠ 0) :
    A.printInfo ty sh = .ok (matrixText ty sh A.nrows A.ncols (Mat.count A.nrows A.ncols A.get) A.get) := by
  have hc : A.nvals = Mat.count A.nrows A.ncols A.get := hA.nvals_eq
  rw [Lil.printInfo, List.range_eq_range', Lil.printLoop_eq sh hA.toWFr (by omega) _ _ (by omega) (by omega), Except.bind_ok',
    matrixText, ← hc, List.range_eq_range']
  rw [mprintHead_eq]

example : (⟨3, 2, [5, 0, -7], [true, false, true]⟩ : BVec Int).printInfo "i".toList decimal =
    .ok "grb::Vector: Sequential Backend: backend::BitmapSparseVector<i>, size  = 3, nvals = 2\n[5, -, -7]".toList := by
  decide +kernel

example : (⟨2, 3, 3, [[(1, 5), (2, 7)], [(0, -4)]]⟩ : Lil Int).printInfo "i".toList decimal =
    .ok ("grb::Matrix: Sequential Backend: backend::LilSparseMatrix<i> (2 x 3), nvals = 3\n" ++
      "  [[ , 5, 7]\n   [-4,  ,  ]]").toList := by
  decide +kernel

/-! ### what can be read off the text -/

theorem digits_readable (d : List Char) (hd : ∀ n, Nat.toDigits 10 n ≠ d) : Readable (Nat.toDigits 10) d where
  inj x y h := by
    have := congrArg (fun l => Nat.ofDigitChars 10 l 0) h
    simpa [Nat.ofDigitChars_ten_toDigits] using this
  comma x h := absurd (Nat.isDigit_of_mem_toDigits (by decide) (by decide) h) (by decide)
  line x h := absurd (Nat.isDigit_of_mem_toDigits (by decide) (by decide) h) (by decide)
  not_none := hd

theorem digits_not {n : Nat} {c : Char} (h : c.isDigit = false) : c ∉ Nat.toDigits 10 n := fun h' => by
  rw [Nat.isDigit_of_mem_toDigits (by decide) (by decide) h'] at h; cases h

/-- Decimal integers can be told apart from each other, from `-` and from a blank. -/
theorem C76_decimal_readable : Readable decimal ['-'] ∧ Readable decimal [' '] := by
  have neg : ∀ n, '-' ∉ Nat.toDigits 10 n := fun n => digits_not rfl
  have inj : ∀ x y, decimal x = decimal y → x = y := by
    intro x y h
    have di := (digits_readable ['-'] (fun n e => neg n (by rw [e]; simp))).inj
    unfold decimal at h
    split at h <;> split at h
    · have := di _ _ (List.cons.inj h).2; omega
    · exact absurd (by rw [← h]; simp) (neg y.natAbs)
    · exact absurd (by rw [h]; simp) (neg x.natAbs)
    · have := di _ _ h; omega
  have mem : ∀ x c, c ≠ '-' → c.isDigit = false → c ∉ decimal x := by
    intro x c h1 h2
    unfold decimal
    split
    · simp [h1, digits_not h2]
    · exact digits_not h2
  refine ⟨⟨inj, fun x => mem x _ (by decide) rfl, fun x => mem x _ (by decide) rfl, fun x h => ?_⟩,
    ⟨inj, fun x => mem x _ (by decide) rfl, fun x => mem x _ (by decide) rfl, fun x h => ?_⟩⟩
  · unfold decimal at h
    split at h
    · exact Nat.toDigits_ne_nil (List.cons.inj h).2
    · exact neg _ (by rw [h]; simp)
  · exact mem x ' ' (by decide) rfl (by rw [h]; simp)

theorem vectorHead_line {ty : List Char} (h : '\n' ∉ ty) {n k : Nat} : '\n' ∉ Spec.vectorHead ty n k := by
  unfold Spec.vectorHead
  simp only [List.mem_append, not_or]
  exact ⟨⟨⟨⟨⟨by decide +kernel, h⟩, by decide +kernel⟩, digits_not rfl⟩, by decide +kernel⟩, digits_not rfl⟩

theorem matrixHead_line {ty : List Char} (h : '\n' ∉ ty) {m n k : Nat} : '\n' ∉ Spec.matrixHead ty m n k := by
  unfold Spec.matrixHead
  simp only [List.mem_append, not_or]
  exact ⟨⟨⟨⟨⟨⟨⟨by decide +kernel, h⟩, by decide +kernel⟩, digits_not rfl⟩, by decide +kernel⟩, digits_not rfl⟩,
    by decide +kernel⟩, digits_not rfl⟩

theorem matrixLine_line {sh : α → List Char} (hsh : Readable sh [' ']) {m n : Nat} {f : Nat → Nat → Option α} {i : Nat} :
    '\n' ∉ matrixLine sh m n f i := by
  unfold matrixLine
  simp only [List.mem_append, not_or]
  refine ⟨⟨by split <;> decide, ?_⟩, by split <;> decide⟩
  have hc : ∀ x : Option α, '\n' ∉ cell sh [' '] x := by
    intro x
    cases x with
    | none => show '\n' ∉ [' ']; decide
    | some x => exact hsh.line x
  rcases Nat.eq_zero_or_pos n with rfl | hn
  · exact List.not_mem_nil
  · rw [← Lil.sepCells sh (f i) hn, List.mem_flatten]
    rintro ⟨l, hl, h⟩
    obtain ⟨j, -, rfl⟩ := List.mem_map.1 hl
    rw [Lil.sepCell, List.mem_append] at h
    rcases h with h | h
    · revert h; split <;> decide
    · exact hc _ h

theorem matrixLine_inj {sh : α → List Char} (hsh : Readable sh [' ']) {m n n' : Nat} (hn : 0 < n) (hn' : 0 < n')
    {f g : Nat → Nat → Option α} {i : Nat} (e : matrixLine sh m n f i = matrixLine sh m n' g i) :
    n = n' ∧ ∀ j, j < n → f i j = g i j := by
  unfold matrixLine at e
  exact cells_inj hsh (by decide) hn hn' (List.append_cancel_left (List.append_cancel_right e))

/-- **C76**, vectors: with an output of values that can be told apart, two vectors that print
the same have the same size and the same elements. Missing from the full statement: the vector
of size 0, and types printed as characters (`C76_characters_ambiguous`). -/
theorem C76_vector_determined_partial (ty : List Char) (hty : '\n' ∉ ty) (sh : α → List Char) (hsh : Readable sh ['-'])
    (v w : BVec α) (hv : v.WF) (hw : w.WF) (h1 : v.size ≠ 0) (h2 : w.size ≠ 0)
    (e : v.printInfo ty sh = w.printInfo ty sh) : v.size = w.size ∧ ∀ i, v.get i = w.get i := by
  rw [C76_vector_text_partial ty sh v hv h1, C76_vector_text_partial ty sh w hw h2] at e
  replace e := Except.ok.inj e
  unfold vectorText at e
  rw [List.append_assoc (Spec.vectorHead ..), List.append_assoc (Spec.vectorHead ..)] at e
  obtain ⟨-, e⟩ := split_at (c := '\n') (vectorHead_line hty) (vectorHead_line hty) e
  obtain ⟨h, hg⟩ := cells_inj hsh (by decide) (by omega) (by omega) (List.append_cancel_left (List.append_cancel_right e))
  refine ⟨h, fun i => ?_⟩
  rcases Nat.lt_or_ge i v.size with hi | hi
  · exact hg i hi
  · rw [hv.get_none hi, hw.get_none (by omega)]

/-- The text of a matrix gives its shape and its elements. -/
theorem matrixText_inj {ty : List Char} (hty : '\n' ∉ ty) {sh : α → List Char} (hsh : Readable sh [' '])
    {m n m' n' k k' : Nat} {f g : Nat → Nat → Option α} (hm : 0 < m) (hn : 0 < n) (hm' : 0 < m') (hn' : 0 < n')
    (e : matrixText ty sh m n k f = matrixText ty sh m' n' k' g) :
    m = m' ∧ n = n' ∧ ∀ i j, i < m → j < n → f i j = g i j := by
  unfold matrixText at e
  rw [List.append_assoc, List.append_assoc] at e
  obtain ⟨-, e⟩ := split_at (c := '\n') (matrixHead_line hty) (matrixHead_line hty) e
  have ne : ∀ m : Nat, ∀ F : Nat → List Char, 0 < m → (List.range m).map F ≠ [] := by
    intro m F h h'
    have := congrArg List.length h'
    rw [List.length_map, List.length_range, List.length_nil] at this
    omega
  have el := intercalate_inj (ne _ _ hm) (ne _ _ hm')
    (fun a ha => by obtain ⟨i, -, rfl⟩ := List.mem_map.1 ha; exact matrixLine_line hsh)
    (fun a ha => by obtain ⟨i, -, rfl⟩ := List.mem_map.1 ha; exact matrixLine_line hsh) e
  clear e
  have hr : m = m' := by
    have := congrArg List.length el
    rwa [List.length_map, List.length_map, List.length_range, List.length_range] at this
  subst hr
  have hl : ∀ i, i < m → n = n' ∧ ∀ j, j < n → f i j = g i j := by
    intro i hi
    have := congrArg (fun l => l[i]?) el
    simp only [List.getElem?_map, List.getElem?_range hi, Option.map_some] at this
    exact matrixLine_inj hsh hn hn' (Option.some.inj this)
  exact ⟨rfl, (hl 0 hm).1, fun i j hi hj => (hl i hi).2 j hj⟩

/-- **C76**, matrices: with an output of values that can be told apart, two matrices that print
the same have the same shape and the same elements. Missing from the full statement: types
printed as characters (`C76_characters_ambiguous`). -/
theorem C76_matrix_determined_partial (ty : List Char) (hty : '\n' ∉ ty) (sh : α → List Char) (hsh : Readable sh [' '])
    (A B : Lil α) (hA : A.WF) (hB : B.WF) (h1 : A.nrows ≠ 0) (h2 : A.ncols ≠ 0) (h3 : B.nrows ≠ 0) (h4 : B.ncols ≠ 0)
    (e : A.printInfo ty sh = B.printInfo ty sh) :
    A.nrows = B.nrows ∧ A.ncols = B.ncols ∧ ∀ i j, A.get i j = B.get i j := by
  rw [C76_matrix_text ty sh A hA h1 h2, C76_matrix_text ty sh B hB h3 h4] at e
  obtain ⟨hr, hc, hg⟩ := matrixText_inj hty hsh (by omega) (by omega) (by omega) (by omega) (Except.ok.inj e)
  refine ⟨hr, hc, fun i j => ?_⟩
  rcases Nat.lt_or_ge i A.nrows with hi | hi
  · rcases Nat.lt_or_ge j A.ncols with hj | hj
    · exact hg i j hi hj
    · rw [hA.toWFr.get_none (.inr hj), hB.toWFr.get_none (.inr (by omega))]
  · rw [hA.toWFr.get_none (.inl hi), hB.toWFr.get_none (.inl (by omega))]

example : (⟨2, 1, [5, 0], [true, false]⟩ : BVec Int).printInfo "i".toList decimal ≠
    (⟨2, 1, [0, 5], [false, true]⟩ : BVec Int).printInfo "i".toList decimal := by decide +kernel

/-! ### element types that are printed as characters -/

/-- **C76** refuted for `int8_t` and `uint8_t`, which a stream writes as the character with that
code: a stored 45 looks like a position without an element in a vector, a stored 32 in a
matrix, and two different contents with as many elements print the same. -/
theorem C76_characters_ambiguous :
    (∃ v w : BVec Nat, v.WF ∧ w.WF ∧ v.size = w.size ∧ (∃ i, v.get i ≠ w.get i) ∧
      v.printInfo "h".toList (fun x => [Char.ofNat x]) = w.printInfo "h".toList (fun x => [Char.ofNat x])) ∧
    (∃ A B : Lil Nat, A.WF ∧ B.WF ∧ A.nrows = B.nrows ∧ A.ncols = B.ncols ∧ (∃ i j, A.get i j ≠ B.get i j) ∧
      A.printInfo "h".toList (fun x => [Char.ofNat x]) = B.printInfo "h".toList (fun x => [Char.ofNat x])) := by
  refine ⟨⟨⟨2, 1, [45, 0], [true, false]⟩, ⟨2, 1, [0, 45], [false, true]⟩, ⟨rfl, rfl, rfl⟩, ⟨rfl, rfl, rfl⟩, rfl,
    ⟨0, by decide⟩, by decide +kernel⟩, ⟨1, 2, 1, [[(0, 32)]]⟩, ⟨1, 2, 1, [[(1, 32)]]⟩, ⟨⟨rfl, ?_⟩, by decide⟩,
    ⟨⟨rfl, ?_⟩, by decide⟩, rfl, rfl, ⟨0, 0, by decide⟩, by decide +kernel⟩
  · intro r hr
    rw [List.mem_singleton] at hr
    subst hr
    exact ⟨by simp [Row.Sorted], by decide⟩
  · intro r hr
    rw [List.mem_singleton] at hr
    subst hr
    exact ⟨by simp [Row.Sorted], by decide⟩

/-! ### the vector of size 0 -/

/-- **C76** refuted for `Vector(0, value)`, which can be constructed: printing it reads the bit
of a position it does not have. -/
theorem C76_empty_vector_undefined (x : α) (ty : List Char) (sh : α → List Char) :
    ∃ v, BVec.newFill 0 x = .ok v ∧ v.WF ∧ v.printInfo ty sh = .error .ub :=
  ⟨_, rfl, ⟨rfl, rfl, rfl⟩, rfl⟩

end GBTL

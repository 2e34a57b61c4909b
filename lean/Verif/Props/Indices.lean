import Verif.Model.Indices
import Verif.Lemmas.Program
/- C68: index ranges as index arguments. -/
namespace GBTL
open Spec (Outp MaskKind Accum)
variable {α γ ζ τ μ : Type}

/-- The indices `b, b + 1, …, e - 1`. -/
def _root_.Spec.interval (b e : Nat) : List Nat := List.range' b (e - b)

theorem IxRange.size_le {r : IxRange} (hr : r.Fits) (h : r.b ≤ r.e) : r.size = r.e - r.b := by
  obtain ⟨h1, h2⟩ := hr; simp only [IxRange.size]; omega

theorem IxRange.size_gt {r : IxRange} (hr : r.Fits) (h : r.e < r.b) : r.size = 2 ^ 64 - (r.b - r.e) := by
  obtain ⟨h1, h2⟩ := hr; simp only [IxRange.size]; omega

theorem walk_spec (last : Nat) (hl : last < 2 ^ 64) : ∀ (k it extra : Nat), it < 2 ^ 64 →
    k = (last + 2 ^ 64 - it) % 2 ^ 64 →
    IxRange.walk last (k + extra) it = some ((List.range k).map (add64 it)) := by
  intro k
  induction k with
  | zero =>
    intro it extra hi hk
    have : it = last := by omega
    cases he : 0 + extra <;> rw [IxRange.walk, if_pos this] <;> rfl
  | succ k ih =>
    intro it extra hi hk
    have hne : it ≠ last := by
      rintro rfl
      rw [show it + 2 ^ 64 - it = 2 ^ 64 by omega, Nat.mod_self] at hk
      cases hk
    have hn : add64 it 1 < 2 ^ 64 := Nat.mod_lt _ (by decide)
    rw [show k + 1 + extra = (k + extra) + 1 by omega, IxRange.walk, if_neg hne, ih (add64 it 1) extra hn (by simp only [add64]; omega), List.range_succ_eq_map]
    simp only [Option.map_some, List.map_cons, List.map_map, Option.some.injEq, List.cons.injEq]
    refine ⟨by simp only [add64]; omega, ?_⟩
    apply List.map_congr_left
    intro a _
    simp only [add64, Function.comp]
    omega

/-- Iterating over a range visits the same indices, in the same order, as indexing it
from 0 to `size() - 1`, and ends after `size()` steps. -/
theorem C68_range_iterates (r : IxRange) (hr : r.Fits) (extra : Nat) :
    IxRange.walk r.e (r.size + extra) r.b = some ((List.range r.size).map r.at) :=
  walk_spec r.e hr.2 _ _ _ hr.1 rfl

/-- A range with `b ≤ e` has the indices `b, …, e - 1`; it says it is empty when there
are none. -/
theorem C68_range_elements (r : IxRange) (hr : r.Fits) (h : r.b ≤ r.e) :
    (List.range r.size).map r.at = Spec.interval r.b r.e ∧ r.size = (Spec.interval r.b r.e).length ∧
      (r.empty = true ↔ Spec.interval r.b r.e = []) := by
  refine ⟨?_, ?_, ?_⟩
  · rw [IxRange.size_le hr h, Spec.interval]
    apply List.ext_getElem
    · simp
    · intro i h1 h2
      obtain ⟨hb, he⟩ := hr
      simp only [List.length_map, List.length_range] at h1
      simp only [List.getElem_map, List.getElem_range, List.getElem_range', IxRange.at, add64]
      omega
  · rw [IxRange.size_le hr h, Spec.interval, List.length_range']
  · simp only [IxRange.empty, beq_iff_eq, Spec.interval, List.range'_eq_nil_iff]
    omega

/-- A range with `e < b` is not refused when it is made, is not empty, and goes on past
the largest index: that index is in it. -/
theorem C68_reversed_range (r : IxRange) (hr : r.Fits) (h : r.e < r.b) :
    r.empty = false ∧ r.size = 2 ^ 64 - (r.b - r.e) ∧ 2 ^ 64 - 1 ∈ (List.range r.size).map r.at := by
  refine ⟨by simp only [IxRange.empty, beq_eq_false_iff_ne]; omega, IxRange.size_gt hr h, ?_⟩
  obtain ⟨hb, he⟩ := hr
  rw [List.mem_map]
  refine ⟨2 ^ 64 - 1 - r.b, ?_, ?_⟩
  · rw [List.mem_range, IxRange.size_gt ⟨hb, he⟩ h]; omega
  · simp only [IxRange.at, add64]; omega

theorem IxRange.idx_le {r : IxRange} (hr : r.Fits) (h : r.b ≤ r.e) :
    r.idx = .list (Spec.interval r.b r.e) := by
  rw [IxRange.idx, (C68_range_elements r hr h).1]

theorem interval_nth (b e n i : Nat) : Spec.nth (some (Spec.interval b e)) n i
    = if i < e - b then some (b + i) else none := by
  simp only [Spec.nth, Spec.interval]
  by_cases hi : i < e - b
  · rw [if_pos hi, List.getElem?_range' hi]; simp
  · rw [if_neg hi, List.getElem?_eq_none (by simpa using Nat.not_lt.1 hi)]

theorem interval_posOf (b e n i : Nat) : Spec.posOf (some (Spec.interval b e)) n i
    = if b ≤ i ∧ i < e then some (i - b) else none := by
  simp only [Spec.posOf, Spec.interval]
  generalize hk : e - b = k
  induction k generalizing b with
  | zero =>
    rw [if_neg (by omega)]; rfl
  | succ k ih =>
    rw [List.range'_succ, List.idxOf?_cons]
    rw [ih (b + 1) (by omega)]
    by_cases hi : b = i
    · subst hi
      have h1 : b ≤ b ∧ b < e := ⟨Nat.le_refl _, by omega⟩
      simp [h1]
    · have h0 : (b == i) = false := by simpa using hi
      by_cases h2 : b + 1 ≤ i ∧ i < e
      · have h3 : b ≤ i ∧ i < e := by omega
        simp only [h0, h2, h3, and_self, if_true, Option.map_some, Bool.false_eq_true, if_false]
        congr 1; omega
      · have h3 : ¬ (b ≤ i ∧ i < e) := by omega
        simp [h0, h2, h3]

theorem interval_below {b e n : Nat} (h : e ≤ n) : (Idx.list (Spec.interval b e)).below n := by
  intro i hi
  simp only [Spec.interval, List.mem_range'_1] at hi
  omega

theorem interval_ascending (b e : Nat) : (Idx.list (Spec.interval b e)).ascending :=
  List.pairwise_lt_range' ..

theorem interval_nodup (b e : Nat) : (Idx.list (Spec.interval b e)).nodup := List.nodup_range' ..

theorem interval_len (b e n : Nat) : (Idx.list (Spec.interval b e)).len n = e - b := by
  simp [Idx.len, Spec.interval]

theorem MOut.Holds.congr {o : MOut γ τ ζ μ} {Z Y : Spec.Mat ζ} {C' : Lil γ} (h : o.Holds Z C')
    (he : ∀ i j, i < o.C.nrows → j < o.C.ncols → Z i j = Y i j) : o.Holds Y C' :=
  ⟨h.wf, h.nrows, h.ncols, fun i j hi hj => by rw [h.get i j hi hj, he i j hi hj]⟩

theorem VOut.Holds.congr {o : VOut γ τ ζ μ} {z y : Spec.Vec ζ} {w' : BVec γ} (h : o.Holds z w')
    (he : ∀ i, i < o.w.size → z i = y i) : o.Holds y w' :=
  ⟨h.wf, h.size, fun i hi => by rw [h.get i hi, he i hi]⟩

/-- `extract` with a range is the slice: element `i` of the result is element `b + i`. -/
theorem C68_extract_slice {o : VOut γ α ζ μ} {u : BVec α} {r : IxRange} (ho : o.WF) (hu : u.WF)
    (hr : r.Fits) (h : r.b ≤ r.e) (hu' : r.e ≤ u.size) (hm : o.m.Fits o.w.size) (hw : o.w.size = r.e - r.b) :
    ∃ w', extractV o u r.idx = .done w' ∧ o.Yields (fun i => u.get (r.b + i)) w' := by
  rw [IxRange.idx_le hr h]
  obtain ⟨w', e, y⟩ := C18_extract_vector (ix := .list (Spec.interval r.b r.e)) ho hu hm
    (by rw [interval_len, hw]) (interval_below hu')
  refine ⟨w', e, y.congr fun i hi => ?_⟩
  simp only [Idx.sel, Spec.extract, interval_nth]
  rw [if_pos (hw ▸ hi)]; rfl

/-- `extract` of a matrix with two ranges is the block: element `(i, j)` of the result is
element `(b + i, d + j)`, of a transposed operand too. -/
theorem C68_extract_block {o : MOut γ α ζ μ} {A : Operand α} {r c : IxRange} (ho : o.WF) (hA : A.WF)
    (hr : r.Fits) (hc : c.Fits) (h : r.b ≤ r.e) (h' : c.b ≤ c.e) (hrA : r.e ≤ A.nrows) (hcA : c.e ≤ A.ncols)
    (hm : o.M.Fits o.C.nrows o.C.ncols) (h1 : o.C.nrows = r.e - r.b) (h2 : o.C.ncols = c.e - c.b) :
    ∃ C', extractM o A r.idx c.idx = .done C' ∧ o.Yields (fun i j => A.get (r.b + i) (c.b + j)) C' := by
  rw [IxRange.idx_le hr h, IxRange.idx_le hc h']
  obtain ⟨w', e, y⟩ := C18_extract_matrix (ri := .list (Spec.interval r.b r.e))
    (ci := .list (Spec.interval c.b c.e)) ho hA hm
    (by rw [interval_len, h1]) (by rw [interval_len, h2]) (interval_below hrA) (interval_below hcA)
  refine ⟨w', e, y.congr fun i j hi hj => ?_⟩
  simp only [Idx.sel, Spec.extractMat, interval_nth]
  rw [if_pos (h1 ▸ hi), if_pos (h2 ▸ hj)]; rfl

theorem interval_selected (b e n i : Nat) : Spec.selected (some (Spec.interval b e)) n i
    = decide (b ≤ i ∧ i < e) := by
  rw [Spec.selected, interval_posOf]
  by_cases h : b ≤ i ∧ i < e <;> simp [h]

/-- `assign` with a range writes the slice: position `i` takes element `i - b` if
`b ≤ i < e`, and keeps its content otherwise. -/
theorem C68_assign_slice {o : VOut γ α ζ μ} {keep : γ → ζ} {u : BVec α} {r : IxRange} (ho : o.WF)
    (hu : u.WF) (hr : r.Fits) (h : r.b ≤ r.e) (hm : o.m.Fits o.w.size) (hl : u.size = r.e - r.b)
    (hw : r.e ≤ o.w.size) :
    ∃ w', assignV o keep u r.idx = .done w' ∧
      o.Holds (fun i => Spec.assignAt keep o.acc (decide (r.b ≤ i ∧ i < r.e)) (o.w.get i)
        (u.get (i - r.b))) w' := by
  rw [IxRange.idx_le hr h]
  obtain ⟨w', e, y⟩ := C19_assign_vector (keep := keep) (ix := .list (Spec.interval r.b r.e)) ho hu hm
    (by rw [interval_len, hl]) (interval_below hw) (interval_nodup ..)
  refine ⟨w', e, y.congr fun i hi => ?_⟩
  simp only [Idx.sel, interval_selected, Spec.assignSrc, interval_posOf]
  by_cases h : r.b ≤ i ∧ i < r.e
  · rw [if_pos h]; rfl
  · rw [show decide (r.b ≤ i ∧ i < r.e) = false by simpa using h]; rfl

theorem C68_assign_block {o : MOut γ α ζ μ} {keep : γ → ζ} {A : Operand α} {r c : IxRange} (ho : o.WF)
    (hA : A.WF) (hr : r.Fits) (hc : c.Fits) (h : r.b ≤ r.e) (h' : c.b ≤ c.e)
    (hm : o.M.Fits o.C.nrows o.C.ncols) (h1 : A.nrows = r.e - r.b) (h2 : A.ncols = c.e - c.b)
    (hrC : r.e ≤ o.C.nrows) (hcC : c.e ≤ o.C.ncols) :
    ∃ C', assignM o keep A r.idx c.idx = .done C' ∧
      o.Holds (fun i j => Spec.assignAt keep o.acc
        (decide ((r.b ≤ i ∧ i < r.e) ∧ c.b ≤ j ∧ j < c.e)) (o.C.get i j)
        (A.get (i - r.b) (j - c.b))) C' := by
  rw [IxRange.idx_le hr h, IxRange.idx_le hc h']
  obtain ⟨w', e, y⟩ := C19_assign_matrix (keep := keep) (ri := .list (Spec.interval r.b r.e))
    (ci := .list (Spec.interval c.b c.e)) ho hA hm
    (by rw [interval_len, h1]) (by rw [interval_len, h2]) (interval_below hrC) (interval_below hcC)
    (interval_nodup ..) (interval_nodup ..)
  refine ⟨w', e, y.congr fun i j hi hj => ?_⟩
  simp only [Idx.sel, interval_selected, Spec.assignSrcMat, interval_posOf]
  by_cases h : r.b ≤ i ∧ i < r.e
  · by_cases h' : c.b ≤ j ∧ j < c.e
    · simp [h, h']
    · simp only [h, h', and_false, and_self, decide_false, decide_true, Bool.and_false]; rfl
  · simp only [h, false_and, decide_false, Bool.false_and]; rfl

/-- `assign` of a constant with ranges, which are always in ascending order (so the
defects of C20 do not arise). -/
theorem C68_assign_const_slice {o : VOut γ α ζ μ} {keep : γ → ζ} {x : α} {r : IxRange} (ho : o.WF)
    (hr : r.Fits) (h : r.b ≤ r.e) (hm : o.m.Fits o.w.size) (hw : r.e ≤ o.w.size) :
    ∃ w', assignConstV o keep x r.idx = .done w' ∧
      o.Holds (fun i => Spec.assignAt keep o.acc (decide (r.b ≤ i ∧ i < r.e)) (o.w.get i) (some x)) w' := by
  rw [IxRange.idx_le hr h]
  obtain ⟨w', e, y⟩ := C20_assign_const_vector_partial (keep := keep) (x := x)
    (ix := .list (Spec.interval r.b r.e)) ho ⟨hm, by rw [interval_len]; omega⟩ (interval_below hw)
    (interval_ascending ..)
  refine ⟨w', e, y.congr fun i hi => ?_⟩
  simp only [Idx.sel, assignAt_const, interval_selected]

theorem C68_assign_const_block {o : MOut γ α ζ μ} {keep : γ → ζ} {x : α} {r c : IxRange} (ho : o.WF)
    (hr : r.Fits) (hc : c.Fits) (h : r.b ≤ r.e) (h' : c.b ≤ c.e)
    (hm : o.M.Fits o.C.nrows o.C.ncols) (hrC : r.e ≤ o.C.nrows) (hcC : c.e ≤ o.C.ncols) :
    ∃ C', assignConstM o keep x r.idx c.idx = .done C' ∧
      o.Holds (fun i j => Spec.assignAt keep o.acc
        (decide ((r.b ≤ i ∧ i < r.e) ∧ c.b ≤ j ∧ j < c.e)) (o.C.get i j) (some x)) C' := by
  rw [IxRange.idx_le hr h, IxRange.idx_le hc h']
  obtain ⟨w', e, y⟩ := C20_assign_const_matrix_partial (keep := keep) (x := x)
    (ri := .list (Spec.interval r.b r.e)) (ci := .list (Spec.interval c.b c.e)) ho
    ⟨hm, by rw [interval_len]; omega, by rw [interval_len]; omega⟩ (interval_below hrC) (interval_below hcC)
    (interval_ascending ..)
  refine ⟨w', e, y.congr fun i j hi hj => ?_⟩
  simp only [Idx.sel, assignAt_const, interval_selected]
  congr 1
  by_cases h1 : r.b ≤ i ∧ i < r.e <;> by_cases h2 : c.b ≤ j ∧ j < c.e <;> simp [h1, h2]

/-! ### Reversed ranges -/

theorem reversed_not_below {r : IxRange} (hr : r.Fits) (h : r.e < r.b) {n : Nat} (hn : n < 2 ^ 64) :
    ¬ r.idx.below n := fun hb => by
  have := hb _ (C68_reversed_range r hr h).2.2
  omega

/-- An operation that throws one of these before it writes. -/
def Refused {σ : Type} (out : Outcome σ) (v : σ) : Prop :=
  out = .threw .dimension v ∨ out = .threw .indexOutOfBounds v

/-- A reversed range is refused by every operation on vectors that takes indices, and
the output is unchanged. -/
theorem C68_reversed_vector {o : VOut γ α ζ μ} {keep : γ → ζ} {u : BVec α} {x : α} {r : IxRange}
    (hr : r.Fits) (h : r.e < r.b) (hu : u.size < 2 ^ 64) (hw : o.w.size < 2 ^ 64) :
    Refused (extractV o u r.idx) o.w ∧ Refused (assignV o keep u r.idx) o.w ∧
      Refused (assignConstV o keep x r.idx) o.w := by
  refine ⟨?_, ?_, ?_⟩
  · by_cases h1 : o.m.Fits o.w.size ∧ r.idx.len o.w.size = o.w.size
    · exact .inr (C27_extract_vector h1.1 h1.2 (reversed_not_below hr h hu))
    · exact .inl (VOut.op_threw (by simp) ((dim_extractV o _ _).err fun k => h1 k))
  · by_cases h1 : o.m.Fits o.w.size ∧ r.idx.len u.size = u.size
    · exact .inr (C27_assign_vector h1.1 h1.2 (reversed_not_below hr h hw))
    · exact .inl (VOut.stencil_threw (by simp) ((dim_extractV o _ _).err fun k => h1 k))
  · by_cases h1 : ConstVShapes o r.idx
    · exact .inr (C27_assign_const_vector h1 (reversed_not_below hr h hw))
    · exact .inl (VOut.stencil_threw (by simp) ((dim_constV o _).err fun k => h1 k))

/-- The same for matrices, if either range is reversed. -/
theorem C68_reversed_matrix {o : MOut γ α ζ μ} {keep : γ → ζ} {A : Operand α} {x : α} {r c : IxRange}
    (hr : r.Fits) (hc : c.Fits) (h : r.e < r.b ∨ c.e < c.b) (hA : A.nrows < 2 ^ 64 ∧ A.ncols < 2 ^ 64)
    (hC : o.C.nrows < 2 ^ 64 ∧ o.C.ncols < 2 ^ 64) :
    Refused (extractM o A r.idx c.idx) o.C ∧ Refused (assignM o keep A r.idx c.idx) o.C ∧
      Refused (assignConstM o keep x r.idx c.idx) o.C := by
  have nb : ∀ m n, m < 2 ^ 64 → n < 2 ^ 64 → ¬ (r.idx.below m ∧ c.idx.below n) := fun m n hm hn hb =>
    h.elim (fun h => reversed_not_below hr h hm hb.1) fun h => reversed_not_below hc h hn hb.2
  refine ⟨?_, ?_, ?_⟩
  · by_cases h1 : o.M.Fits o.C.nrows o.C.ncols ∧ r.idx.len o.C.nrows = o.C.nrows ∧
        c.idx.len o.C.ncols = o.C.ncols
    · exact .inr (C27_extract_matrix h1.1 h1.2.1 h1.2.2 (nb _ _ hA.1 hA.2))
    · exact .inl (MOut.op_threw (by simp) ((dim_select o _ _ _ _).err fun k => h1 k))
  · by_cases h1 : o.M.Fits o.C.nrows o.C.ncols ∧ r.idx.len A.nrows = A.nrows ∧
        c.idx.len A.ncols = A.ncols
    · exact .inr (C27_assign_matrix h1.1 h1.2.1 h1.2.2 (nb _ _ hC.1 hC.2))
    · exact .inl (MOut.stencil_threw (by simp) ((dim_select o _ _ _ _).err fun k => h1 k))
  · by_cases h1 : ConstMShapes o r.idx c.idx
    · exact .inr (C27_assign_const_matrix h1 (nb _ _ hC.1 hC.2))
    · exact .inl (MOut.stencil_threw (by simp) ((dim_constM o _ _).err fun k => h1 k))

/-! ### Concrete cases -/

example : (⟨1, 3⟩ : IxRange).Fits ∧ (⟨1, 3⟩ : IxRange).b ≤ (⟨1, 3⟩ : IxRange).e ∧
    Spec.interval 1 3 = [1, 2] ∧ IxRange.walk 3 2 1 = some [1, 2] := by
  refine ⟨⟨by decide, by decide⟩, by decide, by decide, by decide⟩

/-- A 2-block of a 4-vector. -/
example : extractV (μ := Unit) ⟨⟨2, 0, [0, 0], [false, false]⟩, none, fun _ => true, .none id, id, .replace⟩
      (⟨4, 3, [5, 6, 7, 8], [true, true, false, true]⟩ : BVec Nat) (IxRange.idx ⟨1, 3⟩)
    = .done ⟨2, 1, [6, 0], [true, false]⟩ := by decide +kernel

/-- A reversed range of one element: `IndexSequenceRange(2^64 - 1, 0)`. -/
example : (⟨2 ^ 64 - 1, 0⟩ : IxRange).Fits ∧ (⟨2 ^ 64 - 1, 0⟩ : IxRange).e < (⟨2 ^ 64 - 1, 0⟩ : IxRange).b ∧
    (⟨2 ^ 64 - 1, 0⟩ : IxRange).size = 1 ∧ (⟨2 ^ 64 - 1, 0⟩ : IxRange).at 0 = 2 ^ 64 - 1 := by
  refine ⟨⟨by decide, by decide⟩, by decide, by decide, by decide⟩

end GBTL

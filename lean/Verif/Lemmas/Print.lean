import Verif.Model.Print
import Verif.Spec.Print
import Verif.Lemmas.Vec
import Verif.Lemmas.Lil
/-
The text that printing writes, and that it can be split again.
-/
namespace GBTL
open Spec (cell Readable)

variable {α β : Type}

/-! ### lists with separators -/

theorem intercalate_cons2 (s a b : List α) (l : List (List α)) :
    List.intercalate s (a :: b :: l) = a ++ s ++ List.intercalate s (b :: l) := by
  simp [List.intercalate, List.intersperse]

theorem intercalate_one (s a : List α) : List.intercalate s [a] = a := by
  simp [List.intercalate, List.intersperse]

theorem intercalate_cons (s a : List α) (l : List (List α)) :
    List.intercalate s (a :: l) = a ++ (l.map fun b => s ++ b).flatten := by
  induction l generalizing a with
  | nil => simp [intercalate_one]
  | cons b l ih => rw [intercalate_cons2, ih]; simp

theorem range_pos {n : Nat} (h : 0 < n) : List.range n = 0 :: List.range' 1 (n - 1) := by
  obtain ⟨m, rfl⟩ : ∃ m, n = m + 1 := ⟨n - 1, by omega⟩
  rw [List.range_eq_range', List.range'_succ]
  simp

theorem split_at {c : α} : ∀ {l l' r r' : List α}, c ∉ l → c ∉ l' → l ++ c :: r = l' ++ c :: r' → l = l' ∧ r = r'
  | [], [], r, r', _, _, h => by simpa using h
  | [], a :: l', r, r', _, h2, h => by
    simp only [List.nil_append, List.cons_append, List.cons.injEq] at h
    exact absurd (List.mem_cons.2 (.inl h.1)) h2
  | a :: l, [], r, r', h1, _, h => by
    simp only [List.nil_append, List.cons_append, List.cons.injEq] at h
    exact absurd (List.mem_cons.2 (.inl h.1.symm)) h1
  | a :: l, b :: l', r, r', h1, h2, h => by
    simp only [List.cons_append, List.cons.injEq] at h
    obtain ⟨e1, e2⟩ := split_at (fun h' => h1 (List.mem_cons_of_mem _ h')) (fun h' => h2 (List.mem_cons_of_mem _ h')) h.2
    exact ⟨by rw [h.1, e1], e2⟩

/-- Texts that do not contain the first character of the separator can be told apart. -/
theorem intercalate_inj {c : α} {s : List α} : ∀ {l l' : List (List α)}, l ≠ [] → l' ≠ [] →
    (∀ a ∈ l, c ∉ a) → (∀ a ∈ l', c ∉ a) →
    List.intercalate (c :: s) l = List.intercalate (c :: s) l' → l = l'
  | [], _, h, _, _, _, _ => absurd rfl h
  | _, [], _, h, _, _, _ => absurd rfl h
  | [a], [b], _, _, _, _, h => by simpa [intercalate_one] using h
  | [a], b :: b' :: l', _, _, h1, _, h => by
    rw [intercalate_one, intercalate_cons2] at h
    exact absurd (by rw [h]; simp) (h1 a (by simp))
  | a :: a' :: l, [b], _, _, _, h2, h => by
    rw [intercalate_one, intercalate_cons2] at h
    exact absurd (by rw [← h]; simp) (h2 b (by simp))
  | a :: a' :: l, b :: b' :: l', _, _, h1, h2, h => by
    rw [intercalate_cons2, intercalate_cons2, List.append_assoc, List.append_assoc, List.cons_append, List.cons_append] at h
    obtain ⟨e1, e2⟩ := split_at (h1 a (by simp)) (h2 b (by simp)) h
    have e3 := intercalate_inj (l := a' :: l) (l' := b' :: l') (by simp) (by simp)
      (fun x hx => h1 x (List.mem_cons_of_mem _ hx)) (fun x hx => h2 x (List.mem_cons_of_mem _ hx))
      (List.append_cancel_left e2)
    rw [e1, e3]

/-! ### cells -/

theorem cell_inj {sh : α → List Char} {d : List Char} (h : Readable sh d) {x y : Option α}
    (e : cell sh d x = cell sh d y) : x = y := by
  cases x <;> cases y
  · rfl
  · exact absurd e.symm (h.not_none _)
  · exact absurd e (h.not_none _)
  · rw [h.inj _ _ e]

theorem cells_inj {sh : α → List Char} {d : List Char} (h : Readable sh d) (hd : ',' ∉ d) {m n : Nat} (hm : 0 < m)
    (hn : 0 < n) {f g : Nat → Option α}
    (e : List.intercalate [',', ' '] ((List.range m).map fun i => cell sh d (f i)) =
      List.intercalate [',', ' '] ((List.range n).map fun i => cell sh d (g i))) :
    m = n ∧ ∀ i, i < m → f i = g i := by
  have hc : ∀ x : Option α, ',' ∉ cell sh d x := by
    intro x
    cases x with
    | none => exact hd
    | some x => exact h.comma x
  have := intercalate_inj (by simp; omega) (by simp; omega)
    (fun a ha => by obtain ⟨i, -, rfl⟩ := List.mem_map.1 ha; exact hc _)
    (fun a ha => by obtain ⟨i, -, rfl⟩ := List.mem_map.1 ha; exact hc _) e
  have hl : m = n := by simpa using congrArg List.length this
  subst hl
  refine ⟨rfl, fun i hi => ?_⟩
  have := congrArg (fun l => l[i]?) this
  simp [hi] at this
  exact cell_inj h this

/-! ### vectors -/

namespace BVec

theorem printLoop_eq (sh : α → List Char) {v : BVec α} (h1 : v.vals.length = v.size) (h2 : v.bitmap.length = v.size) :
    ∀ l : List Nat, (∀ i ∈ l, i < v.size) →
    printLoop sh v l = .ok ((l.map fun i => [',', ' '] ++ cell sh ['-'] (v.get i)).flatten)
  | [], _ => rfl
  | i :: l, h => by
    have hi := h i (List.mem_cons_self ..)
    rw [printLoop, rd_bitmap h1 h2 hi, Except.bind_ok', printLoop_eq sh h1 h2 l fun j hj => h j (List.mem_cons_of_mem _ hj)]
    cases hg : v.get i with
    | none => simp [cell, hg]
    | some x => simp [cell, hg, rd_vals hg]

theorem printFirst_eq (sh : α → List Char) {v : BVec α} (h1 : v.vals.length = v.size) (h2 : v.bitmap.length = v.size)
    (h : 0 < v.size) : printFirst sh v = .ok (cell sh ['-'] (v.get 0)) := by
  rw [printFirst, rd_bitmap h1 h2 h, Except.bind_ok']
  cases hg : v.get 0 with
  | none => simp [cell]
  | some x => simp [cell, rd_vals hg]

end BVec

/-! ### matrices -/

namespace Lil

/-- A place of a row with the separator in front. -/
def sepCell (sh : α → List Char) (f : Nat → Option α) (j : Nat) : List Char :=
  (if j = 0 then [] else [',', ' ']) ++ cell sh [' '] (f j)

theorem printPad_eq (sh : α → List Char) {f : Nat → Option α} : ∀ (k curr : Nat),
    (∀ j, curr ≤ j → j < curr + k → f j = none) →
    printPad curr k = ((List.range' curr k).map (sepCell sh f)).flatten
  | 0, _, _ => rfl
  | k + 1, curr, h => by
    rw [printPad, List.range'_succ, List.map_cons, List.flatten_cons,
      ← printPad_eq sh k (curr + 1) fun j h1 h2 => h j (by omega) (by omega), sepCell, h curr (by omega) (by omega)]
    congr 1
    by_cases hc : curr = 0 <;> simp [hc, cell]

theorem printFill_eq (sh : α → List Char) {f : Nat → Option α} : ∀ (k curr : Nat), 0 < curr →
    (∀ j, curr ≤ j → f j = none) →
    printFill k = ((List.range' curr k).map (sepCell sh f)).flatten
  | 0, _, _, _ => rfl
  | k + 1, curr, h0, h => by
    rw [printFill, List.range'_succ, List.map_cons, List.flatten_cons,
      ← printFill_eq sh k (curr + 1) (by omega) fun j h1 => h j (by omega), sepCell, h curr (by omega), if_neg (by omega)]
    rfl

theorem printRow_eq (sh : α → List Char) (n : Nat) : ∀ (r : Row α) (curr : Nat), Row.OK n r →
    (∀ p ∈ r, curr ≤ p.1) → (r = [] → 0 < curr) →
    printRow sh n r curr = ((List.range' curr (n - curr)).map (sepCell sh r.get)).flatten
  | [], curr, _, _, h0 => by
    rw [printRow]
    exact printFill_eq sh _ curr (h0 rfl) fun _ _ => rfl
  | (j, x) :: r, curr, hok, hge, _ => by
    have hj : curr ≤ j := hge (j, x) (by simp)
    have hjn : j < n := hok.bound (j, x) (by simp)
    have hlt : ∀ p ∈ r, j < p.1 := fun p hp => (List.pairwise_cons.1 hok.sorted).1 p hp
    have hok' : Row.OK n r := ⟨(List.pairwise_cons.1 hok.sorted).2, fun p hp => hok.bound p (List.mem_cons_of_mem _ hp)⟩
    rw [printRow, Nat.max_eq_right hj, printRow_eq sh n r (j + 1) hok' (fun p hp => hlt p hp) (fun _ => by omega)]
    rw [show n - curr = (j - curr) + ((n - (j + 1)) + 1) by omega, ← List.range'_append_1, List.map_append,
      List.flatten_append, show curr + (j - curr) = j by omega, List.range'_succ, List.map_cons, List.flatten_cons]
    rw [← printPad_eq sh (f := Row.get ((j, x) :: r)) (j - curr) curr]
    · have e : ((List.range' (j + 1) (n - (j + 1))).map (sepCell sh (Row.get ((j, x) :: r)))) =
          ((List.range' (j + 1) (n - (j + 1))).map (sepCell sh (Row.get r))) := by
        apply List.map_congr_left
        intro k hk
        rw [List.mem_range'_1] at hk
        unfold sepCell
        rw [Row.get, if_neg (show ¬ j = k by omega)]
      rw [e, List.append_assoc]
      congr 2
      by_cases hc : j = 0 <;> simp [sepCell, hc, cell, Row.get]
    · intro k h1 h2
      refine Row.get_none_of_lt fun p hp => ?_
      rcases List.mem_cons.1 hp with rfl | hp
      · show k < j; omega
      · have := hlt p hp; omega

/-- Every place with the separator in front is the list of places with separators. -/
theorem sepCells (sh : α → List Char) (f : Nat → Option α) {n : Nat} (hn : 0 < n) :
    ((List.range n).map (sepCell sh f)).flatten =
      List.intercalate [',', ' '] ((List.range n).map fun j => cell sh [' '] (f j)) := by
  rw [range_pos hn, List.map_cons, List.map_cons, intercalate_cons, List.flatten_cons, List.map_map]
  congr 1
  congr 1
  apply List.map_congr_left
  intro j hj
  rw [List.mem_range'_1] at hj
  simp [sepCell, show j ≠ 0 by omega]

theorem printLine_eq (sh : α → List Char) {A : Lil α} (hA : A.WFr) (hn : 0 < A.ncols) {i : Nat} (hi : i < A.nrows) :
    printLine sh A i = .ok (Spec.matrixLine sh A.nrows A.ncols A.get i ++ if i + 1 = A.nrows then [] else ['\n']) := by
  rw [printLine, hA.row_ok hi, Except.bind_ok']
  have hr : (if (A.rowD i).isEmpty then printPad 0 A.ncols else printRow sh A.ncols (A.rowD i) 0) =
      List.intercalate [',', ' '] ((List.range A.ncols).map fun j => cell sh [' '] (A.get i j)) := by
    rw [← sepCells sh (A.get i) hn, List.range_eq_range']
    split
    · rename_i h
      rw [List.isEmpty_iff] at h
      refine printPad_eq sh _ 0 fun j _ _ => ?_
      rw [Lil.get, h]; rfl
    · rename_i h
      rw [printRow_eq sh A.ncols _ 0 (hA.rowD_ok i) (by simp) (fun e => by rw [e] at h; exact absurd rfl h)]
      rfl
  have h1 : (if i = 0 then "  [[" else "   [").toList = if i = 0 then [' ', ' ', '[', '['] else [' ', ' ', ' ', '['] := by
    split <;> rfl
  have h2 : (if i = A.nrows - 1 then "]]" else "]\n").toList =
      (if i + 1 = A.nrows then [']', ']'] else [']']) ++ if i + 1 = A.nrows then [] else ['\n'] := by
    by_cases h : i + 1 = A.nrows
    · rw [if_pos (by omega), if_pos h, if_pos h]; rfl
    · rw [if_neg (by omega), if_neg h, if_neg h]; rfl
  rw [hr, Spec.matrixLine, h1, h2]
  simp only [List.append_assoc]

theorem printLoop_eq (sh : α → List Char) {A : Lil α} (hA : A.WFr) (hn : 0 < A.ncols) : ∀ (k i : Nat),
    0 < k → i + k = A.nrows →
    printLoop sh A (List.range' i k) =
      .ok (List.intercalate ['\n'] ((List.range' i k).map (Spec.matrixLine sh A.nrows A.ncols A.get)))
  | 0, _, h, _ => absurd h (by omega)
  | 1, i, _, h => by
    show printLoop sh A [i] = _
    rw [printLoop, printLine_eq sh hA hn (by omega), Except.bind_ok', printLoop, Except.bind_ok', if_pos (by omega)]
    show _ = Except.ok (List.intercalate ['\n'] [_])
    rw [intercalate_one]; simp
  | k + 2, i, _, h => by
    rw [List.range'_succ, printLoop, printLine_eq sh hA hn (by omega), Except.bind_ok',
      printLoop_eq sh hA hn (k + 1) (i + 1) (by omega) (by omega), Except.bind_ok', if_neg (by omega),
      List.range'_succ, List.map_cons, List.map_cons, List.map_cons, intercalate_cons2]

end Lil
end GBTL

import Verif.Lemmas.OvercountWrite
import Verif.Lemmas.Containers
/-
Methods of matrices that report too many elements.
-/
namespace GBTL
open Spec (Accum Outp MatCall Ans AMat runCalls)

variable {α β γ τ ζ μ : Type}

theorem Row.erase_length (j : Nat) : ∀ r : Row α, (r.erase j).2 = true → (r.erase j).1.length + 1 = r.length
  | [] => fun h => nomatch h
  | (idx, y) :: r => by
    unfold Row.erase
    split
    · intro _; rfl
    · intro h
      have := erase_length j r h
      simp only [List.length_cons]
      omega

theorem Row.erase_same (j : Nat) : ∀ r : Row α, (r.erase j).2 = false → (r.erase j).1 = r
  | [] => fun _ => rfl
  | (idx, y) :: r => by
    unfold Row.erase
    split
    · intro h; cases h
    · intro h
      have := erase_same j r h
      simp only [this]

namespace Lil

theorem Over.eq_more {A : Lil α} (h : A.Over) : A = A.recount.more A.excess := (recount_more h.le).symm

theorem foldl_sub_more {ρ : Type} (f : ρ → Nat) (d : Nat) : ∀ (l : List ρ) (k : Nat), (l.map f).sum ≤ k →
    l.foldl (fun nv r => nv - f r) (k + d) = l.foldl (fun nv r => nv - f r) k + d
  | [], _, _ => rfl
  | x :: l, k, h => by
    simp only [List.map_cons, List.sum_cons] at h
    rw [List.foldl_cons, List.foldl_cons, show k + d - f x = k - f x + d by omega]
    exact foldl_sub_more f d l _ (by omega)

theorem sum_cut_le (g : Row α → Row α) : ∀ l : List (Row α),
    (l.map fun r => r.length - (g r).length).sum ≤ (l.map List.length).sum
  | [] => Nat.le_refl _
  | r :: l => by
    have := sum_cut_le g l
    simp only [List.map_cons, List.sum_cons]
    omega

theorem sum_resizeList {m : Nat} {l : List (Row α)} (h : l.length ≤ m) :
    ((resizeList l m []).map List.length).sum = (l.map List.length).sum := by
  unfold resizeList
  rw [List.take_of_length_le h]
  simp

theorem resizeBackend_more {A : Lil α} (h : A.WF) (d m n : Nat) :
    (A.more d).resizeBackend m n = (A.resizeBackend m n).more (if m < A.nrows then 0 else d) := by
  have hc : A.nvals = A.stored := h.count
  have hl := h.len
  obtain ⟨nr, nc, nv, rows⟩ := A
  show resizeBackend ⟨nr, nc, nv + d, rows⟩ m n = _
  unfold resizeBackend
  dsimp only [more] at hc hl ⊢
  by_cases hm : m < nr
  · simp only [if_pos hm]
    split <;> rfl
  · simp only [if_neg hm]
    split
    · congr 1
      refine foldl_sub_more _ d _ _ ?_
      refine Nat.le_trans (sum_cut_le _ _) ?_
      rw [sum_resizeList (by omega), hc]
      exact Nat.le_refl _
    · rfl

theorem setElementMerge_more (A : Lil α) (d i j : Nat) (x : α) (merge : α → α → α) :
    (A.more d).setElementMerge i j x merge =
      ((A.setElementMerge i j x merge).1, (A.setElementMerge i j x merge).2.more d) := by
  unfold setElementMerge
  rw [row_more]
  show (if A.nrows ≤ i ∨ A.ncols ≤ j then _ else _) = _
  split
  · rfl
  · cases A.row i with
    | error e => rfl
    | ok r =>
      dsimp only [more]
      cases (r.insertMerge merge j x).2
      · rfl
      · simp only [if_true, Nat.add_right_comm]

theorem removeElement_more {A : Lil α} (h : A.nvals = A.stored) (d i j : Nat) :
    (A.more d).removeElement i j = ((A.removeElement i j).1, (A.removeElement i j).2.more d) := by
  unfold removeElement
  rw [row_more]
  show (if A.nrows ≤ i ∨ A.ncols ≤ j then _ else _) = _
  split
  · rfl
  · cases e : A.row i with
    | error e => rfl
    | ok r =>
      have hr := (row_length_le h e).2.2
      dsimp only [more]
      cases hb : (r.erase j).2
      · rfl
      · have := Row.erase_length j r hb
        simp only [if_true, show A.nvals + d - 1 = A.nvals - 1 + d by omega]

theorem more_call {A : Lil α} (h : A.WF) (d : Nat) (c : MatCall α) :
    (A.more d).call c = (c.over d (A.call c).1, (A.call c).2.more (c.surplus d A.nrows)) := by
  cases c with
  | set i j x =>
    show (match (A.more d).setElementMerge i j x _ with | (.ok _, B) => _ | (.error e, B) => _) = _
    rw [setElementMerge_more]
    simp only [Lil.call, setElement]
    rcases A.setElementMerge i j x _ with ⟨_ | _, B⟩ <;> rfl
  | setMerge i j x merge =>
    simp only [Lil.call, setElementMerge_more]
    rcases A.setElementMerge i j x _ with ⟨_ | _, B⟩ <;> rfl
  | remove i j =>
    simp only [Lil.call, removeElement_more h.count]
    rcases A.removeElement i j with ⟨_ | _, B⟩ <;> rfl
  | clear => rfl
  | resize m n =>
    simp only [Lil.call, resize]
    by_cases h0 : m = 0 ∨ n = 0
    · simp only [if_pos h0, MatCall.surplus]
      rw [if_neg (by omega)]
      rfl
    · simp only [if_neg h0, MatCall.surplus, resizeBackend_more h]
      by_cases hm : m < A.nrows
      · rw [if_pos hm, if_pos (by omega)]; rfl
      · rw [if_neg hm, if_neg (by omega)]; rfl
  | has i j =>
    show (match A.hasElement i j with | .ok b => _ | .error e => _) = _
    simp only [Lil.call]
    cases A.hasElement i j <;> rfl
  | extract i j =>
    show (match A.extractElement i j with | .ok b => _ | .error e => _) = _
    simp only [Lil.call]
    cases A.extractElement i j <;> rfl
  | nvals => rfl
  | shape => rfl

theorem more_calls : ∀ (cs : List (MatCall α)) (d : Nat) (A : Lil α) (s : AMat α), MSim A s →
    (runCalls Lil.call (A.more d) cs).1 = Spec.overAnswers d s cs
  | [], _, _, _, _ => rfl
  | c :: cs, d, A, s, h => by
    obtain ⟨h1, h2⟩ := msim_step h c
    rw [runCalls, Spec.overAnswers, more_call h.wf]
    dsimp only
    rw [more_calls cs _ _ _ h2, h1, h.nrows]

theorem colStep_count {A : Lil α} (h : A.nvals = A.stored) {i : Nat} (hi : i < A.rows.length) (j : Nat)
    (x : Option α) : (A.colStep j i x).nvals = (A.colStep j i x).stored :=
  let ⟨_, hs⟩ := colStep_step hi j x
  hs.count 0 h

theorem setColLoop_more (cast : β → α) (j d : Nat) : ∀ (is : List Nat) (col : Row β) (A : Lil α), A.nvals = A.stored →
    setColLoop cast j is col (A.more d) = (setColLoop cast j is col A).map (·.more d)
  | [], _, _, _ => by unfold setColLoop; rfl
  | i :: is, [], A, h => by
    unfold setColLoop
    rw [row_more]
    cases e : A.row i with
    | error e => rfl
    | ok r =>
      obtain ⟨hi, er, hle⟩ := row_length_le h e
      have ew : ∀ r', wr A.rows i r' = .ok (A.rows.set i r') := fun r' => by unfold wr; rw [if_pos hi]
      simp only [Except.bind_ok', show (A.more d).rows = A.rows from rfl, ew]
      have key := colStep_count h hi j none
      dsimp only [colStep] at key; rw [← er] at key
      rw [← setColLoop_more cast j d is [] _ key]
      congr 1
      show ({ A with rows := _, nvals := if (r.erase j).2 = true then A.nvals + d - 1 else A.nvals + d } : Lil α) =
        { A with rows := _, nvals := (if (r.erase j).2 = true then A.nvals - 1 else A.nvals) + d }
      congr 1
      cases hb : (r.erase j).2
      · rfl
      · have := Row.erase_length j r hb
        simp only [if_true]
        omega
  | i :: is, (k, x) :: col, A, h => by
    unfold setColLoop
    rw [row_more]
    cases e : A.row i with
    | error e => rfl
    | ok r =>
      obtain ⟨hi, er, hle⟩ := row_length_le h e
      have ew : ∀ r', wr A.rows i r' = .ok (A.rows.set i r') := fun r' => by unfold wr; rw [if_pos hi]
      simp only [Except.bind_ok', show (A.more d).rows = A.rows from rfl, ew]
      split
      · have key := colStep_count h hi j none
        dsimp only [colStep] at key; rw [← er] at key
        rw [← setColLoop_more cast j d is ((k, x) :: col) _ key]
        congr 1
        show ({ A with rows := _, nvals := if (r.erase j).2 = true then A.nvals + d - 1 else A.nvals + d } : Lil α) =
          { A with rows := _, nvals := (if (r.erase j).2 = true then A.nvals - 1 else A.nvals) + d }
        congr 1
        cases hb : (r.erase j).2
        · rfl
        · have := Row.erase_length j r hb
          simp only [if_true]
          omega
      · split
        · have key := colStep_count h hi j (some (cast x))
          dsimp only [colStep] at key; rw [← er] at key
          rw [← setColLoop_more cast j d is col _ key]
          congr 1
          show ({ A with rows := _, nvals := if (r.insertMerge _ j (cast x)).2 = true then A.nvals + d + 1 else A.nvals + d } : Lil α) =
            { A with rows := _, nvals := (if (r.insertMerge _ j (cast x)).2 = true then A.nvals + 1 else A.nvals) + d }
          congr 1
          split <;> omega
        · rfl

end Lil
end GBTL

import Verif.Lemmas.Lil
import Verif.Model.Helpers
namespace GBTL
open Spec (Outp MaskKind Accum both either osum)

variable {α β γ δ τ ζ μ ν : Type}

namespace Row

theorem get_append (r s : Row α) (i : Nat) : get (r ++ s) i = (get r i).or (get s i) := by
  induction r with
  | nil => rfl
  | cons p r ih =>
    obtain ⟨k, x⟩ := p
    rw [List.cons_append, get_cons, get_cons, ih]
    split <;> simp

theorem sorted_append {r s : Row α} :
    Sorted (r ++ s) ↔ Sorted r ∧ Sorted s ∧ ∀ p ∈ r, ∀ q ∈ s, p.1 < q.1 :=
  List.pairwise_append

theorem mem_takeBelow {j : Nat} {r : Row α} {p : Nat × α} (h : p ∈ takeBelow j r) :
    p ∈ r ∧ p.1 < j := by
  refine ⟨(List.takeWhile_prefix _).subset h, ?_⟩
  have := List.all_takeWhile (p := fun p : Nat × α => decide (p.1 < j)) (l := r)
  rw [List.all_eq_true] at this
  simpa using this p h

theorem mem_of_dropBelow {j : Nat} {r : Row α} {p : Nat × α} (h : p ∈ dropBelow j r) : p ∈ r :=
  (List.dropWhile_suffix _).subset h

theorem sorted_takeBelow {j : Nat} {r : Row α} (h : Sorted r) : Sorted (takeBelow j r) :=
  List.Pairwise.sublist (List.takeWhile_prefix _).sublist h

theorem sorted_dropBelow {j : Nat} {r : Row α} (h : Sorted r) : Sorted (dropBelow j r) :=
  List.Pairwise.sublist (List.dropWhile_suffix _).sublist h

theorem dropBelow_ge {j : Nat} {r : Row α} (h : Sorted r) : ∀ p ∈ dropBelow j r, j ≤ p.1 := by
  induction r with
  | nil => simp [dropBelow]
  | cons q r ih =>
    rw [sorted_cons] at h
    intro p hp
    rw [dropBelow, List.dropWhile_cons] at hp
    by_cases hq : q.1 < j
    · simp only [hq, decide_true, if_true] at hp
      exact ih h.2 p hp
    · simp only [hq, decide_false, Bool.false_eq_true, if_false] at hp
      rcases List.mem_cons.1 hp with rfl | hp
      · omega
      · have := h.1 p hp; omega

theorem get_dropBelow {j : Nat} {r : Row α} (h : Sorted r) (i : Nat) :
    get (dropBelow j r) i = if j ≤ i then get r i else none := by
  split
  · next hi =>
    induction r with
    | nil => rfl
    | cons q r ih =>
      obtain ⟨k, x⟩ := q
      rw [sorted_cons] at h
      rw [dropBelow, List.dropWhile_cons]
      by_cases hk : k < j
      · simp only [hk, decide_true, if_true]
        rw [get_cons, if_neg (by omega)]
        exact ih h.2
      · simp only [hk, decide_false, Bool.false_eq_true, if_false]
  · next hi =>
    apply get_none_of_forall
    intro p hp
    have := dropBelow_ge h p hp
    omega

theorem get_takeBelow {j : Nat} {r : Row α} (h : Sorted r) (i : Nat) :
    get (takeBelow j r) i = if i < j then get r i else none :=
  (Lil.takeWhile_spec h j).2 i

theorem headIs_of_ge {j : Nat} {r : Row α} (hs : Sorted r) (h : ∀ p ∈ r, j ≤ p.1) :
    headIs j r = get r j := by
  cases r with
  | nil => rfl
  | cons p r =>
    obtain ⟨k, x⟩ := p
    simp only [headIs]
    rw [get_cons]
    split
    · rfl
    · rw [sorted_cons] at hs
      have hk := h (k, x) (List.mem_cons_self ..)
      rw [get_none_of_lt]
      intro q hq
      have := hs.1 q hq
      simp only at this hk
      omega

theorem headIs_dropBelow {j : Nat} {r : Row α} (h : Sorted r) :
    headIs j (dropBelow j r) = get r j := by
  rw [headIs_of_ge (sorted_dropBelow h) (dropBelow_ge h), get_dropBelow h, if_pos (Nat.le_refl _)]

/-- The suffix after the insertion point for `j`, the element `j` itself removed. -/
def after (j : Nat) (r : Row α) : Row α :=
  match headIs j (dropBelow j r) with
  | some _ => (dropBelow j r).tail
  | none => dropBelow j r

theorem after_spec {j : Nat} {r : Row α} (h : Sorted r) :
    Sorted (after j r) ∧ (∀ p ∈ after j r, p ∈ r ∧ j < p.1) ∧
    ∀ i, get (after j r) i = if j < i then get r i else none := by
  have hs := sorted_dropBelow (j := j) h
  have hge := dropBelow_ge (j := j) h
  have hg := get_dropBelow (j := j) h
  have hm : ∀ p ∈ dropBelow j r, p ∈ r := fun p hp => mem_of_dropBelow hp
  unfold after
  cases hd : dropBelow j r with
  | nil =>
    simp only [headIs]
    rw [hd] at hg
    refine ⟨sorted_nil, by simp, ?_⟩
    intro i
    have := hg i
    split
    · rw [if_pos (by omega)] at this; exact this
    · rfl
  | cons q t =>
    obtain ⟨k, x⟩ := q
    rw [hd] at hs hge hg hm
    rw [sorted_cons] at hs
    have hk : j ≤ k := hge (k, x) (List.mem_cons_self ..)
    by_cases hkj : k = j
    · subst hkj
      simp only [headIs, if_true, List.tail_cons]
      refine ⟨hs.2, fun p hp => ⟨hm p (List.mem_cons_of_mem _ hp), hs.1 p hp⟩, ?_⟩
      intro i
      have := hg i
      rw [get_cons] at this
      split
      · next hi => rw [if_neg (by omega), if_pos (by omega)] at this; exact this
      · next hi =>
        apply get_none_of_forall
        intro p hp
        have := hs.1 p hp
        simp only at this
        omega
    · simp only [headIs, if_neg hkj]
      have hlt : ∀ p ∈ (k, x) :: t, j < p.1 := by
        intro p hp
        rcases List.mem_cons.1 hp with rfl | hp
        · simp only; omega
        · have := hs.1 p hp; simp only at this; omega
      refine ⟨sorted_cons.2 hs, fun p hp => ⟨hm p hp, hlt p hp⟩, ?_⟩
      intro i
      split
      · next hi => rw [hg i, if_pos (by omega)]
      · next hi =>
        apply get_none_of_forall
        intro p hp
        have := hlt p hp
        omega

end Row

open Row

/-! ### sums -/

/-- One step of `Spec.osum`. -/
def ostep (add : τ → τ → τ) (acc : Option τ) (x : Option τ) : Option τ :=
  match acc, x with
  | some a, some b => some (add a b)
  | some a, none => some a
  | none, y => y

@[simp] theorem ostep_none_right (add : τ → τ → τ) (acc : Option τ) : ostep add acc none = acc := by
  cases acc <;> rfl
@[simp] theorem ostep_none_left (add : τ → τ → τ) (x : Option τ) : ostep add none x = x := by
  cases x <;> rfl
@[simp] theorem ostep_some (add : τ → τ → τ) (a b : τ) :
    ostep add (some a) (some b) = some (add a b) := rfl

theorem osum_eq_foldl (add : τ → τ → τ) (l : List (Option τ)) :
    osum add l = l.foldl (ostep add) none := by
  unfold osum
  congr 1

theorem osum_map (add : τ → τ → τ) {σ : Type} (f : σ → Option τ) (l : List σ) :
    osum add (l.map f) = l.foldl (fun acc k => ostep add acc (f k)) none := by
  rw [osum_eq_foldl, List.foldl_map]

/-- Folding over a row is folding over the index range. -/
theorem Row.foldl_eq_range {σ : Type} {n : Nat} {r : Row α} (hr : OK n r)
    (F : σ → Nat → α → σ) (init : σ) :
    r.foldl (fun acc p => F acc p.1 p.2) init
      = (List.range n).foldl (fun acc k => match get r k with
          | some x => F acc k x
          | none => acc) init := by
  have e : r = ofFun n (get r) := eq_ofFun hr fun i _ => rfl
  conv => lhs; rw [e]
  unfold ofFun
  rw [List.foldl_filterMap]
  congr 1
  funext acc k
  cases get r k <;> rfl

/-! ### ewise_and, dot -/

theorem ewiseAnd_keys {op : α → β → δ} (r : Row α) (s : Row β) :
    ∀ q ∈ ewiseAnd op r s, ∃ p ∈ r, p.1 = q.1 := by
  fun_induction ewiseAnd op r s with
  | case1 i x r y s ih =>
    intro q hq
    rcases List.mem_cons.1 hq with rfl | hq
    · exact ⟨_, List.mem_cons_self .., rfl⟩
    · obtain ⟨p, hp, e⟩ := ih q hq; exact ⟨p, List.mem_cons_of_mem _ hp, e⟩
  | case2 i x r j y s h1 h2 ih =>
    intro q hq
    obtain ⟨p, hp, e⟩ := ih q hq; exact ⟨p, List.mem_cons_of_mem _ hp, e⟩
  | case3 i x r j y s h1 h2 ih => exact ih
  | case4 => simp
  | case5 => simp

theorem ewiseAnd_spec {op : α → β → δ} (r : Row α) (s : Row β) (hr : Sorted r) (hs : Sorted s) :
    Sorted (ewiseAnd op r s) ∧ ∀ k, get (ewiseAnd op r s) k = both op (get r k) (get s k) := by
  fun_induction ewiseAnd op r s with
  | case1 x r i y s ih =>
    rw [sorted_cons] at hr hs
    obtain ⟨h1, h2⟩ := ih hr.2 hs.2
    refine ⟨sorted_cons.2 ⟨?_, h1⟩, ?_⟩
    · intro q hq
      obtain ⟨p, hp, e⟩ := ewiseAnd_keys r s q hq
      rw [← e]; exact hr.1 p hp
    · intro k
      rw [get_cons, get_cons, get_cons, h2]
      split <;> rfl
  | case2 i x r j y s h1 h2 ih =>
    rw [sorted_cons] at hr
    obtain ⟨h3, h4⟩ := ih hr.2 hs
    refine ⟨h3, ?_⟩
    intro k
    rw [h4, get_cons i]
    by_cases hk : i = k
    · subst hk
      rw [sorted_cons] at hs
      have : get ((j, y) :: s) i = none := get_none_of_lt fun p hp => by
        rcases List.mem_cons.1 hp with rfl | hp
        · exact h2
        · have := hs.1 p hp; simp only at this; omega
      rw [this]
      cases get r i <;> simp [both]
    · rw [if_neg hk]
  | case3 i x r j y s h1 h2 ih =>
    rw [sorted_cons] at hs
    obtain ⟨h3, h4⟩ := ih hr hs.2
    refine ⟨h3, ?_⟩
    intro k
    rw [h4, get_cons j]
    by_cases hk : j = k
    · subst hk
      rw [sorted_cons] at hr
      have : get ((i, x) :: r) j = none := get_none_of_lt fun p hp => by
        rcases List.mem_cons.1 hp with rfl | hp
        · simp only; omega
        · have := hr.1 p hp; simp only at this; omega
      rw [this]
      simp [both]
    · rw [if_neg hk]
  | case4 => exact ⟨sorted_nil, fun k => rfl⟩
  | case5 =>
    refine ⟨sorted_nil, fun k => ?_⟩
    rw [get_nil, get_nil]
    rename_i r _
    cases get r k <;> rfl

theorem ewiseAnd_ok {n : Nat} {op : α → β → δ} {r : Row α} {s : Row β} (hr : OK n r)
    (hs : Sorted s) : OK n (ewiseAnd op r s) := by
  refine ⟨(ewiseAnd_spec r s hr.sorted hs).1, ?_⟩
  intro q hq
  obtain ⟨p, hp, e⟩ := ewiseAnd_keys r s q hq
  rw [← e]; exact hr.bound p hp

theorem dotLoop_eq (add : τ → τ → τ) (mult : α → β → τ) (r : Row α) (s : Row β) (ans : Option τ) :
    dotLoop add mult r s ans
      = (ewiseAnd mult r s).foldl (fun acc p => ostep add acc (some p.2)) ans := by
  fun_induction dotLoop add mult r s ans with
  | case1 i x r y s ans ih =>
    rw [ewiseAnd, if_pos rfl, List.foldl_cons, ih]
    cases ans <;> rfl
  | case2 i x r j y s ans h1 h2 ih => rw [ewiseAnd, if_neg h1, if_pos h2, ih]
  | case3 i x r j y s ans h1 h2 ih => rw [ewiseAnd, if_neg h1, if_neg h2, ih]
  | case4 => simp [ewiseAnd]
  | case5 => simp [ewiseAnd]

/-- `dot` is the ordered sum of products over the common indices. -/
theorem dot_spec {n : Nat} (add : τ → τ → τ) (mult : α → β → τ) {r : Row α} {s : Row β}
    (hr : OK n r) (hs : Sorted s) :
    dot add mult r s = osum add ((List.range n).map fun k => both mult (get r k) (get s k)) := by
  have hmain : dotLoop add mult r s none
      = osum add ((List.range n).map fun k => both mult (get r k) (get s k)) := by
    rw [dotLoop_eq, Row.foldl_eq_range (ewiseAnd_ok hr hs)
      (fun acc _ x => ostep add acc (some x)), osum_map]
    congr 1
    funext acc k
    rw [(ewiseAnd_spec r s hr.sorted hs).2 k]
    cases both mult (get r k) (get s k) <;> simp
  unfold dot
  split
  · next h =>
    rw [← hmain]
    simp only [Bool.or_eq_true, List.isEmpty_iff] at h
    rcases h with rfl | rfl
    · cases r <;> simp [dotLoop]
    · simp [dotLoop]
  · exact hmain

theorem dotRev_spec {n : Nat} (add : τ → τ → τ) (mult : α → β → τ) {r : Row α} {s : Row β}
    (hr : OK n r) (hs : OK n s) :
    dotRev add mult r s = osum add ((List.range n).map fun k => both mult (get r k) (get s k)) := by
  have h := dot_spec add (fun b a => mult a b) hs hr.sorted
  have e : dotRev add mult r s = dot add (fun b a => mult a b) s r := rfl
  rw [e, h]
  congr 1
  apply List.map_congr_left
  intro k _
  cases get r k <;> cases get s k <;> rfl

/-! ### ewise_or -/

theorem ewiseOr_keys {op : α → β → δ} {c1 : α → δ} {c2 : β → δ} (r : Row α) (s : Row β) :
    ∀ q ∈ ewiseOr op c1 c2 r s, (∃ p ∈ r, p.1 = q.1) ∨ (∃ p ∈ s, p.1 = q.1) := by
  fun_induction ewiseOr op c1 c2 r s with
  | case1 => simp
  | case2 i x r ih =>
    intro q hq
    rcases List.mem_cons.1 hq with rfl | hq
    · exact Or.inl ⟨_, List.mem_cons_self .., rfl⟩
    · rcases ih q hq with ⟨p, hp, e⟩ | ⟨p, hp, e⟩
      · exact Or.inl ⟨p, List.mem_cons_of_mem _ hp, e⟩
      · simp at hp
  | case3 j y s ih =>
    intro q hq
    rcases List.mem_cons.1 hq with rfl | hq
    · exact Or.inr ⟨_, List.mem_cons_self .., rfl⟩
    · rcases ih q hq with ⟨p, hp, e⟩ | ⟨p, hp, e⟩
      · simp at hp
      · exact Or.inr ⟨p, List.mem_cons_of_mem _ hp, e⟩
  | case4 i x r y s ih =>
    intro q hq
    rcases List.mem_cons.1 hq with rfl | hq
    · exact Or.inl ⟨_, List.mem_cons_self .., rfl⟩
    · rcases ih q hq with ⟨p, hp, e⟩ | ⟨p, hp, e⟩
      · exact Or.inl ⟨p, List.mem_cons_of_mem _ hp, e⟩
      · exact Or.inr ⟨p, List.mem_cons_of_mem _ hp, e⟩
  | case5 i x r j y s h1 h2 ih =>
    intro q hq
    rcases List.mem_cons.1 hq with rfl | hq
    · exact Or.inl ⟨_, List.mem_cons_self .., rfl⟩
    · rcases ih q hq with ⟨p, hp, e⟩ | ⟨p, hp, e⟩
      · exact Or.inl ⟨p, List.mem_cons_of_mem _ hp, e⟩
      · exact Or.inr ⟨p, hp, e⟩
  | case6 i x r j y s h1 h2 ih =>
    intro q hq
    rcases List.mem_cons.1 hq with rfl | hq
    · exact Or.inr ⟨_, List.mem_cons_self .., rfl⟩
    · rcases ih q hq with ⟨p, hp, e⟩ | ⟨p, hp, e⟩
      · exact Or.inl ⟨p, hp, e⟩
      · exact Or.inr ⟨p, List.mem_cons_of_mem _ hp, e⟩

theorem ewiseOr_spec {op : α → β → δ} {c1 : α → δ} {c2 : β → δ} (r : Row α) (s : Row β)
    (hr : Sorted r) (hs : Sorted s) :
    Sorted (ewiseOr op c1 c2 r s) ∧
      ∀ k, get (ewiseOr op c1 c2 r s) k = either op c1 c2 (get r k) (get s k) := by
  fun_induction ewiseOr op c1 c2 r s with
  | case1 => exact ⟨sorted_nil, fun k => rfl⟩
  | case2 i x r ih =>
    rw [sorted_cons] at hr
    obtain ⟨h1, h2⟩ := ih hr.2 hs
    refine ⟨sorted_cons.2 ⟨?_, h1⟩, ?_⟩
    · intro q hq
      rcases ewiseOr_keys _ _ q hq with ⟨p, hp, e⟩ | ⟨p, hp, e⟩
      · rw [← e]; exact hr.1 p hp
      · simp at hp
    · intro k
      rw [get_cons, get_cons, h2]
      split <;> rfl
  | case3 j y s ih =>
    rw [sorted_cons] at hs
    obtain ⟨h1, h2⟩ := ih hr hs.2
    refine ⟨sorted_cons.2 ⟨?_, h1⟩, ?_⟩
    · intro q hq
      rcases ewiseOr_keys _ _ q hq with ⟨p, hp, e⟩ | ⟨p, hp, e⟩
      · simp at hp
      · rw [← e]; exact hs.1 p hp
    · intro k
      rw [get_cons, get_cons, h2]
      split <;> rfl
  | case4 i x r y s ih =>
    rw [sorted_cons] at hr hs
    obtain ⟨h1, h2⟩ := ih hr.2 hs.2
    refine ⟨sorted_cons.2 ⟨?_, h1⟩, ?_⟩
    · intro q hq
      rcases ewiseOr_keys _ _ q hq with ⟨p, hp, e⟩ | ⟨p, hp, e⟩
      · rw [← e]; exact hr.1 p hp
      · rw [← e]; exact hs.1 p hp
    · intro k
      rw [get_cons, get_cons, get_cons, h2]
      split <;> rfl
  | case5 i x r j y s h1 h2 ih =>
    rw [sorted_cons] at hr
    have hs' := hs
    rw [sorted_cons] at hs'
    obtain ⟨h3, h4⟩ := ih hr.2 hs
    have hlt : ∀ p ∈ (j, y) :: s, i < p.1 := by
      intro p hp
      rcases List.mem_cons.1 hp with rfl | hp
      · exact h2
      · have := hs'.1 p hp; simp only at this; omega
    refine ⟨sorted_cons.2 ⟨?_, h3⟩, ?_⟩
    · intro q hq
      rcases ewiseOr_keys _ _ q hq with ⟨p, hp, e⟩ | ⟨p, hp, e⟩
      · rw [← e]; exact hr.1 p hp
      · rw [← e]; exact hlt p hp
    · intro k
      rw [get_cons, get_cons i, h4]
      by_cases hk : i = k
      · subst hk
        rw [get_none_of_lt hlt]; simp [either]
      · rw [if_neg hk, if_neg hk]
  | case6 i x r j y s h1 h2 ih =>
    rw [sorted_cons] at hs
    have hr' := hr
    rw [sorted_cons] at hr'
    obtain ⟨h3, h4⟩ := ih hr hs.2
    have hlt : ∀ p ∈ (i, x) :: r, j < p.1 := by
      intro p hp
      rcases List.mem_cons.1 hp with rfl | hp
      · simp only; omega
      · have := hr'.1 p hp; simp only at this; omega
    refine ⟨sorted_cons.2 ⟨?_, h3⟩, ?_⟩
    · intro q hq
      rcases ewiseOr_keys _ _ q hq with ⟨p, hp, e⟩ | ⟨p, hp, e⟩
      · rw [← e]; exact hlt p hp
      · rw [← e]; exact hs.1 p hp
    · intro k
      rw [get_cons, get_cons j, h4]
      by_cases hk : j = k
      · subst hk
        rw [get_none_of_lt hlt]; simp [either]
      · rw [if_neg hk, if_neg hk]

theorem ewiseOr_ok {n : Nat} {op : α → β → δ} {c1 : α → δ} {c2 : β → δ} {r : Row α} {s : Row β}
    (hr : OK n r) (hs : OK n s) : OK n (ewiseOr op c1 c2 r s) := by
  refine ⟨(ewiseOr_spec r s hr.sorted hs.sorted).1, ?_⟩
  intro q hq
  rcases ewiseOr_keys _ _ q hq with ⟨p, hp, e⟩ | ⟨p, hp, e⟩
  · rw [← e]; exact hr.bound p hp
  · rw [← e]; exact hs.bound p hp

/-! ### ewise_or_stencil -/

/-- Content of `ewise_or_stencil` at one index. -/
def stencilAt (c1 : α → δ) (c2 : β → δ) (inS : Bool) (a : Option α) (b : Option β) : Option δ :=
  match b with
  | some y => some (c2 y)
  | none => if inS then none else a.map c1

theorem ewiseOrStencil_keys {c1 : α → δ} {c2 : β → δ} {st : Idx} (r : Row α) (s : Row β) :
    ∀ q ∈ ewiseOrStencil c1 c2 st r s, (∃ p ∈ r, p.1 = q.1) ∨ (∃ p ∈ s, p.1 = q.1) := by
  fun_induction ewiseOrStencil c1 c2 st r s <;> intro q hq
  all_goals simp only [List.mem_cons, List.not_mem_nil, or_and_right, exists_or, exists_eq_left,
    false_and, exists_false, or_false, false_or] at *
  all_goals first
    | (rcases hq with rfl | hq
       · simp
       · rename_i ih; have := ih q hq; grind)
    | (rename_i ih; have := ih q hq; grind)

theorem ewiseOrStencil_spec {c1 : α → δ} {c2 : β → δ} {st : Idx} (r : Row α) (s : Row β)
    (hr : Sorted r) (hs : Sorted s) :
    Sorted (ewiseOrStencil c1 c2 st r s) ∧
      ∀ k, get (ewiseOrStencil c1 c2 st r s) k
        = stencilAt c1 c2 (searchIndices st k) (get r k) (get s k) := by
  fun_induction ewiseOrStencil c1 c2 st r s with
  | case1 => exact ⟨sorted_nil, fun k => by simp [stencilAt]⟩
  | case2 i x r h ih =>
    rw [sorted_cons] at hr
    obtain ⟨h1, h2⟩ := ih hr.2 hs
    refine ⟨sorted_cons.2 ⟨?_, h1⟩, ?_⟩
    · intro q hq
      rcases ewiseOrStencil_keys _ _ q hq with ⟨p, hp, e⟩ | ⟨p, hp, e⟩
      · rw [← e]; exact hr.1 p hp
      · simp at hp
    · intro k
      rw [get_cons, get_cons, h2]
      split
      · subst_vars; simp_all [stencilAt]
      · rfl
  | case3 i x r h ih =>
    rw [sorted_cons] at hr
    obtain ⟨h1, h2⟩ := ih hr.2 hs
    refine ⟨h1, ?_⟩
    intro k
    rw [get_cons, h2]
    split
    · subst_vars; simp_all [stencilAt]
    · rfl
  | case4 j y s ih =>
    rw [sorted_cons] at hs
    obtain ⟨h1, h2⟩ := ih hr hs.2
    refine ⟨sorted_cons.2 ⟨?_, h1⟩, ?_⟩
    · intro q hq
      rcases ewiseOrStencil_keys _ _ q hq with ⟨p, hp, e⟩ | ⟨p, hp, e⟩
      · simp at hp
      · rw [← e]; exact hs.1 p hp
    · intro k
      rw [get_cons, get_cons, h2]
      split <;> rfl
  | case5 i x r y s ih =>
    rw [sorted_cons] at hr hs
    obtain ⟨h1, h2⟩ := ih hr.2 hs.2
    refine ⟨sorted_cons.2 ⟨?_, h1⟩, ?_⟩
    · intro q hq
      rcases ewiseOrStencil_keys _ _ q hq with ⟨p, hp, e⟩ | ⟨p, hp, e⟩
      · rw [← e]; exact hr.1 p hp
      · rw [← e]; exact hs.1 p hp
    · intro k
      rw [get_cons, get_cons, get_cons, h2]
      split <;> rfl
  | case6 i x r j y s h1 h2 h ih =>
    rw [sorted_cons] at hr
    have hs' := hs
    rw [sorted_cons] at hs'
    obtain ⟨h3, h4⟩ := ih hr.2 hs
    have hlt : ∀ p ∈ (j, y) :: s, i < p.1 := by
      intro p hp
      rcases List.mem_cons.1 hp with rfl | hp
      · exact h2
      · have := hs'.1 p hp; simp only at this; omega
    refine ⟨sorted_cons.2 ⟨?_, h3⟩, ?_⟩
    · intro q hq
      rcases ewiseOrStencil_keys _ _ q hq with ⟨p, hp, e⟩ | ⟨p, hp, e⟩
      · rw [← e]; exact hr.1 p hp
      · rw [← e]; exact hlt p hp
    · intro k
      rw [get_cons, get_cons i, h4]
      by_cases hk : i = k
      · subst hk
        rw [get_none_of_lt hlt]; simp_all [stencilAt]
      · rw [if_neg hk, if_neg hk]
  | case7 i x r j y s h1 h2 h ih =>
    rw [sorted_cons] at hr
    have hs' := hs
    rw [sorted_cons] at hs'
    obtain ⟨h3, h4⟩ := ih hr.2 hs
    have hlt : ∀ p ∈ (j, y) :: s, i < p.1 := by
      intro p hp
      rcases List.mem_cons.1 hp with rfl | hp
      · exact h2
      · have := hs'.1 p hp; simp only at this; omega
    refine ⟨h3, ?_⟩
    intro k
    rw [get_cons i, h4]
    by_cases hk : i = k
    · subst hk
      rw [get_none_of_lt hlt]; simp_all [stencilAt]
    · rw [if_neg hk]
  | case8 i x r j y s h1 h2 ih =>
    rw [sorted_cons] at hs
    have hr' := hr
    rw [sorted_cons] at hr'
    obtain ⟨h3, h4⟩ := ih hr hs.2
    have hlt : ∀ p ∈ (i, x) :: r, j < p.1 := by
      intro p hp
      rcases List.mem_cons.1 hp with rfl | hp
      · simp only; omega
      · have := hr'.1 p hp; simp only at this; omega
    refine ⟨sorted_cons.2 ⟨?_, h3⟩, ?_⟩
    · intro q hq
      rcases ewiseOrStencil_keys _ _ q hq with ⟨p, hp, e⟩ | ⟨p, hp, e⟩
      · rw [← e]; exact hlt p hp
      · rw [← e]; exact hs.1 p hp
    · intro k
      rw [get_cons, get_cons j, h4]
      by_cases hk : j = k
      · subst hk
        rw [get_none_of_lt hlt]; simp [stencilAt]
      · rw [if_neg hk, if_neg hk]

theorem ewiseOrStencil_ok {n : Nat} {c1 : α → δ} {c2 : β → δ} {st : Idx} {r : Row α} {s : Row β}
    (hr : OK n r) (hs : OK n s) : OK n (ewiseOrStencil c1 c2 st r s) := by
  refine ⟨(ewiseOrStencil_spec r s hr.sorted hs.sorted).1, ?_⟩
  intro q hq
  rcases ewiseOrStencil_keys _ _ q hq with ⟨p, hp, e⟩ | ⟨p, hp, e⟩
  · rw [← e]; exact hr.bound p hp
  · rw [← e]; exact hs.bound p hp

/-! ### axpy and xpey -/

theorem axpy_eq_xpey (add : τ → τ → τ) (mult : α → β → τ) (a : α) (c : Row τ) (b : Row β) :
    axpy add mult a c b = xpey (fun x y => add x (mult a y)) (fun y => mult a y) c b := by
  induction b generalizing c with
  | nil => simp [xpey, axpy]
  | cons p b ih =>
    obtain ⟨j, y⟩ := p
    rw [xpey, axpy, ih, ih]

theorem xpey_keys {op : α → β → α} {cast : β → α} (s : Row β) : ∀ (r : Row α),
    ∀ q ∈ xpey op cast r s, (∃ p ∈ r, p.1 = q.1) ∨ (∃ p ∈ s, p.1 = q.1) := by
  induction s with
  | nil => intro r q hq; simp only [xpey] at hq; exact Or.inl ⟨q, hq, rfl⟩
  | cons p s ih =>
    obtain ⟨j, y⟩ := p
    intro r q hq
    simp only [xpey] at hq
    rcases List.mem_append.1 hq with hq | hq
    · exact Or.inl ⟨q, (mem_takeBelow hq).1, rfl⟩
    · split at hq
      · rcases List.mem_cons.1 hq with rfl | hq
        · exact Or.inr ⟨_, List.mem_cons_self .., rfl⟩
        · rcases ih _ q hq with ⟨p, hp, e⟩ | ⟨p, hp, e⟩
          · exact Or.inl ⟨p, mem_of_dropBelow (List.mem_of_mem_tail hp), e⟩
          · exact Or.inr ⟨p, List.mem_cons_of_mem _ hp, e⟩
      · rcases List.mem_cons.1 hq with rfl | hq
        · exact Or.inr ⟨_, List.mem_cons_self .., rfl⟩
        · rcases ih _ q hq with ⟨p, hp, e⟩ | ⟨p, hp, e⟩
          · exact Or.inl ⟨p, mem_of_dropBelow hp, e⟩
          · exact Or.inr ⟨p, List.mem_cons_of_mem _ hp, e⟩

theorem xpey_cons (op : α → β → α) (cast : β → α) (r : Row α) (j : Nat) (y : β) (s : Row β)
    (hr : Sorted r) :
    xpey op cast r ((j, y) :: s) = takeBelow j r ++
      (j, match get r j with | some x => op x y | none => cast y)
        :: xpey op cast (after j r) s := by
  rw [xpey, headIs_dropBelow hr]
  unfold after
  rw [headIs_dropBelow hr]
  cases get r j <;> rfl

theorem xpey_spec {op : α → β → α} {cast : β → α} (s : Row β) (hs : Sorted s) : ∀ (r : Row α),
    Sorted r → Sorted (xpey op cast r s) ∧
      ∀ k, get (xpey op cast r s) k = either op id cast (get r k) (get s k) := by
  induction s with
  | nil =>
    intro r hr
    simp only [xpey]
    refine ⟨hr, fun k => ?_⟩
    cases get r k <;> rfl
  | cons p s ih =>
    obtain ⟨j, y⟩ := p
    rw [sorted_cons] at hs
    intro r hr
    obtain ⟨a1, a2, a3⟩ := after_spec (j := j) hr
    obtain ⟨h1, h2⟩ := ih hs.2 (after j r) a1
    rw [xpey_cons op cast r j y s hr]
    have hlow : ∀ q ∈ xpey op cast (after j r) s, j < q.1 := by
      intro q hq
      rcases xpey_keys s _ q hq with ⟨p, hp, e⟩ | ⟨p, hp, e⟩
      · rw [← e]; exact (a2 p hp).2
      · rw [← e]; exact hs.1 p hp
    refine ⟨?_, ?_⟩
    · rw [sorted_append]
      refine ⟨sorted_takeBelow hr, sorted_cons.2 ⟨hlow, h1⟩, ?_⟩
      intro p hp q hq
      have := (mem_takeBelow hp).2
      rcases List.mem_cons.1 hq with rfl | hq
      · exact this
      · have := hlow q hq; omega
    · intro k
      rw [get_append, get_takeBelow hr, get_cons, get_cons, h2, a3]
      rcases Nat.lt_trichotomy k j with hk | hk | hk
      · have h3 : get s k = none := get_none_of_lt fun p hp => by
          have := hs.1 p hp; simp only at this; omega
        simp only [hk, if_true, if_neg (show ¬ j = k by omega), if_neg (show ¬ j < k by omega), h3]
        cases get r k <;> rfl
      · subst hk
        simp only [Nat.lt_irrefl, if_false, if_true, Option.none_or]
        cases get r k <;> rfl
      · simp only [if_neg (show ¬ k < j by omega), if_neg (show ¬ j = k by omega), if_pos hk,
          Option.none_or]

theorem xpey_ok {n : Nat} {op : α → β → α} {cast : β → α} {r : Row α} {s : Row β}
    (hr : OK n r) (hs : OK n s) : OK n (xpey op cast r s) := by
  refine ⟨(xpey_spec s hs.sorted r hr.sorted).1, ?_⟩
  intro q hq
  rcases xpey_keys s _ q hq with ⟨p, hp, e⟩ | ⟨p, hp, e⟩
  · rw [← e]; exact hr.bound p hp
  · rw [← e]; exact hs.bound p hp

theorem axpy_ok {n : Nat} {add : τ → τ → τ} {mult : α → β → τ} {a : α} {c : Row τ} {b : Row β}
    (hc : OK n c) (hb : OK n b) : OK n (axpy add mult a c b) := by
  rw [axpy_eq_xpey]; exact xpey_ok hc hb

theorem axpy_get {add : τ → τ → τ} {mult : α → β → τ} {a : α} {c : Row τ} {b : Row β}
    (hc : Sorted c) (hb : Sorted b) (k : Nat) :
    get (axpy add mult a c b) k = ostep add (get c k) ((get b k).map (mult a)) := by
  rw [axpy_eq_xpey, (xpey_spec b hb c hc).2 k]
  cases get c k <;> cases get b k <;> rfl

end GBTL

import Verif.Spec.AssignConst
import Verif.Lemmas.Frontend
import Verif.Lemmas.Assign
/-
The merges and the masked write on a source whose indices are in any order.
-/
namespace GBTL
open Spec (Outp MaskKind Accum leads)
open Row

variable {α β γ δ τ ζ μ ν : Type}

theorem leads_nil (i : Nat) : leads [] i = false := rfl

theorem leads_cons (j : Nat) (s : List Nat) (i : Nat) :
    leads (j :: s) i = if i ≤ j then decide (j = i) else leads s i := by
  unfold leads
  rw [List.find?_cons]
  by_cases h : i ≤ j
  · rw [if_pos h]; by_cases e : j = i <;> simp [h, e]
  · rw [if_neg h]; simp [h]

theorem leads_mem {l : List Nat} {i : Nat} (h : leads l i = true) : i ∈ l := by
  unfold leads at h
  exact List.mem_of_find?_eq_some (by simpa using h)

theorem leads_iff (l : List Nat) (i : Nat) :
    leads l i = true ↔ ∃ pre post, l = pre ++ i :: post ∧ ∀ k ∈ pre, k < i := by
  induction l with
  | nil => simp [leads_nil]
  | cons j s ih =>
    rw [leads_cons]
    constructor
    · intro h
      split at h
      · exact ⟨[], s, by simp at h; rw [h]; rfl, by simp⟩
      · obtain ⟨pre, post, e, hp⟩ := ih.1 h
        refine ⟨j :: pre, post, by rw [e]; rfl, ?_⟩
        intro k hk
        rcases List.mem_cons.1 hk with rfl | hk
        · omega
        · exact hp k hk
    · rintro ⟨pre, post, e, hp⟩
      cases pre with
      | nil => simp at e; simp [e.1]
      | cons k pre =>
        simp only [List.cons_append, List.cons.injEq] at e
        have := hp k (List.mem_cons_self ..)
        rw [if_neg (by omega)]
        exact ih.2 ⟨pre, post, e.2, fun k hk => hp k (List.mem_cons_of_mem _ hk)⟩

/-- The list of a constant at the listed indices. -/
def constRow (l : List Nat) (x : τ) : Row τ := l.map fun i => (i, x)

@[simp] theorem constRow_cons (j : Nat) (l : List Nat) (x : τ) :
    constRow (j :: l) x = (j, x) :: constRow l x := rfl
@[simp] theorem constRow_nil (x : τ) : constRow [] x = [] := rfl

/-- The value of the last element with index `i`. -/
def Row.last : Row α → Nat → Option α
  | [], _ => none
  | (k, x) :: r, i => match Row.last r i with
    | some y => some y
    | none => if k = i then some x else none

/-- Induction along a merge of an ascending row with a list of indices. -/
theorem mergeInd {P : Row γ → List Nat → Prop} (h0 : P [] [])
    (h1 : ∀ i y r, Sorted ((i, y) :: r) → P r [] → P ((i, y) :: r) [])
    (h2 : ∀ j s, P [] s → P [] (j :: s))
    (h3 : ∀ i y r s, Sorted ((i, y) :: r) → P r s → P ((i, y) :: r) (i :: s))
    (h4 : ∀ i y r j s, Sorted ((i, y) :: r) → i < j → P r (j :: s) → P ((i, y) :: r) (j :: s))
    (h5 : ∀ i y r j s, Sorted ((i, y) :: r) → j < i → P ((i, y) :: r) s → P ((i, y) :: r) (j :: s)) :
    ∀ c l, Sorted c → P c l := by
  intro c l hc
  obtain ⟨n, hn⟩ : ∃ n, c.length + l.length ≤ n := ⟨_, Nat.le_refl _⟩
  induction n generalizing c l with
  | zero =>
    have e1 : c = [] := List.length_eq_zero_iff.1 (by omega)
    have e2 : l = [] := List.length_eq_zero_iff.1 (by omega)
    subst e1 e2
    exact h0
  | succ n ih =>
    match c, l with
    | [], [] => exact h0
    | (i0, y0) :: r, [] =>
      exact h1 _ _ _ hc (ih r [] (List.pairwise_cons.1 hc).2 (by simp only [List.length_cons] at hn ⊢; omega))
    | [], j :: s => exact h2 _ _ (ih [] s hc (by simp only [List.length_cons] at hn ⊢; omega))
    | (i0, y0) :: r, j :: s =>
      have hr := (List.pairwise_cons.1 hc).2
      simp only [List.length_cons] at hn
      by_cases e : j = i0
      · subst e
        exact h3 _ _ _ _ hc (ih r s hr (by omega))
      · by_cases e2 : i0 < j
        · exact h4 _ _ _ _ _ hc e2 (ih r (j :: s) hr (by simp only [List.length_cons]; omega))
        · exact h5 _ _ _ _ _ hc (by omega) (ih _ s hc (by simp only [List.length_cons]; omega))

theorem get_below_none {r : Row α} {i k : Nat} {y : α} (h : Sorted ((k, y) :: r)) (hi : i ≤ k) :
    get r i = none :=
  Row.get_none_of_lt fun p hp => by
    have := (List.pairwise_cons.1 h).1 p hp
    simp only at this; omega

theorem get_cons_below {r : Row α} {i k : Nat} {y : α} (h : Sorted ((k, y) :: r)) (hi : i < k) :
    get ((k, y) :: r) i = none := by
  rw [Row.get_cons, if_neg (by omega)]
  exact get_below_none h (by omega)

/-- Past a position that is not beyond the row's head, leading is decided by the rest. -/
theorem lead_step {r : Row γ} {i0 : Nat} {y0 : γ} (hc : Sorted ((i0, y0) :: r)) {j i : Nat} {s : List Nat}
    (hj : j ≤ i0) (hi : i ≠ j) {y : γ} (hg : get ((i0, y0) :: r) i = some y) :
    leads (j :: s) i = leads s i := by
  rw [leads_cons, if_neg]
  intro hle
  rw [get_cons_below hc (by omega)] at hg
  cases hg

section merge
variable (op : γ → τ → ζ) (cC : γ → ζ) (cT : τ → ζ) (x : τ)

theorem or_nil_right (i : Nat) (y : γ) (r : Row γ) :
    ewiseOr op cC cT ((i, y) :: r) (constRow [] x) = (i, cC y) :: ewiseOr op cC cT r (constRow [] x) := by
  simp [ewiseOr]
theorem or_nil_left (j : Nat) (s : List Nat) :
    ewiseOr op cC cT [] (constRow (j :: s) x) = (j, cT x) :: ewiseOr op cC cT [] (constRow s x) := by
  simp [ewiseOr]
theorem or_eq (i : Nat) (y : γ) (r : Row γ) (s : List Nat) :
    ewiseOr op cC cT ((i, y) :: r) (constRow (i :: s) x)
      = (i, op y x) :: ewiseOr op cC cT r (constRow s x) := by
  simp [ewiseOr]
theorem or_lt {i j : Nat} (y : γ) (r : Row γ) (s : List Nat) (h : i < j) :
    ewiseOr op cC cT ((i, y) :: r) (constRow (j :: s) x)
      = (i, cC y) :: ewiseOr op cC cT r (constRow (j :: s) x) := by
  rw [constRow_cons, ewiseOr, if_neg (by omega), if_pos h]
theorem or_gt {i j : Nat} (y : γ) (r : Row γ) (s : List Nat) (h : j < i) :
    ewiseOr op cC cT ((i, y) :: r) (constRow (j :: s) x)
      = (j, cT x) :: ewiseOr op cC cT ((i, y) :: r) (constRow s x) := by
  rw [constRow_cons, ewiseOr, if_neg (by omega), if_neg (by omega)]

theorem ewiseOr_first (c : Row γ) (l : List Nat) (hc : Sorted c) (i : Nat) :
    get (ewiseOr op cC cT c (constRow l x)) i
      = Spec.constRowAt cC (.some op cC cT) l x (get c i) i := by
  refine mergeInd (P := fun c l => get (ewiseOr op cC cT c (constRow l x)) i
      = Spec.constRowAt cC (.some op cC cT) l x (get c i) i) ?_ ?_ ?_ ?_ ?_ ?_ c l hc
  · simp [ewiseOr, Spec.constRowAt, Row.get]
  · intro i0 y0 r hc ih
    rw [or_nil_right, Row.get_cons, Row.get_cons, ih]
    by_cases h : i0 = i
    · simp [h, Spec.constRowAt, leads_nil]
    · simp [h]
  · intro j s ih
    rw [or_nil_left, Row.get_cons, ih]
    by_cases h : j = i
    · simp [h, Spec.constRowAt, Row.get]
    · simp [h, Ne.symm h, Spec.constRowAt, Row.get]
  · intro j y0 r s hc ih
    rw [or_eq, Row.get_cons, ih]
    by_cases h : j = i
    · subst h; simp [Spec.constRowAt, leads_cons, Row.get_cons]
    · rw [if_neg h]
      have e : get ((j, y0) :: r) i = get r i := by rw [Row.get_cons, if_neg h]
      rw [e]
      simp only [Spec.constRowAt]
      cases hg : get r i with
      | none => simp [Ne.symm h]
      | some y => simp only [lead_step hc (Nat.le_refl j) (Ne.symm h) (e.trans hg) (s := s)]
  · intro i0 y0 r j s hc hlt ih
    rw [or_lt _ _ _ _ _ _ _ hlt, Row.get_cons, ih, Row.get_cons]
    by_cases h : i0 = i
    · subst h
      have : j ≠ i0 := by omega
      simp [Spec.constRowAt, leads_cons, Nat.le_of_lt hlt, this]
    · rw [if_neg h, if_neg h]
  · intro i0 y0 r j s hc hlt ih
    rw [or_gt _ _ _ _ _ _ _ hlt, Row.get_cons, ih]
    by_cases h : j = i
    · subst h
      simp [get_cons_below hc hlt, Spec.constRowAt]
    · rw [if_neg h]
      simp only [Spec.constRowAt]
      cases hg : get ((i0, y0) :: r) i with
      | none => simp [Ne.symm h]
      | some y => simp only [lead_step hc (Nat.le_of_lt hlt) (Ne.symm h) hg (s := s)]

theorem last_cons (k : Nat) (y : α) (r : Row α) (i : Nat) :
    Row.last ((k, y) :: r) i = match Row.last r i with
      | some y => some y
      | none => if k = i then some y else none := rfl

theorem last_cons_ne {k : Nat} (y : α) (r : Row α) {i : Nat} (h : k ≠ i) :
    Row.last ((k, y) :: r) i = Row.last r i := by
  rw [last_cons, if_neg h]
  cases Row.last r i <;> rfl

theorem ewiseOr_last (c : Row γ) (l : List Nat) (hc : Sorted c) (i : Nat) :
    Row.last (ewiseOr op cC cT c (constRow l x)) i
      = Spec.constVecAt cC (.some op cC cT) l x (get c i) i := by
  refine mergeInd (P := fun c l => Row.last (ewiseOr op cC cT c (constRow l x)) i
      = Spec.constVecAt cC (.some op cC cT) l x (get c i) i) ?_ ?_ ?_ ?_ ?_ ?_ c l hc
  · simp [ewiseOr, Spec.constVecAt, Row.get, Row.last]
  · intro i0 y0 r hc ih
    rw [or_nil_right, last_cons, Row.get_cons, ih]
    by_cases h : i0 = i
    · subst h; simp [Spec.constVecAt, get_below_none hc (Nat.le_refl _)]
    · simp only [h, if_false]; cases hg : get r i <;> simp [Spec.constVecAt]
  · intro j s ih
    rw [or_nil_left, last_cons, ih]
    by_cases h : j = i
    · subst h; by_cases hs : j ∈ s <;> simp [Spec.constVecAt, Row.get, hs]
    · by_cases hs : i ∈ s <;> simp [h, Ne.symm h, Spec.constVecAt, Row.get, hs]
  · intro j y0 r s hc ih
    rw [or_eq]
    by_cases h : j = i
    · subst h
      rw [last_cons, ih]
      by_cases hs : j ∈ s
      · have : List.count j s ≠ 0 := by rw [Ne, List.count_eq_zero]; exact fun h => h hs
        simp [Spec.constVecAt, leads_cons, Row.get_cons, get_below_none hc (Nat.le_refl _), hs, this]
      · simp [Spec.constVecAt, leads_cons, Row.get_cons, get_below_none hc (Nat.le_refl _), hs,
          List.count_eq_zero.2 hs]
    · have e : get ((j, y0) :: r) i = get r i := by rw [Row.get_cons, if_neg h]
      rw [last_cons_ne _ _ h, ih, e]
      simp only [Spec.constVecAt]
      cases hg : get r i with
      | none => simp [Ne.symm h]
      | some y =>
        simp only [lead_step hc (Nat.le_refl j) (Ne.symm h) (e.trans hg) (s := s),
          List.count_cons_of_ne h, List.mem_cons, Ne.symm h, false_or]
  · intro i0 y0 r j s hc hlt ih
    rw [or_lt _ _ _ _ _ _ _ hlt, last_cons, ih, Row.get_cons]
    by_cases h : i0 = i
    · subst h
      have hj : j ≠ i0 := by omega
      by_cases hs : i0 ∈ j :: s
      · simp [Spec.constVecAt, leads_cons, Nat.le_of_lt hlt, hj, get_below_none hc (Nat.le_refl _), hs]
      · simp [Spec.constVecAt, leads_cons, Nat.le_of_lt hlt, hj, get_below_none hc (Nat.le_refl _), hs]
    · rw [if_neg h, if_neg h]
      split <;> simp_all
  · intro i0 y0 r j s hc hlt ih
    rw [or_gt _ _ _ _ _ _ _ hlt]
    by_cases h : j = i
    · subst h
      rw [last_cons, ih]
      by_cases hs : j ∈ s <;> simp [get_cons_below hc hlt, Spec.constVecAt, hs]
    · rw [last_cons_ne _ _ h, ih]
      simp only [Spec.constVecAt]
      cases hg : get ((i0, y0) :: r) i with
      | none => simp [Ne.symm h]
      | some y =>
        simp only [lead_step hc (Nat.le_of_lt hlt) (Ne.symm h) hg (s := s),
          List.count_cons_of_ne h, List.mem_cons, Ne.symm h, false_or]

/-- The indices of a row. -/
def Row.keys (r : Row α) : List Nat := r.map fun p => p.1

theorem keys_cons (k : Nat) (y : α) (r : Row α) : Row.keys ((k, y) :: r) = k :: Row.keys r := rfl

theorem mem_keys_iff (r : Row α) (i : Nat) : i ∈ Row.keys r ↔ get r i ≠ none := by
  induction r with
  | nil => simp [Row.keys, Row.get]
  | cons p r ih =>
    obtain ⟨k, y⟩ := p
    rw [keys_cons, Row.get_cons, List.mem_cons, ih]
    by_cases h : k = i
    · simp [h]
    · simp [h, Ne.symm h]

theorem mem_keys_or (c : Row γ) (l : List Nat) (hc : Sorted c) (i : Nat) :
    i ∈ Row.keys (ewiseOr op cC cT c (constRow l x)) ↔ get c i ≠ none ∨ i ∈ l := by
  rw [mem_keys_iff, ewiseOr_first _ _ _ _ _ _ hc]
  simp only [Spec.constRowAt]
  cases hg : get c i with
  | none => simp
  | some y => by_cases h : leads l i = true <;> simp [h]

theorem ewiseOr_nodup (c : Row γ) (l : List Nat) (hc : Sorted c) :
    (Row.keys (ewiseOr op cC cT c (constRow l x))).Nodup ↔
      l.Nodup ∧ ∀ i ∈ l, get c i ≠ none → leads l i = true := by
  refine mergeInd (P := fun c l => (Row.keys (ewiseOr op cC cT c (constRow l x))).Nodup ↔
      l.Nodup ∧ ∀ i ∈ l, get c i ≠ none → leads l i = true) ?_ ?_ ?_ ?_ ?_ ?_ c l hc
  · simp [ewiseOr, Row.keys]
  · intro i0 y0 r hc ih
    rw [or_nil_right, keys_cons, List.nodup_cons, ih, mem_keys_or _ _ _ _ _ _ (List.pairwise_cons.1 hc).2]
    simp [get_below_none hc (Nat.le_refl _)]
  · intro j s ih
    rw [or_nil_left, keys_cons, List.nodup_cons, ih, mem_keys_or _ _ _ _ _ _ List.Pairwise.nil]
    simp [Row.get]
  · intro j y0 r s hc ih
    rw [or_eq, keys_cons, List.nodup_cons, ih, mem_keys_or _ _ _ _ _ _ (List.pairwise_cons.1 hc).2,
      List.nodup_cons]
    simp only [get_below_none hc (Nat.le_refl _), ne_eq, not_true_eq_false, false_or]
    constructor
    · rintro ⟨h1, h2, h3⟩
      refine ⟨⟨h1, h2⟩, fun i hi hg => ?_⟩
      rcases List.mem_cons.1 hi with rfl | hi
      · simp [leads_cons]
      · have hne : i ≠ j := fun e => h1 (e ▸ hi)
        obtain ⟨y, hy⟩ := Option.ne_none_iff_exists'.1 hg
        rw [lead_step hc (Nat.le_refl _) hne hy]
        rw [Row.get_cons, if_neg (Ne.symm hne)] at hg
        exact h3 i hi hg
    · rintro ⟨⟨h1, h2⟩, h3⟩
      refine ⟨h1, h2, fun i hi hg => ?_⟩
      have hne : i ≠ j := fun e => h1 (e ▸ hi)
      have hg' : get ((j, y0) :: r) i ≠ none := by rw [Row.get_cons, if_neg (Ne.symm hne)]; exact hg
      obtain ⟨y, hy⟩ := Option.ne_none_iff_exists'.1 hg'
      rw [← lead_step hc (Nat.le_refl _) hne hy]
      exact h3 i (List.mem_cons_of_mem _ hi) hg'
  · intro i0 y0 r j s hc hlt ih
    rw [or_lt _ _ _ _ _ _ _ hlt, keys_cons, List.nodup_cons, ih,
      mem_keys_or _ _ _ _ _ _ (List.pairwise_cons.1 hc).2]
    simp only [get_below_none hc (Nat.le_refl _), ne_eq, not_true_eq_false, false_or]
    constructor
    · rintro ⟨h1, h2, h3⟩
      refine ⟨h2, fun i hi hg => h3 i hi ?_⟩
      rw [Row.get_cons, if_neg (fun e : i0 = i => h1 (e ▸ hi))] at hg
      exact hg
    · rintro ⟨h2, h3⟩
      refine ⟨fun hi => ?_, h2, fun i hi hg => h3 i hi ?_⟩
      · have := h3 i0 hi (by simp [Row.get_cons])
        rw [leads_cons, if_pos (Nat.le_of_lt hlt)] at this
        simp at this; omega
      · rw [Row.get_cons]; split <;> simp_all
  · intro i0 y0 r j s hc hlt ih
    rw [or_gt _ _ _ _ _ _ _ hlt, keys_cons, List.nodup_cons, ih, mem_keys_or _ _ _ _ _ _ hc,
      List.nodup_cons]
    simp only [get_cons_below hc hlt, ne_eq, not_true_eq_false, false_or]
    constructor
    · rintro ⟨h1, h2, h3⟩
      refine ⟨⟨h1, h2⟩, fun i hi hg => ?_⟩
      rcases List.mem_cons.1 hi with rfl | hi
      · exact absurd (get_cons_below hc hlt) hg
      · obtain ⟨y, hy⟩ := Option.ne_none_iff_exists'.1 hg
        rw [lead_step hc (Nat.le_of_lt hlt) (fun e => h1 (e ▸ hi)) hy]
        exact h3 i hi hg
    · rintro ⟨⟨h1, h2⟩, h3⟩
      refine ⟨h1, h2, fun i hi hg => ?_⟩
      obtain ⟨y, hy⟩ := Option.ne_none_iff_exists'.1 hg
      rw [← lead_step hc (Nat.le_of_lt hlt) (fun e => h1 (e ▸ hi)) hy]
      exact h3 i (List.mem_cons_of_mem _ hi) hg

theorem ewiseOr_sub (c : Row γ) (l : List Nat) (hc : Sorted c) :
    l.Sublist (Row.keys (ewiseOr op cC cT c (constRow l x))) := by
  refine mergeInd (P := fun c l => l.Sublist (Row.keys (ewiseOr op cC cT c (constRow l x))))
    ?_ ?_ ?_ ?_ ?_ ?_ c l hc
  · simp
  · intros; simp
  · intro j s ih; rw [or_nil_left, keys_cons]; exact ih.cons_cons _
  · intro j y0 r s hc ih; rw [or_eq, keys_cons]; exact ih.cons_cons _
  · intro i0 y0 r j s hc hlt ih; rw [or_lt _ _ _ _ _ _ _ hlt, keys_cons]; exact ih.cons _
  · intro i0 y0 r j s hc hlt ih; rw [or_gt _ _ _ _ _ _ _ hlt, keys_cons]; exact ih.cons_cons _

end merge

section stencil
variable (cC : γ → ζ) (cT : τ → ζ) (x : τ) (st : Idx)

theorem st_nil_right (i : Nat) (y : γ) (r : Row γ) :
    ewiseOrStencil cC cT st ((i, y) :: r) (constRow [] x) =
      if searchIndices st i then ewiseOrStencil cC cT st r (constRow [] x)
      else (i, cC y) :: ewiseOrStencil cC cT st r (constRow [] x) := by
  cases h : searchIndices st i <;> simp [ewiseOrStencil, h]
theorem st_nil_left (j : Nat) (s : List Nat) :
    ewiseOrStencil cC cT st [] (constRow (j :: s) x)
      = (j, cT x) :: ewiseOrStencil cC cT st [] (constRow s x) := by
  simp [ewiseOrStencil]
theorem st_eq (i : Nat) (y : γ) (r : Row γ) (s : List Nat) :
    ewiseOrStencil cC cT st ((i, y) :: r) (constRow (i :: s) x)
      = (i, cT x) :: ewiseOrStencil cC cT st r (constRow s x) := by
  simp [ewiseOrStencil]
theorem st_lt {i j : Nat} (y : γ) (r : Row γ) (s : List Nat) (h : i < j) :
    ewiseOrStencil cC cT st ((i, y) :: r) (constRow (j :: s) x) =
      if searchIndices st i then ewiseOrStencil cC cT st r (constRow (j :: s) x)
      else (i, cC y) :: ewiseOrStencil cC cT st r (constRow (j :: s) x) := by
  rw [constRow_cons, ewiseOrStencil, if_neg (by omega), if_pos h]
  cases searchIndices st i <;> simp
theorem st_gt {i j : Nat} (y : γ) (r : Row γ) (s : List Nat) (h : j < i) :
    ewiseOrStencil cC cT st ((i, y) :: r) (constRow (j :: s) x)
      = (j, cT x) :: ewiseOrStencil cC cT st ((i, y) :: r) (constRow s x) := by
  rw [constRow_cons, ewiseOrStencil, if_neg (by omega), if_neg (by omega)]

/-- The value of position `i` after a merge under a stencil. -/
def stAt (l : List Nat) (c : Option γ) (i : Nat) : Option ζ :=
  if i ∈ l then some (cT x) else if searchIndices st i then none else c.map cC

theorem stencil_both (c : Row γ) (l : List Nat) (hc : Sorted c)
    (hl : ∀ j ∈ l, searchIndices st j = true) (i : Nat) :
    get (ewiseOrStencil cC cT st c (constRow l x)) i = stAt cC cT x st l (get c i) i ∧
    Row.last (ewiseOrStencil cC cT st c (constRow l x)) i = stAt cC cT x st l (get c i) i := by
  refine mergeInd (P := fun c l => (∀ j ∈ l, searchIndices st j = true) →
    get (ewiseOrStencil cC cT st c (constRow l x)) i = stAt cC cT x st l (get c i) i ∧
    Row.last (ewiseOrStencil cC cT st c (constRow l x)) i = stAt cC cT x st l (get c i) i)
    ?_ ?_ ?_ ?_ ?_ ?_ c l hc hl
  · intro _; simp [ewiseOrStencil, stAt, Row.get, Row.last]
  · intro i0 y0 r hc ih hl
    obtain ⟨h1, h2⟩ := ih hl
    rw [st_nil_right]
    by_cases hs : searchIndices st i0 = true
    · rw [if_pos hs, h1, h2, Row.get_cons]
      by_cases h : i0 = i
      · subst h; simp [stAt, hs]
      · simp [h]
    · rw [if_neg hs, Row.get_cons, Row.get_cons, h1]
      by_cases h : i0 = i
      · subst h
        rw [last_cons, h2, get_below_none hc (Nat.le_refl _)]
        simp [stAt, hs]
      · rw [last_cons_ne _ _ h, h2]; simp [h]
  · intro j s ih hl
    obtain ⟨h1, h2⟩ := ih (fun k hk => hl k (List.mem_cons_of_mem _ hk))
    rw [st_nil_left, Row.get_cons, h1]
    by_cases h : j = i
    · subst h
      rw [last_cons, h2]
      by_cases hs : j ∈ s <;> simp [stAt, hs, hl j (List.mem_cons_self ..)]
    · rw [last_cons_ne _ _ h, h2]
      simp [stAt, h, Ne.symm h]
  · intro j y0 r s hc ih hl
    obtain ⟨h1, h2⟩ := ih (fun k hk => hl k (List.mem_cons_of_mem _ hk))
    rw [st_eq, Row.get_cons, Row.get_cons, h1]
    by_cases h : j = i
    · subst h
      rw [last_cons, h2]
      by_cases hs : j ∈ s <;> simp [stAt, hs, hl j (List.mem_cons_self ..)]
    · rw [last_cons_ne _ _ h, h2]
      simp [stAt, h, Ne.symm h]
  · intro i0 y0 r j s hc hlt ih hl
    obtain ⟨h1, h2⟩ := ih hl
    rw [st_lt _ _ _ _ _ _ _ hlt]
    by_cases hs : searchIndices st i0 = true
    · rw [if_pos hs, h1, h2, Row.get_cons]
      by_cases h : i0 = i
      · subst h; simp [stAt, hs]
      · simp [h]
    · rw [if_neg hs, Row.get_cons, Row.get_cons, h1]
      by_cases h : i0 = i
      · subst h
        have hn : i0 ∉ j :: s := fun hi => hs (hl _ hi)
        rw [last_cons, h2, get_below_none hc (Nat.le_refl _)]
        simp only [stAt, if_neg hn, if_neg hs]
        simp
      · rw [last_cons_ne _ _ h, h2]; simp [h]
  · intro i0 y0 r j s hc hlt ih hl
    obtain ⟨h1, h2⟩ := ih (fun k hk => hl k (List.mem_cons_of_mem _ hk))
    rw [st_gt _ _ _ _ _ _ _ hlt, Row.get_cons, h1]
    by_cases h : j = i
    · subst h
      rw [last_cons, h2]
      by_cases hs : j ∈ s <;> simp [stAt, hs, hl j (List.mem_cons_self ..)]
    · rw [last_cons_ne _ _ h, h2]
      simp [stAt, h, Ne.symm h]

theorem mem_keys_st (c : Row γ) (l : List Nat) (hc : Sorted c)
    (hl : ∀ j ∈ l, searchIndices st j = true) (i : Nat) :
    i ∈ Row.keys (ewiseOrStencil cC cT st c (constRow l x)) ↔
      i ∈ l ∨ (searchIndices st i = false ∧ get c i ≠ none) := by
  rw [mem_keys_iff, (stencil_both _ _ _ _ _ _ hc hl _).1]
  unfold stAt
  by_cases h : i ∈ l
  · simp [h]
  · cases hs : searchIndices st i <;> simp [h]

theorem stencil_nodup (c : Row γ) (l : List Nat) (hc : Sorted c)
    (hl : ∀ j ∈ l, searchIndices st j = true) :
    (Row.keys (ewiseOrStencil cC cT st c (constRow l x))).Nodup ↔ l.Nodup := by
  refine mergeInd (P := fun c l => (∀ j ∈ l, searchIndices st j = true) →
    ((Row.keys (ewiseOrStencil cC cT st c (constRow l x))).Nodup ↔ l.Nodup)) ?_ ?_ ?_ ?_ ?_ ?_ c l hc hl
  · intro _; simp [ewiseOrStencil, Row.keys]
  · intro i0 y0 r hc ih hl
    rw [st_nil_right]
    split
    · exact ih hl
    · rw [keys_cons, List.nodup_cons, ih hl, mem_keys_st _ _ _ _ _ _ (List.pairwise_cons.1 hc).2 hl]
      simp [get_below_none hc (Nat.le_refl _)]
  · intro j s ih hl
    have hl' := fun k hk => hl k (List.mem_cons_of_mem j hk)
    rw [st_nil_left, keys_cons, List.nodup_cons, ih hl', mem_keys_st _ _ _ _ _ _ List.Pairwise.nil hl']
    simp [Row.get]
  · intro j y0 r s hc ih hl
    have hl' := fun k hk => hl k (List.mem_cons_of_mem j hk)
    rw [st_eq, keys_cons, List.nodup_cons, ih hl',
      mem_keys_st _ _ _ _ _ _ (List.pairwise_cons.1 hc).2 hl']
    simp [hl j (List.mem_cons_self ..)]
  · intro i0 y0 r j s hc hlt ih hl
    rw [st_lt _ _ _ _ _ _ _ hlt]
    split
    · exact ih hl
    · rename_i hs
      have hn : i0 ∉ j :: s := fun hi => hs (hl _ hi)
      rw [keys_cons, List.nodup_cons, ih hl, mem_keys_st _ _ _ _ _ _ (List.pairwise_cons.1 hc).2 hl]
      simp only [get_below_none hc (Nat.le_refl _), hn]
      simp
  · intro i0 y0 r j s hc hlt ih hl
    have hl' := fun k hk => hl k (List.mem_cons_of_mem j hk)
    rw [st_gt _ _ _ _ _ _ _ hlt, keys_cons, List.nodup_cons, ih hl', mem_keys_st _ _ _ _ _ _ hc hl']
    simp [hl j (List.mem_cons_self ..)]

theorem stencil_sub (c : Row γ) (l : List Nat) (hc : Sorted c) :
    l.Sublist (Row.keys (ewiseOrStencil cC cT st c (constRow l x))) := by
  refine mergeInd (P := fun c l => l.Sublist (Row.keys (ewiseOrStencil cC cT st c (constRow l x))))
    ?_ ?_ ?_ ?_ ?_ ?_ c l hc
  · simp
  · intros; simp
  · intro j s ih; rw [st_nil_left, keys_cons]; exact ih.cons_cons _
  · intro j y0 r s hc ih; rw [st_eq, keys_cons]; exact ih.cons_cons _
  · intro i0 y0 r j s hc hlt ih
    rw [st_lt _ _ _ _ _ _ _ hlt]
    split
    · exact ih
    · rw [keys_cons]; exact ih.cons _
  · intro i0 y0 r j s hc hlt ih; rw [st_gt _ _ _ _ _ _ _ hlt, keys_cons]; exact ih.cons_cons _

end stencil
/-! ### records -/

/-- The elements whose index exceeds those of all elements before, from `b` on. -/
def Row.recs : Nat → Row α → Row α
  | _, [] => []
  | b, (i, y) :: z => if b ≤ i then (i, y) :: Row.recs (i + 1) z else Row.recs b z

/-- The same for a list of indices. -/
def leadList : Nat → List Nat → List Nat
  | _, [] => []
  | b, j :: s => if b ≤ j then j :: leadList (j + 1) s else leadList b s

theorem recs_const (x : τ) (l : List Nat) : ∀ b, Row.recs b (constRow l x) = constRow (leadList b l) x := by
  induction l with
  | nil => intro b; rfl
  | cons j s ih =>
    intro b
    rw [constRow_cons, Row.recs, leadList]
    split
    · rw [ih, constRow_cons]
    · exact ih b

theorem mem_leadList (l : List Nat) (i : Nat) :
    ∀ b, i ∈ leadList b l ↔ b ≤ i ∧ leads l i = true := by
  induction l with
  | nil => intro b; simp [leadList, leads_nil]
  | cons j s ih =>
    intro b
    rw [leadList, leads_cons]
    split
    · rw [List.mem_cons, ih]
      by_cases h : i ≤ j
      · rw [if_pos h]
        constructor
        · rintro (h' | h')
          · subst h'; simp; omega
          · omega
        · rintro ⟨_, h'⟩; simp at h'; exact Or.inl h'.symm
      · rw [if_neg h]
        constructor
        · rintro (h' | h')
          · omega
          · exact ⟨by omega, h'.2⟩
        · rintro ⟨_, h'⟩; exact Or.inr ⟨by omega, h'⟩
    · rw [ih]
      constructor
      · rintro ⟨h1, h2⟩; rw [if_neg (by omega)]; exact ⟨h1, h2⟩
      · rintro ⟨h1, h2⟩; rw [if_neg (by omega)] at h2; exact ⟨h1, h2⟩

theorem leadList_asc (l : List Nat) : ∀ b, (leadList b l).Pairwise (· < ·) := by
  induction l with
  | nil => intro b; exact List.Pairwise.nil
  | cons j s ih =>
    intro b
    rw [leadList]
    split
    · refine List.pairwise_cons.2 ⟨fun k hk => ?_, ih _⟩
      have := (mem_leadList s k (j + 1)).1 hk
      omega
    · exact ih b

theorem or_recs (op : γ → τ → ζ) (cC : γ → ζ) (cT : τ → ζ) (x : τ) (c : Row γ) (l : List Nat)
    (hc : Sorted c) : ∀ b, (∀ p ∈ c, b ≤ p.1) →
    Row.recs b (ewiseOr op cC cT c (constRow l x)) = ewiseOr op cC cT c (constRow (leadList b l) x) := by
  have key : ∀ {i0 : Nat} {y0 : γ} {r : Row γ}, Sorted ((i0, y0) :: r) → ∀ p ∈ r, i0 + 1 ≤ p.1 :=
    fun hc p hp => by have := (List.pairwise_cons.1 hc).1 p hp; simp only at this; omega
  refine mergeInd (P := fun c l => ∀ b, (∀ p ∈ c, b ≤ p.1) →
    Row.recs b (ewiseOr op cC cT c (constRow l x)) = ewiseOr op cC cT c (constRow (leadList b l) x))
    ?_ ?_ ?_ ?_ ?_ ?_ c l hc
  · intro b _; simp [leadList, ewiseOr, Row.recs]
  · intro i0 y0 r hc ih b hb
    have h0 := hb _ (List.mem_cons_self ..)
    have := ih (i0 + 1) (key hc)
    simp only [leadList] at this ⊢
    rw [or_nil_right, Row.recs, if_pos h0, this]
  · intro j s ih b hb
    rw [or_nil_left, Row.recs, leadList]
    split
    · rw [ih _ (by simp), or_nil_left]
    · exact ih _ hb
  · intro j y0 r s hc ih b hb
    have h0 := hb _ (List.mem_cons_self ..)
    simp only at h0
    rw [or_eq, Row.recs, if_pos h0, leadList, if_pos h0, or_eq, ih _ (key hc)]
  · intro i0 y0 r j s hc hlt ih b hb
    have h0 := hb _ (List.mem_cons_self ..)
    simp only at h0
    have e : leadList b (j :: s) = leadList (i0 + 1) (j :: s) := by
      rw [leadList, leadList, if_pos (by omega), if_pos (by omega)]
    rw [or_lt _ _ _ _ _ _ _ hlt, Row.recs, if_pos h0, ih _ (key hc), e, leadList, if_pos (by omega),
      or_lt _ _ _ _ _ _ _ hlt]
  · intro i0 y0 r j s hc hlt ih b hb
    rw [or_gt _ _ _ _ _ _ _ hlt, Row.recs, leadList]
    split
    · rw [or_gt _ _ _ _ _ _ _ hlt, ih]
      intro p hp
      rcases List.mem_cons.1 hp with rfl | hp
      · exact hlt
      · have := key hc p hp; omega
    · exact ih _ hb

theorem st_recs (cC : γ → ζ) (cT : τ → ζ) (x : τ) (st : Idx) (c : Row γ) (l : List Nat)
    (hc : Sorted c) : ∀ b, (∀ p ∈ c, b ≤ p.1) →
    Row.recs b (ewiseOrStencil cC cT st c (constRow l x))
      = ewiseOrStencil cC cT st c (constRow (leadList b l) x) := by
  have key : ∀ {i0 : Nat} {y0 : γ} {r : Row γ}, Sorted ((i0, y0) :: r) → ∀ p ∈ r, i0 + 1 ≤ p.1 :=
    fun hc p hp => by have := (List.pairwise_cons.1 hc).1 p hp; simp only at this; omega
  refine mergeInd (P := fun c l => ∀ b, (∀ p ∈ c, b ≤ p.1) →
    Row.recs b (ewiseOrStencil cC cT st c (constRow l x))
      = ewiseOrStencil cC cT st c (constRow (leadList b l) x))
    ?_ ?_ ?_ ?_ ?_ ?_ c l hc
  · intro b _; simp [leadList, ewiseOrStencil, Row.recs]
  · intro i0 y0 r hc ih b hb
    have h0 := hb _ (List.mem_cons_self ..)
    have h1 := ih (i0 + 1) (key hc)
    have h2 := ih b (fun p hp => hb p (List.mem_cons_of_mem _ hp))
    simp only [leadList] at h1 h2 ⊢
    rw [st_nil_right]
    split
    · exact h2
    · rw [Row.recs, if_pos h0, h1]
  · intro j s ih b hb
    rw [st_nil_left, Row.recs, leadList]
    split
    · rw [ih _ (by simp), st_nil_left]
    · exact ih _ hb
  · intro j y0 r s hc ih b hb
    have h0 := hb _ (List.mem_cons_self ..)
    simp only at h0
    rw [st_eq, Row.recs, if_pos h0, leadList, if_pos h0, st_eq, ih _ (key hc)]
  · intro i0 y0 r j s hc hlt ih b hb
    have h0 := hb _ (List.mem_cons_self ..)
    simp only at h0
    have e : leadList b (j :: s) = leadList (i0 + 1) (j :: s) := by
      rw [leadList, leadList, if_pos (by omega), if_pos (by omega)]
    have h1 := ih (i0 + 1) (key hc)
    have h2 := ih b (fun p hp => hb p (List.mem_cons_of_mem _ hp))
    have e' : leadList b (j :: s) = j :: leadList (j + 1) s := by rw [leadList, if_pos (by omega)]
    rw [← e] at h1
    rw [e'] at h1 h2 ⊢
    rw [st_lt _ _ _ _ _ _ _ hlt, st_lt _ _ _ _ _ _ _ hlt]
    split
    · exact h2
    · rw [Row.recs, if_pos h0, h1]
  · intro i0 y0 r j s hc hlt ih b hb
    rw [st_gt _ _ _ _ _ _ _ hlt, Row.recs, leadList]
    split
    · rw [st_gt _ _ _ _ _ _ _ hlt, ih]
      intro p hp
      rcases List.mem_cons.1 hp with rfl | hp
      · exact hlt
      · have := key hc p hp; omega
    · exact ih _ hb

theorem dropBelow_recs (m : Nat) (z : Row α) : ∀ b, b ≤ m →
    dropBelow m (Row.recs b z) = Row.recs m (dropBelow m z) := by
  induction z with
  | nil => intro b _; rfl
  | cons p z ih =>
    obtain ⟨i, y⟩ := p
    intro b hb
    have hd : ∀ w : Row α, dropBelow m ((i, y) :: w) = if i < m then dropBelow m w else (i, y) :: w := by
      intro w; simp only [dropBelow, List.dropWhile_cons]; by_cases h : i < m <;> simp [h]
    rw [hd, Row.recs]
    by_cases h : i < m
    · rw [if_pos h]
      split
      · rw [hd, if_pos h]; exact ih _ (by omega)
      · exact ih _ hb
    · rw [if_neg h, if_pos (by omega), hd, if_neg h, Row.recs, if_pos (by omega)]

theorem headIs_recs (m : Nat) (z : Row α) : headIs m (Row.recs m (dropBelow m z)) = headIs m (dropBelow m z) := by
  induction z with
  | nil => rfl
  | cons p z ih =>
    obtain ⟨i, y⟩ := p
    have hd : dropBelow m ((i, y) :: z) = if i < m then dropBelow m z else (i, y) :: z := by
      simp only [dropBelow, List.dropWhile_cons]; by_cases h : i < m <;> simp [h]
    rw [hd]
    split
    · exact ih
    · rw [Row.recs, if_pos (by omega)]
      rfl

/-- A masked write reads only the records of its source. -/
theorem applyWithMask_recs (truthy : ν → Bool) (castZ : ζ → γ) (outp : Outp) (m : Row ν) (hm : Sorted m) :
    ∀ (c : Row γ) (z : Row ζ) (b : Nat), (∀ p ∈ m, b ≤ p.1) →
      applyWithMask truthy castZ outp c (Row.recs b z) m = applyWithMask truthy castZ outp c z m := by
  induction m with
  | nil => intro c z b _; cases outp <;> simp [applyWithMask]
  | cons p m ih =>
    obtain ⟨mi, mv⟩ := p
    intro c z b hb
    obtain ⟨h1, h2⟩ := List.pairwise_cons.1 hm
    have hbm := hb _ (List.mem_cons_self ..)
    have h3 : ∀ p ∈ m, mi ≤ p.1 := fun p hp => Nat.le_of_lt (h1 p hp)
    rw [awm_cons, awm_cons]
    split
    · exact ih h2 c z b fun p hp => hb p (List.mem_cons_of_mem _ hp)
    · rw [dropBelow_recs mi z b hbm, headIs_recs, ih h2 _ _ mi h3]

/-! ### setContents of any list -/

namespace BVec

theorem countBits_set_same {bs : List Bool} {k : Nat} (h : bs[k]? = some true) :
    bs.set k true = bs := by
  apply List.ext_getElem?
  intro i
  rw [List.getElem?_set]
  by_cases e : k = i
  · subst e
    have : k < bs.length := by
      by_cases hlt : k < bs.length
      · exact hlt
      · rw [List.getElem?_eq_none (by omega)] at h; cases h
    rw [if_pos rfl, if_pos this, h]
  · simp [e]

theorem setContentsLoop_any (cast : β → α) (ts : Row β) (v : BVec α) (hl : v.vals.length = v.size)
    (hb : v.bitmap.length = v.size) (hr : ∀ p ∈ ts, p.1 < v.size) (hn : countBits v.bitmap ≤ v.nvals) :
    ∃ w, setContentsLoop cast ts v = .ok w ∧ w.vals.length = w.size ∧ w.bitmap.length = w.size ∧
      w.size = v.size ∧ w.nvals = v.nvals + ts.length ∧
      (∀ i, w.get i = match Row.last ts i with | some x => some (cast x) | none => v.get i) ∧
      countBits w.bitmap ≤ w.nvals ∧
      (w.nvals = countBits w.bitmap ↔ v.nvals = countBits v.bitmap ∧ (Row.keys ts).Nodup ∧
        ∀ k ∈ Row.keys ts, v.get k = none) := by
  induction ts generalizing v with
  | nil => exact ⟨v, rfl, hl, hb, rfl, rfl, fun i => rfl, hn, by simp [Row.keys]⟩
  | cons p ts ih =>
    obtain ⟨k, x⟩ := p
    have hk : k < v.size := hr _ (List.mem_cons_self ..)
    have hkb : k < v.bitmap.length := by omega
    have hkv : k < v.vals.length := by omega
    let v1 : BVec α := { v with bitmap := v.bitmap.set k true, vals := v.vals.set k (cast x),
                                nvals := v.nvals + 1 }
    have hg1 : ∀ i, v1.get i = if i = k then some (cast x) else v.get i := by
      intro i
      simp only [v1, get, List.getElem?_set]
      by_cases h : k = i
      · subst h; simp [hkb, hkv]
      · simp [h, Ne.symm h]
    have hbit := bit_eq hl hb hk
    have hcnt : countBits v1.bitmap = countBits v.bitmap + (if v.get k = none then 1 else 0) := by
      cases hg : v.get k with
      | none => rw [hg] at hbit; simp only [v1, if_true]; exact countBits_set_true hbit
      | some y =>
        rw [hg] at hbit
        simp only [v1, countBits_set_same hbit]
        simp
    have hn1 : countBits v1.bitmap ≤ v1.nvals := by
      rw [hcnt]; simp only [v1]; split <;> omega
    obtain ⟨w, hw, a1, a2, a3, a4, a5, a6, a7⟩ := ih v1 (by simp [v1, hl]) (by simp [v1, hb])
      (fun p hp => hr p (List.mem_cons_of_mem _ hp)) hn1
    refine ⟨w, ?_, a1, a2, a3, ?_, ?_, a6, ?_⟩
    · rw [setContentsLoop, wr_ok hkb, Except.bind_ok', wr_ok hkv, Except.bind_ok']
      exact hw
    · rw [a4]; simp only [v1, List.length_cons]; omega
    · intro i
      rw [a5 i, last_cons, hg1]
      cases Row.last ts i with
      | some y => rfl
      | none =>
        by_cases h : k = i
        · simp [h]
        · simp [h, Ne.symm h]
    · rw [a7, keys_cons, List.nodup_cons, hcnt]
      have e1 : v1.nvals = v.nvals + 1 := rfl
      rw [e1]
      constructor
      · rintro ⟨b1, b2, b3⟩
        have hk0 : v.get k = none := by
          apply Classical.byContradiction; intro h; rw [if_neg h] at b1; omega
        rw [if_pos hk0] at b1
        refine ⟨by omega, ⟨fun hmem => ?_, b2⟩, fun j hj => ?_⟩
        · have := b3 k hmem
          rw [hg1] at this; simp at this
        · rcases List.mem_cons.1 hj with rfl | hj
          · exact hk0
          · have := b3 j hj
            rw [hg1] at this
            split at this
            · cases this
            · exact this
      · rintro ⟨b1, ⟨b2, b3⟩, b4⟩
        rw [if_pos (b4 k (List.mem_cons_self ..))]
        refine ⟨by omega, b3, fun j hj => ?_⟩
        rw [hg1, if_neg (fun e : j = k => b2 (e ▸ hj))]
        exact b4 j (List.mem_cons_of_mem _ hj)

theorem setContents_any {v : BVec α} (hl : v.vals.length = v.size) (cast : β → α) {ts : Row β}
    (hr : ∀ p ∈ ts, p.1 < v.size) :
    ∃ w, v.setContents cast ts = .ok w ∧ w.size = v.size ∧ w.nvals = ts.length ∧
      (∀ i, w.get i = (Row.last ts i).map cast) ∧ (w.WF ↔ (Row.keys ts).Nodup) := by
  have hc := clear_wf (v := v) hl
  obtain ⟨w, hw, a1, a2, a3, a4, a5, a6, a7⟩ := setContentsLoop_any cast ts v.clear hc.vlen hc.blen hr
    (by rw [hc.count]; exact Nat.le_refl _)
  refine ⟨w, hw, a3, ?_, fun i => ?_, ?_⟩
  · rw [a4]; simp [clear]
  · rw [a5, get_clear]; cases Row.last ts i <;> rfl
  · constructor
    · exact fun h => (a7.1 h.count).2.1
    · exact fun h => ⟨a1, a2, a7.2 ⟨hc.count, h, fun k _ => get_clear v k⟩⟩

end BVec
/-! ### matrices with rows in any order -/

/-- As many rows as the shape says, and the counter is the number of elements. -/
structure Lil.Counted (A : Lil α) : Prop where
  len : A.rows.length = A.nrows
  count : A.nvals = (A.rows.map List.length).sum

theorem Lil.WF.counted {A : Lil α} (h : A.WF) : A.Counted := ⟨h.len, h.count⟩

theorem Lil.Counted.setRow {A : Lil α} (hA : A.Counted) {i : Nat} (hi : i < A.nrows) (c : β → α)
    (r : Row β) :
    ∃ B, A.setRow i c r = .ok B ∧ B.Counted ∧ B.nrows = A.nrows ∧ B.ncols = A.ncols ∧
      ∀ k, B.rowD k = if k = i then r.cast c else A.rowD k := by
  have hi' : i < A.rows.length := by rw [hA.len]; exact hi
  refine ⟨{ A with rows := A.rows.set i (r.cast c),
                   nvals := A.nvals + r.length - (A.rowD i).length }, ?_, ⟨?_, ?_⟩, rfl, rfl, ?_⟩
  · simp [Lil.setRow, Lil.row_ok hi', wr_ok hi']
  · simp [hA.len]
  · have := Lil.len_sum_set A.rows i (r.cast c) hi'
    have h2 := Lil.length_le_sum A.rows i hi'
    simp only [Row.cast_length] at this
    simp only [hA.count, Lil.rowD_of_lt hi']
    omega
  · intro k
    exact Lil.rowD_set hi' rfl

/-- A loop over the rows that stores `f i` in row `i`. -/
theorem Lil.Counted.rowLoop {Z : Lil α} (hZ : Z.Counted) (f : Nat → Row α)
    {body : Nat → Lil α → Except Err (Lil α)}
    (hbody : ∀ i Z', i < Z.nrows → Z'.Counted → Z'.nrows = Z.nrows → Z'.rowD i = Z.rowD i →
      body i Z' = Z'.setRow i id (f i) ∨ (f i = [] ∧ Z'.rowD i = [] ∧ body i Z' = .ok Z')) :
    ∃ Z', forN Z.nrows Z body = .ok Z' ∧ Z'.Counted ∧ Z'.nrows = Z.nrows ∧ Z'.ncols = Z.ncols ∧
      ∀ k, Z'.rowD k = if k < Z.nrows then f k else [] := by
  obtain ⟨Z', h1, h2, h3, h4, h5⟩ := forN_inv (body := body)
    (fun i Z' => Z'.Counted ∧ Z'.nrows = Z.nrows ∧ Z'.ncols = Z.ncols ∧
      ∀ k, Z'.rowD k = if k < i then f k else Z.rowD k) (n := Z.nrows) (s := Z)
    ⟨hZ, rfl, rfl, fun k => by simp⟩ (by
      rintro i Z' hi ⟨hw, hr, hc, hrow⟩
      have hself : Z'.rowD i = Z.rowD i := by rw [hrow, if_neg (Nat.lt_irrefl _)]
      rcases hbody i Z' hi hw hr hself with e | ⟨e1, e2, e⟩
      · obtain ⟨B, e', hB, hBr, hBc, hBrow⟩ := hw.setRow (i := i) (by omega) id (f i)
        refine ⟨B, by rw [e, e'], hB, by omega, by omega, ?_⟩
        intro k
        rw [hBrow, hrow, Row.cast_id]
        by_cases hk : k = i
        · subst hk; rw [if_pos rfl, if_pos (by omega)]
        · rw [if_neg hk]
          by_cases hk2 : k < i
          · rw [if_pos hk2, if_pos (by omega)]
          · rw [if_neg hk2, if_neg (by omega)]
      · refine ⟨Z', e, hw, hr, hc, fun k => ?_⟩
        by_cases hk : k = i
        · subst hk; rw [e2, if_pos (by omega), e1]
        · rw [hrow]
          by_cases hk2 : k < i
          · rw [if_pos hk2, if_pos (by omega)]
          · rw [if_neg hk2, if_neg (by omega)])
  refine ⟨Z', h1, h2, h3, h4, fun k => ?_⟩
  rw [h5]
  split
  · rfl
  · exact Lil.rowD_of_ge (by rw [hZ.len]; omega)

theorem constLoop_any (val : τ) (cols : List Nat) (is : List Nat) : ∀ T : Lil τ, T.Counted →
    (∀ i ∈ is, i < T.nrows) → (∀ i, T.rowD i = [] ∨ T.rowD i = constRow cols val) →
    ∃ T', assignConstLoop val cols is T = .ok T' ∧ T'.Counted ∧ T'.nrows = T.nrows ∧
      T'.ncols = T.ncols ∧ ∀ i, T'.rowD i = if i ∈ is then constRow cols val else T.rowD i := by
  induction is with
  | nil => intro T hT _ _; exact ⟨T, rfl, hT, rfl, rfl, fun i => by simp⟩
  | cons k is ih =>
    intro T hT hlt hinv
    have step : ∃ T1, setRowIf T k (constRow cols val) = .ok T1 ∧ T1.Counted ∧ T1.nrows = T.nrows ∧
        T1.ncols = T.ncols ∧ ∀ i, T1.rowD i = if i = k then constRow cols val else T.rowD i := by
      unfold setRowIf
      split
      · obtain ⟨T1, s1, s2, s3, s4, s5⟩ := hT.setRow (hlt k (List.mem_cons_self ..)) id (constRow cols val)
        exact ⟨T1, s1, s2, s3, s4, by simpa using s5⟩
      · rename_i he
        have he : constRow cols val = [] := by simpa using he
        refine ⟨T, rfl, hT, rfl, rfl, fun i => ?_⟩
        split
        · next e =>
          subst e
          rcases hinv i with h | h
          · rw [h, he]
          · exact h
        · rfl
    obtain ⟨T1, s1, s2, s3, s4, s5⟩ := step
    obtain ⟨T', t1, t2, t3, t4, t5⟩ := ih T1 s2 (fun i hi => by
        rw [s3]; exact hlt i (List.mem_cons_of_mem _ hi)) (fun i => by
        rw [s5]; split
        · exact Or.inr rfl
        · exact hinv i)
    refine ⟨T', ?_, t2, by omega, by omega, fun i => ?_⟩
    · rw [assignConstLoop]
      show (setRowIf T k (constRow cols val) >>= _) = _
      rw [s1]; exact t1
    · rw [t5, s5]
      by_cases h1 : i ∈ is
      · simp [h1]
      · by_cases h2 : i = k <;> simp [h1, h2]

/-- The row that a constant assignment to columns `cols` writes back, before the mask. -/
def constZ (keep : γ → ζ) (acc : Accum γ τ ζ) (x : τ) (ri ci cols : List Nat) (C : Lil γ) (i : Nat) : Row ζ :=
  match acc with
  | .some op cC cT => ewiseOr op cC cT (C.rowD i) (constRow (if i ∈ ri then cols else []) x)
  | .none cs => if i ∈ ri then ewiseOrStencil keep cs (.list ci) (C.rowD i) (constRow cols x)
      else Row.cast keep (C.rowD i)

theorem stencil_any {C : Lil γ} {T : Lil τ} (keep : γ → ζ) (ri ci cols : List Nat) (acc : Accum γ τ ζ)
    (x : τ) (hC : C.WFr) (hT : T.Counted) (hTr : T.nrows = C.nrows)
    (hrow : ∀ i, T.rowD i = constRow (if i ∈ ri then cols else []) x) :
    ∃ Z, ewiseOrStencilOptAccum keep (Lil.new C.nrows C.ncols) C T (.list ri) (.list ci) acc = .ok Z ∧
      Z.Counted ∧ Z.nrows = C.nrows ∧ Z.ncols = C.ncols ∧
      ∀ i, Z.rowD i = if i < C.nrows then constZ keep acc x ri ci cols C i else [] := by
  have hs : ∀ i, searchIndices (.list ri) i = decide (i ∈ ri) := by
    intro i; rw [Bool.eq_iff_iff]; simp [searchIndices]
  cases acc with
  | none cast =>
    refine (Lil.new_wf (α := ζ) C.nrows C.ncols).counted.rowLoop _ (fun i Z' hi _ _ _ => Or.inl ?_)
    have hi' : i < C.nrows := hi
    simp only [hC.row_ok hi', Lil.row_ok (show i < T.rows.length by rw [hT.len, hTr]; exact hi'),
      Except.bind_ok', hs, constZ, hrow, decide_eq_true_eq]
    split
    · rfl
    · exact Lil.setRow_cast ..
  | some op cC cT =>
    refine (Lil.new_wf (α := ζ) C.nrows C.ncols).counted.rowLoop _ (fun i Z' hi _ _ _ => Or.inl ?_)
    have hi' : i < C.nrows := hi
    simp only [hC.row_ok hi', Lil.row_ok (show i < T.rows.length by rw [hT.len, hTr]; exact hi'),
      Except.bind_ok', constZ, hrow]

/-- A masked matrix write reads only the records of its source's rows. -/
theorem writeMask_recs (truthy : μ → Bool) (castZ : ζ → γ) {C : Lil γ} {Z Z' : Lil ζ} (k : MaskKind)
    {M : Lil μ} (outp : Outp) (hM : M.WF) (hMr : M.nrows = C.nrows) (hZ : Z.Counted)
    (hZ' : Z'.Counted) (hr : Z.nrows = C.nrows) (hr' : Z'.nrows = C.nrows)
    (hrow : ∀ i, i < C.nrows → Z'.rowD i = Row.recs 0 (Z.rowD i)) :
    writeWithOptMask truthy castZ C Z (some (k, M)) outp
      = writeWithOptMask truthy castZ C Z' (some (k, M)) outp := by
  simp only [writeWithOptMask]
  refine forN_congr fun i C' hi => ?_
  rw [Lil.row_ok (show i < Z.rows.length by rw [hZ.len]; omega),
    Lil.row_ok (show i < Z'.rows.length by rw [hZ'.len]; omega), hrow i hi,
    hM.row_ok (show i < M.nrows by omega)]
  simp only [Except.bind_ok',
    applyWithMask_recs id castZ outp _ (maskRow_spec truthy k (hM.rowD_ok i).sorted).1 _ _ 0
      (fun _ _ => Nat.zero_le _)]

end GBTL

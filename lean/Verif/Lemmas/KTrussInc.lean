import Verif.Model.KTrussInc
import Verif.Props.KTruss
import Verif.Props.Mis
import Verif.Props.FordFulk
/-
Lists of edges and their incidence matrices.
-/
namespace GBTL
open Spec

variable {n : Nat} {t : ITy} {ov : Int → Int → Int} {es : List (Nat × Nat)} {E : Lil Int}

/-! ### sums -/

theorem sumTo_none {m : Nat} {f : Nat → Nat} (h : ∀ i, i < m → f i = 0) : sumTo m f = 0 := by
  rw [← sumTo_zero m]
  exact sumTo_congr h

theorem sumTo_one {m i : Nat} {f : Nat → Nat} (hi : i < m) (h : ∀ j, j < m → j ≠ i → f j = 0) :
    sumTo m f = f i := by
  induction m with
  | zero => omega
  | succ m ih =>
    rw [sumTo]
    by_cases hm : i = m
    · subst hm
      rw [sumTo_none fun j hj => h j (by omega) (by omega), Nat.zero_add]
    · rw [ih (by omega) fun j hj => h j (by omega), h m (by omega) (by omega)]
      rfl

theorem sumTo_pair {a b : Nat} (ha : a < n) (hb : b < n) (hab : a ≠ b) (g : Nat → Nat) :
    sumTo n (fun w => ind (decide (w = a ∨ w = b)) * g w) = g a + g b := by
  have h : ∀ w, ind (decide (w = a ∨ w = b)) * g w = ind (decide (w = a)) * g w + ind (decide (w = b)) * g w := by
    intro w
    by_cases h1 : w = a
    · subst h1
      simp [ind, hab]
    · by_cases h2 : w = b
      · subst h2
        simp [ind, h1]
      · simp [ind, h1, h2]
  rw [sumTo_congr fun w _ => h w, sumTo_add,
    sumTo_one (f := fun w => ind (decide (w = a)) * g w) ha (fun j _ hj => by simp [ind, hj]),
    sumTo_one (f := fun w => ind (decide (w = b)) * g w) hb (fun j _ hj => by simp [ind, hj])]
  simp [ind]

theorem ITy.minusT_eq {t : ITy} (ov : Int → Int → Int) {x y : Int} (hx : t.Has x) (hy : t.Has y)
    (hs : t.Has (x - y)) : t.minusT ov x y = x - y := by
  rw [ITy.minusT, run_minus hx hy hs]
  rfl

/-! ### lists of edges -/

/-- Vertex `v` is an end of edge `i`. -/
def inc (es : List (Nat × Nat)) (i v : Nat) : Bool :=
  match es[i]? with
  | some e => decide (v = e.1 ∨ v = e.2)
  | none => false

theorem adjOf_iff {u v : Nat} : adjOf es u v = true ↔ (u, v) ∈ es ∨ (v, u) ∈ es := by
  simp [adjOf]

theorem adjOf_symm (u v : Nat) : adjOf es u v = adjOf es v u := by
  rw [Bool.eq_iff_iff, adjOf_iff, adjOf_iff]
  exact Or.comm

theorem inc_some {i : Nat} {e : Nat × Nat} (h : es[i]? = some e) (v : Nat) :
    inc es i v = decide (v = e.1 ∨ v = e.2) := by
  unfold inc; rw [h]

/-- Two different edges of a simple graph do not have both ends in common. -/
theorem _root_.Spec.SimpleEdges.unique (hs : SimpleEdges n es) {i j u v : Nat} (huv : u ≠ v)
    (h1 : inc es i u = true) (h2 : inc es i v = true) (h3 : inc es j u = true) (h4 : inc es j v = true) :
    i = j := by
  unfold inc at h1 h2 h3 h4
  cases hi : es[i]? with
  | none => rw [hi] at h1; cases h1
  | some e =>
    cases hj : es[j]? with
    | none => rw [hj] at h3; cases h3
    | some f =>
      rw [hi] at h1 h2
      rw [hj] at h3 h4
      simp only [decide_eq_true_eq] at h1 h2 h3 h4
      obtain ⟨li, ei⟩ := List.getElem?_eq_some_iff.1 hi
      obtain ⟨lj, ej⟩ := List.getElem?_eq_some_iff.1 hj
      have key : ∀ a b (la : a < es.length) (lb : b < es.length), a < b →
          es[b] ≠ es[a] ∧ es[b] ≠ (es[a].2, es[a].1) := by
        intro a b la lb hab
        exact List.pairwise_iff_getElem.1 hs.distinct a b la lb hab
      rcases Nat.lt_trichotomy i j with h | h | h
      · have := key i j li lj h
        rw [ei, ej] at this
        exfalso
        obtain ⟨e1, e2⟩ := e
        obtain ⟨f1, f2⟩ := f
        simp only [ne_eq, Prod.mk.injEq] at this h1 h2 h3 h4
        omega
      · exact h
      · have := key j i lj li h
        rw [ei, ej] at this
        exfalso
        obtain ⟨e1, e2⟩ := e
        obtain ⟨f1, f2⟩ := f
        simp only [ne_eq, Prod.mk.injEq] at this h1 h2 h3 h4
        omega

/-- Two vertices are adjacent when an edge has both as its ends. -/
theorem adjOf_inc {u v : Nat} (huv : u ≠ v) :
    adjOf es u v = true ↔ ∃ i, i < es.length ∧ inc es i u = true ∧ inc es i v = true := by
  rw [adjOf_iff]
  constructor
  · rintro (h | h)
    · obtain ⟨i, hi, e⟩ := List.getElem_of_mem h
      refine ⟨i, hi, ?_⟩
      rw [inc_some (List.getElem?_eq_some_iff.2 ⟨hi, e⟩), inc_some (List.getElem?_eq_some_iff.2 ⟨hi, e⟩)]
      simp
    · obtain ⟨i, hi, e⟩ := List.getElem_of_mem h
      refine ⟨i, hi, ?_⟩
      rw [inc_some (List.getElem?_eq_some_iff.2 ⟨hi, e⟩), inc_some (List.getElem?_eq_some_iff.2 ⟨hi, e⟩)]
      simp
  · rintro ⟨i, hi, h1, h2⟩
    have hg : es[i]? = some es[i] := List.getElem?_eq_getElem hi
    rw [inc_some hg] at h1 h2
    have hm : es[i] ∈ es := List.getElem_mem hi
    have h1 := of_decide_eq_true h1
    have h2 := of_decide_eq_true h2
    have e : es[i] = (es[i].1, es[i].2) := rfl
    rcases h1 with h1 | h1 <;> rcases h2 with h2 | h2
    · omega
    · left; rw [h1, h2]; exact hm
    · right; rw [h1, h2]; exact hm
    · omega

/-- The number of edges between two vertices. -/
theorem count_edges (hs : SimpleEdges n es) {u v : Nat} (huv : u ≠ v) :
    sumTo es.length (fun i => ind (inc es i u) * ind (inc es i v)) = ind (adjOf es u v) := by
  cases h : adjOf es u v with
  | true =>
    obtain ⟨i, hi, h1, h2⟩ := (adjOf_inc huv).1 h
    rw [sumTo_one hi]
    · rw [h1, h2]; rfl
    · intro j hj hji
      rw [← ind_and]
      cases h3 : inc es j u <;> cases h4 : inc es j v <;> try rfl
      exact absurd (hs.unique huv h3 h4 h1 h2) hji
  | false =>
    refine sumTo_none fun i hi => ?_
    rw [← ind_and]
    cases h3 : inc es i u <;> cases h4 : inc es i v <;> try rfl
    have := (adjOf_inc huv).2 ⟨i, hi, h3, h4⟩
    rw [h] at this; cases this

/-! ### selecting edges -/

/-- The edges with the given numbers. -/
def sel (es : List (Nat × Nat)) (L : List Nat) : List (Nat × Nat) := L.map fun i => es.getD i (0, 0)

theorem getD_some {i : Nat} (h : i < es.length) : es[i]? = some (es.getD i (0, 0)) := by
  rw [List.getD_eq_getElem?_getD, List.getElem?_eq_getElem h]
  rfl

theorem inc_sel {L : List Nat} (hL : ∀ i ∈ L, i < es.length) {r i : Nat} (hr : L[r]? = some i) (v : Nat) :
    inc (sel es L) r v = inc es i v := by
  have hi : i < es.length := hL i (List.mem_of_getElem? hr)
  rw [inc_some (getD_some hi)]
  refine inc_some ?_ v
  rw [sel, List.getElem?_map, hr]
  rfl

theorem adjOf_sel {L : List Nat} (hL : ∀ i ∈ L, i < es.length) {u v : Nat} (huv : u ≠ v) :
    adjOf (sel es L) u v = true ↔ ∃ i, i ∈ L ∧ inc es i u = true ∧ inc es i v = true := by
  rw [adjOf_inc huv]
  constructor
  · rintro ⟨r, hr, h1, h2⟩
    rw [sel, List.length_map] at hr
    have e : L[r]? = some L[r] := List.getElem?_eq_getElem hr
    rw [inc_sel hL e] at h1 h2
    exact ⟨L[r], List.getElem_mem hr, h1, h2⟩
  · rintro ⟨i, hi, h1, h2⟩
    obtain ⟨r, hr, e⟩ := List.getElem_of_mem hi
    have e : L[r]? = some i := List.getElem?_eq_some_iff.2 ⟨hr, e⟩
    refine ⟨r, by rw [sel, List.length_map]; exact hr, ?_⟩
    rw [inc_sel hL e, inc_sel hL e]
    exact ⟨h1, h2⟩

theorem ascending_sublist : ∀ (d lo : Nat) (L : List Nat), L.Pairwise (· < ·) →
    (∀ i ∈ L, lo ≤ i ∧ i < lo + d) → L.Sublist (List.range' lo d) := by
  intro d
  induction d with
  | zero =>
    intro lo L _ h
    cases L with
    | nil => exact List.Sublist.refl _
    | cons a L => have := h a (by simp); omega
  | succ d ih =>
    intro lo L hp h
    rw [List.range'_succ]
    cases L with
    | nil => exact List.nil_sublist _
    | cons a L =>
      have ha := h a (by simp)
      rw [List.pairwise_cons] at hp
      by_cases e : a = lo
      · subst e
        refine List.Sublist.cons_cons _ (ih (a + 1) L hp.2 fun i hi => ?_)
        have := hp.1 i hi
        have := h i (by simp [hi])
        omega
      · refine List.Sublist.cons _ (ih (lo + 1) (a :: L) (List.pairwise_cons.2 hp) fun i hi => ?_)
        rcases List.mem_cons.1 hi with rfl | hi'
        · omega
        · have := hp.1 i hi'
          have := h i hi
          omega

theorem sublist_range {L : List Nat} {m : Nat} (hp : L.Pairwise (· < ·)) (h : ∀ i ∈ L, i < m) :
    L.Sublist (List.range m) := by
  rw [List.range_eq_range']
  exact ascending_sublist m 0 L hp fun i hi => ⟨Nat.zero_le _, by have := h i hi; omega⟩

theorem sel_range (es : List (Nat × Nat)) : sel es (List.range es.length) = es := by
  refine List.ext_getElem? fun i => ?_
  rw [sel, List.getElem?_map]
  by_cases h : i < es.length
  · rw [List.getElem?_range h, getD_some h]
    rfl
  · rw [List.getElem?_eq_none (by rw [List.length_range]; omega), List.getElem?_eq_none (by omega)]
    rfl

theorem sel_sublist {L : List Nat} (hp : L.Pairwise (· < ·)) (h : ∀ i ∈ L, i < es.length) :
    (sel es L).Sublist es := by
  have := (sublist_range hp h).map fun i => es.getD i (0, 0)
  rw [show (List.range es.length).map (fun i => es.getD i (0, 0)) = es from sel_range es] at this
  exact this

theorem _root_.Spec.SimpleEdges.sublist (hs : SimpleEdges n es) {fs : List (Nat × Nat)} (h : fs.Sublist es) :
    SimpleEdges n fs :=
  ⟨fun e he => hs.lt e (h.subset he), fun e he => hs.loopless e (h.subset he), hs.distinct.sublist h⟩

theorem adjOf_ne (hs : SimpleEdges n es) {u v : Nat} (h : adjOf es u v = true) : u ≠ v ∧ u < n ∧ v < n := by
  rcases adjOf_iff.1 h with h | h
  · have h1 := hs.loopless _ h
    have h2 := hs.lt _ h
    exact ⟨h1, h2.1, h2.2⟩
  · have h1 := hs.loopless _ h
    have h2 := hs.lt _ h
    exact ⟨Ne.symm h1, h2.2, h2.1⟩

/-- Splitting the edges in two. -/
theorem adjOf_split (hs : SimpleEdges n es) {L M : List Nat} (hL : L.Pairwise (· < ·)) (hM : M.Pairwise (· < ·))
    {p : Nat → Bool} (hl : ∀ i, i ∈ L ↔ i < es.length ∧ p i = true)
    (hm : ∀ i, i ∈ M ↔ i < es.length ∧ p i = false) (u v : Nat) :
    ind (adjOf es u v) = ind (adjOf (sel es L) u v) + ind (adjOf (sel es M) u v) := by
  have hL' : ∀ i ∈ L, i < es.length := fun i hi => ((hl i).1 hi).1
  have hM' : ∀ i ∈ M, i < es.length := fun i hi => ((hm i).1 hi).1
  by_cases huv : u = v
  · have h1 : adjOf es u v = false := by
      cases h : adjOf es u v with
      | false => rfl
      | true => exact absurd huv (adjOf_ne hs h).1
    have h2 : adjOf (sel es L) u v = false := by
      cases h : adjOf (sel es L) u v with
      | false => rfl
      | true => exact absurd huv (adjOf_ne (hs.sublist (sel_sublist hL hL')) h).1
    have h3 : adjOf (sel es M) u v = false := by
      cases h : adjOf (sel es M) u v with
      | false => rfl
      | true => exact absurd huv (adjOf_ne (hs.sublist (sel_sublist hM hM')) h).1
    rw [h1, h2, h3]; rfl
  · have h1 := adjOf_inc (es := es) huv
    have h2 := adjOf_sel hL' huv
    have h3 := adjOf_sel hM' huv
    cases h : adjOf es u v with
    | false =>
      rw [h] at h1
      have hn : ∀ i, i < es.length → inc es i u = true → inc es i v = true → False :=
        fun i hi a b => nomatch h1.2 ⟨i, hi, a, b⟩
      have e2 : adjOf (sel es L) u v = false := by
        cases h' : adjOf (sel es L) u v with
        | false => rfl
        | true => obtain ⟨i, hi, a, b⟩ := h2.1 h'; exact (hn i (hL' i hi) a b).elim
      have e3 : adjOf (sel es M) u v = false := by
        cases h' : adjOf (sel es M) u v with
        | false => rfl
        | true => obtain ⟨i, hi, a, b⟩ := h3.1 h'; exact (hn i (hM' i hi) a b).elim
      rw [e2, e3]; rfl
    | true =>
      obtain ⟨i, hi, a, b⟩ := h1.1 h
      cases hp : p i with
      | true =>
        have e2 := h2.2 ⟨i, (hl i).2 ⟨hi, hp⟩, a, b⟩
        have e3 : adjOf (sel es M) u v = false := by
          cases h' : adjOf (sel es M) u v with
          | false => rfl
          | true =>
            obtain ⟨j, hj, c, d⟩ := h3.1 h'
            have := hs.unique huv a b c d
            subst this
            have := ((hm i).1 hj).2
            rw [hp] at this; cases this
        rw [e2, e3]; rfl
      | false =>
        have e3 := h3.2 ⟨i, (hm i).2 ⟨hi, hp⟩, a, b⟩
        have e2 : adjOf (sel es L) u v = false := by
          cases h' : adjOf (sel es L) u v with
          | false => rfl
          | true =>
            obtain ⟨j, hj, c, d⟩ := h2.1 h'
            have := hs.unique huv a b c d
            subst this
            have := ((hl i).1 hj).2
            rw [hp] at this; cases this
        rw [e2, e3]; rfl

end GBTL

import Verif.Lemmas.Agree
import Verif.Lemmas.Paths
/-
How walks, flows and trusses change with the graph.
-/
namespace GBTL
open Spec

section weights
variable {W W' : Mat Int} {S S' : Vec Int}

/-- An edge in front of a walk. -/
theorem WWalk.cons {a b : Nat} {w : Int} (he : W b a = some w) {k v : Nat} {x : Int} (h : WWalk W (source a) k v x) :
    WWalk W (source b) (k + 1) v (w + x) := by
  have h1 : WWalk W (source b) 1 a w := ⟨b, 0, w, by simp [WWalk, source], he, by omega⟩
  have := WWalk.trans h1 h
  rwa [Nat.add_comm] at this

theorem WWalk.rev (h : ∀ u v, W' v u = W u v) {k : Nat} : ∀ {u v : Nat} {x : Int}, WWalk W (source u) k v x →
    WWalk W' (source v) k u x := by
  induction k with
  | zero =>
    intro u v x hk
    simp only [WWalk, source] at hk ⊢
    split at hk
    · rename_i e; rw [if_pos e.symm]; exact hk
    · cases hk
  | succ k ih =>
    rintro u v x ⟨m, y, w, h1, h2, rfl⟩
    rw [Int.add_comm]
    exact WWalk.cons (by rw [h]; exact h2) (ih h1)

theorem wwalk_rev (h : ∀ u v, W' v u = W u v) {k u v : Nat} {x : Int} :
    WWalk W (source u) k v x ↔ WWalk W' (source v) k u x :=
  ⟨WWalk.rev h, WWalk.rev fun u v => (h v u).symm⟩

theorem isDist_rev (h : ∀ u v, W' v u = W u v) {u v : Nat} {x : Int} :
    IsDist W (source u) v x ↔ IsDist W' (source v) u x := by
  unfold IsDist
  simp only [wwalk_rev h]

theorem hasNegCycle_rev (h : ∀ u v, W' v u = W u v) (hc : HasNegCycle W') : HasNegCycle W := by
  obtain ⟨v, k, c, hk, hn⟩ := hc
  exact ⟨v, k, c, (wwalk_rev h).2 hk, hn⟩

/-- More edges, or lighter ones: lighter walks. -/
theorem WWalk.mono (h : ∀ u v w, W u v = some w → ∃ w', W' u v = some w' ∧ w' ≤ w) {k : Nat} :
    ∀ {v : Nat} {x : Int}, WWalk W S k v x → ∃ x', WWalk W' S k v x' ∧ x' ≤ x := by
  induction k with
  | zero => intro v x hk; exact ⟨x, hk, Int.le_refl _⟩
  | succ k ih =>
    rintro v x ⟨m, y, w, h1, h2, rfl⟩
    obtain ⟨y', h1', hy⟩ := ih h1
    obtain ⟨w', h2', hw⟩ := h _ _ _ h2
    exact ⟨y' + w', ⟨m, y', w', h1', h2', rfl⟩, by omega⟩

theorem negCycle_mono (h : ∀ u v w, W u v = some w → ∃ w', W' u v = some w' ∧ w' ≤ w) (hc : NegCycle W S) :
    NegCycle W' S := by
  obtain ⟨v, ⟨k, x, hk⟩, l, c, hl, hn⟩ := hc
  obtain ⟨x', hx', _⟩ := WWalk.mono h hk
  obtain ⟨c', hc', _⟩ := WWalk.mono h hl
  exact ⟨v, ⟨k, x', hx'⟩, l, c', hc', by omega⟩

/-- All weights multiplied with `c`. -/
theorem wwalk_scale {c : Int} (hW : ∀ u v, W' u v = (W u v).map (c * ·)) (hS : ∀ v, S' v = (S v).map (c * ·)) (k : Nat) :
    ∀ (v : Nat) (y : Int), WWalk W' S' k v y ↔ ∃ x, WWalk W S k v x ∧ y = c * x := by
  induction k with
  | zero =>
    intro v y
    simp only [WWalk, hS]
    cases hv : S v with
    | none => simp
    | some z => simp [eq_comm]
  | succ k ih =>
    intro v y
    constructor
    · rintro ⟨m, z, w, h1, h2, rfl⟩
      obtain ⟨x, hx, rfl⟩ := (ih m z).1 h1
      rw [hW] at h2
      cases hw : W m v with
      | none => rw [hw] at h2; cases h2
      | some w0 =>
        rw [hw] at h2
        cases h2
        exact ⟨x + w0, ⟨m, x, w0, hx, hw, rfl⟩, by show c * x + c * w0 = _; rw [Int.mul_add]⟩
    · rintro ⟨x, ⟨m, z, w, h1, h2, rfl⟩, rfl⟩
      exact ⟨m, c * z, c * w, (ih m _).2 ⟨z, h1, rfl⟩, by rw [hW, h2]; rfl, by rw [Int.mul_add]⟩

theorem isDist_scale {c : Int} (hc : 0 < c) (hW : ∀ u v, W' u v = (W u v).map (c * ·))
    (hS : ∀ v, S' v = (S v).map (c * ·)) {v : Nat} {x : Int} (h : IsDist W S v x) : IsDist W' S' v (c * x) := by
  obtain ⟨⟨k, hk⟩, hm⟩ := h
  refine ⟨⟨k, (wwalk_scale hW hS k v _).2 ⟨x, hk, rfl⟩⟩, fun j y hj => ?_⟩
  obtain ⟨z, hz, rfl⟩ := (wwalk_scale hW hS j v y).1 hj
  exact Int.mul_le_mul_of_nonneg_left (hm j z hz) (Int.le_of_lt hc)

theorem wreach_scale {c : Int} (hW : ∀ u v, W' u v = (W u v).map (c * ·)) (hS : ∀ v, S' v = (S v).map (c * ·)) {v : Nat} :
    WReach W' S' v ↔ WReach W S v := by
  constructor
  · rintro ⟨k, y, hk⟩
    obtain ⟨x, hx, _⟩ := (wwalk_scale hW hS k v y).1 hk
    exact ⟨k, x, hx⟩
  · rintro ⟨k, x, hk⟩
    exact ⟨k, _, (wwalk_scale hW hS k v _).2 ⟨x, hk, rfl⟩⟩

theorem source_scale (c : Int) (s v : Nat) : source s v = (source s v).map (c * ·) := by
  unfold source
  split <;> simp

theorem negCycle_scale {c : Int} (hc : 0 < c) (hW : ∀ u v, W' u v = (W u v).map (c * ·))
    (hS : ∀ v, S' v = (S v).map (c * ·)) (h : NegCycle W' S') : NegCycle W S := by
  obtain ⟨v, hv, k, y, hk, hn⟩ := h
  obtain ⟨x, hx, rfl⟩ := (wwalk_scale hW (source_scale c v) k v y).1 hk
  refine ⟨v, (wreach_scale hW hS).1 hv, k, x, hx, ?_⟩
  apply Classical.byContradiction
  intro h0
  have := Int.mul_nonneg (Int.le_of_lt hc) (Int.not_lt.1 h0)
  omega

/-- The end of a shortest walk: it is a start, or one edge after a shortest walk. -/
theorem IsDist.last {v : Nat} {x : Int} (h : IsDist W S v x) :
    S v = some x ∨ ∃ u y w, IsDist W S u y ∧ W u v = some w ∧ x = y + w := by
  obtain ⟨⟨k, hk⟩, hm⟩ := h
  cases k with
  | zero => exact .inl hk
  | succ k =>
    obtain ⟨u, y, w, h1, h2, rfl⟩ := hk
    refine .inr ⟨u, y, w, ⟨⟨k, h1⟩, fun j z hz => ?_⟩, h2, rfl⟩
    have := hm (j + 1) (z + w) ⟨u, z, w, hz, h2, rfl⟩
    omega

end weights

section hops
variable {E E' : Nat → Nat → Prop} {S : Nat → Prop}

theorem Walk.mono (h : ∀ u v, E u v → E' u v) {k : Nat} : ∀ {v : Nat}, Walk E S k v → Walk E' S k v := by
  induction k with
  | zero => exact fun h => h
  | succ k ih => rintro v ⟨u, h1, h2⟩; exact ⟨u, ih h1, h _ _ h2⟩

end hops

section trusses
variable {n : Nat} {E E' F F' : Nat → Nat → Bool}

theorem IsTruss.less {k k' : Nat} (hk : k' ≤ k) (h : ∀ i j, E i j = true → E' i j = true) (T : IsTruss n k E F) :
    IsTruss n k' E' F :=
  ⟨T.symm, fun i j h' => h _ _ (T.sub i j h'), fun i j h' => Nat.le_trans hk (T.support i j h')⟩

/-- The k-truss of a subgraph that contains the k-truss. -/
theorem IsKTruss.between {k : Nat} (T : IsKTruss n k E F) (h1 : ∀ i j, F i j = true → E' i j = true)
    (h2 : ∀ i j, E' i j = true → E i j = true) (T' : IsKTruss n k E' F') (i j : Nat) : F' i j = F i j := by
  rw [Bool.eq_iff_iff]
  refine ⟨T.largest F' (IsTruss.less (Nat.le_refl _) h2 T'.truss) i j, T'.largest F ⟨T.truss.symm, h1, T.truss.support⟩ i j⟩

theorem triangles_mono (h : ∀ i j, E i j = true → E' i j = true) : triangles n E ≤ triangles n E' := by
  unfold triangles
  rw [← List.countP_eq_length_filter, ← List.countP_eq_length_filter]
  refine List.countP_mono_left fun ⟨i, j, k⟩ _ hx => ?_
  simp only [Bool.and_eq_true] at hx ⊢
  exact ⟨⟨h _ _ hx.1.1, h _ _ hx.1.2⟩, h _ _ hx.2⟩

end trusses

end GBTL

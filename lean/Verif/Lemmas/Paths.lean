import Verif.Spec.Graph
/-
Shortest walks: shortening, the Bellman-Ford recurrence and its fixpoints.
-/
namespace Spec

variable {W : Mat Int} {S : Vec Int}

/-- Pigeonhole principle. -/
theorem pigeonhole : ∀ (n : Nat) (f : Nat → Nat), (∀ i, i ≤ n → f i < n) →
    ∃ i j, i < j ∧ j ≤ n ∧ f i = f j := by
  intro n
  induction n with
  | zero => intro f h; exact absurd (h 0 (Nat.le_refl _)) (by omega)
  | succ n ih =>
    intro f h
    by_cases hm : ∃ i, i ≤ n ∧ f i = f (n + 1)
    · obtain ⟨i, hi, e⟩ := hm
      exact ⟨i, n + 1, by omega, by omega, e⟩
    · have hne : ∀ i, i ≤ n → f i ≠ f (n + 1) := fun i hi e => hm ⟨i, hi, e⟩
      obtain ⟨i, j, hij, hj, e⟩ := ih (fun i => if f i = n then f (n + 1) else f i) (by
        intro i hi
        have h1 := h i (by omega)
        have h2 := h (n + 1) (by omega)
        have h3 := hne i hi
        show (if f i = n then f (n + 1) else f i) < n
        split <;> omega)
      refine ⟨i, j, hij, by omega, ?_⟩
      have h1 := hne i (by omega)
      have h2 := hne j (by omega)
      split at e <;> split at e <;> omega

/-- A walk as a sequence of vertices and of accumulated weights. -/
theorem wwalk_seq {k v : Nat} {x : Int} : WWalk W S k v x ↔
    ∃ (p : Nat → Nat) (a : Nat → Int), S (p 0) = some (a 0) ∧
      (∀ i, i < k → ∃ w, W (p i) (p (i + 1)) = some w ∧ a (i + 1) = a i + w) ∧ p k = v ∧ a k = x := by
  induction k generalizing v x with
  | zero =>
    constructor
    · intro h
      exact ⟨fun _ => v, fun _ => x, h, fun i hi => by omega, rfl, rfl⟩
    · rintro ⟨p, a, h, -, rfl, rfl⟩
      exact h
  | succ k ih =>
    constructor
    · rintro ⟨u, y, w, h1, h2, rfl⟩
      obtain ⟨p, a, h0, hs, rfl, rfl⟩ := ih.1 h1
      refine ⟨fun i => if i ≤ k then p i else v, fun i => if i ≤ k then a i else a k + w, ?_, ?_, ?_, ?_⟩
      · simpa using h0
      · intro i hi
        by_cases hik : i < k
        · have e1 : i ≤ k := by omega
          have e2 : i + 1 ≤ k := by omega
          simp only [if_pos e1, if_pos e2]
          exact hs i hik
        · have : i = k := by omega
          subst this
          have e1 : ¬ (i + 1 ≤ i) := by omega
          have e2 : i ≤ i := Nat.le_refl _
          simp only [if_neg e1, if_pos e2]
          exact ⟨w, h2, rfl⟩
      · exact if_neg (by omega)
      · exact if_neg (by omega)
    · rintro ⟨p, a, h0, hs, rfl, rfl⟩
      obtain ⟨w, h1, h2⟩ := hs k (by omega)
      exact ⟨p k, a k, w, ih.2 ⟨p, a, h0, fun i hi => hs i (by omega), rfl, rfl⟩, h1, h2⟩

/-- The part of a walk before position `i`. -/
theorem seq_prefix {p : Nat → Nat} {a : Nat → Int} {k : Nat} (h0 : S (p 0) = some (a 0))
    (hs : ∀ i, i < k → ∃ w, W (p i) (p (i + 1)) = some w ∧ a (i + 1) = a i + w) {i : Nat} (hi : i ≤ k) :
    WWalk W S i (p i) (a i) :=
  wwalk_seq.2 ⟨p, a, h0, fun j hj => hs j (by omega), rfl, rfl⟩

/-- The part of a walk from position `i` to position `j`. -/
theorem seq_between {p : Nat → Nat} {a : Nat → Int} {k : Nat}
    (hs : ∀ i, i < k → ∃ w, W (p i) (p (i + 1)) = some w ∧ a (i + 1) = a i + w) {i j : Nat} (hij : i ≤ j)
    (hj : j ≤ k) : WWalk W (source (p i)) (j - i) (p j) (a j - a i) := by
  refine wwalk_seq.2 ⟨fun t => p (i + t), fun t => a (i + t) - a i, ?_, ?_, ?_, ?_⟩
  · simp only [Nat.add_zero, source, if_pos, Option.some.injEq]; omega
  · intro t ht
    obtain ⟨w, h1, h2⟩ := hs (i + t) (by omega)
    exact ⟨w, h1, by show a (i + (t + 1)) - a i = a (i + t) - a i + w; rw [show i + (t + 1) = i + t + 1 by omega, h2]; omega⟩
  · show p (i + (j - i)) = p j
    congr 1; omega
  · show a (i + (j - i)) - a i = a j - a i
    rw [show i + (j - i) = j by omega]

/-- A walk without its part between two visits of a vertex. -/
theorem seq_cut {p : Nat → Nat} {a : Nat → Int} {k : Nat} (h0 : S (p 0) = some (a 0))
    (hs : ∀ i, i < k → ∃ w, W (p i) (p (i + 1)) = some w ∧ a (i + 1) = a i + w) {i j : Nat} (hij : i < j)
    (hj : j ≤ k) (e : p i = p j) : WWalk W S (k - (j - i)) (p k) (a k - (a j - a i)) := by
  refine wwalk_seq.2 ⟨fun t => if t ≤ i then p t else p (t + (j - i)),
    fun t => if t ≤ i then a t else a (t + (j - i)) - (a j - a i), ?_, ?_, ?_, ?_⟩
  · simpa using h0
  · intro t ht
    by_cases h1 : t + 1 ≤ i
    · have h2 : t ≤ i := by omega
      simp only [if_pos h1, if_pos h2]
      exact hs t (by omega)
    · by_cases h2 : t ≤ i
      · have : t = i := by omega
        subst this
        obtain ⟨w, g1, g2⟩ := hs j (by omega)
        simp only [if_pos h2, if_neg h1]
        refine ⟨w, ?_, ?_⟩
        · rw [show t + 1 + (j - t) = j + 1 by omega, e]; exact g1
        · rw [show t + 1 + (j - t) = j + 1 by omega, g2]; omega
      · simp only [if_neg h1, if_neg h2]
        obtain ⟨w, g1, g2⟩ := hs (t + (j - i)) (by omega)
        refine ⟨w, ?_, ?_⟩
        · rw [show t + 1 + (j - i) = t + (j - i) + 1 by omega]; exact g1
        · rw [show t + 1 + (j - i) = t + (j - i) + 1 by omega, g2]; omega
  · show (if k - (j - i) ≤ i then p (k - (j - i)) else p (k - (j - i) + (j - i))) = p k
    split
    · have : j = k := by omega
      subst this
      rw [show j - (j - i) = i by omega, e]
    · congr 1; omega
  · show (if k - (j - i) ≤ i then a (k - (j - i)) else a (k - (j - i) + (j - i)) - (a j - a i)) = _
    split
    · have : j = k := by omega
      subst this
      rw [show j - (j - i) = i by omega]; omega
    · rw [show k - (j - i) + (j - i) = k by omega]

/-- The vertices are the numbers below `n`. -/
def Verts (W : Mat Int) (S : Vec Int) (n : Nat) : Prop :=
  (∀ v, S v ≠ none → v < n) ∧ ∀ u v, W u v ≠ none → u < n ∧ v < n

theorem WWalk.lt {n : Nat} (hn : Verts W S n) {k v : Nat} {x : Int} (h : WWalk W S k v x) : v < n := by
  cases k with
  | zero => exact hn.1 v (by rw [show S v = some x from h]; simp)
  | succ k =>
    obtain ⟨u, y, w, -, h2, -⟩ := h
    exact (hn.2 u v (by rw [h2]; simp)).2

/-- Without a negative cycle every walk can be shortened to fewer than `n` edges
without becoming heavier. -/
theorem WWalk.shorten {n : Nat} (hn : Verts W S n) (hc : ¬ NegCycle W S) :
    ∀ (k v : Nat) (x : Int), WWalk W S k v x → ∃ k' x', k' < n ∧ k' ≤ k ∧ x' ≤ x ∧ WWalk W S k' v x' := by
  intro k
  induction k using Nat.strongRecOn with
  | _ k ih =>
    intro v x h
    by_cases hk : k < n
    · exact ⟨k, x, hk, Nat.le_refl _, Int.le_refl _, h⟩
    · obtain ⟨p, a, h0, hs, rfl, rfl⟩ := wwalk_seq.1 h
      obtain ⟨i, j, hij, hj, e⟩ := pigeonhole n p (fun i hi =>
        (seq_prefix h0 hs (show i ≤ k by omega)).lt hn)
      have hcut := seq_cut h0 hs hij (by omega) e
      have hpos : 0 ≤ a j - a i := by
        refine Int.not_lt.1 fun hneg => hc ⟨p i, ⟨i, a i, seq_prefix h0 hs (by omega)⟩, j - i, a j - a i, ?_, hneg⟩
        have := seq_between hs (Nat.le_of_lt hij) (show j ≤ k by omega)
        rwa [← e] at this
      obtain ⟨k', x', h1, h2, h3, h4⟩ := ih (k - (j - i)) (by omega) _ _ hcut
      exact ⟨k', x', h1, by omega, by omega, h4⟩

/-- Every vertex that can be reached, can be reached with fewer than `n` edges. -/
theorem WWalk.shorten' {n : Nat} (hn : Verts W S n) :
    ∀ (k v : Nat) (x : Int), WWalk W S k v x → ∃ k' x', k' < n ∧ k' ≤ k ∧ WWalk W S k' v x' := by
  intro k
  induction k using Nat.strongRecOn with
  | _ k ih =>
    intro v x h
    by_cases hk : k < n
    · exact ⟨k, x, hk, Nat.le_refl _, h⟩
    · obtain ⟨p, a, h0, hs, rfl, rfl⟩ := wwalk_seq.1 h
      obtain ⟨i, j, hij, hj, e⟩ := pigeonhole n p (fun i hi =>
        (seq_prefix h0 hs (show i ≤ k by omega)).lt hn)
      have hcut := seq_cut h0 hs hij (by omega) e
      obtain ⟨k', x', h1, h2, h4⟩ := ih (k - (j - i)) (by omega) _ _ hcut
      exact ⟨k', x', h1, by omega, h4⟩

/-- Walks can be put together. -/
theorem WWalk.trans {k : Nat} {v : Nat} {x : Int} (h : WWalk W S k v x) :
    ∀ {l u : Nat} {y : Int}, WWalk W (source v) l u y → WWalk W S (k + l) u (x + y) := by
  intro l
  induction l with
  | zero =>
    intro u y h2
    simp only [WWalk, source] at h2
    split at h2
    · rename_i e; subst e
      cases h2
      simpa using h
    · cases h2
  | succ l ih =>
    rintro u y ⟨t, z, w, h1, h2, rfl⟩
    exact ⟨t, x + z, w, ih h1, h2, by omega⟩

/-! ### the Bellman-Ford recurrence -/

/-- `d` holds the minimum weights of the walks of at most `k` edges. -/
structure Best (W : Mat Int) (S : Vec Int) (k : Nat) (d : Vec Int) : Prop where
  walk : ∀ v x, d v = some x → ∃ j, j ≤ k ∧ WWalk W S j v x
  least : ∀ j v x, j ≤ k → WWalk W S j v x → ∃ y, d v = some y ∧ y ≤ x

theorem Best.zero : Best W S 0 S := by
  refine ⟨fun v x h => ⟨0, Nat.le_refl _, h⟩, ?_⟩
  intro j v x hj h
  have : j = 0 := by omega
  subst this
  exact ⟨x, h, Int.le_refl _⟩

/-- `d'` is `d` after one round of relaxations. -/
structure Relaxed (W : Mat Int) (d d' : Vec Int) : Prop where
  from_ : ∀ v x, d' v = some x → d v = some x ∨ ∃ u y w, d u = some y ∧ W u v = some w ∧ x = y + w
  keep : ∀ v x, d v = some x → ∃ y, d' v = some y ∧ y ≤ x
  edge : ∀ u v y w, d u = some y → W u v = some w → ∃ z, d' v = some z ∧ z ≤ y + w

theorem Best.step {k : Nat} {d d' : Vec Int} (h : Best W S k d) (r : Relaxed W d d') :
    Best W S (k + 1) d' := by
  refine ⟨?_, ?_⟩
  · intro v x hx
    rcases r.from_ v x hx with h1 | ⟨u, y, w, h1, h2, rfl⟩
    · obtain ⟨j, hj, hw⟩ := h.walk v x h1
      exact ⟨j, by omega, hw⟩
    · obtain ⟨j, hj, hw⟩ := h.walk u y h1
      exact ⟨j + 1, by omega, u, y, w, hw, h2, rfl⟩
  · intro j v x hj hw
    by_cases hjk : j ≤ k
    · obtain ⟨y, h1, h2⟩ := h.least j v x hjk hw
      obtain ⟨z, h3, h4⟩ := r.keep v y h1
      exact ⟨z, h3, by omega⟩
    · have : j = k + 1 := by omega
      subst this
      obtain ⟨u, y, w, h1, h2, rfl⟩ := hw
      obtain ⟨y', h3, h4⟩ := h.least k u y (Nat.le_refl _) h1
      obtain ⟨z, h5, h6⟩ := r.edge u v y' w h3 h2
      exact ⟨z, h5, by omega⟩

theorem Best.unique {k : Nat} {d d' : Vec Int} (h : Best W S k d) (h' : Best W S k d') (v : Nat) :
    d v = d' v := by
  cases hd : d v with
  | none =>
    cases hd' : d' v with
    | none => rfl
    | some x =>
      obtain ⟨j, hj, hw⟩ := h'.walk v x hd'
      obtain ⟨y, h1, -⟩ := h.least j v x hj hw
      rw [hd] at h1; cases h1
  | some x =>
    obtain ⟨j, hj, hw⟩ := h.walk v x hd
    obtain ⟨y, h1, h2⟩ := h'.least j v x hj hw
    obtain ⟨j', hj', hw'⟩ := h'.walk v y h1
    obtain ⟨z, h3, h4⟩ := h.least j' v y hj' hw'
    rw [hd] at h3; cases h3
    rw [h1]; congr 1; omega

/-- If one more edge does not help, no number of edges helps. -/
theorem Best.fix {k : Nat} {d : Vec Int} (h : Best W S k d) (h' : Best W S (k + 1) d) :
    ∀ m, k ≤ m → Best W S m d := by
  intro m hm
  refine ⟨fun v x hx => ?_, ?_⟩
  · obtain ⟨j, hj, hw⟩ := h.walk v x hx
    exact ⟨j, by omega, hw⟩
  · intro j v x hjm hw
    clear hjm
    induction j generalizing v x with
    | zero => exact h.least 0 v x (Nat.zero_le _) hw
    | succ j ih =>
      obtain ⟨u, y, w, h1, h2, rfl⟩ := hw
      obtain ⟨y', h3, h4⟩ := ih u y h1
      obtain ⟨i, hi, hwu⟩ := h.walk u y' h3
      obtain ⟨z, h5, h6⟩ := h'.least (i + 1) v (y' + w) (by omega) ⟨u, y', w, hwu, h2, rfl⟩
      exact ⟨z, h5, by omega⟩

/-- Then the values are the distances. -/
theorem Best.dist {k : Nat} {d : Vec Int} (h : ∀ m, k ≤ m → Best W S m d) (v : Nat) :
    (d v = none ↔ ¬ WReach W S v) ∧ ∀ x, d v = some x ↔ IsDist W S v x := by
  have hl : ∀ j v x, WWalk W S j v x → ∃ y, d v = some y ∧ y ≤ x := fun j v x hw =>
    (h (k + j) (by omega)).least j v x (by omega) hw
  refine ⟨⟨?_, ?_⟩, ?_⟩
  · rintro hd ⟨j, x, hw⟩
    obtain ⟨y, h1, -⟩ := hl j v x hw
    rw [hd] at h1; cases h1
  · intro hr
    cases hd : d v with
    | none => rfl
    | some x =>
      obtain ⟨j, -, hw⟩ := (h k (Nat.le_refl _)).walk v x hd
      exact absurd ⟨j, x, hw⟩ hr
  · intro x
    constructor
    · intro hd
      obtain ⟨j, -, hw⟩ := (h k (Nat.le_refl _)).walk v x hd
      refine ⟨⟨j, hw⟩, ?_⟩
      intro i y hy
      obtain ⟨z, h1, h2⟩ := hl i v y hy
      rw [hd] at h1; cases h1; exact h2
    · rintro ⟨⟨j, hw⟩, hmin⟩
      obtain ⟨y, h1, h2⟩ := hl j v x hw
      obtain ⟨i, -, hw'⟩ := (h k (Nat.le_refl _)).walk v y h1
      have := hmin i y hw'
      rw [h1]; congr 1; omega

/-- Without a negative cycle `n - 1` edges are enough. -/
theorem Best.enough {n : Nat} (hn : Verts W S n) (hc : ¬ NegCycle W S) {k : Nat} {d : Vec Int}
    (hk : n ≤ k + 1) (h : Best W S k d) : ∀ m, k ≤ m → Best W S m d := by
  intro m hm
  refine ⟨fun v x hx => ?_, ?_⟩
  · obtain ⟨j, hj, hw⟩ := h.walk v x hx
    exact ⟨j, by omega, hw⟩
  · intro j v x _ hw
    obtain ⟨k', x', h1, -, h3, h4⟩ := WWalk.shorten hn hc j v x hw
    obtain ⟨y, h5, h6⟩ := h.least k' v x' (by omega) h4
    exact ⟨y, h5, by omega⟩

/-- `n - 1` edges reach every vertex that can be reached. -/
theorem Best.reach {n : Nat} (hn : Verts W S n) {k : Nat} {d : Vec Int} (hk : n ≤ k + 1)
    (h : Best W S k d) (v : Nat) : d v ≠ none ↔ WReach W S v := by
  constructor
  · intro hd
    cases hx : d v with
    | none => exact absurd hx hd
    | some x =>
      obtain ⟨j, -, hw⟩ := h.walk v x hx
      exact ⟨j, x, hw⟩
  · rintro ⟨j, x, hw⟩
    obtain ⟨k', x', h1, -, h4⟩ := WWalk.shorten' hn j v x hw
    obtain ⟨y, h5, -⟩ := h.least k' v x' (by omega) h4
    rw [h5]; simp

/-- Going round a closed walk `m` times. -/
theorem WWalk.repeat {k v : Nat} {x : Int} (h : WWalk W S k v x) {l : Nat} {c : Int}
    (hc : WWalk W (source v) l v c) (m : Nat) : WWalk W S (k + m * l) v (x + m * c) := by
  induction m with
  | zero => simpa using h
  | succ m ih =>
    have := ih.trans hc
    rw [show k + (m + 1) * l = k + m * l + l by rw [Nat.add_mul]; omega,
      show x + ((m + 1 : Nat) : Int) * c = x + m * c + c by
        rw [show ((m + 1 : Nat) : Int) = (m : Int) + 1 by omega, Int.add_mul]; omega]
    exact this

/-- With a negative cycle there is no fixpoint. -/
theorem Best.no_fix (hneg : NegCycle W S) {k : Nat} {d : Vec Int} (h : ∀ m, k ≤ m → Best W S m d) : False := by
  obtain ⟨v, ⟨i, x, hw⟩, l, c, hl, hc⟩ := hneg
  have key : ∀ m : Nat, ∃ y, d v = some y ∧ y ≤ x + m * c := by
    intro m
    exact (h (k + (i + m * l)) (by omega)).least (i + m * l) v _ (by omega) (hw.repeat hl m)
  obtain ⟨y, h1, -⟩ := key 0
  obtain ⟨y', h2, h3⟩ := key (x - y + 1).toNat
  rw [h1] at h2; cases h2
  obtain ⟨y', h2, h3'⟩ := key 0
  rw [h1] at h2; cases h2
  have h4 : ((x - y + 1).toNat : Int) = x - y + 1 := by
    apply Int.toNat_of_nonneg
    simp at h3'; omega
  rw [h4] at h3
  have h5 : (x - y + 1) * c ≤ (x - y + 1) * (-1) := by
    apply Int.mul_le_mul_of_nonneg_left
    · omega
    · simp at h3'; omega
  omega

/-! ### Floyd-Warshall -/

/-- The graph with the edges that leave vertices below `k` only. The walks of `lim k W`
that start with an edge out of `u` are the walks from `u` with interior vertices below
`k`. -/
def lim (k : Nat) (W : Mat Int) : Mat Int := fun a b => if a < k then W a b else none

theorem lim_some {k a b : Nat} {w : Int} (h : lim k W a b = some w) : a < k ∧ W a b = some w := by
  unfold lim at h
  split at h
  · rename_i hk; exact ⟨hk, h⟩
  · cases h

theorem lim_of {k a b : Nat} {w : Int} (hk : a < k) (h : W a b = some w) : lim k W a b = some w := by
  unfold lim; rw [if_pos hk]; exact h

theorem WWalk.lim_mono {k m : Nat} (hkm : k ≤ m) : ∀ {j v : Nat} {x : Int},
    WWalk (lim k W) S j v x → WWalk (lim m W) S j v x := by
  intro j
  induction j with
  | zero => intro v x h; exact h
  | succ j ih =>
    rintro v x ⟨u, y, w, h1, h2, rfl⟩
    obtain ⟨a, b⟩ := lim_some h2
    exact ⟨u, y, w, ih h1, lim_of (by omega) b, rfl⟩

theorem WWalk.of_lim {k : Nat} : ∀ {j v : Nat} {x : Int}, WWalk (lim k W) S j v x → WWalk W S j v x := by
  intro j
  induction j with
  | zero => intro v x h; exact h
  | succ j ih =>
    rintro v x ⟨u, y, w, h1, h2, rfl⟩
    exact ⟨u, y, w, ih h1, (lim_some h2).2, rfl⟩

/-- A walk that starts with an edge out of `u`. -/
theorem WWalk.first {u : Nat} : ∀ {j v : Nat} {x : Int},
    WWalk W (W u) j v x ↔ WWalk W (source u) (j + 1) v x := by
  intro j
  induction j with
  | zero =>
    intro v x
    constructor
    · intro h
      exact ⟨u, 0, x, by simp [WWalk, source], h, by omega⟩
    · rintro ⟨a, y, w, h1, h2, rfl⟩
      simp only [WWalk, source] at h1
      split at h1
      · rename_i e; subst e; cases h1
        show W a v = some (0 + w)
        rw [h2]; simp
      · cases h1
  | succ j ih =>
    intro v x
    constructor
    · rintro ⟨a, y, w, h1, h2, rfl⟩
      exact ⟨a, y, w, ih.1 h1, h2, rfl⟩
    · rintro ⟨a, y, w, h1, h2, rfl⟩
      exact ⟨a, y, w, ih.2 h1, h2, rfl⟩

theorem WWalk.full {u k : Nat} {j v : Nat} {x : Int} (h : WWalk (lim k W) (W u) j v x) :
    WWalk W (source u) (j + 1) v x := WWalk.first.1 h.of_lim

/-- Through `k`. -/
theorem WWalk.via {u k : Nat} {j1 : Nat} {x1 : Int} (h1 : WWalk (lim k W) (W u) j1 k x1) :
    ∀ {j3 v : Nat} {x3 : Int}, WWalk (lim k W) (W k) j3 v x3 →
      WWalk (lim (k + 1) W) (W u) (j1 + 1 + j3) v (x1 + x3) := by
  intro j3
  induction j3 with
  | zero =>
    intro v x3 h
    exact ⟨k, x1, x3, h1.lim_mono (Nat.le_succ k), lim_of (Nat.lt_succ_self k) h, rfl⟩
  | succ j3 ih =>
    rintro v x3 ⟨a, y, w, h2, h3, rfl⟩
    obtain ⟨p, q⟩ := lim_some h3
    exact ⟨a, x1 + y, w, ih h2, lim_of (by omega) q, by omega⟩

/-- A walk with interior vertices up to `k` avoids `k`, or is not lighter than a walk to
`k` followed by one from `k`. -/
theorem WWalk.split {u k : Nat} (hc : ¬ HasNegCycle W) : ∀ {j v : Nat} {x : Int},
    WWalk (lim (k + 1) W) (W u) j v x → (∃ j', WWalk (lim k W) (W u) j' v x) ∨
      ∃ j1 x1 j3 x3, WWalk (lim k W) (W u) j1 k x1 ∧ WWalk (lim k W) (W k) j3 v x3 ∧ x1 + x3 ≤ x := by
  intro j
  induction j with
  | zero => intro v x h; exact Or.inl ⟨0, h⟩
  | succ j ih =>
    rintro v x ⟨a, y, w, h1, h2, rfl⟩
    obtain ⟨ha, hw⟩ := lim_some h2
    rcases ih h1 with ⟨j', h⟩ | ⟨j1, x1, j3, x3, p, q, r⟩
    · by_cases hak : a < k
      · exact Or.inl ⟨j' + 1, a, y, w, h, lim_of hak hw, rfl⟩
      · have : a = k := by omega
        subst this
        exact Or.inr ⟨j', y, 0, w, h, hw, Int.le_refl _⟩
    · right
      by_cases hak : a < k
      · exact ⟨j1, x1, j3 + 1, x3 + w, p, ⟨a, x3, w, q, lim_of hak hw, rfl⟩, by omega⟩
      · have : a = k := by omega
        subst this
        have : 0 ≤ x3 := Int.not_lt.1 fun hneg => hc ⟨a, j3 + 1, x3, q.full, hneg⟩
        exact ⟨j1, x1, 0, w, p, hw, by omega⟩

/-- `D` after the rounds for the vertices below `k`. -/
structure FW (W : Mat Int) (n k : Nat) (D : Mat Int) : Prop where
  walk : ∀ u v x, D u v = some x →
    (u = v ∧ x = 0 ∧ W u u = none) ∨ ∃ j, j < n ∧ WWalk (lim k W) (W u) j v x
  least : ∀ u v j x, WWalk (lim k W) (W u) j v x → ∃ y, D u v = some y ∧ y ≤ x
  diag : ∀ u, u < n → W u u = none → ∃ y, D u u = some y ∧ y ≤ 0

/-- `D'` is `D` after allowing `k` as an interior vertex. -/
structure Through (k : Nat) (D D' : Mat Int) : Prop where
  from_ : ∀ u v x, D' u v = some x → D u v = some x ∨ ∃ y z, D u k = some y ∧ D k v = some z ∧ x = y + z
  keep : ∀ u v x, D u v = some x → ∃ y, D' u v = some y ∧ y ≤ x
  via : ∀ u v y z, D u k = some y → D k v = some z → ∃ x, D' u v = some x ∧ x ≤ y + z

theorem FW.step {n k : Nat} {D D' : Mat Int} (hc : ¬ HasNegCycle W)
    (hW : ∀ u v, W u v ≠ none → u < n ∧ v < n) (h : FW W n k D) (t : Through k D D') : FW W n (k + 1) D' := by
  have hleast : ∀ u v j x, WWalk (lim (k + 1) W) (W u) j v x → ∃ y, D' u v = some y ∧ y ≤ x := by
    intro u v j x hw
    rcases hw.split hc with ⟨j', h1⟩ | ⟨j1, x1, j3, x3, h1, h2, h3⟩
    · obtain ⟨y, a, b⟩ := h.least u v j' x h1
      obtain ⟨z, c, d⟩ := t.keep u v y a
      exact ⟨z, c, by omega⟩
    · obtain ⟨y1, a, b⟩ := h.least u k j1 x1 h1
      obtain ⟨y3, c, d⟩ := h.least k v j3 x3 h2
      obtain ⟨z, e, f⟩ := t.via u v y1 y3 a c
      exact ⟨z, e, by omega⟩
  refine ⟨?_, hleast, ?_⟩
  · intro u v x hx
    have old : ∀ x, D u v = some x →
        (u = v ∧ x = 0 ∧ W u u = none) ∨ ∃ j, j < n ∧ WWalk (lim (k + 1) W) (W u) j v x := by
      intro x h1
      rcases h.walk u v x h1 with h2 | ⟨j, h2, h3⟩
      · exact Or.inl h2
      · exact Or.inr ⟨j, h2, h3.lim_mono (Nat.le_succ k)⟩
    rcases t.from_ u v x hx with h1 | ⟨y, z, h1, h2, rfl⟩
    · exact old x h1
    · rcases h.walk u k y h1 with ⟨rfl, rfl, -⟩ | ⟨j1, hj1, w1⟩
      · rw [Int.zero_add]; exact old z h2
      · rcases h.walk k v z h2 with ⟨rfl, rfl, -⟩ | ⟨j3, hj3, w3⟩
        · rw [Int.add_zero]; exact old y h1
        · right
          have hv : Verts (lim (k + 1) W) (W u) n := by
            refine ⟨fun v hv => (hW u v hv).2, ?_⟩
            intro a b hab
            cases hl : lim (k + 1) W a b with
            | none => exact absurd hl hab
            | some w => exact hW a b (by rw [(lim_some hl).2]; simp)
          have hn : ¬ NegCycle (lim (k + 1) W) (W u) := by
            rintro ⟨a, -, l, c, h1, h2⟩
            exact hc ⟨a, l, c, h1.of_lim, h2⟩
          obtain ⟨j', x', h1', -, h3', h4'⟩ := WWalk.shorten hv hn _ v _ (w1.via w3)
          obtain ⟨q, q1, q2⟩ := hleast u v j' x' h4'
          rw [hx] at q1; cases q1
          have : x' = y + z := by omega
          subst this
          exact ⟨j', h1', h4'⟩
  · intro u hu hu'
    obtain ⟨y, a, b⟩ := h.diag u hu hu'
    obtain ⟨z, c, d⟩ := t.keep u u y a
    exact ⟨z, c, by omega⟩

theorem lim_all {n : Nat} (hW : ∀ u v, W u v ≠ none → u < n ∧ v < n) : lim n W = W := by
  funext a b
  unfold lim
  split
  · rfl
  · cases hw : W a b with
    | none => rfl
    | some w => exact absurd (hW a b (by rw [hw]; simp)).1 (by assumption)

/-- In the end `D` holds the distances, outside the diagonal and at the vertices that
have no self-loop. -/
theorem FW.final {n : Nat} {D : Mat Int} (hW : ∀ u v, W u v ≠ none → u < n ∧ v < n) (h : FW W n n D)
    {u : Nat} (hu : u < n) (v : Nat) (hv : u ≠ v ∨ W u u = none) :
    (D u v = none ↔ ¬ WReach W (source u) v) ∧ ∀ x, D u v = some x ↔ IsDist W (source u) v x := by
  have hwalk := h.walk
  have hleast := h.least
  rw [lim_all hW] at hwalk hleast
  have hl : ∀ j x, WWalk W (source u) j v x → ∃ y, D u v = some y ∧ y ≤ x := by
    intro j x hw
    cases j with
    | zero =>
      simp only [WWalk, source] at hw
      split at hw
      · rename_i e; subst e; cases hw
        exact h.diag v hu (hv.resolve_left fun e => e rfl)
      · cases hw
    | succ j => exact hleast u v j x (WWalk.first.2 hw)
  have hw : ∀ x, D u v = some x → ∃ j, WWalk W (source u) j v x := by
    intro x hx
    rcases hwalk u v x hx with ⟨rfl, rfl, -⟩ | ⟨j, -, h1⟩
    · exact ⟨0, by simp [WWalk, source]⟩
    · exact ⟨j + 1, WWalk.first.1 h1⟩
  refine ⟨⟨?_, ?_⟩, ?_⟩
  · rintro hd ⟨j, x, hw⟩
    obtain ⟨y, h1, -⟩ := hl j x hw
    rw [hd] at h1; cases h1
  · intro hr
    cases hd : D u v with
    | none => rfl
    | some x =>
      obtain ⟨j, hj⟩ := hw x hd
      exact absurd ⟨j, x, hj⟩ hr
  · intro x
    constructor
    · intro hd
      refine ⟨hw x hd, ?_⟩
      intro i y hy
      obtain ⟨z, h1, h2⟩ := hl i y hy
      rw [hd] at h1; cases h1; exact h2
    · rintro ⟨⟨j, hj⟩, hmin⟩
      obtain ⟨y, h1, h2⟩ := hl j x hj
      obtain ⟨i, hi⟩ := hw y h1
      have := hmin i y hi
      rw [h1]; congr 1; omega

/-- In the end `D` holds at a vertex with a self-loop the least weight of a way back to
it that has at least one edge. -/
theorem FW.final_loop {n : Nat} {D : Mat Int} (hW : ∀ u v, W u v ≠ none → u < n ∧ v < n) (h : FW W n n D)
    {u : Nat} (hu : W u u ≠ none) (x : Int) : D u u = some x ↔ IsReturn W u x := by
  have hwalk := h.walk
  have hleast := h.least
  rw [lim_all hW] at hwalk hleast
  have hw : ∀ x, D u u = some x → ∃ k, WWalk W (source u) (k + 1) u x := by
    intro x hx
    rcases hwalk u u x hx with ⟨-, -, h0⟩ | ⟨j, -, h1⟩
    · exact absurd h0 hu
    · exact ⟨j, WWalk.first.1 h1⟩
  constructor
  · intro hd
    refine ⟨hw x hd, ?_⟩
    intro k y hy
    obtain ⟨z, h1, h2⟩ := hleast u u k y (WWalk.first.2 hy)
    rw [hd] at h1; cases h1; exact h2
  · rintro ⟨⟨k, hk⟩, hmin⟩
    obtain ⟨y, h1, h2⟩ := hleast u u k x (WWalk.first.2 hk)
    obtain ⟨i, hi⟩ := hw y h1
    have := hmin i y hi
    rw [h1]; congr 1; omega

end Spec

import Verif.Model.DeltaStep
import Verif.Lemmas.Sssp
import Verif.Lemmas.Triangle
import Verif.Spec.Filtered
/-
Delta-stepping on partial functions: tentative distances and buckets.
-/
namespace GBTL
open Spec

/-! ### comparisons -/

theorem ITy.leT_eq {t : ITy} {x y : Int} (hx : t.Has x) (hy : t.Has y) : t.leT x y = decide (x ≤ y) := by
  have hb : ∀ d : ITy, d.Has (BOp.exact .le x y) := fun d => has_tf d _
  rw [ITy.leT, C45_binary .le t t .bool x y (by rw [ITy.common_self]; exact ITy.has_promote hx)
    (by rw [ITy.common_self]; exact ITy.has_promote hy) (hb _) (hb _)]
  show isTrue (tf (x ≤ y)) = _
  unfold tf isTrue
  by_cases h : x ≤ y <;> simp [h]

theorem ITy.gtT_eq {t : ITy} {x y : Int} (hx : t.Has x) (hy : t.Has y) : t.gtT x y = decide (y < x) := by
  have hb : ∀ d : ITy, d.Has (BOp.exact .gt x y) := fun d => has_tf d _
  rw [ITy.gtT, C45_binary .gt t t .bool x y (by rw [ITy.common_self]; exact ITy.has_promote hx)
    (by rw [ITy.common_self]; exact ITy.has_promote hy) (hb _) (hb _)]
  show isTrue (tf (x > y)) = _
  unfold tf isTrue
  by_cases h : x > y <;> simp [h]

theorem ITy.geT_eq {t : ITy} {x y : Int} (hx : t.Has x) (hy : t.Has y) : t.geT x y = decide (y ≤ x) := by
  have hb : ∀ d : ITy, d.Has (BOp.exact .ge x y) := fun d => has_tf d _
  rw [ITy.geT, C45_binary .ge t t .bool x y (by rw [ITy.common_self]; exact ITy.has_promote hx)
    (by rw [ITy.common_self]; exact ITy.has_promote hy) (hb _) (hb _)]
  show isTrue (tf (x ≥ y)) = _
  unfold tf isTrue
  by_cases h : x ≥ y <;> simp [h]

theorem inRange_iff {lo hi x : Int} : inRange lo hi x = true ↔ lo ≤ x ∧ x < hi := by
  simp [inRange]

/-! ### requests -/

/-- The edges of `W` whose weight satisfies `p`. -/
def part (W : Mat Int) (p : Int → Prop) (W' : Mat Int) : Prop :=
  ∀ u v w, W' u v = some w ↔ W u v = some w ∧ p w

/-- `req` holds the best extensions of the distances `d` of the vertices in `P` by an edge
of `W`. -/
structure Requests (W : Mat Int) (P : Nat → Prop) (d req : Vec Int) : Prop where
  from_ : ∀ v x, req v = some x → ∃ u y w, P u ∧ d u = some y ∧ W u v = some w ∧ x = y + w
  edge : ∀ u v y w, P u → d u = some y → W u v = some w → ∃ z, req v = some z ∧ z ≤ y + w

/-- The same for the edges of `W` whose weight satisfies `p`. -/
structure Asks (W : Mat Int) (p : Int → Prop) (P : Nat → Prop) (d req : Vec Int) : Prop where
  from_ : ∀ v x, req v = some x → ∃ u y w, P u ∧ d u = some y ∧ W u v = some w ∧ p w ∧ x = y + w
  edge : ∀ u v y w, P u → d u = some y → W u v = some w → p w → ∃ z, req v = some z ∧ z ≤ y + w

/-- `req` has a distance `x` for `v`, and `d` has none as good. -/
def Better (d req : Vec Int) (v : Nat) (x : Int) : Prop :=
  req v = some x ∧ ∀ z, d v = some z → x < z

/-- `d'` is the minimum of `d` and `req`. -/
def Merged (d req d' : Vec Int) : Prop := ∀ v, d' v = either min id id (d v) (req v)

theorem Merged.some {d req d' : Vec Int} (h : Merged d req d') {v : Nat} {x : Int} (hx : d' v = some x) :
    Better d req v x ∨ (d v = some x ∧ ∀ z, req v = some z → x ≤ z) := by
  rw [h v] at hx
  cases hd : d v with
  | none =>
    rw [hd] at hx
    cases hr : req v with
    | none => rw [hr] at hx; cases hx
    | some y => rw [hr] at hx; cases hx; exact .inl ⟨hr, fun z hz => by rw [hd] at hz; cases hz⟩
  | some a =>
    rw [hd] at hx
    cases hr : req v with
    | none => rw [hr] at hx; cases hx; exact .inr ⟨rfl, fun z hz => by cases hz⟩
    | some y =>
      rw [hr] at hx
      have hx : min a y = x := by simpa [either] using hx
      rcases Int.lt_or_le y a with h1 | h1
      · exact .inl ⟨by rw [hr]; congr 1; omega, fun z hz => by rw [hd] at hz; cases hz; omega⟩
      · exact .inr ⟨by congr 1; omega, fun z hz => by cases hz; omega⟩

theorem Merged.better {d req d' : Vec Int} (h : Merged d req d') {v : Nat} {x : Int}
    (hx : Better d req v x) : d' v = .some x := by
  rw [h v, hx.1]
  cases hd : d v with
  | none => rfl
  | some a =>
    have := hx.2 a hd
    show Option.some (min a x) = _
    congr 1; omega

theorem Merged.keep {d req d' : Vec Int} (h : Merged d req d') {v : Nat} {x : Int}
    (hx : d v = .some x) : ∃ y, d' v = .some y ∧ y ≤ x := by
  rw [h v, hx]
  cases req v with
  | none => exact ⟨x, rfl, Int.le_refl _⟩
  | some z => exact ⟨min x z, rfl, by omega⟩

theorem Merged.req {d req d' : Vec Int} (h : Merged d req d') {v : Nat} {x : Int}
    (hx : req v = .some x) : ∃ y, d' v = .some y ∧ y ≤ x := by
  rw [h v, hx]
  cases d v with
  | none => exact ⟨x, rfl, Int.le_refl _⟩
  | some z => exact ⟨min z x, rfl, by omega⟩

/-! ### tentative distances -/

/-- The weights are not negative and at most `B`. -/
def Weights (W : Mat Int) (B : Nat) : Prop := ∀ u v w, W u v = some w → 0 ≤ w ∧ w ≤ B

/-- `d` holds weights of walks from the source, which is there with weight zero, and none
is larger than what a path through the vertices seen so far can weigh. -/
structure Tentative (W : Mat Int) (src B n : Nat) (d : Vec Int) : Prop where
  walk : ∀ v x, d v = some x → ∃ k, WWalk W (source src) k v x
  start : ∃ y, d src = some y ∧ y ≤ 0
  nonneg : ∀ v x, d v = some x → 0 ≤ x
  bound : ∀ v x, d v = some x → x + B ≤ (Vec.count n d * B : Nat)
  lt : ∀ v x, d v = some x → v < n

theorem Tentative.le {W : Mat Int} {src B n : Nat} {d : Vec Int} (h : Tentative W src B n d)
    {v : Nat} {x : Int} (hx : d v = some x) : x + B ≤ (n * B : Nat) := by
  have h1 := h.bound v x hx
  have h2 : Vec.count n d * B ≤ n * B := Nat.mul_le_mul_right _ (count_le n d)
  omega

theorem Tentative.step {W : Mat Int} {src B n : Nat} {d req d' : Vec Int} {P : Nat → Prop}
    {p : Int → Prop}
    (h : Tentative W src B n d) (hp : Weights W B) (hn : ∀ u v w, W u v = some w → v < n)
    (hr : Asks W p P d req)
    (hm : Merged d req d') : Tentative W src B n d' := by
  have hc : Vec.count n d ≤ Vec.count n d' := by
    refine count_mono fun i _ hi => ?_
    obtain ⟨x, hx⟩ := Option.isSome_iff_exists.1 hi
    obtain ⟨y, hy, -⟩ := hm.keep hx
    rw [hy]; rfl
  have hcB : Vec.count n d * B ≤ Vec.count n d' * B := Nat.mul_le_mul_right _ hc
  have hlt : ∀ v x, d' v = some x → v < n := by
    intro v x hx
    rcases hm.some hx with hb | ⟨h1, -⟩
    · obtain ⟨u, y, w, -, -, h3, -⟩ := hr.from_ v x hb.1
      exact hn u v w h3
    · exact h.lt v x h1
  refine ⟨?_, ?_, ?_, ?_, hlt⟩
  · intro v x hx
    rcases hm.some hx with hb | ⟨h1, -⟩
    · obtain ⟨u, y, w, -, h2, h3, -, rfl⟩ := hr.from_ v x hb.1
      obtain ⟨k, hk⟩ := h.walk u y h2
      exact ⟨k + 1, u, y, w, hk, h3, rfl⟩
    · exact h.walk v x h1
  · obtain ⟨y, h1, h2⟩ := h.start
    obtain ⟨z, h3, h4⟩ := hm.keep h1
    exact ⟨z, h3, by omega⟩
  · intro v x hx
    rcases hm.some hx with hb | ⟨h1, -⟩
    · obtain ⟨u, y, w, -, h2, h3, -, rfl⟩ := hr.from_ v x hb.1
      have := hp u v w h3
      have := h.nonneg u y h2
      omega
    · exact h.nonneg v x h1
  · intro v x hx
    rcases hm.some hx with hb | ⟨h1, -⟩
    · obtain ⟨u, y, w, -, h2, h3, -, rfl⟩ := hr.from_ v x hb.1
      have h4 := hp u v w h3
      have h5 := h.bound u y h2
      cases hd : d v with
      | some z =>
        have h6 := h.bound v z hd
        have h7 := hb.2 z hd
        omega
      | none =>
        have h8 : Vec.count n d < Vec.count n d' := by
          refine count_lt (fun i _ hi => ?_) (hlt v _ hx) hd (by rw [hx]; rfl)
          obtain ⟨x, hx⟩ := Option.isSome_iff_exists.1 hi
          obtain ⟨y, hy, -⟩ := hm.keep hx
          rw [hy]; rfl
        have h9 : (Vec.count n d + 1) * B ≤ Vec.count n d' * B := Nat.mul_le_mul_right _ h8
        rw [Nat.add_mul, Nat.one_mul] at h9
        omega
    · have := h.bound v x h1
      omega

/-! ### buckets -/

/-- All edges out of the vertices at distance less than `lo` are relaxed. -/
def Settled (W : Mat Int) (lo : Int) (d : Vec Int) : Prop :=
  ∀ u v y w, d u = some y → y < lo → W u v = some w → ∃ z, d v = some z ∧ z ≤ y + w

/-- `D` are the vertices, other than the source, that an edge of weight zero leads to from the
source; no edge goes out of them. -/
structure DeadSet (W : Mat Int) (src : Nat) (D : Nat → Prop) : Prop where
  no : ∀ u v, D u → W u v = none
  start : ¬ D src
  zero : ∀ v, v ≠ src → (W src v = some 0 ↔ D v)

/-- While a bucket `[lo, hi)` is emptied: `bi` are the vertices to be processed, `s` those
that were, and the vertices in `D` never are. -/
structure Bucket (W : Mat Int) (D : Nat → Prop) (delta lo hi : Int) (d : Vec Int) (bi s : Nat → Prop) : Prop where
  settled : Settled W lo d
  bi_in : ∀ u, bi u → ∃ y, d u = some y ∧ lo ≤ y ∧ y < hi
  s_in : ∀ u, s u → ∃ y, d u = some y ∧ lo ≤ y
  alive : ∀ u, bi u ∨ s u → ¬ D u
  done : ∀ u y, d u = some y → lo ≤ y → y < hi →
    bi u ∨ ((s u ∨ D u) ∧ ∀ v w, W u v = some w → w ≤ delta → ∃ z, d v = some z ∧ z ≤ y + w)

/-- The start of a bucket. -/
theorem Bucket.start {W : Mat Int} {D : Nat → Prop} {delta lo hi : Int} {d : Vec Int} {bi s : Nat → Prop}
    (h : Settled W lo d) (hb : ∀ u, bi u ↔ ∃ y, d u = some y ∧ lo ≤ y ∧ y < hi) (hs : ∀ u, ¬ s u)
    (hD : ∀ u y, D u → d u = some y → y < lo) : Bucket W D delta lo hi d bi s := by
  refine ⟨h, fun u hu => (hb u).1 hu, fun u hu => absurd hu (hs u), ?_, ?_⟩
  · rintro u (hu | hu) h'
    · obtain ⟨y, h1, h2, -⟩ := (hb u).1 hu
      have := hD u y h' h1
      omega
    · exact hs u hu
  · intro u y h1 h2 h3
    exact .inl ((hb u).2 ⟨y, h1, h2, h3⟩)

/-- Relaxing from vertices at distance at least `lo` leaves the distances below alone. -/
theorem settled_step {W : Mat Int} {B : Nat} {lo : Int} {d req d' : Vec Int} {P : Nat → Prop}
    {p : Int → Prop} (h : Settled W lo d) (hp : Weights W B)
    (hP : ∀ u, P u → ∃ y, d u = some y ∧ lo ≤ y) (hr : Asks W p P d req) (hm : Merged d req d') :
    Settled W lo d' := by
  intro u v y w h1 h2 h3
  rcases hm.some h1 with hb | ⟨h4, -⟩
  · obtain ⟨u', y', w', a, b, c, -, e⟩ := hr.from_ u y hb.1
    obtain ⟨y2, b2, b3⟩ := hP u' a
    have := (hp _ _ _ c).1
    rw [b] at b2; cases b2
    omega
  · obtain ⟨z, h5, h6⟩ := h u v y w h4 h2 h3
    obtain ⟨z', h7, h8⟩ := hm.keep h5
    exact ⟨z', h7, by omega⟩

theorem lower_kept {W : Mat Int} {B : Nat} {lo : Int} {d req d' : Vec Int} {P : Nat → Prop}
    {p : Int → Prop} (hp : Weights W B)
    (hP : ∀ u, P u → ∃ y, d u = some y ∧ lo ≤ y) (hr : Asks W p P d req) (hm : Merged d req d')
    {u : Nat} (h : ∃ y, d u = some y ∧ lo ≤ y) : ∃ y, d' u = some y ∧ lo ≤ y := by
  obtain ⟨y, h1, h2⟩ := h
  obtain ⟨z, h3, -⟩ := hm.keep h1
  refine ⟨z, h3, ?_⟩
  rcases hm.some h3 with hb | ⟨h4, -⟩
  · obtain ⟨u', y', w', a, b, c, -, e⟩ := hr.from_ u z hb.1
    obtain ⟨y2, b2, b3⟩ := hP u' a
    have := (hp _ _ _ c).1
    rw [b] at b2; cases b2
    omega
  · rw [h1] at h4; cases h4; exact h2

/-- Where a distance of zero can be found. -/
theorem walk_zero {W : Mat Int} {src B : Nat} {D : Nat → Prop} (hp : Weights W B) (hZ : DeadSet W src D) :
    ∀ k v x, WWalk W (source src) k v x → 0 ≤ x ∧ (x = 0 → v = src ∨ D v) := by
  intro k
  induction k with
  | zero =>
    intro v x h
    have h : (if v = src then some (0 : Int) else none) = some x := h
    split at h
    · cases h; exact ⟨Int.le_refl _, fun _ => .inl (by assumption)⟩
    · cases h
  | succ k ih =>
    rintro v x ⟨u, y, w, h1, h2, rfl⟩
    obtain ⟨i1, i2⟩ := ih u y h1
    have h3 := (hp u v w h2).1
    refine ⟨by omega, fun h0 => ?_⟩
    have hw : w = 0 := by omega
    subst hw
    rcases i2 (by omega) with h4 | h4
    · subst h4
      by_cases hv : v = u
      · exact .inl hv
      · exact .inr ((hZ.zero v hv).1 h2)
    · rw [hZ.no u v h4] at h2; cases h2

/-- Better distances are zero just in the vertices of `D`. -/
theorem Bucket.zero {W : Mat Int} {src B n : Nat} {D : Nat → Prop} {delta lo hi : Int} {d req : Vec Int}
    {bi s : Nat → Prop} (h : Bucket W D delta lo hi d bi s) (hp : Weights W B) (hZ : DeadSet W src D)
    (ht : Tentative W src B n d) (hdelta : 0 ≤ delta) (hlt : lo < hi) (hlo : 0 ≤ lo)
    (hr : Asks W (· ≤ delta) bi d req) {v : Nat} {x : Int} (hx : Better d req v x) : 0 ≤ x ∧ (x = 0 ↔ D v) := by
  obtain ⟨u, y, w, h1, h2, h3, -, h4⟩ := hr.from_ v x hx.1
  have hy := ht.nonneg u y h2
  have hw := (hp u v w h3).1
  have hd : d src = some 0 := by
    obtain ⟨y, a, b⟩ := ht.start
    have := ht.nonneg src y a
    rw [a]; congr 1; omega
  refine ⟨by omega, ?_, ?_⟩
  · intro h0
    have hy0 : y = 0 := by omega
    have hw0 : w = 0 := by omega
    subst hy0; subst hw0
    obtain ⟨k, hk⟩ := ht.walk u 0 h2
    rcases (walk_zero hp hZ k u 0 hk).2 rfl with hu | hu
    · subst hu
      by_cases hv : v = u
      · subst hv
        have := hx.2 0 hd
        omega
      · exact (hZ.zero v hv).1 h3
    · rw [hZ.no u v hu] at h3; cases h3
  · intro hD
    have hv : v ≠ src := fun hv => hZ.start (hv ▸ hD)
    have he := (hZ.zero v hv).2 hD
    have hclose : ∀ z, d v = some z → z ≤ 0 + 0 → x = 0 := by
      intro z h5 h6
      have := hx.2 z h5
      omega
    rcases Int.lt_or_le 0 lo with hl | hl
    · obtain ⟨z, h5, h6⟩ := h.settled src v 0 0 hd hl he
      exact hclose z h5 h6
    · rcases h.done src 0 hd hl (by omega) with h5 | ⟨-, h5⟩
      · obtain ⟨z, h6, h7⟩ := hr.edge src v 0 0 h5 hd he hdelta
        rw [hx.1] at h6; cases h6
        omega
      · obtain ⟨z, h6, h7⟩ := h5 v 0 he hdelta
        exact hclose z h6 h7

/-- An iteration of the inner loop. -/
theorem Bucket.step {W : Mat Int} {B : Nat} {D : Nat → Prop} {delta lo hi : Int} {d req d' : Vec Int}
    {bi s bi' s' : Nat → Prop} (h : Bucket W D delta lo hi d bi s) (hp : Weights W B)
    (hno : ∀ u v, D u → W u v = none) (hr : Asks W (· ≤ delta) bi d req) (hm : Merged d req d')
    (hD : ∀ v x, Better d req v x → (x = 0 ↔ D v))
    (hb : ∀ v, bi' v ↔ ∃ x, Better d req v x ∧ x ≠ 0 ∧ lo ≤ x ∧ x < hi) (hs : ∀ v, s' v ↔ s v ∨ bi v) :
    Bucket W D delta lo hi d' bi' s' := by
  have hin : ∀ u, bi u → ∃ y, d u = some y ∧ lo ≤ y := fun u hu =>
    let ⟨y, h1, h2, _⟩ := h.bi_in u hu
    ⟨y, h1, h2⟩
  refine ⟨settled_step h.settled hp hin hr hm, ?_, ?_, ?_, ?_⟩
  · intro u hu
    obtain ⟨x, h1, -, h2, h3⟩ := (hb u).1 hu
    exact ⟨x, hm.better h1, h2, h3⟩
  · intro u hu
    refine lower_kept hp hin hr hm ?_
    exact ((hs u).1 hu).elim (h.s_in u) (hin u)
  · rintro u (hu | hu)
    · obtain ⟨x, h1, h2, -⟩ := (hb u).1 hu
      exact fun h3 => h2 ((hD u x h1).2 h3)
    · exact h.alive u ((hs u).1 hu).symm
  · intro u y h1 h2 h3
    rcases hm.some h1 with h4 | ⟨h4, -⟩
    · by_cases h0 : y = 0
      · have hu := (hD u y h4).1 h0
        refine .inr ⟨.inr hu, fun v w h5 => ?_⟩
        rw [hno u v hu] at h5; cases h5
      · exact .inl ((hb u).2 ⟨y, h4, h0, h2, h3⟩)
    · right
      rcases h.done u y h4 h2 h3 with h5 | ⟨h5, h6⟩
      · refine ⟨.inl ((hs u).2 (.inr h5)), ?_⟩
        intro v w h7 h8
        obtain ⟨z, h9, h10⟩ := hr.edge u v y w h5 h4 h7 h8
        obtain ⟨z', h11, h12⟩ := hm.req h9
        exact ⟨z', h11, by omega⟩
      · refine ⟨h5.imp (fun h => (hs u).2 (.inl h)) id, ?_⟩
        intro v w h7 h8
        obtain ⟨z, h9, h10⟩ := h6 v w h7 h8
        obtain ⟨z', h11, h12⟩ := hm.keep h9
        exact ⟨z', h11, by omega⟩

/-- The heavy edges out of an emptied bucket. -/
theorem Bucket.finish {W : Mat Int} {B : Nat} {D : Nat → Prop} {delta lo hi : Int} {d req d' : Vec Int}
    {bi s : Nat → Prop} (h : Bucket W D delta lo hi d bi s) (hp : Weights W B) (hhi : hi = lo + delta)
    (hno : ∀ u v, D u → W u v = none)
    (hbi : ∀ u, ¬ bi u) (hr : Asks W (delta < ·) s d req) (hm : Merged d req d') :
    Settled W hi d' := by
  intro u v y w h1 h2 h3
  rcases hm.some h1 with h4 | ⟨h4, -⟩
  · obtain ⟨u', y', w', a, b, -, c, e⟩ := hr.from_ u y h4.1
    obtain ⟨y2, b2, b3⟩ := h.s_in u' a
    rw [b] at b2; cases b2
    omega
  · rcases Int.lt_or_le y lo with h5 | h5
    · exact settled_step h.settled hp h.s_in hr hm u v y w h1 h5 h3
    · rcases h.done u y h4 h5 h2 with h6 | ⟨h6, h7⟩
      · exact absurd h6 (hbi u)
      · rcases h6 with h6 | h6
        · rcases Int.lt_or_le delta w with h8 | h8
          · obtain ⟨z, h9, h10⟩ := hr.edge u v y w h6 h4 h3 h8
            obtain ⟨z', h11, h12⟩ := hm.req h9
            exact ⟨z', h11, by omega⟩
          · obtain ⟨z, h9, h10⟩ := h7 v w h3 h8
            obtain ⟨z', h11, h12⟩ := hm.keep h9
            exact ⟨z', h11, by omega⟩
        · rw [hno u v h6] at h3; cases h3

/-- When all stored distances are settled, they are the distances. -/
theorem Tentative.dist {W : Mat Int} {src B n : Nat} {d : Vec Int} {lo : Int} (h : Tentative W src B n d)
    (hs : Settled W lo d) (hl : ∀ v x, d v = some x → x < lo) (v : Nat) (x : Int) :
    d v = some x ↔ IsDist W (source src) v x := by
  have hw : ∀ k v x, WWalk W (source src) k v x → ∃ y, d v = some y ∧ y ≤ x := by
    intro k
    induction k with
    | zero =>
      intro v x hv
      obtain ⟨y, h1, h2⟩ := h.start
      have hv : (if v = src then some (0 : Int) else none) = some x := hv
      split at hv
      · rename_i he
        rw [he]
        simp only [Option.some.injEq] at hv
        exact ⟨y, h1, by omega⟩
      · cases hv
    | succ k ih =>
      rintro v x ⟨u, y, w, h1, h2, rfl⟩
      obtain ⟨y', h3, h4⟩ := ih u y h1
      obtain ⟨z, h5, h6⟩ := hs u v y' w h3 (hl u y' h3) h2
      exact ⟨z, h5, by omega⟩
  constructor
  · intro hx
    refine ⟨h.walk v x hx, ?_⟩
    intro k x' hx'
    obtain ⟨y, h1, h2⟩ := hw k v x' hx'
    rw [hx] at h1; cases h1; exact h2
  · rintro ⟨⟨k, hk⟩, hmin⟩
    obtain ⟨y, h1, h2⟩ := hw k v x hk
    obtain ⟨j, hj⟩ := h.walk v y h1
    have := hmin j y hj
    rw [h1]; congr 1; omega

/-! ### termination of the inner loop -/

/-- The sum of the distances, `K` for a missing one. -/
def potential (K : Nat) (d : Vec Int) (n : Nat) : Nat :=
  sumTo n fun v => match d v with | none => K | some x => x.toNat

theorem potential_le {K : Nat} {d : Vec Int} {n : Nat} (h : ∀ v x, d v = some x → x ≤ K) :
    potential K d n ≤ n * K := by
  induction n with
  | zero => simp [potential, sumTo]
  | succ n ih =>
    have : potential K d (n + 1) = potential K d n + (match d n with | none => K | some x => x.toNat) := by
      rfl
    rw [this, Nat.add_mul, Nat.one_mul]
    have : (match d n with | none => K | some x => x.toNat) ≤ K := by
      cases hd : d n with
      | none => exact Nat.le_refl _
      | some x => have := h n x hd; simp only; omega
    omega

theorem potential_step {K : Nat} {d req d' : Vec Int} {n : Nat} (hm : Merged d req d')
    (hK : ∀ v x, req v = some x → 0 ≤ x ∧ x < K) (h0 : ∀ v x, d v = some x → 0 ≤ x) :
    potential K d' n ≤ potential K d n ∧
    ((∃ v x, v < n ∧ Better d req v x) → potential K d' n < potential K d n) := by
  have hone : ∀ v, (match d' v with | none => K | some x => x.toNat) ≤
      (match d v with | none => K | some x => x.toNat) ∧
      ((∃ x, Better d req v x) → (match d' v with | none => K | some x => x.toNat) <
      (match d v with | none => K | some x => x.toNat)) := by
    intro v
    constructor
    · cases hd' : d' v with
      | none =>
        cases hd : d v with
        | none => exact Nat.le_refl _
        | some x => obtain ⟨y, hy, -⟩ := hm.keep hd; rw [hd'] at hy; cases hy
      | some x =>
        cases hd : d v with
        | none =>
          rcases hm.some hd' with h | ⟨h, -⟩
          · have := hK v x h.1; simp only; omega
          · rw [hd] at h; cases h
        | some z =>
          obtain ⟨y, hy, hle⟩ := hm.keep hd
          rw [hd'] at hy; cases hy
          simp only; omega
    · rintro ⟨x, hx⟩
      rw [hm.better hx]
      have hk := hK v x hx.1
      cases hd : d v with
      | none => simp only; omega
      | some z => have := hx.2 z hd; simp only; omega
  induction n with
  | zero => exact ⟨Nat.le_refl _, fun ⟨v, x, hv, _⟩ => by omega⟩
  | succ n ih =>
    have e : ∀ d : Vec Int, potential K d (n + 1) = potential K d n + (match d n with | none => K | some x => x.toNat) := by
      intro d; rfl
    rw [e, e]
    obtain ⟨h1, h2⟩ := hone n
    refine ⟨by omega, ?_⟩
    rintro ⟨v, x, hv, hb⟩
    rcases Nat.lt_or_ge v n with h | h
    · have := ih.2 ⟨v, x, h, hb⟩; omega
    · have : v = n := by omega
      subst this
      have := h2 ⟨x, hb⟩; omega

end GBTL

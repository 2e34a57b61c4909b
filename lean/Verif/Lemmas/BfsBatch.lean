import Verif.Model.BfsBatch
import Verif.Props.Sssp
import Verif.Props.Metrics
/-
Breadth-first searches of several traversals at once, pointwise.
-/
namespace GBTL
open Spec

variable {α γ ω : Type} {E : Nat → Nat → Prop} {S : Nat → Prop}

/-- In a graph on `n` vertices all hop distances are below `n`. -/
theorem hopDist_lt {n : Nat} (hE : ∀ u v, E u v → v < n) (hS : ∀ v, S v → v < n) {v d : Nat}
    (h : HopDist E S v d) : d < n := by
  have hall : ∀ d v, HopDist E S v d → ∀ k, ∃ u, k ≤ d → HopDist E S u k := by
    intro d
    induction d with
    | zero =>
      intro v h k
      refine ⟨v, fun hk => ?_⟩
      have : k = 0 := by omega
      subst this; exact h
    | succ d ih =>
      intro v h k
      by_cases hk : k = d + 1
      · subst hk; exact ⟨v, fun _ => h⟩
      · obtain ⟨u, hu, -⟩ := h.pred
        obtain ⟨x, hx⟩ := ih u hu k
        exact ⟨x, fun hk' => hx (by omega)⟩
  apply Classical.byContradiction
  intro hd
  have hf := fun k => Classical.choose_spec (hall d v h k)
  have hlt : ∀ u k, HopDist E S u k → u < n := by
    intro u k hu
    cases k with
    | zero => exact hS u (hopDist_zero.1 hu)
    | succ k => obtain ⟨x, -, e⟩ := hu.pred; exact hE x u e
  obtain ⟨i, j, hij, hj, e⟩ := pigeonhole n (fun k => Classical.choose (hall d v h k))
    (fun i hi => hlt _ i (hf i (by omega)))
  have h1 := hf i (by omega)
  have h2 := hf j (by omega)
  have e : Classical.choose (hall d v h i) = Classical.choose (hall d v h j) := e
  rw [e] at h1
  have := h1.unique h2
  omega

/-- A level BFS after `d` rounds, pointwise: the wavefront holds the vertices at distance
`d`, the levels those nearer. -/
structure LevelsAt (E : Nat → Nat → Prop) (S : Nat → Prop) (d : Nat) (one : ω) (mk : Nat → γ)
    (wave : Nat → Option ω) (lev : Nat → Option γ) : Prop where
  inW : ∀ v, HopDist E S v d → wave v = some one
  outW : ∀ v, ¬ HopDist E S v d → wave v = none
  inL : ∀ v k, k < d → HopDist E S v k → lev v = some (mk (k + 1))
  outL : ∀ v, (∀ k, k < d → ¬ HopDist E S v k) → lev v = none

variable {d : Nat} {one : ω} {mk : Nat → γ} {wave wave' : Nat → Option ω} {lev lev' : Nat → Option γ}

theorem LevelsAt.lev_some (h : LevelsAt E S d one mk wave lev) {v : Nat} {x : γ}
    (hx : lev v = some x) : ∃ k, k < d ∧ HopDist E S v k ∧ x = mk (k + 1) := by
  by_cases h' : ∃ k, k < d ∧ HopDist E S v k
  · obtain ⟨k, hk, hd⟩ := h'
    rw [h.inL v k hk hd] at hx
    cases hx
    exact ⟨k, hk, hd, rfl⟩
  · rw [h.outL v (fun k hk hd => h' ⟨k, hk, hd⟩)] at hx
    cases hx

theorem LevelsAt.wave_some (h : LevelsAt E S d one mk wave lev) {v : Nat} {x : ω}
    (hx : wave v = some x) : HopDist E S v d ∧ x = one := by
  by_cases h' : HopDist E S v d
  · rw [h.inW v h'] at hx
    cases hx
    exact ⟨h', rfl⟩
  · rw [h.outW v h'] at hx
    cases hx

/-- The vertices of the wavefront have no level yet. -/
theorem LevelsAt.fresh (h : LevelsAt E S d one mk wave lev) {v : Nat} (hd : HopDist E S v d) : lev v = none := by
  refine h.outL v ?_
  intro k hk hd'
  have := hd.unique hd'
  omega

/-- One round. -/
theorem LevelsAt.step (h : LevelsAt E S d one mk wave lev)
    (h1 : ∀ v, wave v = some one → lev v = none → lev' v = some (mk (d + 1)))
    (h2 : ∀ v, wave v = none → lev' v = lev v)
    (h3 : ∀ v, lev' v ≠ none → wave' v = none)
    (h4 : ∀ v, lev' v = none → (∃ u, wave u = some one ∧ E u v) → wave' v = some one)
    (h5 : ∀ v, lev' v = none → (¬ ∃ u, wave u = some one ∧ E u v) → wave' v = none) :
    LevelsAt E S (d + 1) one mk wave' lev' := by
  have inL : ∀ v k, k < d + 1 → HopDist E S v k → lev' v = some (mk (k + 1)) := by
    intro v k hk hd
    rcases Nat.lt_or_ge k d with h' | h'
    · rw [h2 v (h.outW v ?_), h.inL v k h' hd]
      intro hd'
      have := hd.unique hd'
      omega
    · have : k = d := by omega
      subst this
      exact h1 v (h.inW v hd) (h.fresh hd)
  have outL : ∀ v, (∀ k, k < d + 1 → ¬ HopDist E S v k) → lev' v = none := by
    intro v hv
    rw [h2 v (h.outW v (hv d (by omega)))]
    exact h.outL v (fun k hk => hv k (by omega))
  have hex : ∀ v, (∃ u, wave u = some one ∧ E u v) ↔ ∃ u, HopDist E S u d ∧ E u v := by
    intro v
    constructor
    · rintro ⟨u, hu, e⟩; exact ⟨u, (h.wave_some hu).1, e⟩
    · rintro ⟨u, hu, e⟩; exact ⟨u, h.inW u hu, e⟩
  refine ⟨?_, ?_, inL, outL⟩
  · intro v hv
    obtain ⟨a, b⟩ := hopDist_succ.1 hv
    refine h4 v (outL v fun k hk => b k (by omega)) ((hex v).2 a)
  · intro v hv
    by_cases hl : lev' v = none
    · refine h5 v hl ?_
      intro he
      apply hv
      rw [hopDist_succ]
      refine ⟨(hex v).1 he, ?_⟩
      intro k hk hd
      rw [inL v k (by omega) hd] at hl
      cases hl
    · exact h3 v hl

theorem LevelsAt.final (h : LevelsAt E S d one mk wave lev) (he : ∀ v, wave v = none) :
    IsLevels E S mk lev := by
  have hn : ∀ v, ¬ HopDist E S v d := by
    intro v hv
    have := he v
    rw [h.inW v hv] at this
    cases this
  refine ⟨?_, ?_⟩
  · intro v k hk
    rcases Nat.lt_or_ge k d with h' | h'
    · exact h.inL v k h' hk
    · exact absurd hk (hopDist_none hn h')
  · intro v hv
    refine h.outL v ?_
    intro k _ hd
    exact hv ⟨k, hd.1⟩

/-- The product of a wavefront and a graph over a semiring in which everything is one. -/
theorem wave_prod {n : Nat} {A : Nat → Nat → Option α} {τ : Type} {add : τ → τ → τ}
    {mult : ω → α → τ} {one' : τ} (hlt : ∀ u, wave u ≠ none → u < n)
    (h1 : ∀ u x, wave u = some x → x = one)
    (hm : ∀ u v x, A u v = some x → mult one x = one') (ha : add one' one' = one') (v : Nat) :
    ((∃ u, wave u = some one ∧ Edge A u v) → Spec.vxm n add mult wave A v = some one') ∧
    ((¬ ∃ u, wave u = some one ∧ Edge A u v) → Spec.vxm n add mult wave A v = none) := by
  have hyes : ∀ k, wave k = some one → Edge A k v → both mult (wave k) (A k v) = some one' := by
    intro k h2 h3
    obtain ⟨y, hy⟩ := Option.isSome_iff_exists.1 h3
    rw [h2, hy]
    simp [both, hm k v y hy]
  have hno : ∀ k, ¬ (wave k = some one ∧ Edge A k v) → both mult (wave k) (A k v) = none := by
    intro k h2
    cases h3 : wave k with
    | none => rfl
    | some x =>
      obtain rfl := h1 k x h3
      cases h4 : A k v with
      | none => rfl
      | some y => exact absurd ⟨h3, by rw [Edge, h4]; rfl⟩ h2
  constructor
  · rintro ⟨u, hu, he⟩
    refine osum_const ha ?_ ⟨u, hlt u (by rw [hu]; simp), hyes u hu he⟩
    intro k _
    by_cases h : wave k = some one ∧ Edge A k v
    · exact .inr (hyes k h.1 h.2)
    · exact .inl (hno k h)
  · intro h
    refine osum_range_none.2 ?_
    intro k _
    exact hno k (fun h' => h ⟨k, h'⟩)

/-- A consistent matrix with elements has one inside. -/
theorem nonempty_of_nvalsM {A : Lil α} (hA : A.WF) (h : 0 < A.nvals) :
    ∃ i j x, i < A.nrows ∧ j < A.ncols ∧ A.get i j = some x := by
  apply Classical.byContradiction
  intro hn
  have hz : A.nvals = 0 := by
    rw [hA.nvals_eq, Mat.count]
    have : ∀ i, i < A.nrows → Vec.count A.ncols (A.get i) = 0 := by
      intro i hi
      rw [Vec.count, List.length_eq_zero_iff, List.filter_eq_nil_iff]
      intro j hj
      have hj := List.mem_range.1 hj
      cases hg : A.get i j with
      | none => simp
      | some x => exact absurd ⟨i, j, x, hi, hj, hg⟩ hn
    have : ((List.range A.nrows).map fun i => Vec.count A.ncols (A.get i)) = List.replicate A.nrows 0 := by
      rw [List.eq_replicate_iff]
      refine ⟨by simp, ?_⟩
      intro b hb
      rw [List.mem_map] at hb
      obtain ⟨i, hi, rfl⟩ := hb
      exact this i (List.mem_range.1 hi)
    rw [this]; simp
  omega

/-! ### Parents -/

/-- A parent BFS from the vertices `S` after `d` rounds, pointwise. -/
structure ParAt (E : Nat → Nat → Prop) (S : Nat → Prop) (n d : Nat) (wave par : Nat → Option Int) :
    Prop where
  inW : ∀ v, HopDist E S v d → wave v ≠ none
  outW : ∀ v, ¬ HopDist E S v d → wave v = none
  root : ∀ v, S v → par v = some (v : Int)
  inP : ∀ v k, k < d → HopDist E S v (k + 1) → ∃ p : Nat, par v = some (p : Int) ∧ IsParent E S v p
  outP : ∀ v, (∀ k, k ≤ d → ¬ HopDist E S v k) → par v = none
  small : ∀ v c, par v = some c → ∃ p : Nat, p < n ∧ c = p

section
variable {n : Nat} {wv par wv' par' : Nat → Option Int}

theorem ParAt.par_ne (h : ParAt E S n d wv par) {v k : Nat} (hk : k ≤ d) (hd : HopDist E S v k) :
    par v ≠ none := by
  cases k with
  | zero => rw [h.root v (hopDist_zero.1 hd)]; simp
  | succ k =>
    obtain ⟨p, hp, -⟩ := h.inP v k (by omega) hd
    rw [hp]; simp

/-- One round. -/
theorem ParAt.step (h : ParAt E S n d wv par) (hlt : ∀ u, wv u ≠ none → u < n)
    (h1 : ∀ v, par v ≠ none → wv' v = none)
    (h2 : ∀ v, par v = none → (∀ u, wv u ≠ none → ¬ E u v) → wv' v = none)
    (h3 : ∀ v u, par v = none → wv u ≠ none → E u v →
      ∃ p : Nat, wv' v = some (p : Int) ∧ wv p ≠ none ∧ E p v ∧ ∀ u, wv u ≠ none → E u v → p ≤ u)
    (h4 : ∀ v, wv' v = none → par' v = par v)
    (h5 : ∀ v (p : Nat), p < n → wv' v = some (p : Int) → par v = none → par' v = some (p : Int)) :
    ParAt E S n (d + 1) wv' par' := by
  have hw : ∀ u, wv u ≠ none ↔ HopDist E S u d := by
    intro u
    constructor
    · intro hu
      by_cases hd : HopDist E S u d
      · exact hd
      · exact absurd (h.outW u hd) hu
    · exact h.inW u
  have hnew : ∀ v, HopDist E S v (d + 1) →
      par v = none ∧ ∃ p : Nat, p < n ∧ wv' v = some (p : Int) ∧ IsParent E S v p := by
    intro v hv
    have hn : par v = none := by
      refine h.outP v ?_
      intro k hk hd
      have := hv.unique hd
      omega
    obtain ⟨u, hu, e⟩ := hv.pred
    obtain ⟨p, p1, p2, p3, p4⟩ := h3 v u hn ((hw u).2 hu) e
    exact ⟨hn, p, hlt p p2, p1, d, hv, (hw p).1 p2, p3, fun u hu => p4 u ((hw u).2 hu)⟩
  have hold : ∀ v, par v = none → ¬ HopDist E S v (d + 1) → wv' v = none := by
    intro v hn hv
    refine h2 v hn ?_
    intro u hu e
    apply hv
    rw [hopDist_succ]
    refine ⟨⟨u, (hw u).1 hu, e⟩, ?_⟩
    intro k hk hd
    exact h.par_ne hk hd hn
  have keep : ∀ v, par v ≠ none → par' v = par v := fun v hv => h4 v (h1 v hv)
  refine ⟨?_, ?_, ?_, ?_, ?_, ?_⟩
  · intro v hv
    obtain ⟨-, p, -, hp, -⟩ := hnew v hv
    rw [hp]; simp
  · intro v hv
    by_cases hn : par v = none
    · exact hold v hn hv
    · exact h1 v hn
  · intro v hv
    rw [keep v (by rw [h.root v hv]; simp), h.root v hv]
  · intro v k hk hd
    rcases Nat.lt_or_ge k d with h' | h'
    · obtain ⟨p, hp, hq⟩ := h.inP v k h' hd
      exact ⟨p, by rw [keep v (by rw [hp]; simp), hp], hq⟩
    · have : k = d := by omega
      subst this
      obtain ⟨hn, p, hpn, hp, hq⟩ := hnew v hd
      exact ⟨p, h5 v p hpn hp hn, hq⟩
  · intro v hv
    have hn : par v = none := h.outP v (fun k hk => hv k (by omega))
    rw [h4 v (hold v hn (hv (d + 1) (Nat.le_refl _))), hn]
  · intro v c hc
    by_cases hn : par v = none
    · by_cases hd : HopDist E S v (d + 1)
      · obtain ⟨-, p, hpn, hp, -⟩ := hnew v hd
        rw [h5 v p hpn hp hn] at hc
        cases hc
        exact ⟨p, hpn, rfl⟩
      · rw [h4 v (hold v hn hd), hn] at hc
        cases hc
    · rw [keep v hn] at hc
      exact h.small v c hc

theorem ParAt.start (hS : ∀ v, S v → v < n) (h1 : ∀ v, wv v ≠ none ↔ S v)
    (h2 : ∀ v, S v → par v = some (v : Int)) (h3 : ∀ v, ¬ S v → par v = none) : ParAt E S n 0 wv par := by
  refine ⟨fun v hv => (h1 v).2 (hopDist_zero.1 hv), ?_, h2, fun v k hk => absurd hk (Nat.not_lt_zero _),
    fun v hv => h3 v (fun h => hv 0 (Nat.le_refl _) (hopDist_zero.2 h)), ?_⟩
  · intro v hv
    apply Classical.not_not.1
    intro h
    exact hv (hopDist_zero.2 ((h1 v).1 h))
  · intro v c hc
    by_cases h : S v
    · rw [h2 v h] at hc; cases hc; exact ⟨v, hS v h, rfl⟩
    · rw [h3 v h] at hc; cases hc

/-- What the parents are when the wavefront is empty. -/
theorem ParAt.final (h : ParAt E S n d wv par) (he : ∀ v, wv v = none) :
    (∀ v, S v → par v = some (v : Int)) ∧
    (∀ v, Reachable E S v → ¬ S v → ∃ p : Nat, par v = some (p : Int) ∧ IsParent E S v p) ∧
    (∀ v, ¬ Reachable E S v → par v = none) := by
  have hnd : ∀ v, ¬ HopDist E S v d := fun v hv => h.inW v hv (he v)
  refine ⟨h.root, ?_, fun v hv => h.outP v (fun k _ hd => hv ⟨k, hd.1⟩)⟩
  rintro v ⟨k, hk⟩ hv
  obtain ⟨j, -, hd⟩ := Walk.dist hk
  cases j with
  | zero => exact absurd (hopDist_zero.1 hd) hv
  | succ j =>
    rcases Nat.lt_or_ge j d with h' | h'
    · exact h.inP v j h' hd
    · exact absurd hd (hopDist_none hnd (by omega))

theorem ITy.has_u64 {t : ITy} {k : Nat} (h : t.Has k) : ITy.Has .u64 k := by
  have h2 := h.2
  refine ⟨by show (0 : Int) ≤ k; omega, ?_⟩
  have : t.maxVal ≤ 18446744073709551615 := by cases t <;> decide
  show (k : Int) ≤ 18446744073709551615
  omega

/-- The operations of one round, pointwise: the wavefront is renumbered (`w1`), multiplied
with the graph and masked (`wv'`), and added to the parents. -/
theorem ParAt.round {A : Nat → Nat → Option Int} {t w : ITy} {w1 : Nat → Option Int}
    (h : ParAt (Edge A) S n d wv par) (hE : ∀ u v, Edge A u v → v < n)
    (hlt : ∀ u, wv u ≠ none → u < n) (ht : ∀ k : Nat, k < n → t.Has k) (hw : ∀ k : Nat, k < n → w.Has k)
    (h1 : ∀ v, w1 v = if wv v = none then none else some (v : Int))
    (h2 : ∀ v, v < n → wv' v = if par v = none then
      (Spec.vxm n t.minT (fun a (_ : Int) => t.conv a) w1 A v).map w.conv else none)
    (h2' : ∀ v, ¬ v < n → wv' v = none)
    (h3 : ∀ v, v < n → wv' v = none → par' v = (par v).map fun c => ITy.conv .u64 (t.conv c))
    (h4 : ∀ v x, v < n → wv' v = some x → par v = none → par' v = some (ITy.conv .u64 (t.conv x)))
    (h3' : ∀ v, ¬ v < n → par v = none ∧ par' v = none) :
    ParAt (Edge A) S n (d + 1) wv' par' := by
  have ct : ∀ k : Nat, k < n → t.conv k = k := fun k hk => ITy.conv_id (ht k hk)
  have cw : ∀ k : Nat, k < n → w.conv k = k := fun k hk => ITy.conv_id (hw k hk)
  have cu : ∀ k : Nat, k < n → ITy.conv .u64 k = k := fun k hk => ITy.conv_id (ITy.has_u64 (ht k hk))
  have hval : ∀ v k x, both (fun a (_ : Int) => t.conv a) (w1 k) (A k v) = some x →
      x = k ∧ wv k ≠ none ∧ Edge A k v := by
    intro v k x hx
    rw [h1] at hx
    by_cases hk : wv k = none
    · rw [if_pos hk] at hx; cases hx
    · rw [if_neg hk] at hx
      cases hg : A k v with
      | none => rw [hg] at hx; cases hx
      | some y =>
        rw [hg] at hx
        cases hx
        exact ⟨ct k (hlt k hk), hk, by rw [Edge, hg]; rfl⟩
  have hval2 : ∀ v k, wv k ≠ none → Edge A k v →
      both (fun a (_ : Int) => t.conv a) (w1 k) (A k v) = some (k : Int) := by
    intro v k hk he
    obtain ⟨y, hy⟩ := Option.isSome_iff_exists.1 he
    rw [h1, if_neg hk, hy]
    show some (t.conv k) = _
    rw [ct k (hlt k hk)]
  refine h.step hlt ?_ ?_ ?_ ?_ ?_
  · intro v hv
    by_cases hn : v < n
    · rw [h2 v hn, if_neg hv]
    · exact h2' v hn
  · intro v hv hu
    by_cases hn : v < n
    · rw [h2 v hn, if_pos hv, show Spec.vxm n t.minT (fun a (_ : Int) => t.conv a) w1 A v = none from
        osum_range_none.2 ?_, Option.map_none]
      intro k _
      cases hx : both (fun a (_ : Int) => t.conv a) (w1 k) (A k v) with
      | none => rfl
      | some x =>
        obtain ⟨-, a, b⟩ := hval v k x hx
        exact absurd b (hu k a)
    · exact h2' v hn
  · intro v u hv hu he
    cases hsum : Spec.vxm n t.minT (fun a (_ : Int) => t.conv a) w1 A v with
    | none =>
      have := osum_range_none.1 hsum u (hlt u hu)
      rw [hval2 v u hu he] at this
      cases this
    | some x =>
      obtain ⟨⟨k, hk, hx⟩, hmin⟩ := osum_minT
        (fun k x hk hx => by rw [(hval v k x hx).1]; exact ht k hk) hsum
      obtain ⟨rfl, a, b⟩ := hval v k x hx
      refine ⟨k, ?_, a, b, fun u hu he => ?_⟩
      · rw [h2 v (hE k v b), if_pos hv, hsum, Option.map_some, cw k hk]
      · have := hmin u u (hlt u hu) (hval2 v u hu he)
        omega
  · intro v hv
    by_cases hn : v < n
    · rw [h3 v hn hv]
      cases hp : par v with
      | none => rfl
      | some c =>
        obtain ⟨p, hpn, rfl⟩ := h.small v c hp
        rw [Option.map_some, ct p hpn, cu p hpn]
    · rw [(h3' v hn).1, (h3' v hn).2]
  · intro v p hp hv hn
    by_cases hvn : v < n
    · rw [h4 v p hvn hv hn, ct p hp, cu p hp]
    · rw [h2' v hvn] at hv; cases hv

end

end GBTL

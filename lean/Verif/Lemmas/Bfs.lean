import Verif.Lemmas.Algo
import Verif.Model.Bfs
import Verif.Spec.Graph
import Verif.Props.Products
import Verif.Props.Elementwise
/-
Breadth-first search, pointwise: hop distances and one step of the search.
-/
namespace GBTL
open Spec

variable {α γ ω : Type} {E : Nat → Nat → Prop} {S : Nat → Prop}

theorem exists_min {P : Nat → Prop} {k : Nat} (h : P k) :
    ∃ d, d ≤ k ∧ P d ∧ ∀ j, P j → d ≤ j := by
  induction k using Nat.strongRecOn with
  | ind k ih =>
    by_cases h' : ∃ j, j < k ∧ P j
    · obtain ⟨j, hj, hp⟩ := h'
      obtain ⟨d, h1, h2⟩ := ih j hj hp
      exact ⟨d, by omega, h2⟩
    · refine ⟨k, Nat.le_refl _, h, ?_⟩
      intro j hj
      rcases Nat.lt_or_ge j k with h2 | h2
      · exact absurd ⟨j, h2, hj⟩ h'
      · exact h2

theorem _root_.Spec.Walk.dist {v k : Nat} (h : Walk E S k v) : ∃ d, d ≤ k ∧ HopDist E S v d := exists_min h

theorem _root_.Spec.HopDist.unique {v d e : Nat} (h1 : HopDist E S v d) (h2 : HopDist E S v e) : d = e :=
  Nat.le_antisymm (h1.2 _ h2.1) (h2.2 _ h1.1)

theorem hopDist_zero {v : Nat} : HopDist E S v 0 ↔ S v :=
  ⟨fun h => h.1, fun h => ⟨h, fun _ _ => Nat.zero_le _⟩⟩

/-- A vertex at distance `d + 1` is the successor of one at distance `d`. -/
theorem _root_.Spec.HopDist.pred {v d : Nat} (h : HopDist E S v (d + 1)) : ∃ u, HopDist E S u d ∧ E u v := by
  obtain ⟨⟨u, hu, e⟩, hm⟩ := h
  refine ⟨u, ⟨hu, ?_⟩, e⟩
  intro k hk
  have := hm (k + 1) ⟨u, hk, e⟩
  omega

theorem hopDist_succ {v d : Nat} :
    HopDist E S v (d + 1) ↔ (∃ u, HopDist E S u d ∧ E u v) ∧ ∀ k, k ≤ d → ¬ HopDist E S v k := by
  constructor
  · intro h
    refine ⟨h.pred, ?_⟩
    intro k hk h'
    have := h.unique h'
    omega
  · rintro ⟨⟨u, hu, e⟩, hn⟩
    refine ⟨⟨u, hu.1, e⟩, ?_⟩
    intro k hk
    obtain ⟨j, hj, hd⟩ := Walk.dist hk
    rcases Nat.lt_or_ge d j with h | h
    · omega
    · exact absurd hd (hn j h)

/-- If there is no vertex at distance `d`, there is none further away. -/
theorem hopDist_none {d : Nat} (h : ∀ v, ¬ HopDist E S v d) {k v : Nat} (hk : d ≤ k) :
    ¬ HopDist E S v k := by
  induction k generalizing v with
  | zero =>
    have : d = 0 := by omega
    subst this; exact h v
  | succ k ih =>
    intro hv
    rcases Nat.lt_or_ge k d with h' | h'
    · have : d = k + 1 := by omega
      subst this; exact h v hv
    · obtain ⟨u, hu, -⟩ := hv.pred
      exact ih h' hu

/-- The state of a level BFS after `d` rounds, pointwise: the wavefront holds the
vertices at distance `d`, the levels those nearer. -/
structure LevInv (E : Nat → Nat → Prop) (S : Nat → Prop) (n d : Nat) (one : ω) (mk : Nat → γ)
    (wave : Nat → Option ω) (lev : Nat → Option γ) : Prop where
  inW : ∀ v, HopDist E S v d → wave v = some one
  outW : ∀ v, ¬ HopDist E S v d → wave v = none
  inL : ∀ v k, k < d → HopDist E S v k → lev v = some (mk (k + 1))
  outL : ∀ v, (∀ k, k < d → ¬ HopDist E S v k) → lev v = none
  count : d ≤ Vec.count n lev

theorem LevInv.lev_some {n d : Nat} {one : ω} {mk : Nat → γ} {wave : Nat → Option ω}
    {lev : Nat → Option γ} (h : LevInv E S n d one mk wave lev) {v : Nat} {x : γ}
    (hx : lev v = some x) : ∃ k, k < d ∧ HopDist E S v k ∧ x = mk (k + 1) := by
  by_cases h' : ∃ k, k < d ∧ HopDist E S v k
  · obtain ⟨k, hk, hd⟩ := h'
    rw [h.inL v k hk hd] at hx
    cases hx
    exact ⟨k, hk, hd, rfl⟩
  · rw [h.outL v (fun k hk hd => h' ⟨k, hk, hd⟩)] at hx
    cases hx

theorem LevInv.wave_some {n d : Nat} {one : ω} {mk : Nat → γ} {wave : Nat → Option ω}
    {lev : Nat → Option γ} (h : LevInv E S n d one mk wave lev) {v : Nat} {x : ω}
    (hx : wave v = some x) : HopDist E S v d ∧ x = one := by
  by_cases h' : HopDist E S v d
  · rw [h.inW v h'] at hx
    cases hx
    exact ⟨h', rfl⟩
  · rw [h.outW v h'] at hx
    cases hx

/-- One round. -/
theorem LevInv.step {n d : Nat} {one : ω} {mk : Nat → γ} {wave wave' : Nat → Option ω}
    {lev lev' : Nat → Option γ} (h : LevInv E S n d one mk wave lev)
    (hw : ∀ v, wave v ≠ none → v < n)
    (hne : ∃ v, wave v ≠ none)
    (h1 : ∀ v, wave v = some one → lev v = none → lev' v = some (mk (d + 1)))
    (h2 : ∀ v, wave v = none → lev' v = lev v)
    (h3 : ∀ v, lev' v ≠ none → wave' v = none)
    (h4 : ∀ v, lev' v = none → (∃ u, wave u = some one ∧ E u v) → wave' v = some one)
    (h5 : ∀ v, lev' v = none → (¬ ∃ u, wave u = some one ∧ E u v) → wave' v = none) :
    LevInv E S n (d + 1) one mk wave' lev' := by
  have hnl : ∀ v, HopDist E S v d → lev v = none := by
    intro v hv
    refine h.outL v ?_
    intro k hk hd
    have := hv.unique hd
    omega
  have inL : ∀ v k, k < d + 1 → HopDist E S v k → lev' v = some (mk (k + 1)) := by
    intro v k hk hd
    rcases Nat.lt_or_ge k d with h' | h'
    · rw [h2 v (h.outW v ?_), h.inL v k h' hd]
      intro hd'
      have := hd.unique hd'
      omega
    · have : k = d := by omega
      subst this
      exact h1 v (h.inW v hd) (hnl v hd)
  have outL : ∀ v, (∀ k, k < d + 1 → ¬ HopDist E S v k) → lev' v = none := by
    intro v hv
    rw [h2 v (h.outW v (hv d (by omega)))]
    exact h.outL v (fun k hk => hv k (by omega))
  have hex : ∀ v, (∃ u, wave u = some one ∧ E u v) ↔ ∃ u, HopDist E S u d ∧ E u v := by
    intro v
    constructor
    · rintro ⟨u, hu, e⟩; exact ⟨u, (h.wave_some hu).1, e⟩
    · rintro ⟨u, hu, e⟩; exact ⟨u, h.inW u hu, e⟩
  refine ⟨?_, ?_, inL, outL, ?_⟩
  · intro v hv
    obtain ⟨a, b⟩ := hopDist_succ.1 hv
    refine h4 v (outL v fun k hk => b k (by omega)) ((hex v).2 a)
  · intro v hv
    by_cases hl : lev' v = none
    · refine h5 v hl ?_
      intro he
      apply hv
      rw [hopDist_succ]
      refine ⟨(hex v).1 he, ?_⟩
      intro k hk hd
      rw [inL v k (by omega) hd] at hl
      cases hl
    · exact h3 v hl
  · refine Nat.lt_of_le_of_lt h.count ?_
    obtain ⟨v, hv⟩ := hne
    have hvn := hw v hv
    cases hwv : wave v with
    | none => exact absurd hwv hv
    | some x =>
      obtain ⟨hd, rfl⟩ := h.wave_some hwv
      refine count_lt ?_ hvn (hnl v hd) (by rw [inL v d (by omega) hd]; rfl)
      intro i _ hi
      obtain ⟨y, hy⟩ := Option.isSome_iff_exists.1 hi
      obtain ⟨k, hk, hd', -⟩ := h.lev_some hy
      rw [inL i k (by omega) hd']; rfl

/-- What a finished level BFS holds. -/
structure IsLevels (E : Nat → Nat → Prop) (S : Nat → Prop) (mk : Nat → γ) (lev : Nat → Option γ) :
    Prop where
  reached : ∀ v d, HopDist E S v d → lev v = some (mk (d + 1))
  unreached : ∀ v, ¬ Reachable E S v → lev v = none

theorem LevInv.final {n d : Nat} {one : ω} {mk : Nat → γ} {wave : Nat → Option ω}
    {lev : Nat → Option γ} (h : LevInv E S n d one mk wave lev) (he : ∀ v, wave v = none) :
    IsLevels E S mk lev := by
  have hn : ∀ v, ¬ HopDist E S v d := by
    intro v hv
    have := he v
    rw [h.inW v hv] at this
    cases this
  refine ⟨?_, ?_⟩
  · intro v k hk
    rcases Nat.lt_or_ge k d with h' | h'
    · exact h.inL v k h' hk
    · exact absurd hk (hopDist_none hn h')
  · intro v hv
    refine h.outL v ?_
    intro k _ hd
    exact hv ⟨k, hd.1⟩

end GBTL

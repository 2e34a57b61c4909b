import Verif.Model.Sssp
import Verif.Lemmas.Algo
import Verif.Lemmas.Paths
import Verif.Props.Algebra
import Verif.Props.Select
import Verif.Props.Bfs
/-
One round of relaxations, on machine integers without overflow.
-/
namespace GBTL
open Spec

/-! ### arithmetic -/

theorem ITy.minT_eq {t : ITy} {x y : Int} (hx : t.Has x) (hy : t.Has y) : t.minT x y = min x y := by
  rw [ITy.minT, (run_min hx hy).1]; rfl

theorem ITy.has_min2 {t : ITy} {x y : Int} (hx : t.Has x) (hy : t.Has y) : t.Has (min x y) := (run_min hx hy).2

theorem ITy.plusT_eq {t : ITy} (ov : Int → Int → Int) {x y : Int} (hx : t.Has x) (hy : t.Has y)
    (hs : t.Has (x + y)) : t.plusT ov x y = x + y := by
  rw [ITy.plusT, C45_binary .plus t t t x y (by rw [ITy.common_self]; exact ITy.has_promote hx)
    (by rw [ITy.common_self]; exact ITy.has_promote hy) (by rw [ITy.common_self]; exact ITy.has_promote hs) hs]
  rfl

theorem ITy.lessT_eq {t : ITy} {x y : Int} (hx : t.Has x) (hy : t.Has y) : t.lessT x y = decide (x < y) := by
  have hb : ∀ d : ITy, d.Has (BOp.exact .lt x y) := fun d => has_tf d _
  rw [ITy.lessT, C45_binary .lt t t .bool x y (by rw [ITy.common_self]; exact ITy.has_promote hx)
    (by rw [ITy.common_self]; exact ITy.has_promote hy) (hb _) (hb _)]
  show isTrue (tf (x < y)) = _
  unfold tf isTrue
  by_cases h : x < y <;> simp [h]

/-! ### sums -/

/-- Replacing the addition on the values that occur. -/
theorem osum_swap {τ : Type} {P : τ → Prop} {add add' : τ → τ → τ}
    (hP : ∀ x y, P x → P y → P (add x y)) (he : ∀ x y, P x → P y → add x y = add' x y)
    {n : Nat} {f : Nat → Option τ} (hf : ∀ k x, k < n → f k = some x → P x) :
    Spec.osum add ((List.range n).map f) = Spec.osum add' ((List.range n).map f) ∧
      ∀ x, Spec.osum add ((List.range n).map f) = some x → P x := by
  induction n with
  | zero => exact ⟨rfl, fun x h => by simp [Spec.osum] at h⟩
  | succ n ih =>
    obtain ⟨h1, h2⟩ := ih (fun k x hk => hf k x (by omega))
    rw [List.range_succ, List.map_append, List.map_cons, List.map_nil, osum_append, osum_append, ← h1]
    cases ho : Spec.osum add ((List.range n).map f) with
    | none =>
      exact ⟨rfl, fun x h => hf n x (by omega) h⟩
    | some a =>
      cases hn : f n with
      | none => exact ⟨rfl, fun x h => by cases h; exact h2 _ ho⟩
      | some b =>
        refine ⟨by simp only; rw [he a b (h2 _ ho) (hf n b (by omega) hn)], ?_⟩
        intro x h; cases h
        exact hP _ _ (h2 _ ho) (hf n b (by omega) hn)

theorem osum_min {n : Nat} {f : Nat → Option Int} :
    (∀ x, Spec.osum min ((List.range n).map f) = some x →
      (∃ k, k < n ∧ f k = some x) ∧ ∀ k y, k < n → f k = some y → x ≤ y) :=
  fun _ h => osum_best (le := fun x y : Int => x ≤ y) (fun _ => Int.le_refl _)
    (fun _ _ _ h1 h2 => Int.le_trans h1 h2)
    (fun x y => ⟨by omega, by omega, by omega⟩) h

/-- All sums of a distance and an edge are representable. -/
def NoOver (t : ITy) (d : Vec Int) (W : Mat Int) : Prop :=
  (∀ v x, d v = some x → t.Has x) ∧
  ∀ u v y w, d u = some y → W u v = some w → t.Has w ∧ t.Has (y + w)

/-- A product over (min, +): the best of the extended walks. -/
theorem minplus_spec {t : ITy} {ov : Int → Int → Int} {n : Nat} {d : Vec Int} {W : Mat Int} {v : Nat}
    (ho : NoOver t d W) :
    (∀ x, Spec.vxm n t.minT (t.plusT ov) d W v = some x →
      (∃ u y w, u < n ∧ d u = some y ∧ W u v = some w ∧ x = y + w) ∧ t.Has x) ∧
    (∀ u y w, u < n → d u = some y → W u v = some w →
      ∃ z, Spec.vxm n t.minT (t.plusT ov) d W v = some z ∧ z ≤ y + w) := by
  have he : Spec.vxm n t.minT (t.plusT ov) d W v
      = Spec.osum t.minT ((List.range n).map fun k => both (fun x y => x + y) (d k) (W k v)) := by
    unfold Spec.vxm
    congr 1
    apply List.map_congr_left
    intro k _
    cases hd : d k with
    | none => rfl
    | some y =>
      cases hw : W k v with
      | none => rfl
      | some w =>
        obtain ⟨h1, h2⟩ := ho.2 k v y w hd hw
        show some (t.plusT ov y w) = some (y + w)
        rw [ITy.plusT_eq ov (ho.1 k y hd) h1 h2]
  have hin : ∀ k x, both (fun x y => x + y) (d k) (W k v) = some x →
      ∃ y w, d k = some y ∧ W k v = some w ∧ x = y + w := by
    intro k x h
    cases hd : d k with
    | none => rw [hd] at h; cases h
    | some y =>
      cases hw : W k v with
      | none => rw [hd, hw] at h; cases h
      | some w => rw [hd, hw] at h; cases h; exact ⟨y, w, rfl, rfl, rfl⟩
  obtain ⟨h1, h2⟩ := osum_swap (P := t.Has) (add := t.minT) (add' := min)
    (fun x y hx hy => by rw [ITy.minT_eq hx hy]; exact ITy.has_min2 hx hy)
    (fun x y hx hy => ITy.minT_eq hx hy) (n := n)
    (f := fun k => both (fun x y => x + y) (d k) (W k v)) (by
      intro k x _ h
      obtain ⟨y, w, a, b, rfl⟩ := hin k x h
      exact (ho.2 k v y w a b).2)
  rw [he]
  constructor
  · intro x hx
    refine ⟨?_, h2 x hx⟩
    rw [h1] at hx
    obtain ⟨⟨k, hk, hf⟩, -⟩ := osum_min x hx
    obtain ⟨y, w, a, b, e⟩ := hin k x hf
    exact ⟨k, y, w, hk, a, b, e⟩
  · intro u y w hu hd hw
    have hf : both (fun x y => x + y) (d u) (W u v) = some (y + w) := by rw [hd, hw]; rfl
    cases ho : Spec.osum t.minT ((List.range n).map fun k => both (fun x y => x + y) (d k) (W k v)) with
    | none =>
      rw [osum_range_none] at ho
      have := ho u hu
      rw [hf] at this; cases this
    | some z =>
      rw [h1] at ho
      exact ⟨z, rfl, (osum_min z ho).2 u _ hu hf⟩

/-- Accumulating with `Min<T>`. -/
theorem accum_min {t : ITy} {c x : Option Int} (hc : ∀ a, c = some a → t.Has a)
    (hx : ∀ a, x = some a → t.Has a) :
    Spec.accum (.some t.minT id id) c x = either min id id c x := by
  cases hc' : c with
  | none => cases x <;> rfl
  | some a =>
    cases hx' : x with
    | none => rfl
    | some b =>
      show some (t.minT a b) = some (min a b)
      rw [ITy.minT_eq (hc a hc') (hx b hx')]

/-- One round: from the pointwise result to `Relaxed`. -/
theorem relaxed_of {t : ITy} {ov : Int → Int → Int} {n : Nat} {d d' : Vec Int} {W : Mat Int}
    (ho : NoOver t d W) (hd : ∀ u, d u ≠ none → u < n) (hW : ∀ u v, W u v ≠ none → v < n)
    (h : ∀ v, v < n → d' v =
      Spec.accum (.some t.minT id id) (d v) (Spec.vxm n t.minT (t.plusT ov) d W v))
    (h' : ∀ v, n ≤ v → d' v = none) : Relaxed W d d' := by
  have hlt : ∀ v x, d' v = some x → v < n := by
    intro v x hx
    rcases Nat.lt_or_ge v n with hv | hv
    · exact hv
    · rw [h' v hv] at hx; cases hx
  have key : ∀ v, v < n → d' v = either min id id (d v) (Spec.vxm n t.minT (t.plusT ov) d W v) := by
    intro v hv
    rw [h v hv, accum_min (ho.1 v) (fun a ha => ((minplus_spec ho).1 a ha).2)]
  refine ⟨?_, ?_, ?_⟩
  · intro v x hx
    rw [key v (hlt v x hx)] at hx
    cases hs : Spec.vxm n t.minT (t.plusT ov) d W v with
    | none =>
      rw [hs] at hx
      cases hdv : d v with
      | none => rw [hdv] at hx; cases hx
      | some a => rw [hdv] at hx; cases hx; exact Or.inl rfl
    | some z =>
      obtain ⟨⟨u, y, w, -, h1, h2, h3⟩, -⟩ := (minplus_spec ho).1 z hs
      rw [hs] at hx
      cases hdv : d v with
      | none => rw [hdv] at hx; cases hx; exact Or.inr ⟨u, y, w, h1, h2, h3⟩
      | some a =>
        rw [hdv] at hx
        have hx : min a z = x := by simpa [either] using hx
        rcases Int.le_total a z with h4 | h4
        · left; congr 1; omega
        · right; exact ⟨u, y, w, h1, h2, by omega⟩
  · intro v x hx
    rw [key v (hd v (by rw [hx]; simp)), hx]
    cases Spec.vxm n t.minT (t.plusT ov) d W v with
    | none => exact ⟨x, rfl, Int.le_refl _⟩
    | some z => exact ⟨min x z, rfl, by omega⟩
  · intro u v y w hu hw
    obtain ⟨z, h1, h2⟩ := (minplus_spec (ov := ov) ho).2 u y w (hd u (by rw [hu]; simp)) hu hw
    rw [key v (hW u v (by rw [hw]; simp)), h1]
    cases d v with
    | none => exact ⟨z, rfl, h2⟩
    | some a => exact ⟨min a z, rfl, by omega⟩

/-- Within the walks that do not overflow, neither do the sums of a round. -/
theorem _root_.Spec.Best.noOver {t : ITy} {W : Mat Int} {S d : Vec Int} {k m : Nat} (h : Best W S k d)
    (hw : ∀ u v w, W u v = some w → t.Has w) (hm : WalksWithin W S m t.Has) (hk : k < m) :
    NoOver t d W := by
  refine ⟨?_, ?_⟩
  · intro v x hx
    obtain ⟨j, hj, hj2⟩ := h.walk v x hx
    exact hm j v x (by omega) hj2
  · intro u v y w hu he
    obtain ⟨j, hj, hj2⟩ := h.walk u y hu
    exact ⟨hw u v w he, hm (j + 1) v (y + w) (by omega) ⟨u, y, w, hj2, he, rfl⟩⟩

end GBTL

import Verif.Lemmas.BetweennessSteps
/-
Brandes' recurrence when a path to the target `t` counts `ω t` times.
-/
namespace GBTL
open Spec

variable {n : Nat} {E : Nat → Nat → Bool} {ω : Nat → Rat}

/-- The weight of a vertex plus the weighted dependency on it. -/
def depW (n : Nat) (E : Nat → Nat → Bool) (ω : Nat → Rat) (s v : Nat) : Rat :=
  if (hops n E s v).isSome then (spc n E s v : Rat) * rsum n (fun t => ω t * frac n E s v t) else ω v

/-- The weighted dependency of a source on another vertex. -/
theorem weightedDependency_eq (hE : EdgesIn n E) {s v : Nat} (hs : s < n) (hvn : v < n) (hne : v ≠ s) :
    weightedDependency n E ω s v = depW n E ω s v - ω v := by
  unfold weightedDependency depW
  rw [if_neg hne, rsum_eq]
  cases hv : hops n E s v with
  | none =>
    rw [rsum_eq_zero]
    · simp; grind
    · intro t _
      split
      · rfl
      · rw [passing_none hE hs hv t, Rat.mul_zero]
  | some i =>
    have h0 := spc_ne hE hs hv
    have h1 : rsum n (fun t => ω t * frac n E s v t) =
        rsum n (fun t => if t = v then 0 else ω t * frac n E s v t) + ω v * (1 / (spc n E s v : Rat)) := by
      rw [← frac_self hv]
      have : rsum n (fun t => if t = v then ω t * frac n E s v t else 0) = ω v * frac n E s v v := by
        rw [rsum_single hvn (by intro j _ hj; rw [if_neg hj]), if_pos rfl]
      rw [← this, ← rsum_add]
      refine rsum_congr ?_
      intro t _
      split <;> grind
    rw [h1]
    simp only [Option.isSome_some, if_true]
    rw [rsum_congr (g := fun t => (spc n E s v : Rat) * (if t = v then 0 else ω t * frac n E s v t)), rsum_mul]
    · grind
    · intro t _
      split
      · grind
      · rw [passing_eq hE hs hv t]; grind

theorem depW_rec (hE : EdgesIn n E) {s v i : Nat} (hs : s < n) (hvn : v < n)
    (hv : hops n E s v = some i) :
    depW n E ω s v = ω v + (spc n E s v : Rat) * rsum n (fun w =>
      if E v w = true ∧ hops n E s w = some (i + 1) then depW n E ω s w / (spc n E s w : Rat) else 0) := by
  have h0 := spc_ne hE hs hv
  have e : rsum n (fun t => ω t * frac n E s v t) = ω v / (spc n E s v : Rat) + rsum n (fun w =>
      if E v w = true ∧ hops n E s w = some (i + 1) then depW n E ω s w / (spc n E s w : Rat) else 0) := by
    have hst : ∀ t, ω t * frac n E s v t = (if t = v then ω v / (spc n E s v : Rat) else 0) +
        rsum n (fun w => if E v w = true ∧ hops n E s w = some (i + 1) then ω t * frac n E s w t else 0) := by
      intro t
      have hm : rsum n (fun w => if E v w = true ∧ hops n E s w = some (i + 1) then ω t * frac n E s w t else 0) =
          ω t * rsum n (fun w => if E v w = true ∧ hops n E s w = some (i + 1) then frac n E s w t else 0) := by
        rw [← rsum_mul]
        refine rsum_congr ?_
        intro w _
        split <;> grind
      rw [hm, frac_step hE hs hv t]
      split
      · rename_i h; subst h; grind
      · grind
    rw [rsum_congr (fun t _ => hst t), rsum_add]
    congr 1
    · rw [rsum_single hvn (by intro j _ hj; rw [if_neg hj]), if_pos rfl]
    · rw [rsum_comm]
      refine rsum_congr ?_
      intro w _
      split
      · rename_i hw
        rw [depW, hw.2]
        have := spc_ne hE hs hw.2
        simp only [Option.isSome_some, if_true]
        show rsum n (fun t => ω t * frac n E s w t) = _
        grind
      · exact rsum_zero n
  unfold depW at *
  rw [if_pos (by rw [hv]; rfl), e]
  grind

/-- A vertex none of whose successors is further from the source. -/
theorem depW_last (hE : EdgesIn n E) {s v i : Nat} (hs : s < n) (hvn : v < n)
    (hv : hops n E s v = some i) (h : ∀ w, hops n E s w ≠ some (i + 1)) : depW n E ω s v = ω v := by
  rw [depW_rec hE hs hvn hv, rsum_eq_zero]
  · grind
  · intro w _
    rw [if_neg (fun hw => h w hw.2)]

open Classical in
/-- The weights plus the weighted dependencies on the vertices at distance `i` or more, the weights elsewhere. -/
def BackAtW (n : Nat) (E : Nat → Nat → Bool) (ω : Nat → Rat) (s i : Nat) (U : Nat → Option Rat) : Prop :=
  ∀ v, v < n → U v = some (if ∃ d, i ≤ d ∧ 1 ≤ d ∧ hops n E s v = some d then depW n E ω s v else ω v)

/-- Before the first round: the weights, when there is no vertex at distance `i + 1`. -/
theorem BackAtW.start (hE : EdgesIn n E) {s i : Nat} (hs : s < n) (h : ∀ v, hops n E s v ≠ some (i + 1))
    {U : Nat → Option Rat} (hU : ∀ v, v < n → U v = some (ω v)) : BackAtW n E ω s i U := by
  intro v hv
  rw [hU v hv]
  split
  · rename_i hd
    obtain ⟨d, h1, h2, h3⟩ := hd
    have hdi : ¬ i + 1 ≤ d := fun hle => hops_none_above hE hs h hle h3
    have : d = i := by omega
    subst this
    rw [depW_last hE hs hv h3 h]
  · rfl

/-- A round of the backward phase, at the vertices of distance `i`. -/
theorem BackAtW.next (hE : EdgesIn n E) {s i : Nat} (hs : s < n) (hi : 1 ≤ i) {S1 S0 : Nat → Bool}
    (h1 : Marks n E s (i + 1) S1) (h0 : Marks n E s i S0) {U W1 W2 U' : Nat → Option Rat} {σ : Nat → Rat}
    (hσ : ∀ v d, v ≠ s → d ≤ i + 1 → hops n E s v = some d → σ v = (spc n E s v : Rat))
    (hU : BackAtW n E ω s (i + 1) U)
    (hW1 : ∀ v, v < n → W1 v = if S1 v = true then (U v).map (fun u => 1 / σ v * u) else none)
    (hW2 : ∀ v, v < n → W2 v = if S0 v = true then
      osum (· + ·) ((List.range n).map fun w => if E v w = true then W1 w else none) else none)
    (hU' : ∀ v, v < n → U' v = match U v, W2 v with
      | some u, some w => some (u + w * σ v)
      | u, none => u
      | none, some w => some (w * σ v)) :
    BackAtW n E ω s i U' := by
  intro v hv
  have hS1s : S1 s = false := by
    cases h : S1 s with
    | false => rfl
    | true => have := h1.src h; omega
  by_cases hvi : hops n E s v = some i
  · have hvs : v ≠ s := by
      intro h; subst h
      rw [hops_self hE hs] at hvi
      cases hvi; omega
    have hS0 : S0 v = true := (h0.iff v hvs).2 hvi
    have hUv : U v = some (ω v) := by
      rw [hU v hv, if_neg]
      rintro ⟨d, h1, -, h3⟩
      rw [hvi] at h3; cases h3; omega
    rw [if_pos ⟨i, Nat.le_refl _, hi, hvi⟩]
    have hsum : (W2 v).getD 0 = rsum n (fun w =>
        if E v w = true ∧ hops n E s w = some (i + 1) then depW n E ω s w / (spc n E s w : Rat) else 0) := by
      rw [hW2 v hv, if_pos hS0, osum_rat]
      refine rsum_congr ?_
      intro w hw
      by_cases e : E v w = true
      · simp only [e, if_true, true_and]
        rw [hW1 w hw]
        by_cases hws : w = s
        · subst hws
          rw [hS1s, if_neg Bool.false_ne_true, if_neg (by rw [hops_self hE hs]; intro h; cases h)]; rfl
        · by_cases hk : hops n E s w = some (i + 1)
          · rw [if_pos ((h1.iff w hws).2 hk), if_pos hk, hU w hw, if_pos ⟨i + 1, Nat.le_refl _, by omega, hk⟩,
              hσ w (i + 1) hws (Nat.le_refl _) hk]
            show 1 / (spc n E s w : Rat) * _ = _
            grind
          · rw [if_neg (fun h => hk ((h1.iff w hws).1 h)), if_neg hk]; rfl
      · rw [if_neg e, if_neg (fun h => e h.1)]; rfl
    rw [hU' v hv, hUv, depW_rec hE hs hv hvi, ← hsum, hσ v i hvs (by omega) hvi]
    cases W2 v with
    | none => show some (ω v) = some (ω v + _ * (0 : Rat)); rw [Rat.mul_zero, Rat.add_zero]
    | some x => show some (ω v + x * _) = some (ω v + _ * x); rw [Rat.mul_comm]
  · have hW : W2 v = none ∨ v = s := by
      by_cases hvs : v = s
      · exact .inr hvs
      · left
        rw [hW2 v hv, if_neg (fun h => hvi ((h0.iff v hvs).1 h))]
    have hW : W2 v = none := by
      rcases hW with h | h
      · exact h
      · subst h
        rw [hW2 v hv]
        split
        · rename_i hS
          have hi1 := h0.src hS
          rw [osum_range_none]
          intro w hw
          split
          · rename_i e
            rw [hW1 w hw, if_neg]
            intro hS1
            have hws : w ≠ v := by intro h; rw [h, hS1s] at hS1; cases hS1
            have hd := (h1.iff w hws).1 hS1
            obtain ⟨d, h3, h4⟩ := hops_edge hE hs (hops_self hE hs) e
            rw [hd] at h4; cases h4; omega
          · rfl
        · rfl
    rw [hU' v hv, hW]
    have : (match U v, (none : Option Rat) with
      | some u, some w => some (u + w * σ v)
      | u, none => u
      | none, some w => some (w * σ v)) = U v := by cases U v <;> rfl
    rw [this, hU v hv]
    congr 1
    by_cases hd : ∃ d, i + 1 ≤ d ∧ 1 ≤ d ∧ hops n E s v = some d
    · obtain ⟨d, h1, h2, h3⟩ := hd
      rw [if_pos ⟨d, h1, h2, h3⟩, if_pos ⟨d, by omega, h2, h3⟩]
    · rw [if_neg hd, if_neg]
      rintro ⟨d, h1, h2, h3⟩
      by_cases hdi : d = i
      · subst hdi; exact hvi h3
      · exact hd ⟨d, by omega, h2, h3⟩

/-- When the backward phase is over, the weight plus the weighted dependency. -/
theorem BackAtW.final (hE : EdgesIn n E) {s i : Nat} (hs : s < n) (hi : i ≤ 1) {U : Nat → Option Rat}
    (hU : BackAtW n E ω s i U) {v : Nat} (hv : v < n) : U v = some (ω v + weightedDependency n E ω s v) := by
  rw [hU v hv]
  congr 1
  by_cases hvs : v = s
  · subst hvs
    rw [if_neg (by rintro ⟨d, h1, h2, h3⟩; rw [hops_self hE hs] at h3; cases h3; omega)]
    rw [weightedDependency, if_pos rfl, Rat.add_zero]
  · rw [weightedDependency_eq hE hs hv hvs]
    cases hd : hops n E s v with
    | some d =>
      have : d ≠ 0 := by intro h; subst h; exact hvs (hops_zero hE hs hd)
      rw [if_pos ⟨d, by omega, by omega, rfl⟩]
      grind
    | none =>
      rw [if_neg (by rintro ⟨d, -, -, h⟩; cases h)]
      have : depW n E ω s v = ω v := by unfold depW; rw [hd]; simp
      rw [this]; grind

end GBTL

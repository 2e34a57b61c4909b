import Verif.Lemmas.BetweennessWeighted
import Verif.Lemmas.BetweennessV
import Verif.Lemmas.BetweennessBatch
/-
Brandes' recurrence when the inverse of the number of paths is truncated.
-/
namespace GBTL
open Spec

variable {n : Nat} {E : Nat → Nat → Bool}

/-- Targets with one shortest path. -/
def single (n : Nat) (E : Nat → Nat → Bool) (s t : Nat) : Rat := if spc n E s t = 1 then 1 else 0

/-- The terms of `uniqueDependency`. -/
def uqTerm (n : Nat) (E : Nat → Nat → Bool) (s v t : Nat) : Nat :=
  match shortestPaths n E s t with
  | [p] => if t ≠ v ∧ v ∈ p then 1 else 0
  | _ => 0

theorem uq_sum {s v : Nat} (hv : v ≠ s) : uniqueDependency n E s v = sumTo n (uqTerm n E s v) := by
  unfold uniqueDependency
  rw [if_neg hv, ← sumTo_eq]
  rfl

theorem uqTerm_eq (s v t : Nat) :
    (uqTerm n E s v t : Rat) = if t = v then 0 else single n E s t * passing n E s t v := by
  unfold uqTerm single passing spc
  split
  · rename_i p hp
    rw [hp]
    by_cases htv : t = v
    · simp [htv]
    · by_cases hm : v ∈ p <;> simp [htv, hm] <;> grind
  · rename_i hp
    rw [if_neg (c := (shortestPaths n E s t).length = 1)]
    · split
      · rfl
      · rw [Rat.zero_mul]; rfl
    · intro h1
      obtain ⟨p, h⟩ := List.length_eq_one_iff.1 h1
      exact hp p h

theorem uq_eq {s v : Nat} (hv : v ≠ s) :
    (uniqueDependency n E s v : Rat) = weightedDependency n E (single n E s) s v := by
  rw [uq_sum hv, weightedDependency, if_neg hv, rsum_eq, rsum_cast]
  exact rsum_congr fun t _ => uqTerm_eq s v t

theorem sumTo_lt_of {m v : Nat} {f : Nat → Nat} (h : ∀ t, f t ≤ 1) (hv : v < m) (h0 : f v = 0) : sumTo m f < m := by
  have hle : ∀ m, sumTo m f ≤ m := by
    intro m
    induction m with
    | zero => exact Nat.le_refl _
    | succ m ih => rw [sumTo]; have := h m; omega
  induction m with
  | zero => omega
  | succ m ih =>
    rw [sumTo]
    by_cases e : v = m
    · subst e; have := hle v; omega
    · have := ih (by omega); have := h m; omega

/-- There are fewer other targets than vertices. -/
theorem uq_lt {s v : Nat} (hv : v < n) : uniqueDependency n E s v < n := by
  by_cases h : v = s
  · rw [uniqueDependency, if_pos h]; omega
  · rw [uq_sum h]
    refine sumTo_lt_of (fun t => ?_) hv ?_
    · unfold uqTerm
      split
      · split <;> omega
      · omega
    · unfold uqTerm
      split
      · rw [if_neg (by simp)]
      · rfl

/-- Behind a vertex with two shortest paths there are no targets with just one. -/
theorem uq_many (hE : EdgesIn n E) {s v i : Nat} (hs : s < n) (hv : hops n E s v = some i)
    (h2 : spc n E s v ≠ 1) : uniqueDependency n E s v = 0 := by
  by_cases h : v = s
  · rw [uniqueDependency, if_pos h]
  · rw [uq_sum h]
    refine sumTo_eq_zero fun t _ => ?_
    unfold uqTerm
    split
    · rename_i p hp
      refine if_neg fun ⟨htv, hm⟩ => ?_
      have hp1 : passing n E s t v = 1 := by
        unfold passing; rw [hp]; simp [hm]; grind
      have hst : spc n E s t = 1 := by unfold spc; rw [hp]; rfl
      rw [passing_eq hE hs hv t] at hp1
      unfold frac at hp1
      rw [hv, hst] at hp1
      cases ht : hops n E s t with
      | none => rw [ht] at hp1; simp at hp1
      | some d =>
        rw [ht] at hp1
        simp only at hp1
        split at hp1
        · have e : spc n E s v * cnt n E (d - i) v t = 1 := by
            have : ((spc n E s v * cnt n E (d - i) v t : Nat) : Rat) = ((1 : Nat) : Rat) := by
              rw [Rat.natCast_mul]; grind
            exact Rat.natCast_inj.1 this
          exact h2 (Nat.eq_one_of_mul_eq_one_right e)
        · simp at hp1
    · rfl

/-- The recurrence. -/
theorem uq_rec (hE : EdgesIn n E) {s v i : Nat} (hs : s < n) (hvn : v < n) (hvs : v ≠ s)
    (hv : hops n E s v = some i) :
    uniqueDependency n E s v = spc n E s v * sumTo n (fun w =>
      if E v w = true ∧ hops n E s w = some (i + 1) ∧ spc n E s w = 1 then 1 + uniqueDependency n E s w else 0) := by
  have h := depW_rec (ω := single n E s) hE hs hvn hv
  have h1 := weightedDependency_eq (ω := single n E s) hE hs hvn hvs
  rw [← uq_eq hvs, h] at h1
  have e : ((uniqueDependency n E s v : Nat) : Rat) = ((spc n E s v * sumTo n (fun w =>
      if E v w = true ∧ hops n E s w = some (i + 1) ∧ spc n E s w = 1 then 1 + uniqueDependency n E s w else 0) : Nat) : Rat) := by
    rw [h1, Rat.natCast_mul, rsum_cast]
    have e2 : ∀ w, w < n → (if E v w = true ∧ hops n E s w = some (i + 1) then depW n E (single n E s) s w / (spc n E s w : Rat) else 0) =
        (((if E v w = true ∧ hops n E s w = some (i + 1) ∧ spc n E s w = 1 then 1 + uniqueDependency n E s w else 0 : Nat)) : Rat) := by
      intro w hw
      by_cases hc : E v w = true ∧ hops n E s w = some (i + 1)
      · have hws : w ≠ s := by
          intro e; subst e; have := hc.2; rw [hops_self hE hs] at this; cases this
        have h3 := weightedDependency_eq (ω := single n E s) hE hs hw hws
        rw [← uq_eq hws] at h3
        rw [if_pos hc]
        by_cases h1 : spc n E s w = 1
        · rw [if_pos ⟨hc.1, hc.2, h1⟩, h1, Rat.natCast_add]
          unfold single at h3
          rw [if_pos h1] at h3
          unfold single
          grind
        · rw [if_neg (fun h => h1 h.2.2)]
          rw [uq_many hE hs hc.2 h1] at h3
          unfold single at h3
          rw [if_neg h1] at h3
          unfold single
          grind
      · rw [if_neg hc, if_neg (fun h => hc ⟨h.1, h.2.1⟩)]; rfl
    rw [rsum_congr e2]
    grind
  exact Rat.natCast_inj.1 e

/-! ### the backward phase -/

open Classical in
/-- One plus the dependencies on the vertices at distance `i` or more, one elsewhere. -/
def BackAtI (n : Nat) (E : Nat → Nat → Bool) (s i : Nat) (U : Nat → Option Int) : Prop :=
  ∀ v, v < n → U v = some (numI (1 + if ∃ d, i ≤ d ∧ 1 ≤ d ∧ hops n E s v = some d then uniqueDependency n E s v else 0))

theorem BackAtI.start (hE : EdgesIn n E) {s i : Nat} (hs : s < n) (h : ∀ v, hops n E s v ≠ some (i + 1))
    {U : Nat → Option Int} (hU : ∀ v, v < n → U v = some 1) : BackAtI n E s i U := by
  intro v hv
  rw [hU v hv]
  split
  · rename_i hd
    obtain ⟨d, h1, h2, h3⟩ := hd
    have hdi : ¬ i + 1 ≤ d := fun hle => hops_none_above hE hs h hle h3
    have : d = i := by omega
    subst this
    have hvs : v ≠ s := by
      intro e; subst e
      rw [hops_self hE hs] at h3; cases h3; omega
    rw [uq_rec hE hs hv hvs h3, sumTo_eq_zero]
    · rfl
    · intro w _
      exact if_neg fun hw => h w hw.2.1
  · rfl

/-- A round of the backward phase, at the vertices of distance `i`. -/
theorem BackAtI.next {t : ITy} {ov : Int → Int → Int} (hE : EdgesIn n E) {s i : Nat} (hs : s < n)
    (hn : (n : Int) ≤ t.maxVal) (hp : (totalPaths n E s : Int) ≤ t.maxVal) (hi : 1 ≤ i) {S1 S0 : Nat → Bool}
    (h1 : Marks n E s (i + 1) S1) (h0 : Marks n E s i S0) {U W1 W2 U' : Nat → Option Int} {σ : Nat → Int}
    (hσ : ∀ v d, v ≠ s → d ≤ i + 1 → hops n E s v = some d → σ v = (spc n E s v : Int))
    (hU : BackAtI n E s (i + 1) U)
    (hW1 : ∀ v, v < n → W1 v = if S1 v = true then (U v).map (fun u => t.timesT ov (Int.tdiv 1 (σ v)) u) else none)
    (hW2 : ∀ v, v < n → W2 v = if S0 v = true then
      osum (t.plusT ov) ((List.range n).map fun w => if E v w = true then (W1 w).map (t.timesT ov 1) else none) else none)
    (hU' : ∀ v, v < n → U' v = match U v, W2 v with
      | some u, some w => some (t.plusT ov u (t.timesT ov w (σ v)))
      | u, none => u
      | none, some w => some (t.timesT ov w (σ v))) :
    BackAtI n E s i U' := by
  intro v hv
  have hS1s : S1 s = false := by
    cases h : S1 s with
    | false => rfl
    | true => have := h1.src h; omega
  have hHas : ∀ x : Int, 0 ≤ x → x ≤ (n : Int) → t.Has x := fun x h h' => ITy.has_nn h (by omega)
  by_cases hvi : hops n E s v = some i
  · have hvs : v ≠ s := by
      intro h; subst h
      rw [hops_self hE hs] at hvi
      cases hvi; omega
    have hS0 : S0 v = true := (h0.iff v hvs).2 hvi
    have hUv : U v = some (numI 1) := by
      rw [hU v hv, if_neg]
      rintro ⟨d, h1, -, h3⟩
      rw [hvi] at h3; cases h3; omega
    rw [if_pos ⟨i, Nat.le_refl _, hi, hvi⟩]
    have hrec := uq_rec hE hs hv hvs hvi
    have hlt := uq_lt (E := E) (s := s) hv
    have hsp := spc_pos hE hs hvi
    have hspM : (spc n E s v : Int) ≤ t.maxVal := by have := spc_le hE hs hvi; omega
    have hsumle : sumTo n (fun w => if E v w = true ∧ hops n E s w = some (i + 1) ∧ spc n E s w = 1
        then 1 + uniqueDependency n E s w else 0) ≤ uniqueDependency n E s v := by
      rw [hrec]; exact Nat.le_mul_of_pos_left _ hsp
    have hsum : NVal numI (W2 v) (sumTo n (fun w => if E v w = true ∧ hops n E s w = some (i + 1) ∧ spc n E s w = 1
        then 1 + uniqueDependency n E s w else 0)) := by
      rw [hW2 v hv, if_pos hS0]
      refine osum_nval (truthy := fun _ => true) (M := n) ⟨?_, fun _ _ _ => rfl⟩ ?_ (by omega)
      · intro a b hab
        rw [numI, numI, adds_plusT t ov _ _ (by omega) (by omega) (by omega)]
        unfold numI; omega
      · intro w hw
        by_cases e : E v w = true
        · simp only [e, if_true, true_and]
          rw [hW1 w hw]
          by_cases hws : w = s
          · subst hws
            rw [hS1s, if_neg Bool.false_ne_true, if_neg (by rw [hops_self hE hs]; intro h; cases h.1)]; rfl
          · by_cases hk : hops n E s w = some (i + 1)
            · rw [if_pos ((h1.iff w hws).2 hk), hU w hw, if_pos ⟨i + 1, Nat.le_refl _, by omega, hk⟩,
                hσ w (i + 1) hws (Nat.le_refl _) hk]
              have hw1 := uq_lt (E := E) (s := s) hw
              have hwp := spc_pos hE hs hk
              show t.timesT ov 1 (t.timesT ov (Int.tdiv 1 _) _) = _
              have hone : t.Has 1 := hHas 1 (by omega) (by omega)
              by_cases hsp1 : spc n E s w = 1
              · rw [if_pos ⟨hk, hsp1⟩, hsp1]
                have hh : t.Has (numI (1 + uniqueDependency n E s w)) := hHas _ (by unfold numI; omega) (by unfold numI; omega)
                show t.timesT ov 1 (t.timesT ov 1 _) = _
                rw [ITy.timesT_eq ov hone hh (by rw [Int.one_mul]; exact hh), Int.one_mul,
                  ITy.timesT_eq ov hone hh (by rw [Int.one_mul]; exact hh), Int.one_mul]
              · rw [if_neg (fun h => hsp1 h.2)]
                have hz : t.Has 0 := hHas 0 (by omega) (by omega)
                have hh : t.Has (numI (1 + uniqueDependency n E s w)) := hHas _ (by unfold numI; omega) (by unfold numI; omega)
                have hd : Int.tdiv 1 (spc n E s w : Int) = 0 := Int.tdiv_eq_zero_of_lt (by omega) (by omega)
                rw [hd, ITy.timesT_eq ov hz hh (by rw [Int.zero_mul]; exact hz), Int.zero_mul,
                  ITy.timesT_eq ov hone hz (by rw [Int.mul_zero]; exact hz)]
                rfl
            · rw [if_neg (fun h => hk ((h1.iff w hws).1 h)), if_neg (fun h => hk h.1)]; rfl
        · rw [if_neg e, if_neg (fun h => e h.1)]; rfl
    rw [hU' v hv, hUv, hσ v i hvs (by omega) hvi]
    cases hw : W2 v with
    | none =>
      rw [hw] at hsum
      have hsum : sumTo n _ = 0 := hsum
      rw [hrec, hsum, Nat.mul_zero]
    | some x =>
      rw [hw] at hsum
      have hsum : x = numI _ := hsum
      have hprod : x * (spc n E s v : Int) = (uniqueDependency n E s v : Int) := by
        rw [hsum, hrec]; unfold numI; rw [Int.natCast_mul, Int.mul_comm]
      show some (t.plusT ov (numI 1) (t.timesT ov x _)) = _
      rw [ITy.timesT_eq ov (hHas x (by rw [hsum]; unfold numI; omega) (by rw [hsum]; unfold numI; omega))
        (ITy.has_nn (by omega) hspM) (by rw [hprod]; exact hHas _ (by omega) (by omega)), hprod,
        adds_plusT t ov _ _ (by unfold numI; omega) (by omega) (by unfold numI; omega)]
      unfold numI
      congr 1
  · have hW : W2 v = none := by
      by_cases hvs : v = s
      · subst hvs
        rw [hW2 v hv]
        split
        · rename_i hS
          have hi1 := h0.src hS
          rw [osum_range_none]
          intro w hw
          split
          · rename_i e
            rw [hW1 w hw, if_neg]
            · rfl
            intro hS1
            have hws : w ≠ v := by intro h; rw [h, hS1s] at hS1; cases hS1
            have hd := (h1.iff w hws).1 hS1
            obtain ⟨d, h3, h4⟩ := hops_edge hE hs (hops_self hE hs) e
            rw [hd] at h4; cases h4; omega
          · rfl
        · rfl
      · rw [hW2 v hv, if_neg (fun h => hvi ((h0.iff v hvs).1 h))]
    rw [hU' v hv, hW]
    have : (match U v, (none : Option Int) with
      | some u, some w => some (t.plusT ov u (t.timesT ov w (σ v)))
      | u, none => u
      | none, some w => some (t.timesT ov w (σ v))) = U v := by cases U v <;> rfl
    rw [this, hU v hv]
    congr 3
    by_cases hd : ∃ d, i + 1 ≤ d ∧ 1 ≤ d ∧ hops n E s v = some d
    · obtain ⟨d, h1, h2, h3⟩ := hd
      rw [if_pos ⟨d, h1, h2, h3⟩, if_pos ⟨d, by omega, h2, h3⟩]
    · rw [if_neg hd, if_neg]
      rintro ⟨d, h1, h2, h3⟩
      by_cases hdi : d = i
      · subst hdi; exact hvi h3
      · exact hd ⟨d, by omega, h2, h3⟩

/-- When the backward phase is over. -/
theorem BackAtI.final (hE : EdgesIn n E) {s i : Nat} (hs : s < n) (hi : i ≤ 1) {U : Nat → Option Int}
    (hU : BackAtI n E s i U) {v : Nat} (hv : v < n) : U v = some (numI (1 + uniqueDependency n E s v)) := by
  rw [hU v hv]
  congr 3
  split
  · rfl
  · rename_i hd
    by_cases hvs : v = s
    · rw [uniqueDependency, if_pos hvs]
    · cases hh : hops n E s v with
      | some d =>
        have : d ≠ 0 := by intro h; subst h; exact hvs (hops_zero hE hs hh)
        exact absurd ⟨d, by omega, by omega, hh⟩ hd
      | none =>
        have := uq_eq (n := n) (E := E) hvs
        rw [weightedDependency_eq hE hs hv hvs] at this
        unfold depW at this
        rw [hh] at this
        have h0 : ((uniqueDependency n E s v : Nat) : Rat) = ((0 : Nat) : Rat) := by
          rw [this]; simp; grind
        exact (Rat.natCast_inj.1 h0).symm

end GBTL

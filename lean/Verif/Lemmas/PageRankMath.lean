import Verif.Lemmas.PageRank
/-
The textbook iteration of page rank, and the loop of `page_rank`.
-/
namespace GBTL
open Spec

variable {α : Type} {n : Nat}

theorem rankAfter_succ (n : Nat) (W : Mat Rat) (d : Rat) (k v : Nat) :
    rankAfter n W d (k + 1) v = d * rsum n (fun u => rankAfter n W d k u * share n W u v) + (1 - d) / n := by
  rw [rankAfter, rsum_eq]

theorem rankError_eq (n : Nat) (W : Mat Rat) (d : Rat) (k : Nat) : rankError n W d k = rsum n (fun v =>
    let x := if k = 0 ∧ hasIn n W v = false then rankAfter n W d k v else rankAfter n W d k v - rankAfter n W d (k + 1) v
    x * x) / n := by
  rw [rankError, rsum_eq]

theorem hasIn_iff {W : Mat Rat} {v : Nat} : hasIn n W v = true ↔ ∃ u, u < n ∧ W u v ≠ none := by
  simp only [hasIn, List.any_eq_true, List.mem_range, Option.isSome_iff_ne_none]

theorem hasIn_false {W : Mat Rat} {v : Nat} (h : hasIn n W v = false) {u : Nat} (hu : u < n) : W u v = none :=
  Classical.byContradiction fun hc => by
    rw [hasIn_iff.2 ⟨u, hu, hc⟩] at h
    cases h

/-- Without an edge to it, a vertex has the rank that all receive. -/
theorem rankAfter_noIn {W : Mat Rat} {d : Rat} {k v : Nat} (h : hasIn n W v = false) :
    rankAfter n W d (k + 1) v = (1 - d) / n := by
  rw [rankAfter_succ, rsum_eq_zero, Rat.mul_zero, Rat.zero_add]
  intro u hu
  rw [share, hasIn_false h hu]
  show rankAfter n W d k u * (0 / sumOf n (W u)) = 0
  grind

theorem rsum_nonneg {f : Nat → Rat} (h : ∀ i, i < n → 0 ≤ f i) : 0 ≤ rsum n f := by
  induction n with
  | zero => exact Rat.le_refl
  | succ n ih =>
    have h1 := ih fun i hi => h i (by omega)
    have h2 := h n (by omega)
    rw [rsum]
    grind

/-- The weights of the edges are positive. -/
def PosW (W : Mat Rat) : Prop := ∀ u v x, W u v = some x → 0 < x

theorem posW {conv : α → Rat} {G : Lil α} (hpos : ∀ u v x, G.get u v = some x → 0 < conv x) :
    PosW (fun u v => (G.get u v).map conv) := by
  intro u v x hx
  cases hy : G.get u v with
  | none => simp [hy] at hx
  | some y =>
    simp [hy] at hx
    rw [← hx]
    exact hpos u v y hy

theorem least_nat {P : Nat → Prop} (h : ∃ k, P k) : ∃ k, P k ∧ ∀ j, j < k → ¬ P j := by
  obtain ⟨k, hk⟩ := h
  induction k using Nat.strongRecOn with
  | ind k ih =>
    by_cases h : ∃ j, j < k ∧ P j
    · obtain ⟨j, hj, hp⟩ := h
      exact ih j hj hp
    · exact ⟨k, hk, fun j hj hp => h ⟨j, hj, hp⟩⟩

theorem sumOf_nonneg {W : Mat Rat} (hW : PosW W) (u : Nat) : 0 ≤ sumOf n (W u) := by
  rw [sumOf_eq]
  refine rsum_nonneg fun v _ => ?_
  cases h : W u v with
  | none => exact Rat.le_refl
  | some x =>
    have := hW u v x h
    show 0 ≤ x
    grind

theorem rat_div_nonneg {x y : Rat} (hx : 0 ≤ x) (hy : 0 ≤ y) : 0 ≤ x / y := by
  rw [Rat.div_def]
  exact Rat.mul_nonneg hx (Lean.Grind.Field.IsOrdered.inv_nonneg_iff.2 hy)

theorem share_nonneg {W : Mat Rat} (hW : PosW W) (u v : Nat) : 0 ≤ share n W u v := by
  refine rat_div_nonneg ?_ (sumOf_nonneg hW u)
  cases h : W u v with
  | none => exact Rat.le_refl
  | some x =>
    have := hW u v x h
    show 0 ≤ x
    grind

theorem rankAfter_ge {W : Mat Rat} {d : Rat} (hW : PosW W) (hd0 : 0 ≤ d) (hd1 : d ≤ 1) (k v : Nat) :
    0 ≤ rankAfter n W d k v ∧ (0 < k → (1 - d) / n ≤ rankAfter n W d k v) := by
  have hN : (0 : Rat) ≤ (n : Rat) := Rat.natCast_nonneg
  induction k generalizing v with
  | zero => exact ⟨rat_div_nonneg (by decide) hN, fun h => absurd h (by omega)⟩
  | succ k ih =>
    have h0 : 0 ≤ d * rsum n (fun u => rankAfter n W d k u * share n W u v) :=
      Rat.mul_nonneg hd0 (rsum_nonneg fun u _ => Rat.mul_nonneg (ih u).1 (share_nonneg hW u v))
    have h1 : 0 ≤ (1 - d) / (n : Rat) := rat_div_nonneg (by grind) hN
    rw [rankAfter_succ]
    grind

/-- The state after `k` rounds, on a graph in which every vertex with an edge from it has
an edge to it. -/
structure PrInv (n : Nat) (W : Mat Rat) (d : Rat) (k : Nat) (q : PrSt) : Prop where
  rank : Sz n q.rank
  new : Sz n q.new
  delta : Sz n q.delta
  getR : ∀ v, v < n → q.rank.get v = if k = 0 ∨ hasIn n W v = true then some (rankAfter n W d k v) else none
  getN : ∀ v, v < n → q.new.get v = if k ≠ 0 ∧ hasIn n W v = true then some (rankAfter n W d k v) else none

theorem pr_step {W : Mat Rat} {m : Lil Rat} {d threshold : Rat} {k : Nat} {q : PrSt} (hm : Sh n n m)
    (hg : ∀ u v, m.get u v = (W u v).map fun x => x / sumOf n (W u) * d)
    (hin : ∀ u v, u < n → W u v ≠ none → hasIn n W u = true) (h : PrInv n W d k q) :
    ∃ q', prBody m ((1 - d) / n) threshold n q = .ok q' ∧ PrInv n W d (k + 1) q' ∧
      q'.stop = decide (rankError n W d k < threshold) := by
  obtain ⟨q', e, z1, hnew, z3, hr, hs⟩ := prBody_ok (tele := (1 - d) / n) (threshold := threshold) hm h.rank h.new h.delta
  have hget : ∀ v, v < n → q'.rank.get v = if hasIn n W v = true then some (rankAfter n W d (k + 1) v) else none := by
    intro v hv
    rw [hr v hv, prNext]
    by_cases hv1 : hasIn n W v = true
    · rw [if_pos hv1]
      obtain ⟨u, hu, hu1⟩ := hasIn_iff.1 hv1
      have hst : ∀ u x, u < n → W u v = some x → q.rank.get u = some (rankAfter n W d k u) := by
        intro u x hu hx
        rw [h.getR u hu, if_pos (Or.inr (hin u v hu (by rw [hx]; simp)))]
      rw [osum_ratS ⟨u, hu, by
        cases hx : W u v with
        | none => exact absurd hx hu1
        | some x => rw [hst u x hu hx, hg, hx]; simp [both]⟩]
      show some (sumOf n (fun u => both (· * ·) (q.rank.get u) (m.get u v)) + (1 - d) / n) = _
      rw [sumOf_eq, rankAfter_succ, ← rsum_mul, rsum_congr]
      intro u hu
      rw [hg, share]
      cases hx : W u v with
      | none =>
        cases q.rank.get u <;> simp [both] <;> grind
      | some x =>
        rw [hst u x hu hx]
        simp [both]
        grind
    · rw [if_neg hv1]
      have hv0 : hasIn n W v = false := by simpa using hv1
      rw [osum_range_none.2 (fun u hu => by rw [hg, hasIn_false hv0 hu]; cases q.rank.get u <;> rfl)]
      show (q.new.get v).map _ = _
      rw [h.getN v hv, if_neg (by simp [hv0])]
      rfl
  refine ⟨q', e, ⟨z1, by rw [hnew]; exact z1, z3, ?_, ?_⟩, ?_⟩
  · intro v hv
    rw [hget v hv]
    simp
  · intro v hv
    rw [hnew, hget v hv]
    simp
  · rw [hs, rankError_eq, sumOf_eq]
    rw [rsum_congr]
    intro v hv
    dsimp only
    rw [prSq, h.getR v hv, hget v hv]
    by_cases hv1 : hasIn n W v = true
    · rw [if_pos (Or.inr hv1), if_pos hv1, if_neg (by simp [hv1])]
      rfl
    · have hv0 : hasIn n W v = false := by simpa using hv1
      rw [if_neg hv1]
      by_cases hk : k = 0
      · rw [if_pos (Or.inl hk), if_pos ⟨hk, hv0⟩]
        rfl
      · rw [if_neg (by simp [hk, hv0]), if_neg (by simp [hk])]
        obtain ⟨j, rfl⟩ : ∃ j, k = j + 1 := ⟨k - 1, by omega⟩
        rw [rankAfter_noIn hv0, rankAfter_noIn hv0]
        simp [either]
        grind

/-- The loop. -/
theorem pr_loop {W : Mat Rat} {m : Lil Rat} {d threshold : Rat} {q : PrSt} (hm : Sh n n m)
    (hg : ∀ u v, m.get u v = (W u v).map fun x => x / sumOf n (W u) * d)
    (hin : ∀ u v, u < n → W u v ≠ none → hasIn n W u = true) (h : PrInv n W d 0 q) (hs : q.stop = false) (N : Nat) :
    ∃ q' k, (forP N q fun _ q => if q.stop then .ok q else prBody m ((1 - d) / n) threshold n q) = .ok q' ∧
      PrInv n W d k q' ∧ k ≤ N ∧ (∀ j, j + 1 < k → ¬ rankError n W d j < threshold) ∧
      (k = N ∨ 0 < k ∧ rankError n W d (k - 1) < threshold) := by
  obtain ⟨q', e, k, hi, hk, h1, h2⟩ := forP_inv
    (b := fun _ q => if q.stop then .ok q else prBody m ((1 - d) / n) threshold n q)
    (fun i q => ∃ k, PrInv n W d k q ∧ k ≤ i ∧
      (q.stop = false → k = i ∧ ∀ j, j < k → ¬ rankError n W d j < threshold) ∧
      (q.stop = true → (∀ j, j + 1 < k → ¬ rankError n W d j < threshold) ∧ 0 < k ∧ rankError n W d (k - 1) < threshold))
    N q ⟨0, h, Nat.le_refl _, fun _ => ⟨rfl, fun j hj => absurd hj (by omega)⟩, fun h' => by (rw [hs] at h'; cases h')⟩
    (by
      rintro i q hiN ⟨k, hi, hk, h1, h2⟩
      cases hst : q.stop with
      | true => exact ⟨q, by simp, k, hi, by omega, fun h' => by (rw [hst] at h'; cases h'), fun _ => h2 hst⟩
      | false =>
        obtain ⟨hki, hj⟩ := h1 hst
        subst hki
        obtain ⟨q', e, hi', hs'⟩ := pr_step (threshold := threshold) hm hg hin hi
        refine ⟨q', by simpa using e, k + 1, hi', Nat.le_refl _, ?_, ?_⟩
        · intro h'
          refine ⟨rfl, fun j hjk => ?_⟩
          rcases Nat.lt_or_ge j k with h3 | h3
          · exact hj j h3
          · have : j = k := by omega
            subst this
            rw [hs'] at h'
            simpa using h'
        · intro h'
          refine ⟨fun j hjk => hj j (by omega), by omega, ?_⟩
          rw [hs'] at h'
          simpa using h')
  refine ⟨q', k, e, hi, hk, ?_⟩
  cases hst : q'.stop with
  | false => exact ⟨fun j hj => (h1 hst).2 j (by omega), Or.inl (h1 hst).1⟩
  | true => exact ⟨(h2 hst).1, Or.inr (h2 hst).2⟩

/-! ### the sum of the ranks, and convergence -/

theorem rsum_mono {f g : Nat → Rat} (h : ∀ i, i < n → f i ≤ g i) : rsum n f ≤ rsum n g := by
  induction n with
  | zero => exact Rat.le_refl
  | succ n ih =>
    have h1 := ih fun i hi => h i (by omega)
    have h2 := h n (by omega)
    rw [rsum, rsum]
    grind

theorem rsum_const (n : Nat) (c : Rat) : rsum n (fun _ => c) = n * c := by
  induction n with
  | zero => show (0 : Rat) = ((0 : Nat) : Rat) * c; rw [show ((0 : Nat) : Rat) = 0 from rfl, Rat.zero_mul]
  | succ n ih => rw [rsum, ih, Rat.natCast_add]; grind

/-- The shares of a vertex. -/
theorem share_sum {W : Mat Rat} (u : Nat) :
    rsum n (share n W u) ≤ 1 ∧ (sumOf n (W u) ≠ 0 → rsum n (share n W u) = 1) := by
  have h : rsum n (share n W u) = sumOf n (W u) / sumOf n (W u) := by
    rw [show share n W u = fun v => (W u v).getD 0 / sumOf n (W u) from rfl, rsum_div, ← sumOf_eq]
  rw [h]
  by_cases h0 : sumOf n (W u) = 0
  · rw [h0]
    exact ⟨by decide +kernel, fun h => absurd rfl h⟩
  · have : sumOf n (W u) / sumOf n (W u) = 1 := by grind
    rw [this]
    exact ⟨Rat.le_refl, fun _ => rfl⟩

theorem sumOf_pos {W : Mat Rat} (hW : PosW W) {u v : Nat} (hv : v < n) (h : W u v ≠ none) : 0 < sumOf n (W u) := by
  rw [sumOf_eq]
  have hnn : ∀ i, 0 ≤ (W u i).getD 0 := by
    intro i
    cases h : W u i with
    | none => exact Rat.le_refl
    | some x =>
      have := hW u i x h
      show 0 ≤ x
      grind
  induction n with
  | zero => omega
  | succ n ih =>
    rw [rsum]
    have h2 := hnn n
    by_cases hvn : v < n
    · have := ih hvn
      grind
    · have : v = n := by omega
      subst this
      have h3 := rsum_nonneg (n := v) (fun i _ => hnn i)
      cases hx : W u v with
      | none => exact absurd hx h
      | some x =>
        have := hW u v x hx
        show 0 < rsum v (fun j => (W u j).getD 0) + x
        grind

theorem rank_total_succ {W : Mat Rat} {d : Rat} (hn : 0 < n) (k : Nat) :
    rsum n (rankAfter n W d (k + 1)) = d * rsum n (fun u => rankAfter n W d k u * rsum n (share n W u)) + (1 - d) := by
  have hN : (n : Rat) ≠ 0 := by
    have : (0 : Rat) < (n : Rat) := by exact_mod_cast hn
    grind
  rw [rsum_congr (g := fun v => d * rsum n (fun u => rankAfter n W d k u * share n W u v) + (1 - d) / n)
    (fun v _ => rankAfter_succ n W d k v), rsum_add, rsum_const, rsum_mul, rsum_comm,
    rsum_congr (f := fun u => rsum n (fun v => rankAfter n W d k u * share n W u v))
      (g := fun u => rankAfter n W d k u * rsum n (share n W u)) (fun u _ => rsum_mul n _ _)]
  grind

theorem rank_total_le {W : Mat Rat} {d : Rat} (hn : 0 < n) (hW : PosW W) (hd0 : 0 ≤ d) (hd1 : d ≤ 1) (k : Nat) :
    rsum n (rankAfter n W d k) ≤ 1 := by
  have hN : (n : Rat) ≠ 0 := by
    have : (0 : Rat) < (n : Rat) := by exact_mod_cast hn
    grind
  induction k with
  | zero =>
    rw [rsum_congr (f := rankAfter n W d 0) (g := fun _ => 1 / (n : Rat)) (fun _ _ => rfl), rsum_const]
    grind
  | succ k ih =>
    rw [rank_total_succ hn]
    have h1 : rsum n (fun u => rankAfter n W d k u * rsum n (share n W u)) ≤ rsum n (rankAfter n W d k) := by
      refine rsum_mono fun u _ => ?_
      have h2 := (rankAfter_ge (n := n) hW hd0 hd1 k u).1
      have h3 := Rat.mul_le_mul_of_nonneg_left (share_sum (n := n) (W := W) u).1 h2
      rw [Rat.mul_one] at h3
      exact h3
    have h4 := Rat.mul_le_mul_of_nonneg_left (Rat.le_trans h1 ih) hd0
    grind

theorem rank_total_eq {W : Mat Rat} {d : Rat} (hn : 0 < n) (hout : ∀ u, u < n → sumOf n (W u) ≠ 0) (k : Nat) :
    rsum n (rankAfter n W d k) = 1 := by
  have hN : (n : Rat) ≠ 0 := by
    have : (0 : Rat) < (n : Rat) := by exact_mod_cast hn
    grind
  induction k with
  | zero =>
    rw [rsum_congr (f := rankAfter n W d 0) (g := fun _ => 1 / (n : Rat)) (fun _ _ => rfl), rsum_const]
    grind
  | succ k ih =>
    rw [rank_total_succ hn, rsum_congr (g := rankAfter n W d k)
      (fun u hu => by rw [(share_sum (n := n) (W := W) u).2 (hout u hu), Rat.mul_one]), ih]
    grind

def rabs (x : Rat) : Rat := if 0 ≤ x then x else -x

theorem rabs_nonneg (x : Rat) : 0 ≤ rabs x := by unfold rabs; grind
theorem le_rabs (x : Rat) : x ≤ rabs x := by unfold rabs; grind
theorem neg_le_rabs (x : Rat) : -x ≤ rabs x := by unfold rabs; grind
theorem rabs_le {x y : Rat} (h1 : x ≤ y) (h2 : -x ≤ y) : rabs x ≤ y := by unfold rabs; grind

theorem rsum_rabs (n : Nat) (f : Nat → Rat) : rabs (rsum n f) ≤ rsum n fun i => rabs (f i) := by
  induction n with
  | zero => unfold rabs rsum; grind
  | succ n ih =>
    rw [rsum, rsum]
    have h1 := le_rabs (rsum n f)
    have h2 := neg_le_rabs (rsum n f)
    have h3 := le_rabs (f n)
    have h4 := neg_le_rabs (f n)
    exact rabs_le (by grind) (by grind)

theorem rabs_mul {x y : Rat} (hy : 0 ≤ y) : rabs (x * y) = rabs x * y := by
  unfold rabs
  by_cases hx : 0 ≤ x
  · rw [if_pos hx, if_pos (Rat.mul_nonneg hx hy)]
  · rw [if_neg hx]
    have : 0 ≤ (-x) * y := Rat.mul_nonneg (by grind) hy
    split <;> grind

/-- The sum of the absolute changes. -/
def rankChange (n : Nat) (W : Mat Rat) (d : Rat) (k : Nat) : Rat :=
  rsum n fun v => rabs (rankAfter n W d k v - rankAfter n W d (k + 1) v)

theorem rankChange_succ {W : Mat Rat} {d : Rat} (hW : PosW W) (hd0 : 0 ≤ d) (k : Nat) :
    rankChange n W d (k + 1) ≤ d * rankChange n W d k := by
  have h1 : ∀ v, rabs (rankAfter n W d (k + 1) v - rankAfter n W d (k + 1 + 1) v)
      ≤ rsum n fun u => rabs (rankAfter n W d k u - rankAfter n W d (k + 1) u) * d * share n W u v := by
    intro v
    have h2 : rankAfter n W d (k + 1) v - rankAfter n W d (k + 1 + 1) v
        = rsum n fun u => (rankAfter n W d k u - rankAfter n W d (k + 1) u) * (d * share n W u v) := by
      rw [rankAfter_succ n W d k, rankAfter_succ n W d (k + 1), ← rsum_mul, ← rsum_mul]
      have h3 := rsum_add n (fun u => d * (rankAfter n W d (k + 1) u * share n W u v))
        (fun u => (rankAfter n W d k u - rankAfter n W d (k + 1) u) * (d * share n W u v))
      rw [rsum_congr (g := fun u => d * (rankAfter n W d k u * share n W u v)) (fun u _ => by grind)] at h3
      rw [h3]
      grind
    rw [h2]
    refine Rat.le_trans (rsum_rabs n _) (rsum_mono fun u _ => ?_)
    rw [rabs_mul (Rat.mul_nonneg hd0 (share_nonneg hW u v))]
    grind
  refine Rat.le_trans (rsum_mono fun v _ => h1 v) ?_
  rw [rsum_comm, rankChange, ← rsum_mul]
  refine rsum_mono fun u _ => ?_
  rw [rsum_mul]
  have h4 := Rat.mul_le_mul_of_nonneg_left (share_sum (n := n) (W := W) u).1
    (Rat.mul_nonneg (rabs_nonneg (rankAfter n W d k u - rankAfter n W d (k + 1) u)) hd0)
  grind

theorem rankChange_nonneg {W : Mat Rat} {d : Rat} (k : Nat) : 0 ≤ rankChange n W d k :=
  rsum_nonneg fun _ _ => rabs_nonneg _

/-- `d ^ k` is at most `1 / (1 + k (1 - d))`. -/
theorem rankChange_bound {W : Mat Rat} {d : Rat} (hW : PosW W) (hd0 : 0 ≤ d) (hd1 : d < 1) (k : Nat) :
    rankChange n W d k * (1 + k * (1 - d)) ≤ rankChange n W d 0 := by
  induction k with
  | zero => rw [show ((0 : Nat) : Rat) = 0 from rfl]; grind
  | succ k ih =>
    have hk : (0 : Rat) ≤ (k : Rat) := Rat.natCast_nonneg
    have hc := rankChange_nonneg (n := n) (W := W) (d := d) k
    have he : 0 ≤ 1 - d := by grind
    have hke := Rat.mul_nonneg hk he
    have h1 : rankChange n W d (k + 1) * (1 + ((k + 1 : Nat) : Rat) * (1 - d))
        ≤ d * rankChange n W d k * (1 + ((k + 1 : Nat) : Rat) * (1 - d)) := by
      refine Rat.mul_le_mul_of_nonneg_right (rankChange_succ hW hd0 k) ?_
      rw [Rat.natCast_add]
      grind
    have h2 : d * (1 + ((k + 1 : Nat) : Rat) * (1 - d)) ≤ 1 + k * (1 - d) := by
      rw [Rat.natCast_add]
      have h3 : 0 ≤ (1 - d) * (1 - d) := Rat.mul_nonneg he he
      have h4 : 0 ≤ k * ((1 - d) * (1 - d)) := Rat.mul_nonneg hk h3
      grind
    have h5 := Rat.mul_le_mul_of_nonneg_left h2 hc
    grind

theorem rsum_sq {f : Nat → Rat} : rsum n (fun i => f i * f i) ≤ rsum n (fun i => rabs (f i)) * rsum n fun i => rabs (f i) := by
  induction n with
  | zero => rw [rsum, rsum]; decide +kernel
  | succ n ih =>
    rw [rsum, rsum]
    have h1 := rsum_nonneg (n := n) (f := fun i => rabs (f i)) fun _ _ => rabs_nonneg _
    have h2 := rabs_nonneg (f n)
    have h3 : rabs (f n) * rabs (f n) = f n * f n := by unfold rabs; grind
    have h4 := Rat.mul_nonneg h1 h2
    grind

theorem rankError_le {W : Mat Rat} {d : Rat} {k : Nat} (hn : 0 < n) (hk : 0 < k) {e : Rat} (he : 0 < e) (he1 : e ≤ 1)
    (h : rankChange n W d k < e) : rankError n W d k < e / n := by
  have hN : (0 : Rat) < (n : Rat) := by exact_mod_cast hn
  have h1 : rsum n (fun v =>
      let x := if k = 0 ∧ hasIn n W v = false then rankAfter n W d k v else rankAfter n W d k v - rankAfter n W d (k + 1) v
      x * x) ≤ rankChange n W d k * rankChange n W d k := by
    rw [rsum_congr (g := fun v => (rankAfter n W d k v - rankAfter n W d (k + 1) v) *
      (rankAfter n W d k v - rankAfter n W d (k + 1) v)) (fun v _ => by
        dsimp only
        rw [if_neg (fun h => absurd h.1 (by omega))])]
    exact rsum_sq
  have h0 := rankChange_nonneg (n := n) (W := W) (d := d) k
  have h2 := Rat.mul_le_mul_of_nonneg_left (show rankChange n W d k ≤ 1 by grind) h0
  rw [rankError_eq, Rat.div_lt_iff hN, Rat.div_mul_cancel (by grind)]
  grind

/-- The mean squared change falls below any positive threshold. -/
theorem rankError_small {W : Mat Rat} {d threshold : Rat} (hn : 0 < n) (hW : PosW W) (hd0 : 0 ≤ d) (hd1 : d < 1)
    (ht : 0 < threshold) : ∃ k, rankError n W d k < threshold := by
  have hN : (0 : Rat) < (n : Rat) := by exact_mod_cast hn
  have htn := Rat.mul_pos ht hN
  obtain ⟨e, he, he1, het⟩ : ∃ e : Rat, 0 < e ∧ e ≤ 1 ∧ e ≤ threshold * n := by
    by_cases h : threshold * n ≤ 1
    · exact ⟨threshold * n, htn, h, Rat.le_refl⟩
    · exact ⟨1, by decide, Rat.le_refl, by grind⟩
  have hD := rankChange_nonneg (n := n) (W := W) (d := d) 0
  have hde : 0 < e * (1 - d) := Rat.mul_pos he (by grind)
  have hx : 0 ≤ rankChange n W d 0 / (e * (1 - d)) := rat_div_nonneg hD (by grind)
  have hf : 0 ≤ (rankChange n W d 0 / (e * (1 - d))).floor := Rat.le_floor_iff.2 (by simpa using hx)
  obtain ⟨j, hj⟩ := Int.eq_ofNat_of_zero_le hf
  have hlt := Rat.lt_floor_add_one (rankChange n W d 0 / (e * (1 - d)))
  rw [hj, Rat.div_lt_iff hde] at hlt
  have hcast : (((j : Int) + 1 : Int) : Rat) = ((j + 1 : Nat) : Rat) := by
    rw [← Rat.intCast_natCast]; rfl
  rw [hcast] at hlt
  have hb := rankChange_bound (n := n) hW hd0 hd1 (j + 1)
  have hkp : (0 : Rat) ≤ ((j + 1 : Nat) : Rat) := Rat.natCast_nonneg
  have hpos : 0 < 1 + ((j + 1 : Nat) : Rat) * (1 - d) := by
    have := Rat.mul_nonneg hkp (show 0 ≤ 1 - d by grind)
    grind
  have hc : rankChange n W d (j + 1) < e := by
    refine Classical.byContradiction fun hc => ?_
    have h1 := Rat.mul_le_mul_of_nonneg_right (show e ≤ rankChange n W d (j + 1) by grind) (Rat.le_of_lt hpos)
    grind
  refine ⟨j + 1, ?_⟩
  have h3 := rankError_le hn (by omega) he he1 hc
  have h4 : e / n ≤ threshold := by
    have : e / (n : Rat) * n = e := Rat.div_mul_cancel (by grind)
    refine Classical.byContradiction fun hc => ?_
    have h5 := Rat.mul_lt_mul_of_pos_right (show threshold < e / n by grind) hN
    grind
  grind

end GBTL

import Verif.Props.PageRank
/-
C61: page rank on every graph.
-/
namespace GBTL
open Spec

variable {α : Type} {n : Nat} {W : Mat Rat} {d threshold : Rat}

theorem fedIn_iff {v : Nat} : fedIn n W v = true ↔ ∃ u, u < n ∧ W u v ≠ none ∧ hasIn n W u = true := by
  unfold fedIn
  simp [List.any_eq_true, Option.isSome_iff_ne_none]

theorem fedIn_has {v : Nat} (h : fedIn n W v = true) : hasIn n W v = true := by
  obtain ⟨u, hu, h1, -⟩ := fedIn_iff.1 h
  exact hasIn_iff.2 ⟨u, hu, h1⟩

theorem heldAfter_one (v : Nat) :
    heldAfter n W d 1 v = d * rsum n (fun u => 1 / (n : Rat) * share n W u v) + (1 - d) / n := by
  rw [heldAfter, if_pos rfl, rsum_eq]

theorem heldAfter_fed {k v : Nat} (hk : k ≠ 0) (h : fedIn n W v = true) :
    heldAfter n W d (k + 1) v =
      d * rsum n (fun u => if hasIn n W u then heldAfter n W d k u * share n W u v else 0) + (1 - d) / n := by
  rw [heldAfter, if_neg hk, if_pos h, rsum_eq]

theorem heldAfter_starved {k v : Nat} (hk : k ≠ 0) (h : fedIn n W v = false) :
    heldAfter n W d (k + 1) v = heldAfter n W d k v + (1 - d) / n := by
  rw [heldAfter, if_neg hk, if_neg (by simp [h])]

theorem heldError_eq (n : Nat) (W : Mat Rat) (d : Rat) (k : Nat) : heldError n W d k = rsum n (fun v =>
    let x := if hasIn n W v then heldAfter n W d k v - heldAfter n W d (k + 1) v else if k = 0 then 1 / (n : Rat) else 0
    x * x) / n := by
  rw [heldError, rsum_eq]

/-- The state after `k` rounds. -/
structure HeldInv (n : Nat) (W : Mat Rat) (d : Rat) (k : Nat) (q : PrSt) : Prop where
  rank : Sz n q.rank
  new : Sz n q.new
  delta : Sz n q.delta
  getR : ∀ v, v < n → q.rank.get v = if k = 0 ∨ hasIn n W v = true then some (heldAfter n W d k v) else none
  getN : ∀ v, v < n → q.new.get v = if k ≠ 0 ∧ hasIn n W v = true then some (heldAfter n W d k v) else none

theorem held_step {m : Lil Rat} {k : Nat} {q : PrSt} (hm : Sh n n m)
    (hg : ∀ u v, m.get u v = (W u v).map fun x => x / sumOf n (W u) * d) (h : HeldInv n W d k q) :
    ∃ q', prBody m ((1 - d) / n) threshold n q = .ok q' ∧ HeldInv n W d (k + 1) q' ∧
      q'.stop = decide (heldError n W d k < threshold) := by
  obtain ⟨q', e, z1, hnew, z3, hr, hs⟩ := prBody_ok (tele := (1 - d) / n) (threshold := threshold) hm h.rank h.new h.delta
  have hget : ∀ v, v < n → q'.rank.get v = if hasIn n W v = true then some (heldAfter n W d (k + 1) v) else none := by
    intro v hv
    rw [hr v hv, prNext]
    by_cases hv1 : hasIn n W v = true
    · rw [if_pos hv1]
      by_cases hk : k = 0
      · subst hk
        have hst : ∀ u, u < n → q.rank.get u = some (1 / (n : Rat)) := by
          intro u hu
          rw [h.getR u hu, if_pos (Or.inl rfl)]; rfl
        obtain ⟨u, hu, hu1⟩ := hasIn_iff.1 hv1
        rw [osum_ratS ⟨u, hu, by
          cases hx : W u v with
          | none => exact absurd hx hu1
          | some x => rw [hst u hu, hg, hx]; simp [both]⟩]
        show some (sumOf n (fun u => both (· * ·) (q.rank.get u) (m.get u v)) + (1 - d) / n) = _
        rw [sumOf_eq, heldAfter_one, ← rsum_mul, rsum_congr]
        intro u hu
        rw [hg, share, hst u hu]
        cases hx : W u v with
        | none => simp [both] <;> grind
        | some x =>
          simp [both]
          grind
      · have hst : ∀ u, u < n → q.rank.get u = if hasIn n W u = true then some (heldAfter n W d k u) else none := by
          intro u hu
          rw [h.getR u hu]
          simp [hk]
        by_cases hf : fedIn n W v = true
        · obtain ⟨u, hu, hu1, hu2⟩ := fedIn_iff.1 hf
          rw [osum_ratS ⟨u, hu, by
            cases hx : W u v with
            | none => exact absurd hx hu1
            | some x => rw [hst u hu, if_pos hu2, hg, hx]; simp [both]⟩]
          show some (sumOf n (fun u => both (· * ·) (q.rank.get u) (m.get u v)) + (1 - d) / n) = _
          rw [sumOf_eq, heldAfter_fed hk hf, ← rsum_mul, rsum_congr]
          intro u hu
          rw [hg, share, hst u hu]
          by_cases hin : hasIn n W u = true
          · rw [if_pos hin, if_pos hin]
            cases hx : W u v with
            | none => simp [both] <;> grind
            | some x =>
              simp [both]
              grind
          · rw [if_neg hin, if_neg hin]
            simp [both]
        · have hf0 : fedIn n W v = false := by simpa using hf
          rw [osum_range_none.2 (fun u hu => by
            rw [hst u hu, hg]
            by_cases hin : hasIn n W u = true
            · have : W u v = none := Classical.byContradiction fun hx => hf (fedIn_iff.2 ⟨u, hu, hx, hin⟩)
              rw [this]; rw [if_pos hin]; rfl
            · rw [if_neg hin]; rfl)]
          show (q.new.get v).map _ = _
          rw [h.getN v hv, if_pos ⟨hk, hv1⟩, heldAfter_starved hk hf0]
          rfl
    · rw [if_neg hv1]
      have hv0 : hasIn n W v = false := by simpa using hv1
      rw [osum_range_none.2 (fun u hu => by rw [hg, hasIn_false hv0 hu]; cases q.rank.get u <;> rfl)]
      show (q.new.get v).map _ = _
      rw [h.getN v hv, if_neg (by simp [hv0])]
      rfl
  refine ⟨q', e, ⟨z1, by rw [hnew]; exact z1, z3, ?_, ?_⟩, ?_⟩
  · intro v hv
    rw [hget v hv]
    simp
  · intro v hv
    rw [hnew, hget v hv]
    simp
  · rw [hs, heldError_eq, sumOf_eq]
    rw [rsum_congr]
    intro v hv
    dsimp only
    rw [prSq, h.getR v hv, hget v hv]
    by_cases hv1 : hasIn n W v = true
    · rw [if_pos (Or.inr hv1), if_pos hv1, if_pos hv1]
      rfl
    · have hv0 : hasIn n W v = false := by simpa using hv1
      rw [if_neg hv1]
      by_cases hk : k = 0
      · subst hk
        rw [if_pos (Or.inl rfl), if_neg hv1, if_pos rfl]
        rfl
      · rw [if_neg (by simp [hk, hv0]), if_neg hv1, if_neg hk]
        simp [either]

theorem held_loop {m : Lil Rat} {q : PrSt} (hm : Sh n n m)
    (hg : ∀ u v, m.get u v = (W u v).map fun x => x / sumOf n (W u) * d)
    (h : HeldInv n W d 0 q) (hs : q.stop = false) (N : Nat) :
    ∃ q' k, (forP N q fun _ q => if q.stop then .ok q else prBody m ((1 - d) / n) threshold n q) = .ok q' ∧
      HeldInv n W d k q' ∧ k ≤ N ∧ (∀ j, j + 1 < k → ¬ heldError n W d j < threshold) ∧
      (k = N ∨ 0 < k ∧ heldError n W d (k - 1) < threshold) := by
  obtain ⟨q', e, k, hi, hk, h1, h2⟩ := forP_inv
    (b := fun _ q => if q.stop then .ok q else prBody m ((1 - d) / n) threshold n q)
    (fun i q => ∃ k, HeldInv n W d k q ∧ k ≤ i ∧
      (q.stop = false → k = i ∧ ∀ j, j < k → ¬ heldError n W d j < threshold) ∧
      (q.stop = true → (∀ j, j + 1 < k → ¬ heldError n W d j < threshold) ∧ 0 < k ∧ heldError n W d (k - 1) < threshold))
    N q ⟨0, h, Nat.le_refl _, fun _ => ⟨rfl, fun j hj => absurd hj (by omega)⟩, fun h' => by (rw [hs] at h'; cases h')⟩
    (by
      rintro i q hiN ⟨k, hi, hk, h1, h2⟩
      cases hst : q.stop with
      | true => exact ⟨q, by simp, k, hi, by omega, fun h' => by (rw [hst] at h'; cases h'), fun _ => h2 hst⟩
      | false =>
        obtain ⟨hki, hj⟩ := h1 hst
        subst hki
        obtain ⟨q', e, hi', hs'⟩ := held_step (threshold := threshold) hm hg hi
        refine ⟨q', by simpa using e, k + 1, hi', Nat.le_refl _, ?_, ?_⟩
        · intro h'
          refine ⟨rfl, fun j hjk => ?_⟩
          rcases Nat.lt_or_ge j k with h3 | h3
          · exact hj j h3
          · have : j = k := by omega
            subst this
            rw [hs'] at h'
            simpa using h'
        · intro h'
          refine ⟨fun j hjk => hj j (by omega), by omega, ?_⟩
          rw [hs'] at h'
          simpa using h')
  refine ⟨q', k, e, hi, hk, ?_⟩
  cases hst : q'.stop with
  | false => exact ⟨fun j hj => (h1 hst).2 j (by omega), Or.inl (h1 hst).1⟩
  | true => exact ⟨(h2 hst).1, Or.inr (h2 hst).2⟩

theorem heldAfter_ge (hW : PosW W) (hd0 : 0 ≤ d) (hd1 : d ≤ 1) (k v : Nat) :
    0 ≤ heldAfter n W d k v ∧ (0 < k → (1 - d) / n ≤ heldAfter n W d k v) := by
  have hN : (0 : Rat) ≤ (n : Rat) := Rat.natCast_nonneg
  have h1 : 0 ≤ (1 - d) / (n : Rat) := rat_div_nonneg (by grind) hN
  induction k generalizing v with
  | zero => exact ⟨rat_div_nonneg (by decide) hN, fun h => absurd h (by omega)⟩
  | succ k ih =>
    by_cases hk : k = 0
    · subst hk
      have h0 : 0 ≤ d * rsum n (fun u => 1 / (n : Rat) * share n W u v) :=
        Rat.mul_nonneg hd0 (rsum_nonneg fun u _ => Rat.mul_nonneg (rat_div_nonneg (by decide) hN) (share_nonneg hW u v))
      rw [heldAfter_one]
      grind
    · cases hf : fedIn n W v with
      | true =>
        have h0 : 0 ≤ d * rsum n (fun u => if hasIn n W u then heldAfter n W d k u * share n W u v else 0) :=
          Rat.mul_nonneg hd0 (rsum_nonneg fun u _ => by
            split
            · exact Rat.mul_nonneg (ih u).1 (share_nonneg hW u v)
            · exact Rat.le_refl)
        rw [heldAfter_fed hk hf]
        grind
      | false =>
        rw [heldAfter_starved hk hf]
        have := (ih v).1
        grind

/-- **C61** What `page_rank` returns on every graph with positive weights, also if a vertex
has an edge from it but none to it: the ranks of the iteration `heldAfter` after `k`
rounds, where `k` is the first round whose mean squared change is below the threshold, and
at most `maxIters`; a vertex without an edge to it gets what every vertex receives. -/
theorem C61_page_rank_actual {conv : α → Rat} {size : Rat} {G : Lil α} {rank : BVec Rat} {maxIters : Nat}
    (hn : 0 < n) (hG : G.WF) (hr : G.nrows = n) (hc : G.ncols = n) (hrank : rank.WF) (hsz : rank.size = n)
    (hsize : size = n) (hpos : ∀ u v x, G.get u v = some x → 0 < conv x) (hd0 : 0 ≤ d) (hd1 : d ≤ 1) :
    ∃ r k, pageRank conv size G rank d threshold maxIters = .ok r ∧ r.WF ∧ r.size = n ∧
      (∀ v, v < n → r.get v = some
        (if k = 0 ∨ hasIn n (fun u v => (G.get u v).map conv) v then heldAfter n (fun u v => (G.get u v).map conv) d k v else (1 - d) / n)) ∧
      k ≤ maxIters ∧ (∀ j, j + 1 < k → ¬ heldError n (fun u v => (G.get u v).map conv) d j < threshold) ∧
      (k = maxIters ∨ 0 < k ∧ heldError n (fun u v => (G.get u v).map conv) d (k - 1) < threshold) := by
  subst hsize
  have hGs : Sh n n G := ⟨hG, hr, hc⟩
  obtain ⟨m, q, zm, z1, z2, z3, hst, gm, g1, g2, hrun⟩ := prStart (conv := conv) (d := d) hn hGs ⟨hrank, hsz⟩
  have hW := posW hpos
  generalize hWd : (fun u v => (G.get u v).map conv) = W at *
  have gm' : ∀ u v, m.get u v = (W u v).map fun x => x / sumOf n (W u) * d := by
    intro u v
    rw [gm u v, ← hWd]
  obtain ⟨q', k, e, hi, hk, hj, hs⟩ := held_loop (W := W) (threshold := threshold) zm gm'
    ⟨z1, z2, z3, fun v hv => by rw [g1 v hv]; rfl, fun v hv => by rw [g2]; rfl⟩ hst maxIters
  obtain ⟨r, e2, zr, gr⟩ := prFill_ok (tele := (1 - d) / n) hi.rank hi.new
  refine ⟨r, k, by rw [hrun, e]; exact e2, zr.wf, zr.sz, fun v hv => ?_, hk, hj, hs⟩
  rw [gr v hv, hi.getR v hv]
  have hN : (0 : Rat) < (n : Rat) := by exact_mod_cast hn
  by_cases h0 : k = 0 ∨ hasIn n W v = true
  · rw [if_pos h0, if_pos h0]
    dsimp only
    by_cases hz : heldAfter n W d k v = 0
    · rw [if_pos hz, hz]
      rcases Nat.eq_zero_or_pos k with hk0 | hk0
      · subst hk0
        rw [heldAfter] at hz
        grind
      · have h1 := (heldAfter_ge (n := n) hW hd0 hd1 k v).2 hk0
        have h2 : 0 ≤ (1 - d) / (n : Rat) := rat_div_nonneg (by grind) (by grind)
        congr 1
        grind
    · rw [if_neg hz]
  · rw [if_neg h0, if_neg h0]

theorem heldAfter_grows {v : Nat} (h : fedIn n W v = false) (k : Nat) :
    heldAfter n W d (k + 1) v = heldAfter n W d 1 v + (k : Nat) * ((1 - d) / n) := by
  induction k with
  | zero => rw [show ((0 : Nat) : Rat) = 0 from rfl]; grind
  | succ k ih =>
    rw [heldAfter_starved (by omega) h, ih, show ((k + 1 : Nat) : Rat) = (k : Rat) + 1 by push_cast; rfl]
    grind

theorem rsum_ge_one {f : Nat → Rat} (h : ∀ i, i < n → 0 ≤ f i) {i : Nat} (hi : i < n) : f i ≤ rsum n f := by
  have := rsum_mono (n := n) (f := fun j => if j = i then f i else 0) (g := f) (fun j hj => by
    split
    · rename_i e; subst e; exact Rat.le_refl
    · exact h j hj)
  rwa [rsum_single hi (fun j _ hj => if_neg hj), if_pos rfl] at this

/-- **C61**, refuted for every graph in which the edges to some vertex come only from
vertices without edges to them: the rank of that vertex grows by the same amount in every
round. If the threshold is not above the square of that amount divided by the number of
vertices, the loop runs to the limit, whatever that is. -/
theorem C61_grows_wrong {conv : α → Rat} {G : Lil α} {rank : BVec Rat} {K : Nat}
    (hn : 0 < n) (hG : G.WF) (hr : G.nrows = n) (hc : G.ncols = n) (hrank : rank.WF) (hsz : rank.size = n)
    (hpos : ∀ u v x, G.get u v = some x → 0 < conv x) (hd0 : 0 ≤ d) (hd1 : d ≤ 1)
    (ht : threshold ≤ (1 - d) / n * ((1 - d) / n) / n) {v : Nat} (hin : ∃ u, G.get u v ≠ none)
    (hsrc : ∀ u, G.get u v ≠ none → ∀ w, G.get w u = none) :
    ∃ r, pageRank conv n G rank d threshold (K + 1) = .ok r ∧
      r.get v = some (rankAfter n (fun u v => (G.get u v).map conv) d 1 v + (K : Nat) * ((1 - d) / n)) := by
  obtain ⟨r, k, e, -, -, g, h1, h2, h3⟩ := C61_page_rank_actual (threshold := threshold) (maxIters := K + 1)
    hn hG hr hc hrank hsz rfl hpos hd0 hd1
  obtain ⟨u, hu⟩ := hin
  have huv := some_lt hG hu
  have hu0 := hsrc u hu
  rw [hr, hc] at huv
  have hin' : hasIn n (fun u v => (G.get u v).map conv) v = true := hasIn_iff.2 ⟨u, huv.1, by simpa using hu⟩
  have hno : hasIn n (fun u v => (G.get u v).map conv) u = false := by
    cases h : hasIn n (fun u v => (G.get u v).map conv) u with
    | false => rfl
    | true =>
      obtain ⟨w, -, hw⟩ := hasIn_iff.1 h
      exact absurd (hu0 w) (by simpa using hw)
  have hfed : fedIn n (fun u v => (G.get u v).map conv) v = false := by
    cases h : fedIn n (fun u v => (G.get u v).map conv) v with
    | false => rfl
    | true =>
      obtain ⟨a, -, ha, hb⟩ := fedIn_iff.1 h
      obtain ⟨w, -, hw⟩ := hasIn_iff.1 hb
      exact absurd (hsrc a (by simpa using ha) w) (by simpa using hw)
  generalize (fun u v => (G.get u v).map conv) = W at *
  have hN : (0 : Rat) < (n : Rat) := by exact_mod_cast hn
  have hNi : (0 : Rat) < (n : Rat)⁻¹ := Rat.inv_pos.2 hN
  have hsq : ∀ x : Rat, 0 ≤ x * x := fun x => by
    rcases Rat.le_total (a := 0) (b := x) with h | h
    · exact Rat.mul_nonneg h h
    · have := Rat.mul_nonneg (a := -x) (b := -x) (by grind) (by grind)
      grind
  have hbig : ∀ j, ¬ heldError n W d j < threshold := by
    intro j
    have hge : (1 - d) / (n : Rat) * ((1 - d) / n) / n ≤ heldError n W d j := by
      rw [heldError_eq, Rat.div_def, Rat.div_def (rsum _ _)]
      refine Rat.mul_le_mul_of_nonneg_right ?_ (Rat.le_of_lt hNi)
      cases j with
      | zero =>
        have := rsum_ge_one (n := n) (f := fun v =>
          let x := if hasIn n W v then heldAfter n W d 0 v - heldAfter n W d (0 + 1) v else if 0 = 0 then 1 / (n : Rat) else 0
          x * x) (fun i _ => hsq _) huv.1
        refine Rat.le_trans ?_ this
        dsimp only
        rw [hno, if_neg (by simp), if_pos rfl, Rat.div_def, Rat.div_def]
        have a1 : 0 ≤ (1 - d) * (n : Rat)⁻¹ := Rat.mul_nonneg (by grind) (Rat.le_of_lt hNi)
        have a2 : (1 - d) * (n : Rat)⁻¹ ≤ 1 * (n : Rat)⁻¹ := Rat.mul_le_mul_of_nonneg_right (by grind) (Rat.le_of_lt hNi)
        exact Rat.le_trans (Rat.mul_le_mul_of_nonneg_right a2 a1)
          (Rat.mul_le_mul_of_nonneg_left a2 (by grind))
      | succ j =>
        have := rsum_ge_one (n := n) (f := fun v =>
          let x := if hasIn n W v then heldAfter n W d (j + 1) v - heldAfter n W d (j + 1 + 1) v else if j + 1 = 0 then 1 / (n : Rat) else 0
          x * x) (fun i _ => hsq _) huv.2
        refine Rat.le_trans ?_ this
        dsimp only
        rw [hin', if_pos rfl, heldAfter_starved (k := j + 1) (by omega) hfed]
        generalize (1 - d) / (n : Rat) = t
        generalize heldAfter n W d (j + 1) v = x
        have : (x - (x + t)) * (x - (x + t)) = t * t := by grind
        rw [this]
        exact Rat.le_refl
    grind
  have hk : k = K + 1 := by
    rcases h3 with h3 | ⟨-, h4⟩
    · exact h3
    · exact absurd h4 (hbig _)
  subst hk
  refine ⟨r, e, ?_⟩
  rw [g v huv.2, if_pos (Or.inr hin'), heldAfter_grows hfed, heldAfter_one, rankAfter_succ]
  rfl

/-- Three vertices, the edges 0 → 1, 1 → 2 and 2 → 1: vertex 0 hands nothing on after the
first round. And `prPath`, the edge 0 → 1, has a vertex to which only such an edge leads. -/
example : (⟨3, 3, 3, [[(1, 1)], [(2, 1)], [(1, 1)]]⟩ : Lil Rat).WF ∧
    (∀ u v x, (⟨3, 3, 3, [[(1, 1)], [(2, 1)], [(1, 1)]]⟩ : Lil Rat).get u v = some x → 0 < x) ∧
    heldAfter 3 (⟨3, 3, 3, [[(1, 1)], [(2, 1)], [(1, 1)]]⟩ : Lil Rat).get (1 / 2) 2 1 = 1 / 3 ∧
    rankAfter 3 (⟨3, 3, 3, [[(1, 1)], [(2, 1)], [(1, 1)]]⟩ : Lil Rat).get (1 / 2) 2 1 = 5 / 12 := by
  refine ⟨Lil.wf_chk (by decide +kernel), ?_, by decide +kernel, by decide +kernel⟩
  have hwf : (⟨3, 3, 3, [[(1, 1)], [(2, 1)], [(1, 1)]]⟩ : Lil Rat).WF := Lil.wf_chk (by decide +kernel)
  intro u v x h
  have hl := some_lt hwf (i := u) (j := v) (by rw [h]; simp)
  have := (show ∀ u, u < 3 → ∀ v, v < 3 → ∀ x ∈ (⟨3, 3, 3, [[(1, 1)], [(2, 1)], [(1, 1)]]⟩ : Lil Rat).get u v, 0 < x by
    decide +kernel) u hl.1 v hl.2
  exact this x h

example {rank : BVec Rat} (hrank : rank.WF) (hsz : rank.size = 2) (K : Nat) :
    ∃ r, pageRank id (2 : Nat) prPath rank (1 / 2) (1 / 100) (K + 1) = .ok r ∧
      r.get 1 = some (1 / 2 + (K : Rat) * (1 / 4)) := by
  have hget : ∀ u v, prPath.get u v ≠ none → u = 0 ∧ v = 1 := by
    intro u v h
    have hl := some_lt prPath_wf h
    have h1 := prPath_get u v hl.1 hl.2
    rw [h1] at h
    exact Classical.byContradiction fun hc => h (if_neg hc)
  obtain ⟨r, e, g⟩ := C61_grows_wrong (conv := id) (d := 1 / 2) (threshold := 1 / 100) (K := K) (n := 2) (by decide)
    prPath_wf rfl rfl hrank hsz (fun u v x h => by
      obtain ⟨rfl, rfl⟩ := hget u v (by rw [h]; simp)
      rw [prPath_get 0 1 (by decide) (by decide)] at h
      cases h; decide) (by decide +kernel) (by decide +kernel) (by decide +kernel) (v := 1) ⟨0, by rw [prPath_get 0 1 (by decide) (by decide)]; simp⟩
    (fun u h w => Classical.byContradiction fun hc => by
      have := (hget u 1 h).1
      have := (hget w u hc).2
      omega)
  refine ⟨r, e, ?_⟩
  rw [g, show rankAfter 2 (fun u v => (prPath.get u v).map id) (1 / 2) 1 1 = 1 / 2 by decide +kernel,
    show ((1 : Rat) - 1 / 2) / (2 : Nat) = 1 / 4 by decide +kernel]

end GBTL

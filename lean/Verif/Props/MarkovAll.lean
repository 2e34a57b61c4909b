import Verif.Props.Markov
/-
**C64** What Markov clustering returns on every graph with positive weights.
-/
namespace GBTL
open Spec

variable {α : Type} {n : Nat}

theorem keptPower_succ (A : Nat → Nat → Rat) (k i j : Nat) : keptPower n A (k + 1) i j =
    if keptPower n A k i j = 0 then 0 else rsum n fun l => keptPower n A k i l * A l j := by
  rw [keptPower, rsum_eq]

theorem keptPower_congr {A B : Nat → Nat → Rat} (h : ∀ i j, i < n → j < n → A i j = B i j) (k : Nat) :
    ∀ i j, i < n → j < n → keptPower n A k i j = keptPower n B k i j := by
  induction k with
  | zero => exact h
  | succ k ih =>
    intro i j hi hj
    rw [keptPower_succ, keptPower_succ, ih i j hi hj, rsum_congr fun l hl => by rw [ih i l hi hl, h l j hl hj]]

theorem ixPred_times {x : Nat} (h : x < 2 ^ 64) : ixPred x = timesLess x := by
  unfold ixPred timesLess
  split <;> omega

theorem PosW.dense_ne {W : Mat Rat} (h : PosW W) (i j : Nat) : dense W i j = 0 ↔ W i j = none := by
  unfold dense
  cases hx : W i j with
  | none => simp
  | some x =>
    have := h i j x hx
    have h0 : x ≠ 0 := by grind
    simp [h0]

/-- The expansion. -/
theorem mclExpand_kept {A : Lil Rat} {e : Nat} (he : e < 2 ^ 64) (hA : Sh n n A) (pA : PosM A) :
    ∃ P, mclExpand e A = .ok P ∧ Sh n n P ∧ PosM P ∧
      ∀ i j, i < n → j < n → dense P.get i j = keptPower n (dense A.get) (timesLess e) i j := by
  obtain ⟨P, e1, h1, h2, h3⟩ := forP_inv
    (b := fun _ P => exec (mxm (mMasked P .plain (fun x => x != 0) P) ⟨(· + ·), (· * ·), (· * ·)⟩ id (.plain P) (.plain A)))
    (fun k P => Sh n n P ∧ PosM P ∧ ∀ i j, i < n → j < n → dense P.get i j = keptPower n (dense A.get) k i j) (ixPred e) A
    ⟨hA, pA, fun i j _ _ => rfl⟩
    (by
      rintro k P hk ⟨h1, h2, h3⟩
      obtain ⟨P', e, z, p, hne, hv⟩ := mclStep_ok hA h1 pA h2
      refine ⟨P', e, z, p, fun i j hi hj => ?_⟩
      rw [keptPower_succ, ← h3 i j hi hj, rsum_congr (fun l hl => by rw [← h3 i l hi hl])]
      by_cases h0 : P.get i j = none
      · rw [if_pos ((PosW.dense_ne h2 i j).2 h0), (PosW.dense_ne p i j).2]
        exact Classical.byContradiction fun h => ((hne i j).1 h).1 h0
      · rw [if_neg (fun h => h0 ((PosW.dense_ne h2 i j).1 h))]
        by_cases hp : P'.get i j = none
        · rw [(PosW.dense_ne p i j).2 hp]
          symm
          refine rsum_eq_zero fun l hl => ?_
          by_cases ha : P.get i l = none
          · rw [dense, ha]; exact Rat.zero_mul _
          · by_cases hb : A.get l j = none
            · rw [dense, dense, hb]; exact Rat.mul_zero _
            · exact absurd hp ((hne i j).2 ⟨h0, l, ha, hb⟩)
        · exact hv i j hp)
  exact ⟨P, e1, h1, h2, fun i j hi hj => by rw [h3 i j hi hj, ixPred_times he]⟩

theorem keptError_eq (e r : Nat) (A : Nat → Nat → Rat) (k : Nat) : keptError n e r A k =
    (rsum n fun i => rsum n fun j =>
      (keptAfter n e r A k i j - keptAfter n e r A (k + 1) i j) * (keptAfter n e r A k i j - keptAfter n e r A (k + 1) i j))
      / ((n : Rat) * (n : Rat)) := by
  rw [keptError, rsum_eq]
  congr 1
  exact rsum_congr fun i _ => rsum_eq _ _

/-- The body of the loop. -/
theorem mclBody_kept {e r : Nat} {threshold : Rat} {q : MclSt} (hn : 0 < n) (he : e < 2 ^ 64) (hr : r < 2 ^ 64)
    (hA : Sh n n q.A) (pA : PosM q.A) :
    ∃ q', mclBody n e r threshold q = .ok q' ∧ Sh n n q'.A ∧ PosM q'.A ∧
      (∀ i j, i < n → j < n →
        dense q'.A.get i j = inflate n (timesLess r + 1) (keptPower n (dense q.A.get) (timesLess e)) i j) ∧
      q'.stop = decide ((rsum n fun i => rsum n fun j =>
        (dense q.A.get i j - dense q'.A.get i j) * (dense q.A.get i j - dense q'.A.get i j)) / ((n : Rat) * (n : Rat)) < threshold) := by
  obtain ⟨P, e1, z1, p1, t1⟩ := mclExpand_kept he hA pA
  obtain ⟨I, e2, z2, p2, -, v2, -⟩ := mclInflate_ok hn (congrArg (· + 1) (ixPred_times hr)) z1 p1
  obtain ⟨E, E', e3, e4, e5⟩ := mclErr_ok hA z2
  refine ⟨⟨I, decide ((rsum n fun i => rsum n fun j => (dense q.A.get i j - dense I.get i j) * (dense q.A.get i j - dense I.get i j))
    / ((n : Rat) * (n : Rat)) < threshold)⟩, ?_, z2, p2, fun i j hi hj => ?_, rfl⟩
  · unfold mclBody
    rw [e1, prog_bind_ok, e2, prog_bind_ok, e3, prog_bind_ok, e4, prog_bind_ok, e5, prog_bind_ok]
  · rw [v2 i j hi hj]
    exact inflate_congr t1 i j hi hj

/-- **C64** What Markov clustering returns on every graph with positive weights, for all
exponents: the rounds of the textbook process with the power computed only where it has not
become zero. An exponent of zero stands for 2^64. -/
theorem C64_markov_cluster_actual {conv : α → Rat} {G : Lil α} {e r : Nat} {threshold : Rat} {maxIters : Nat} (hn : 0 < n)
    (hG : G.WF) (hnr : G.nrows = n) (hnc : G.ncols = n) (hpos : ∀ u v x, G.get u v = some x → 0 < conv x)
    (he : e < 2 ^ 64) (hr : r < 2 ^ 64) :
    ∃ C k, markovCluster conv G e r threshold maxIters = .ok C ∧ C.WF ∧ C.nrows = n ∧ C.ncols = n ∧
      (∀ i j x, C.get i j = some x → 0 < x) ∧
      (∀ i j, i < n → j < n → dense C.get i j = keptAfter n e r (dense fun u v => (G.get u v).map conv) k i j) ∧
      k ≤ maxIters ∧ (∀ j, j + 1 < k → ¬ keptError n e r (dense fun u v => (G.get u v).map conv) j < threshold) ∧
      (k = maxIters ∨ 0 < k ∧ keptError n e r (dense fun u v => (G.get u v).map conv) (k - 1) < threshold) := by
  obtain ⟨A, z, p, -, hv, -, hrun⟩ := mclStart (conv := conv) hn ⟨hG, hnr, hnc⟩ hpos
  obtain ⟨q', k, e1, ⟨h1, h2, h4⟩, h5, h6, h7⟩ := stop_loop (stop := MclSt.stop) (b := mclBody n e r threshold) (q := ⟨A, false⟩)
    (fun k q => Sh n n q.A ∧ PosM q.A ∧
      ∀ i j, i < n → j < n → dense q.A.get i j = keptAfter n e r (dense fun u v => (G.get u v).map conv) k i j)
    (fun k => keptError n e r (dense fun u v => (G.get u v).map conv) k < threshold)
    (by
      rintro k q ⟨h1, h2, h4⟩
      obtain ⟨q', e1, y1, y2, y3, y4⟩ := mclBody_kept (threshold := threshold) hn he hr h1 h2
      have hd : ∀ i j, i < n → j < n → dense q'.A.get i j = keptAfter n e r (dense fun u v => (G.get u v).map conv) (k + 1) i j := by
        intro i j hi hj
        rw [y3 i j hi hj, keptAfter]
        exact inflate_congr (keptPower_congr h4 _) i j hi hj
      refine ⟨q', e1, ⟨y1, y2, hd⟩, ?_⟩
      rw [y4, decide_eq_true_iff, keptError_eq]
      rw [rsum_congr (g := fun i => rsum n fun j =>
        (keptAfter n e r (dense fun u v => (G.get u v).map conv) k i j - keptAfter n e r (dense fun u v => (G.get u v).map conv) (k + 1) i j) *
        (keptAfter n e r (dense fun u v => (G.get u v).map conv) k i j - keptAfter n e r (dense fun u v => (G.get u v).map conv) (k + 1) i j))
        (fun i hi => rsum_congr fun j hj => by rw [h4 i j hi hj, hd i j hi hj])])
    ⟨z, p, hv⟩ rfl maxIters
  refine ⟨q'.A, k, ?_, h1.wf, h1.nr, h1.nc, h2, h4, h5, h6, h7⟩
  rw [hrun, e1]
  rfl

/-- The hypotheses hold of the path 0 - 1 - 2 with loops, where the result is not that of the
textbook process. -/
example : mclPath.WF ∧ (∀ u v x, mclPath.get u v = some x → 0 < id x) ∧
    (List.range 3).map (fun i => keptAfter 3 2 2 (dense mclPath.get) 1 i 0) = [1 / 2, 1 / 2, 0] ∧
    (List.range 3).map (fun i => mclAfter 3 2 2 (dense mclPath.get) 1 i 0) = [25 / 54, 25 / 54, 4 / 54] :=
  ⟨mclPath_wf, mclPath_pos, by decide +kernel, by decide +kernel⟩

end GBTL

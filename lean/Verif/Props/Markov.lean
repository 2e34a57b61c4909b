import Verif.Lemmas.Markov
/-
**C64** Markov clustering.
-/
namespace GBTL
open Spec

variable {α : Type} {n : Nat}

theorem mclError_eq (e r : Nat) (A : Nat → Nat → Rat) (k : Nat) : mclError n e r A k =
    (rsum n fun i => rsum n fun j =>
      (mclAfter n e r A k i j - mclAfter n e r A (k + 1) i j) * (mclAfter n e r A k i j - mclAfter n e r A (k + 1) i j))
      / ((n : Rat) * (n : Rat)) := by
  rw [mclError, rsum_eq]
  congr 1
  exact rsum_congr fun i _ => rsum_eq _ _

/-- The body of the loop. -/
theorem mclBody_ok {e r : Nat} {threshold : Rat} {q : MclSt} (hn : 0 < n) (he : 0 < e) (he2 : e < 2 ^ 64) (hr : 0 < r) (hr2 : r < 2 ^ 64)
    (hA : Sh n n q.A) (pA : PosM q.A) :
    ∃ q', mclBody n e r threshold q = .ok q' ∧ Sh n n q'.A ∧ PosM q'.A ∧ (∀ i j, q'.A.get i j ≠ none → q.A.get i j ≠ none) ∧
      (∀ j, (∃ i, q'.A.get i j ≠ none) → sumOf n (fun i => q'.A.get i j) = 1) ∧
      (TransM q.A → TransM q'.A ∧ ∀ i j, i < n → j < n → dense q'.A.get i j = inflate n r (mpower n (dense q.A.get) e) i j) ∧
      q'.stop = decide ((rsum n fun i => rsum n fun j =>
        (dense q.A.get i j - dense q'.A.get i j) * (dense q.A.get i j - dense q'.A.get i j)) / ((n : Rat) * (n : Rat)) < threshold) := by
  obtain ⟨P, e1, z1, p1, n1, t1⟩ := mclExpand_ok he he2 hA pA
  obtain ⟨I, e2, z2, p2, n2, v2, c2⟩ := mclInflate_ok hn (ixPred_eq hr hr2) z1 p1
  obtain ⟨E, E', e3, e4, e5⟩ := mclErr_ok hA z2
  refine ⟨⟨I, decide ((rsum n fun i => rsum n fun j => (dense q.A.get i j - dense I.get i j) * (dense q.A.get i j - dense I.get i j))
    / ((n : Rat) * (n : Rat)) < threshold)⟩, ?_, z2, p2, fun i j h => n1 i j ((n2 i j).1 h), c2, fun ht => ?_, rfl⟩
  · unfold mclBody
    rw [e1, prog_bind_ok, e2, prog_bind_ok, e3, prog_bind_ok, e4, prog_bind_ok, e5, prog_bind_ok]
  · obtain ⟨h1, h2⟩ := t1 ht
    refine ⟨fun i l j hil hlj => (n2 i j).2 (h1 i l j ((n2 i l).1 hil) ((n2 l j).1 hlj)), fun i j hi hj => ?_⟩
    rw [v2 i j hi hj]
    exact inflate_congr h2 i j hi hj

/-- What precedes the loop. -/
theorem mclStart {conv : α → Rat} {G : Lil α} (hn : 0 < n) (hG : Sh n n G) (hpos : ∀ u v x, G.get u v = some x → 0 < conv x) :
    ∃ A, Sh n n A ∧ PosM A ∧ (∀ i j, A.get i j ≠ none ↔ G.get i j ≠ none) ∧
      (∀ i j, i < n → j < n → dense A.get i j = colNorm n (dense fun u v => (G.get u v).map conv) i j) ∧
      (∀ j, (∃ i, A.get i j ≠ none) → sumOf n (fun i => A.get i j) = 1) ∧
      ∀ e r threshold maxIters, markovCluster conv G e r threshold maxIters =
        (forP maxIters { A := A, stop := false } fun _ q => if q.stop then .ok q else mclBody n e r threshold q) >>= fun q => .ok q.A := by
  obtain ⟨A1, e2, z2, g2⟩ := applyMP_ok (f := conv) (Sh.new n n) hG
  have hA1 : A1.get = fun u v => (G.get u v).map conv := by
    funext u v
    by_cases huv : u < n ∧ v < n
    · exact g2 u v huv.1 huv.2
    · rw [z2.out huv, hG.out huv]; rfl
  have p2 : PosM A1 := by
    show PosW A1.get
    rw [hA1]
    exact posW hpos
  obtain ⟨A, e3, z3, p3, n3, v3, c3⟩ := normCols_ok hn z2 p2
  refine ⟨A, z3, p3, fun i j => ?_, fun i j hi hj => ?_, c3, fun e r threshold maxIters => ?_⟩
  · rw [n3, hA1]; simp
  · rw [v3 i j hi hj, hA1]
  · unfold markovCluster
    rw [if_neg (by rw [hG.nr, hG.nc]; simp)]
    dsimp only
    rw [hG.nr, e2]
    simp only [prog_bind_ok]
    rw [e3]
    simp only [prog_bind_ok]

/-- **C64** For a graph with positive weights whose edges are transitive, Markov clustering
is the textbook process, up to the first round with a mean squared change below the
threshold. -/
theorem C64_markov_cluster_partial {conv : α → Rat} {G : Lil α} {e r : Nat} {threshold : Rat} {maxIters : Nat} (hn : 0 < n)
    (hG : G.WF) (hnr : G.nrows = n) (hnc : G.ncols = n) (hpos : ∀ u v x, G.get u v = some x → 0 < conv x)
    (he : 0 < e) (he2 : e < 2 ^ 64) (hr : 0 < r) (hr2 : r < 2 ^ 64)
    (htr : ∀ u v w, G.get u v ≠ none → G.get v w ≠ none → G.get u w ≠ none) :
    ∃ C k, markovCluster conv G e r threshold maxIters = .ok C ∧ C.WF ∧ C.nrows = n ∧ C.ncols = n ∧
      (∀ i j, i < n → j < n → dense C.get i j = mclAfter n e r (dense fun u v => (G.get u v).map conv) k i j) ∧
      k ≤ maxIters ∧ (∀ j, j + 1 < k → ¬ mclError n e r (dense fun u v => (G.get u v).map conv) j < threshold) ∧
      (k = maxIters ∨ 0 < k ∧ mclError n e r (dense fun u v => (G.get u v).map conv) (k - 1) < threshold) := by
  obtain ⟨A, z, p, hne, hv, -, hrun⟩ := mclStart (conv := conv) hn ⟨hG, hnr, hnc⟩ hpos
  have hT : TransM A := fun i l j h1 h2 => (hne i j).2 (htr i l j ((hne i l).1 h1) ((hne l j).1 h2))
  obtain ⟨q', k, e1, ⟨h1, -, -, h4⟩, h5, h6, h7⟩ := stop_loop (stop := MclSt.stop) (b := mclBody n e r threshold) (q := ⟨A, false⟩)
    (fun k q => Sh n n q.A ∧ PosM q.A ∧ TransM q.A ∧
      ∀ i j, i < n → j < n → dense q.A.get i j = mclAfter n e r (dense fun u v => (G.get u v).map conv) k i j)
    (fun k => mclError n e r (dense fun u v => (G.get u v).map conv) k < threshold)
    (by
      rintro k q ⟨h1, h2, h3, h4⟩
      obtain ⟨q', e1, y1, y2, -, -, y3, y4⟩ := mclBody_ok (threshold := threshold) hn he he2 hr hr2 h1 h2
      obtain ⟨y5, y6⟩ := y3 h3
      have hd : ∀ i j, i < n → j < n → dense q'.A.get i j = mclAfter n e r (dense fun u v => (G.get u v).map conv) (k + 1) i j := by
        intro i j hi hj
        rw [y6 i j hi hj, mclAfter]
        exact inflate_congr (mpower_congr h4 e) i j hi hj
      refine ⟨q', e1, ⟨y1, y2, y5, hd⟩, ?_⟩
      rw [y4, decide_eq_true_iff, mclError_eq]
      rw [rsum_congr (g := fun i => rsum n fun j =>
        (mclAfter n e r (dense fun u v => (G.get u v).map conv) k i j - mclAfter n e r (dense fun u v => (G.get u v).map conv) (k + 1) i j) *
        (mclAfter n e r (dense fun u v => (G.get u v).map conv) k i j - mclAfter n e r (dense fun u v => (G.get u v).map conv) (k + 1) i j))
        (fun i hi => rsum_congr fun j hj => by rw [h4 i j hi hj, hd i j hi hj])])
    ⟨z, p, hT, hv⟩ rfl maxIters
  refine ⟨q'.A, k, ?_, h1.wf, h1.nr, h1.nc, h4, h5, h6, h7⟩
  rw [hrun, e1]
  rfl

/-- **C64** For every graph with positive weights, every column of the result that is not
empty sums to 1, and the result has elements only where the graph has. -/
theorem C64_markov_cluster_columns {conv : α → Rat} {G : Lil α} {e r : Nat} {threshold : Rat} {maxIters : Nat} (hn : 0 < n)
    (hG : G.WF) (hnr : G.nrows = n) (hnc : G.ncols = n) (hpos : ∀ u v x, G.get u v = some x → 0 < conv x)
    (he : 0 < e) (he2 : e < 2 ^ 64) (hr : 0 < r) (hr2 : r < 2 ^ 64) :
    ∃ C, markovCluster conv G e r threshold maxIters = .ok C ∧ C.WF ∧ C.nrows = n ∧ C.ncols = n ∧
      (∀ i j x, C.get i j = some x → 0 < x) ∧
      (∀ j, (∃ i, C.get i j ≠ none) → sumOf n (fun i => C.get i j) = 1) ∧
      ∀ i j, C.get i j ≠ none → G.get i j ≠ none := by
  obtain ⟨A, z, p, hne, -, hc, hrun⟩ := mclStart (conv := conv) hn ⟨hG, hnr, hnc⟩ hpos
  obtain ⟨q', e1, h1, h2, h3, h4⟩ := forP_inv (b := fun _ (q : MclSt) => if q.stop then .ok q else mclBody n e r threshold q)
    (fun _ q => Sh n n q.A ∧ PosM q.A ∧ (∀ j, (∃ i, q.A.get i j ≠ none) → sumOf n (fun i => q.A.get i j) = 1) ∧
      ∀ i j, q.A.get i j ≠ none → G.get i j ≠ none) maxIters ⟨A, false⟩ ⟨z, p, hc, fun i j h => (hne i j).1 h⟩
    (by
      rintro k q - ⟨h1, h2, h3, h4⟩
      cases hq : q.stop with
      | true => exact ⟨q, by simp, h1, h2, h3, h4⟩
      | false =>
        obtain ⟨q', e1, y1, y2, y3, y4, -⟩ := mclBody_ok (threshold := threshold) hn he he2 hr hr2 h1 h2
        exact ⟨q', by simpa using e1, y1, y2, y4, fun i j h => h4 i j (y3 i j h)⟩)
  refine ⟨q'.A, ?_, h1.wf, h1.nr, h1.nc, h2, h3, h4⟩
  rw [hrun, e1]
  rfl

/-- **C64** A graph that is not square is refused. -/
theorem C64_markov_cluster_dimension (conv : α → Rat) (G : Lil α) (e r : Nat) (threshold : Rat) (maxIters : Nat)
    (h : G.nrows ≠ G.ncols) : markovCluster conv G e r threshold maxIters = .error (.err .dimension) := by
  unfold markovCluster
  rw [if_pos h]

/-! ### the path 0 - 1 - 2 with loops -/

/-- The path 0 - 1 - 2 with loops. -/
def mclPath : Lil Rat :=
  { nrows := 3, ncols := 3, nvals := 7, rows := [[(0, 1), (1, 1)], [(0, 1), (1, 1), (2, 1)], [(1, 1), (2, 1)]] }

theorem mclPath_wf : mclPath.WF := Lil.wf_chk (by decide +kernel)

theorem mclPath_pos (u v : Nat) (x : Rat) (h : mclPath.get u v = some x) : 0 < id x := by
  obtain ⟨hu, hv⟩ := some_lt mclPath_wf (i := u) (j := v) (by rw [h]; simp)
  have := (show ∀ u, u < 3 → ∀ v, v < 3 → mclPath.get u v = none ∨ mclPath.get u v = some 1 by decide +kernel) u hu v hv
  rw [h] at this
  rcases this with h' | h'
  · cases h'
  · injection h' with h'
    rw [h']
    decide +kernel

/-- Does every element of column 0 differ from that of the textbook process? -/
def mclDiffers (C : Lil Rat) : Bool :=
  (List.range 3).all fun i => dense C.get i 0 != mclAfter 3 2 2 (dense mclPath.get) 1 i 0

/-- **C64**, refuted for the path with loops and the default parameters: after any number of
rounds there is no element at (2, 0), but after one round of the textbook process there is
one; the columns 0 of the two matrices after one round differ in every element. -/
theorem C64_markov_cluster_disproof :
    (∀ threshold maxIters, ∃ C, markovCluster id mclPath 2 2 threshold maxIters = .ok C ∧ C.get 2 0 = none) ∧
    0 < mclAfter 3 2 2 (dense mclPath.get) 1 2 0 ∧
    (∃ C, markovCluster id mclPath 2 2 (1 / 10 ^ 16) 1 = .ok C ∧
      ∀ i, i < 3 → dense C.get i 0 ≠ mclAfter 3 2 2 (dense mclPath.get) 1 i 0) := by
  refine ⟨fun threshold maxIters => ?_, by decide +kernel, ?_⟩
  · obtain ⟨C, e, -, -, -, -, -, h⟩ := C64_markov_cluster_columns (conv := id) (n := 3) (e := 2) (r := 2) (threshold := threshold)
      (maxIters := maxIters) (by decide) mclPath_wf rfl rfl mclPath_pos (by decide) (by decide) (by decide) (by decide)
    exact ⟨C, e, Classical.byContradiction fun hc => h 2 0 hc (by decide +kernel)⟩
  · have h : (markovCluster id mclPath 2 2 (1 / 10 ^ 16) 1).toOption.map mclDiffers = some true := by decide +kernel
    cases hr : markovCluster id mclPath 2 2 (1 / 10 ^ 16) 1 with
    | error e =>
      rw [hr] at h
      exact absurd (show (none : Option Bool) = some true from h) (by simp)
    | ok C =>
      rw [hr] at h
      have h' : mclDiffers C = true := Option.some.inj (show some (mclDiffers C) = some true from h)
      exact ⟨C, rfl, fun i hi => bne_iff_ne.1 (List.all_eq_true.1 h' i (List.mem_range.2 hi))⟩

/-- Two vertices joined by an edge, with loops, of different weights, and one apart. -/
def mclPair : Lil Rat := { nrows := 3, ncols := 3, nvals := 5, rows := [[(0, 3), (1, 1)], [(0, 1), (1, 2)], [(2, 1)]] }

/-- The hypotheses of `C64_markov_cluster_partial` hold of it. -/
example : mclPair.WF ∧ (∀ u, u < 3 → ∀ v, v < 3 → ∀ w, w < 3 → mclPair.get u v ≠ none → mclPair.get v w ≠ none → mclPair.get u w ≠ none) ∧
    (markovCluster id mclPair 2 2 (1 / 10 ^ 16) 1).toOption.map (fun C => C.get 0 0)
      = some (some (mclAfter 3 2 2 (dense mclPair.get) 1 0 0)) :=
  ⟨Lil.wf_chk (by decide +kernel), by decide +kernel, by decide +kernel⟩

end GBTL

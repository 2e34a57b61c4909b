import Verif.Lemmas.Cluster
/-
**C62** (peer-pressure clustering) and **C63** (cluster assignments).
-/
namespace GBTL
open Spec

variable {α : Type} {n : Nat}

theorem _root_.Spec.NextClusters.congr {W : Mat Rat} {a b b' : Vec Nat} (h : NextClusters n W a b) (he : ∀ j, j < n → b j = b' j) :
    NextClusters n W a b' :=
  ⟨fun j i hj => by rw [← he j hj]; exact h.elected j i hj, fun j hj => by rw [← he j hj]; exact h.none j hj⟩

theorem _root_.Spec.NextClusters.unique {W : Mat Rat} {a b b' : Vec Nat} (h : NextClusters n W a b) (h' : NextClusters n W a b') :
    ∀ j, j < n → b j = b' j := by
  intro j hj
  cases hb : b j with
  | none => exact ((h'.none j hj).2 ((h.none j hj).1 hb)).symm
  | some i => exact ((h'.elected j i hj).2 ((h.elected j i hj).1 hb)).symm

/-- Only the clusters of the vertices matter. -/
theorem _root_.Spec.NextClusters.from {W : Mat Rat} {a a' b : Vec Nat} (h : NextClusters n W a b) (he : ∀ j, j < n → a j = a' j) :
    NextClusters n W a' b := by
  have hc : ∀ i j, Candidate n W a i j ↔ Candidate n W a' i j := fun i j =>
    ⟨fun ⟨u, hu, h1, h2⟩ => ⟨u, hu, by rw [← he u hu]; exact h1, h2⟩, fun ⟨u, hu, h1, h2⟩ => ⟨u, hu, by rw [he u hu]; exact h1, h2⟩⟩
  have hv : ∀ i j, votes n W a i j = votes n W a' i j := fun i j => by
    rw [votes_eq, votes_eq]
    exact rsum_congr fun u hu => by rw [he u hu]
  refine ⟨fun j i hj => (h.elected j i hj).trans ⟨fun ⟨h1, h2⟩ => ⟨(hc i j).1 h1, fun i' hi' => ?_⟩,
      fun ⟨h1, h2⟩ => ⟨(hc i j).2 h1, fun i' hi' => ?_⟩⟩, fun j hj => (h.none j hj).trans ⟨fun h i hi => h i ((hc i j).2 hi), fun h i hi => h i ((hc i j).1 hi)⟩⟩
  · rw [← hv, ← hv]; exact h2 i' ((hc i' j).2 hi')
  · rw [hv, hv]; exact h2 i' ((hc i' j).1 hi')

theorem ppLoop_ok {conv : α → Rat} {A : Lil α} {N : Lil Nat} {C : Lil Bool} {a0 : Vec Nat} {K : Nat} (hn : 0 < n) (hA : Sh n n A)
    (hN : Sh n n N) (hNg : ∀ i j, i < n → j < n → N.get i j = if i = j then some (i + 1) else none) (hC : IsClustering n C a0) :
    ∃ C' b, ppLoop conv A N n C K = .ok C' ∧ IsClustering n C' b ∧
      PeerPressure n (fun u v => (A.get u v).map conv) a0 K b := by
  obtain ⟨m, e0, zm, -⟩ := newV (τ := Rat) hn
  obtain ⟨q, e, k, a, h0, hk, hst, hc, -, -, -, hs1, hs2⟩ := forP_inv
    (b := fun _ q => if q.stop then .ok q else ppBody conv A N q)
    (fun t q => ∃ (k : Nat) (a : Nat → Vec Nat), a 0 = a0 ∧ k ≤ t ∧
      (∀ t, t < k → NextClusters n (fun u v => (A.get u v).map conv) (a t) (a (t + 1)) ∧ ∃ j, j < n ∧ a (t + 1) j ≠ a t j) ∧
      IsClustering n q.C (a k) ∧ Sz n q.m ∧ Sh n n q.Cf ∧ Sh n n q.Tally ∧
      (q.stop = true → NextClusters n (fun u v => (A.get u v).map conv) (a k) (a k)) ∧ (q.stop = false → k = t)) K
    { C := C, m := m, Cf := Lil.new n n, Tally := Lil.new n n, stop := false }
    ⟨0, fun _ => a0, rfl, Nat.le_refl 0, fun t ht => absurd ht (Nat.not_lt_zero t), hC, zm, Sh.new n n, Sh.new n n,
      fun h => (by cases h), fun _ => rfl⟩
    (by
      rintro t q ht ⟨k, a, h0, hk, hst, hc, z1, z2, z3, hs1, hs2⟩
      cases hq : q.stop with
      | true =>
        exact ⟨q, by simp, k, a, h0, by omega, hst, hc, z1, z2, z3, hs1, fun h => by rw [hq] at h; cases h⟩
      | false =>
        obtain ⟨q', b, e, y1, y2, y3, hnx, hcl, hstop⟩ := ppBody_ok (conv := conv) hA hN hNg hc z1 z2 z3
        have hkt := hs2 hq
        subst hkt
        cases hq' : q'.stop with
        | true =>
          have hsame := hstop.1 hq'
          refine ⟨q', by simpa using e, k, a, h0, by omega, hst, ?_, y1, y2, y3, fun _ => hnx.congr hsame,
            fun h => by rw [hq'] at h; cases h⟩
          exact ⟨hcl.sh, fun i j hi hj => by rw [hcl.get i j hi hj, hsame j hj], fun j i hj h => hcl.lt j i hj (by rw [hsame j hj]; exact h)⟩
        | false =>
          have hdiff : ∃ j, j < n ∧ b j ≠ a k j := by
            apply Classical.byContradiction
            intro h
            have : q'.stop = true := hstop.2 fun j hj => Classical.byContradiction fun h' => h ⟨j, hj, h'⟩
            rw [hq'] at this; cases this
          refine ⟨q', by simpa using e, k + 1, fun t => if t ≤ k then a t else b, by simpa using h0, by omega, ?_, ?_, y1, y2, y3,
            fun h => (by rw [hq'] at h; cases h), fun _ => rfl⟩
          · intro t ht
            dsimp only
            rw [if_pos (by omega : t ≤ k)]
            by_cases htk : t = k
            · subst htk
              rw [if_neg (by omega)]
              exact ⟨hnx, hdiff⟩
            · rw [if_pos (by omega)]
              exact hst t (by omega)
          · dsimp only
            rw [if_neg (by omega)]
            exact hcl)
  refine ⟨q.C, a k, ?_, hc, k, a, h0, rfl, hk, hst, fun hlt => ?_⟩
  · unfold ppLoop
    rw [e0]
    simp only [lift_ok, prog_bind_ok]
    rw [e]
    rfl
  · cases hq : q.stop with
    | true => exact hs1 hq
    | false => have := hs2 hq; omega

/-- **C62** Peer-pressure clustering moves every vertex to the cluster with the most votes,
the votes of each vertex being normalised, until nothing changes. The last hypothesis
excludes divisions by zero. -/
theorem C62_peer_pressure {conv : α → Rat} {G : Lil α} {C : Lil Bool} {a0 : Vec Nat} {maxIters : Nat} (hG : G.WF)
    (hn : 0 < G.nrows) (hsq : G.ncols = G.nrows) (hC : IsClustering G.nrows C a0)
    (_hs : ∀ u, (∃ v, G.get u v ≠ none) → sumOf G.nrows (fun v => (G.get u v).map conv) ≠ 0) :
    ∃ C' b, peerPressure conv G C maxIters = .ok C' ∧ IsClustering G.nrows C' b ∧
      PeerPressure G.nrows (rowsNormalized G.nrows fun u v => (G.get u v).map conv) a0 maxIters b := by
  have hGs : Sh G.nrows G.nrows G := ⟨hG, rfl, hsq⟩
  generalize hN : G.nrows = n at *
  obtain ⟨N, e1, z1, g1⟩ := clusterNum_ok n
  obtain ⟨A1, e2, z2, g2⟩ := applyMP_ok (f := conv) (Sh.new n n) hGs
  obtain ⟨A, e3, z3, g3⟩ := normalizeRows_rat z2 hn
  obtain ⟨C', b, e4, hc, hp⟩ := ppLoop_ok (conv := id) (K := maxIters) hn z3 z1 g1 hC
  have hA1 : A1.get = fun u v => (G.get u v).map conv := by
    funext u v
    by_cases huv : u < n ∧ v < n
    · exact g2 u v huv.1 huv.2
    · rw [z2.out huv, hGs.out huv]; rfl
  refine ⟨C', b, ?_, hc, ?_⟩
  · unfold peerPressure
    rw [if_neg (by rw [hN, hsq]; simp), if_neg (by rw [hN, hsq, hC.sh.nr, hC.sh.nc]; simp)]
    dsimp only
    rw [hsq, e1]
    simp only [prog_bind_ok]
    rw [e2]
    simp only [prog_bind_ok]
    rw [e3]
    simp only [prog_bind_ok]
    exact e4
  · have : (fun u v => (A.get u v).map id) = rowsNormalized n fun u v => (G.get u v).map conv := by
      funext u v
      rw [Option.map_id, g3, hA1]; rfl
    rw [← this]
    exact hp

/-- The clustering in which every vertex is its own cluster. -/
def _root_.Spec.ownCluster (n : Nat) : Vec Nat := fun j => if j < n then some j else none

theorem own_isClustering {C : Lil Bool} (hC : Sh n n C) (hg : ∀ i j, C.get i j = if i = j ∧ i < n then some true else none) :
    IsClustering n C (ownCluster n) := by
  refine ⟨hC, fun i j hi hj => ?_, fun j i hj h => ?_⟩
  · rw [hg, ownCluster, if_pos hj]
    by_cases h : i = j
    · rw [if_pos ⟨h, hi⟩, if_pos (by rw [h])]
    · rw [if_neg (fun h' => h h'.1), if_neg (fun h' => h (by injection h' with h'; exact h'.symm))]
  · rw [ownCluster, if_pos hj] at h
    injection h with h
    omega

/-- **C62** Without an initial clustering, every vertex starts in its own cluster. -/
theorem C62_peer_pressure_start {conv : α → Rat} {G : Lil α} {maxIters : Nat} (hG : G.WF)
    (hn : 0 < G.nrows) (hsq : G.ncols = G.nrows)
    (hs : ∀ u, (∃ v, G.get u v ≠ none) → sumOf G.nrows (fun v => (G.get u v).map conv) ≠ 0) :
    ∃ C' b, peerPressureId conv G maxIters = .ok C' ∧ IsClustering G.nrows C' b ∧
      PeerPressure G.nrows (rowsNormalized G.nrows fun u v => (G.get u v).map conv) (ownCluster G.nrows) maxIters b := by
  obtain ⟨C, e, h1, h2, h3, h4⟩ := C41_scaled_identity G.nrows true
  obtain ⟨C', b, e', hc, hp⟩ := C62_peer_pressure (conv := conv) (maxIters := maxIters) hG hn hsq
    (own_isClustering ⟨h1, h2, h3⟩ h4) hs
  refine ⟨C', b, ?_, hc, hp⟩
  unfold peerPressureId
  rw [e]
  exact e'

/-- **C62** `peer_pressure_cluster_v2` is the same with the weights as they are. -/
theorem C62_peer_pressure_v2 {conv : α → Rat} {G : Lil α} {C : Lil Bool} {a0 : Vec Nat} {maxIters : Nat} (hG : G.WF)
    (hn : 0 < G.nrows) (hsq : G.ncols = G.nrows) (hC : IsClustering G.nrows C a0) :
    ∃ C' b, peerPressureV2 conv G C maxIters = .ok C' ∧ IsClustering G.nrows C' b ∧
      PeerPressure G.nrows (fun u v => (G.get u v).map conv) a0 maxIters b := by
  have hGs : Sh G.nrows G.nrows G := ⟨hG, rfl, hsq⟩
  generalize hN : G.nrows = n at *
  obtain ⟨N, e1, z1, g1⟩ := clusterNum_ok n
  obtain ⟨A, e2, y⟩ := C15_apply_matrix (o := mWhole id (Lil.new n n) .merge) (f := (id : α → α)) (A := .plain G)
    (mWhole_wf (Lil.new_wf n n)) hG ⟨noMaskFitsM, hsq.symm, hN.symm⟩
  obtain ⟨z2, g2⟩ := whole_yields (Sh.new n n) y
  obtain ⟨C', b, e4, hc, hp⟩ := ppLoop_ok (conv := conv) (K := maxIters) hn z2 z1 g1 hC
  have hA : A.get = G.get := by
    funext u v
    by_cases huv : u < n ∧ v < n
    · rw [g2 u v huv.1 huv.2]
      show Option.map id (Option.map id (G.get u v)) = _
      rw [Option.map_id]; rfl
    · rw [z2.out huv, hGs.out huv]
  refine ⟨C', b, ?_, hc, ?_⟩
  · unfold peerPressureV2
    rw [if_neg (by rw [hN, hsq]; simp), if_neg (by rw [hN, hsq, hC.sh.nr, hC.sh.nc]; simp)]
    dsimp only
    rw [hsq, e1]
    simp only [prog_bind_ok]
    rw [show mPlain id (Lil.new n n : Lil α) = mWhole id (Lil.new n n) .merge from rfl, e2]
    exact e4
  · rw [← hA]
    exact hp

/-- **C62** Shapes that do not match are refused. -/
theorem C62_peer_pressure_dimension (conv : α → Rat) (G : Lil α) (C : Lil Bool) (maxIters : Nat)
    (h : G.nrows ≠ G.ncols ∨ G.nrows ≠ C.nrows ∨ G.ncols ≠ C.ncols) :
    peerPressure conv G C maxIters = .error (.err .dimension) ∧
    peerPressureV2 conv G C maxIters = .error (.err .dimension) := by
  unfold peerPressure peerPressureV2
  by_cases h1 : G.nrows ≠ G.ncols
  · rw [if_pos h1, if_pos h1]; exact ⟨rfl, rfl⟩
  · rw [if_neg h1, if_neg h1, if_pos (h.resolve_left h1), if_pos (h.resolve_left h1)]; exact ⟨rfl, rfl⟩

/-- **C62** If every vertex has an edge to it and starts in a cluster, every vertex ends in
a cluster. -/
theorem C62_peer_pressure_total_partial {W : Mat Rat} {a0 b : Vec Nat} {K : Nat} (h : PeerPressure n W a0 K b)
    (h0 : ∀ j, j < n → a0 j ≠ none) (hin : ∀ j, j < n → ∃ u, u < n ∧ W u j ≠ none) : ∀ j, j < n → b j ≠ none := by
  obtain ⟨k, a, ha, rfl, -, hst, -⟩ := h
  have : ∀ t, t ≤ k → ∀ j, j < n → a t j ≠ none := by
    intro t
    induction t with
    | zero => intro _; rw [ha]; exact h0
    | succ t ih =>
      intro ht j hj hnone
      obtain ⟨u, hu, hW⟩ := hin j hj
      cases hau : a t u with
      | none => exact ih (by omega) u hu hau
      | some i => exact (((hst t ht).1.none j hj).1 hnone i) ⟨u, hu, hau, hW⟩
  exact this k (Nat.le_refl k)

/-! ### the graph with the edge from 0 to 1, and the graph with the edges between 0 and 1 -/

/-- The edge from 0 to 1. -/
def ppEdge : Lil Rat := { nrows := 2, ncols := 2, nvals := 1, rows := [[(1, 1)], []] }

/-- The edges between 0 and 1. -/
def ppPair : Lil Rat := { nrows := 2, ncols := 2, nvals := 2, rows := [[(1, 1)], [(0, 1)]] }

theorem ppEdge_wf : ppEdge.WF := Lil.wf_chk (by decide +kernel)
theorem ppPair_wf : ppPair.WF := Lil.wf_chk (by decide +kernel)

theorem ppPair_sum (u : Nat) (hu : ∃ v, ppPair.get u v ≠ none) : sumOf ppPair.nrows (fun v => (ppPair.get u v).map id) ≠ 0 := by
  obtain ⟨v, hv⟩ := hu
  have := (some_lt ppPair_wf hv).1
  exact (show ∀ u, u < 2 → sumOf 2 (fun v => (ppPair.get u v).map id) ≠ 0 by decide +kernel) u this

theorem ppEdge_sum (u : Nat) (hu : ∃ v, ppEdge.get u v ≠ none) : sumOf ppEdge.nrows (fun v => (ppEdge.get u v).map id) ≠ 0 := by
  obtain ⟨v, hv⟩ := hu
  have h := (some_lt ppEdge_wf hv)
  have h1 := h.1
  have h2 := h.2
  have : u = 0 := by
    have := (show ∀ u, u < 2 → ∀ v, v < 2 → ppEdge.get u v ≠ none → u = 0 by decide +kernel) u h1 v h2 hv
    exact this
  subst this
  decide +kernel

/-- A vertex with one edge to it follows its neighbour. -/
theorem _root_.Spec.NextClusters.follow {W : Mat Rat} {a b : Vec Nat} {j u : Nat} (h : NextClusters n W a b) (hj : j < n) (hu : u < n)
    (hW : W u j ≠ none) (hone : ∀ v, v < n → W v j ≠ none → v = u) : b j = a u := by
  cases ha : a u with
  | none =>
    refine (h.none j hj).2 ?_
    rintro i ⟨v, hv, h1, h2⟩
    rw [hone v hv h2, ha] at h1
    cases h1
  | some i =>
    refine (h.elected j i hj).2 ⟨⟨u, hu, ha, hW⟩, ?_⟩
    rintro i' ⟨v, hv, h1, h2⟩
    rw [hone v hv h2, ha] at h1
    injection h1 with h1
    subst h1
    exact Or.inr ⟨rfl, Nat.le_refl _⟩

/-- A vertex with no edge to it is in no cluster. -/
theorem _root_.Spec.NextClusters.lost {W : Mat Rat} {a b : Vec Nat} {j : Nat} (h : NextClusters n W a b) (hj : j < n)
    (hW : ∀ v, v < n → W v j = none) : b j = none :=
  (h.none j hj).2 fun _ ⟨v, hv, _, h2⟩ => h2 (hW v hv)

/-- The result of clustering is one for each number of rounds, on the vertices. -/
theorem _root_.Spec.PeerPressure.unique {W : Mat Rat} {a0 b b' : Vec Nat} {K : Nat} (h : PeerPressure n W a0 K b) (h' : PeerPressure n W a0 K b') :
    ∀ j, j < n → b j = b' j := by
  obtain ⟨k, a, h0, rfl, hk, hst, hend⟩ := h
  obtain ⟨k', a', h0', rfl, hk', hst', hend'⟩ := h'
  have hsame : ∀ t, t ≤ k → t ≤ k' → ∀ j, j < n → a t j = a' t j := by
    intro t
    induction t with
    | zero => intro _ _ j _; rw [h0, h0']
    | succ t ih =>
      intro h1 h2
      exact ((hst t h1).1.from (ih (by omega) (by omega))).unique (hst' t h2).1
  by_cases h1 : k < k'
  · have hx := hsame k (Nat.le_refl k) (by omega)
    obtain ⟨hn1, j, hj, hne⟩ := hst' k h1
    have := (((hend (by omega)).from hx).unique hn1) j hj
    exact absurd (this.symm.trans (hx j hj)) hne
  · by_cases h2 : k' < k
    · have hx := hsame k' (by omega) (Nat.le_refl k')
      obtain ⟨hn1, j, hj, hne⟩ := hst k' h2
      have := (((hend' (by omega)).from fun j hj => (hx j hj).symm).unique hn1) j hj
      exact absurd (this.symm.trans (hx j hj).symm) hne
    · have : k = k' := by omega
      subst this
      exact hsame k (Nat.le_refl k) (Nat.le_refl k)

/-- The clustering of the pair after `t` rounds. -/
theorem ppPair_next {a b : Vec Nat} (h : NextClusters 2 (rowsNormalized 2 fun u v => (ppPair.get u v).map id) a b) :
    b 0 = a 1 ∧ b 1 = a 0 :=
  ⟨h.follow (u := 1) (by decide) (by decide) (by decide +kernel)
      (show ∀ v, v < 2 → (rowsNormalized 2 fun u v => (ppPair.get u v).map id) v 0 ≠ none → v = 1 by decide +kernel),
    h.follow (u := 0) (by decide) (by decide) (by decide +kernel)
      (show ∀ v, v < 2 → (rowsNormalized 2 fun u v => (ppPair.get u v).map id) v 1 ≠ none → v = 0 by decide +kernel)⟩

/-- **C62** On two vertices joined by an edge each takes the cluster of the other in every
round, so the result depends on the parity of the limit. -/
theorem C62_peer_pressure_parity (K : Nat) :
    ∃ C', peerPressureId id ppPair K = .ok C' ∧
      ∀ i j, i < 2 → j < 2 → C'.get i j = if (i + j + K) % 2 = 0 then some true else none := by
  obtain ⟨C', b, e, hc, k, a, h0, rfl, hk, hst, hend⟩ := C62_peer_pressure_start (conv := id) (maxIters := K) ppPair_wf
    (by decide) rfl ppPair_sum
  have hc' : IsClustering 2 C' (a k) := hc
  have hflip : ∀ t, t ≤ k → ∀ j, j < 2 → a t j = some ((j + t) % 2) := by
    intro t
    induction t with
    | zero =>
      intro _ j hj
      rw [h0]
      show (if j < 2 then some j else none) = _
      rw [if_pos hj]
      congr 1
      omega
    | succ t ih =>
      intro ht j hj
      obtain ⟨h1, h2⟩ := ppPair_next (hst t ht).1
      have i0 := ih (by omega) 0 (by decide)
      have i1 := ih (by omega) 1 (by decide)
      rcases (show j = 0 ∨ j = 1 by omega) with rfl | rfl
      · rw [h1, i1]; congr 1; omega
      · rw [h2, i0]; congr 1; omega
  have hkK : k = K := by
    apply Classical.byContradiction
    intro h
    have h1 := (ppPair_next (hend (by omega))).1
    rw [hflip k (Nat.le_refl k) 0 (by decide), hflip k (Nat.le_refl k) 1 (by decide)] at h1
    injection h1 with h1
    omega
  subst hkK
  refine ⟨C', e, fun i j hi hj => ?_⟩
  rw [hc'.get i j hi hj, hflip k (Nat.le_refl k) j hj]
  by_cases h : (i + j + k) % 2 = 0
  · rw [if_pos h, if_pos (by congr 1; omega)]
  · rw [if_neg h, if_neg (fun h' => by injection h' with h'; omega)]

theorem ppEdge_next {a b : Vec Nat} (h : NextClusters 2 (rowsNormalized 2 fun u v => (ppEdge.get u v).map id) a b) :
    b 0 = none ∧ b 1 = a 0 :=
  ⟨h.lost (by decide)
      (show ∀ v, v < 2 → (rowsNormalized 2 fun u v => (ppEdge.get u v).map id) v 0 = none by decide +kernel),
    h.follow (u := 0) (by decide) (by decide) (by decide +kernel)
      (show ∀ v, v < 2 → (rowsNormalized 2 fun u v => (ppEdge.get u v).map id) v 1 ≠ none → v = 0 by decide +kernel)⟩

/-- **C62**, refuted for "every vertex is assigned to a cluster": on the graph with the edge
from 0 to 1 only, both vertices are in no cluster after two rounds or more. -/
theorem C62_peer_pressure_total_disproof {K : Nat} (hK : 2 ≤ K) :
    ∃ C', peerPressureId id ppEdge K = .ok C' ∧ ∀ i j, C'.get i j = none := by
  obtain ⟨C', b, e, hc, k, a, h0, rfl, hk, hst, hend⟩ := C62_peer_pressure_start (conv := id) (maxIters := K) ppEdge_wf
    (by decide) rfl ppEdge_sum
  have hc' : IsClustering 2 C' (a k) := hc
  have hgone : ∀ t, 2 ≤ t → t ≤ k → a t 0 = none ∧ a t 1 = none := by
    intro t h2 ht
    obtain ⟨s, rfl⟩ : ∃ s, t = s + 2 := ⟨t - 2, by omega⟩
    have h1 := ppEdge_next (hst (s + 1) (by omega)).1
    have h2 := ppEdge_next (hst s (by omega)).1
    exact ⟨h1.1, h1.2.trans h2.1⟩
  have hk2 : 2 ≤ k := by
    apply Classical.byContradiction
    intro h
    have h1 := ppEdge_next (hend (by omega))
    rcases (show k = 0 ∨ k = 1 by omega) with rfl | rfl
    · rw [h0] at h1
      exact absurd h1.1 (by decide)
    · have h2 := ppEdge_next (hst 0 (by decide)).1
      rw [h1.2, h1.1, h0] at h2
      exact absurd h2.2 (by decide)
  obtain ⟨g0, g1⟩ := hgone k hk2 (Nat.le_refl k)
  refine ⟨C', e, fun i j => ?_⟩
  by_cases hij : i < 2 ∧ j < 2
  · rw [hc'.get i j hij.1 hij.2]
    rcases (show j = 0 ∨ j = 1 by omega) with rfl | rfl
    · rw [g0]; rfl
    · rw [g1]; rfl
  · exact hc'.sh.out hij

/-- A case of `C62_peer_pressure_total_partial`. -/
example : ∀ j, j < 2 → (rowsNormalized 2 fun u v => (ppPair.get u v).map id) 0 j ≠ none ∨
    (rowsNormalized 2 fun u v => (ppPair.get u v).map id) 1 j ≠ none := by decide +kernel

/-- Two triangles joined by an edge, with loops. -/
def ppTri : Lil Rat :=
  { nrows := 6, ncols := 6, nvals := 20,
    rows := [[(0, 1), (1, 1), (2, 1)], [(0, 1), (1, 1), (2, 1)], [(0, 1), (1, 1), (2, 1), (3, 1)],
             [(2, 1), (3, 1), (4, 1), (5, 1)], [(3, 1), (4, 1), (5, 1)], [(3, 1), (4, 1), (5, 1)]] }

theorem ppTri_wf : ppTri.WF := Lil.wf_chk (by decide +kernel)

/-- The two triangles are found. -/
example : (peerPressureId id ppTri 10).toOption.map (fun C => (List.range 6).map fun j => (List.range 6).filter fun i => C.get i j == some true)
    = some [[1], [1], [1], [5], [5], [5]] := by decide +kernel

end GBTL

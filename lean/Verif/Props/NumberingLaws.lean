import Verif.Lemmas.BetweennessLaws
import Verif.Spec.Numbering
import Verif.Props.MarkovAll
import Verif.Props.ClusterLaws
import Verif.Props.EdgeBetweennessLoops
/-
C104: clusterings and the scores of edges do not depend on the numbering of the vertices.
-/
namespace GBTL
open Spec

variable {α : Type} {n : Nat} {σ τ : Nat → Nat}

/-! ### Markov clustering -/

/-- `A'` is `A` with row and column `u` moved to `σ u`. -/
def Shifted (n : Nat) (σ : Nat → Nat) (A A' : Nat → Nat → Rat) : Prop :=
  ∀ u v, u < n → v < n → A' (σ u) (σ v) = A u v

theorem Shifted.colNorm (R : Renumbering n σ τ) {A A' : Nat → Nat → Rat} (h : Shifted n σ A A') :
    Shifted n σ (colNorm n A) (colNorm n A') := by
  intro u v hu hv
  unfold Spec.colNorm
  rw [h u v hu hv, rsum_eq, rsum_eq, ← rsum_renumber R]
  congr 1
  exact rsum_congr fun k hk => h k v hk hv

theorem Shifted.inflate (R : Renumbering n σ τ) {A A' : Nat → Nat → Rat} (h : Shifted n σ A A') (r : Nat) :
    Shifted n σ (inflate n r A) (inflate n r A') :=
  Shifted.colNorm R fun u v hu hv => by rw [h u v hu hv]

theorem Shifted.keptPower (R : Renumbering n σ τ) {A A' : Nat → Nat → Rat} (h : Shifted n σ A A') (k : Nat) :
    Shifted n σ (keptPower n A k) (keptPower n A' k) := by
  induction k with
  | zero => exact h
  | succ k ih =>
    intro u v hu hv
    unfold Spec.keptPower
    rw [ih u v hu hv, rsum_eq, rsum_eq, ← rsum_renumber R]
    split
    · rfl
    · exact rsum_congr fun l hl => by rw [ih u l hu hl, h l v hl hv]

theorem Shifted.scaled (R : Renumbering n σ τ) {A A' : Nat → Nat → Rat} {f : Nat → Rat} (hf : ∀ v, v < n → f v ≠ 0)
    (h : ∀ u v, u < n → v < n → A' (σ u) (σ v) = f v * A u v) : Shifted n σ (Spec.colNorm n A) (Spec.colNorm n A') := by
  intro u v hu hv
  unfold Spec.colNorm
  rw [h u v hu hv, rsum_eq, rsum_eq, ← rsum_renumber R, rsum_congr (fun k hk => h k v hk hv), rsum_mul]
  have h1 : f v * (f v)⁻¹ = 1 := Rat.mul_inv_cancel _ (hf v hv)
  rw [Rat.div_def, Rat.div_def, Rat.inv_mul_rev]
  grind

theorem Shifted.keptAfter (R : Renumbering n σ τ) {A A' : Nat → Nat → Rat}
    (h : Shifted n σ (Spec.colNorm n A) (Spec.colNorm n A')) (e r k : Nat) :
    Shifted n σ (keptAfter n e r A k) (keptAfter n e r A' k) := by
  induction k with
  | zero => exact h
  | succ k ih => exact Shifted.inflate R (Shifted.keptPower R ih _) _

theorem Shifted.keptError (R : Renumbering n σ τ) {A A' : Nat → Nat → Rat}
    (h : Shifted n σ (Spec.colNorm n A) (Spec.colNorm n A')) (e r k : Nat) :
    keptError n e r A' k = keptError n e r A k := by
  have h1 := Shifted.keptAfter R h e r k
  have h2 := Shifted.keptAfter R h e r (k + 1)
  rw [keptError_eq, keptError_eq]
  congr 1
  rw [← rsum_renumber R]
  refine rsum_congr fun u hu => ?_
  rw [← rsum_renumber R]
  exact rsum_congr fun v hv => by rw [h1 u v hu hv, h2 u v hu hv]

/-- Two loops with the same test stop after the same number of rounds. -/
theorem same_rounds {stop : Nat → Prop} {limit k k' : Nat}
    (h1 : k ≤ limit) (h2 : ∀ j, j + 1 < k → ¬ stop j) (h3 : k = limit ∨ 0 < k ∧ stop (k - 1))
    (h1' : k' ≤ limit) (h2' : ∀ j, j + 1 < k' → ¬ stop j) (h3' : k' = limit ∨ 0 < k' ∧ stop (k' - 1)) : k = k' := by
  rcases Nat.lt_trichotomy k k' with h | h | h
  · rcases h3 with h3 | ⟨h3, h4⟩
    · omega
    · exact absurd h4 (h2' (k - 1) (by omega))
  · exact h
  · rcases h3' with h3 | ⟨h3, h4⟩
    · omega
    · exact absurd h4 (h2 (k' - 1) (by omega))

/-- Markov clustering of the renumbered graph, with each column multiplied by a positive number. -/
theorem markov_moved {β : Type} {conv : α → Rat} {conv' : β → Rat} {G : Lil α} {G' : Lil β} {e r : Nat} {threshold : Rat}
    {maxIters : Nat} {f : Nat → Rat} (R : Renumbering G.nrows σ τ) (hf : ∀ v, v < G.nrows → 0 < f v)
    (hm : ∀ u v, u < G.nrows → v < G.nrows → (G'.get (σ u) (σ v)).map conv' = ((G.get u v).map conv).map (f v * ·))
    (hn : 0 < G.nrows) (hG : G.WF) (hsq : G.ncols = G.nrows) (hG' : G'.WF) (hr' : G'.nrows = G.nrows) (hc' : G'.ncols = G.nrows)
    (hpos : ∀ u v x, G.get u v = some x → 0 < conv x) (he : e < 2 ^ 64) (hr : r < 2 ^ 64) :
    ∃ C C', markovCluster conv G e r threshold maxIters = .ok C ∧ markovCluster conv' G' e r threshold maxIters = .ok C' ∧
      Sh G.nrows G.nrows C ∧ Sh G.nrows G.nrows C' ∧ MovedMat G.nrows σ C.get C'.get := by
  have hpos' : ∀ u v x, G'.get u v = some x → 0 < conv' x := by
    intro u v x h
    have hu : u < G.nrows ∧ v < G.nrows := by
      refine Classical.byContradiction fun hc => ?_
      rw [Sh.out ⟨hG', hr', hc'⟩ hc] at h
      cases h
    have := hm (τ u) (τ v) (R.back u hu.1).1 (R.back v hu.2).1
    rw [(R.back u hu.1).2, (R.back v hu.2).2, h] at this
    cases hg : G.get (τ u) (τ v) with
    | none => rw [hg] at this; cases this
    | some y =>
      rw [hg] at this
      injection this with this
      rw [this]
      exact Rat.mul_pos (hf _ (R.back v hu.2).1) (hpos _ _ _ hg)
  obtain ⟨C, k, e1, w1, r1, c1, p1, d1, l1, s1, t1⟩ := C64_markov_cluster_actual (conv := conv) (e := e) (r := r)
    (threshold := threshold) (maxIters := maxIters) hn hG rfl hsq hpos he hr
  obtain ⟨C', k', e2, w2, r2, c2, p2, d2, l2, s2, t2⟩ := C64_markov_cluster_actual (conv := conv') (e := e) (r := r)
    (threshold := threshold) (maxIters := maxIters) hn hG' hr' hc' hpos' he hr
  have hS : Shifted G.nrows σ (Spec.colNorm G.nrows (dense fun u v => (G.get u v).map conv))
      (Spec.colNorm G.nrows (dense fun u v => (G'.get u v).map conv')) := by
    refine Shifted.scaled R (f := f) (fun v hv h0 => absurd (hf v hv) (by rw [h0]; decide)) fun u v hu hv => ?_
    show ((G'.get (σ u) (σ v)).map conv').getD 0 = f v * ((G.get u v).map conv).getD 0
    rw [hm u v hu hv]
    cases G.get u v with
    | none => exact (Rat.mul_zero _).symm
    | some x => rfl
  have hk : k = k' := by
    refine same_rounds (stop := fun j => keptError G.nrows e r (dense fun u v => (G.get u v).map conv) j < threshold)
      l1 s1 t1 l2 (fun j hj => ?_) ?_
    · rw [← Shifted.keptError R hS]; exact s2 j hj
    · rw [← Shifted.keptError R hS]; exact t2
  refine ⟨C, C', e1, e2, ⟨w1, r1, c1⟩, ⟨w2, r2, c2⟩, fun u v hu hv => ?_⟩
  have hd : dense C'.get (σ u) (σ v) = dense C.get u v := by
    rw [d1 u v hu hv, d2 _ _ (R.there u hu).1 (R.there v hv).1, ← hk]
    exact Shifted.keptAfter R hS e r k u v hu hv
  unfold dense at hd
  cases h : C.get u v <;> cases h' : C'.get (σ u) (σ v) <;> rw [h, h'] at hd <;> simp only [Option.getD] at hd
  · exact absurd (p2 _ _ _ h') (by rw [hd]; decide)
  · exact absurd (p1 _ _ _ h) (by rw [← hd]; decide)
  · rw [hd]

/-- **C104** Markov clustering of the renumbered graph gives the renumbered matrix. -/
theorem C104_markov {conv : α → Rat} {G G' : Lil α} {e r : Nat} {threshold : Rat} {maxIters : Nat}
    (R : Renumbering G.nrows σ τ) (hm : MovedMat G.nrows σ G.get G'.get)
    (hn : 0 < G.nrows) (hG : G.WF) (hsq : G.ncols = G.nrows) (hG' : G'.WF) (hr' : G'.nrows = G.nrows) (hc' : G'.ncols = G.nrows)
    (hpos : ∀ u v x, G.get u v = some x → 0 < conv x) (he : e < 2 ^ 64) (hr : r < 2 ^ 64) :
    ∃ C C', markovCluster conv G e r threshold maxIters = .ok C ∧ markovCluster conv G' e r threshold maxIters = .ok C' ∧
      MovedMat G.nrows σ C.get C'.get := by
  obtain ⟨C, C', h1, h2, -, -, h3⟩ := markov_moved (f := fun _ => 1) (conv' := conv) (threshold := threshold) (maxIters := maxIters)
    R (fun _ _ => by decide) (fun u v hu hv => by
      rw [hm u v hu hv]
      cases G.get u v with
      | none => rfl
      | some x => exact congrArg some (Rat.one_mul _).symm) hn hG hsq hG' hr' hc' hpos he hr
  exact ⟨C, C', h1, h2, h3⟩

/-- **C93** Markov clustering depends only on the proportions of the weights of the edges that lead
to each vertex. -/
theorem C93_markov_scaled {β : Type} {conv : α → Rat} {conv' : β → Rat} {G : Lil α} {G' : Lil β} {e r : Nat} {threshold : Rat}
    {maxIters : Nat} {f : Nat → Rat} (hf : ∀ v, 0 < f v)
    (h : ∀ u v, (G'.get u v).map conv' = ((G.get u v).map conv).map (f v * ·))
    (hn : 0 < G.nrows) (hG : G.WF) (hsq : G.ncols = G.nrows) (hG' : G'.WF) (hr' : G'.nrows = G.nrows) (hc' : G'.ncols = G.nrows)
    (hpos : ∀ u v x, G.get u v = some x → 0 < conv x) (he : e < 2 ^ 64) (hr : r < 2 ^ 64) :
    ∃ C, markovCluster conv G e r threshold maxIters = .ok C ∧ markovCluster conv' G' e r threshold maxIters = .ok C := by
  obtain ⟨C, C', h1, h2, z, z', h3⟩ := markov_moved (σ := id) (τ := id) (conv' := conv') (threshold := threshold) (maxIters := maxIters)
    ⟨fun i hi => ⟨hi, rfl⟩, fun i hi => ⟨hi, rfl⟩⟩ (fun v _ => hf v) (fun u v _ _ => h u v) hn hG hsq hG' hr' hc' hpos he hr
  obtain rfl : C = C' := Lil.ext_get z.wf z'.wf (z.nr.trans z'.nr.symm) (z.nc.trans z'.nc.symm) fun i j hi hj =>
    (h3 i j (z.nr ▸ hi) (z.nc ▸ hj)).symm
  exact ⟨C, h1, h2⟩

/-! ### Peer-pressure clustering -/

/-- The clustering with the vertices and the clusters renumbered. -/
def shiftClusters (n : Nat) (σ τ : Nat → Nat) (a : Vec Nat) : Vec Nat := fun j => if j < n then (a (τ j)).map σ else none

/-- The clusters have the numbers of vertices. -/
def ClustersIn (n : Nat) (a : Vec Nat) : Prop := ∀ j i, j < n → a j = some i → i < n

section
variable (R : Renumbering n σ τ)
include R

theorem renumber_inj {i i' : Nat} (hi : i < n) (hi' : i' < n) (h : σ i = σ i') : i = i' := by
  rw [← (R.there i hi).2, ← (R.there i' hi').2, h]

theorem shift_at {a : Vec Nat} {u : Nat} (hu : u < n) : shiftClusters n σ τ a (σ u) = (a u).map σ := by
  unfold shiftClusters
  rw [if_pos (R.there u hu).1, (R.there u hu).2]

theorem shift_some {a : Vec Nat} (ha : ClustersIn n a) {u i : Nat} (hu : u < n) (hi : i < n) :
    shiftClusters n σ τ a (σ u) = some (σ i) ↔ a u = some i := by
  rw [shift_at R hu]
  cases h : a u with
  | none => simp
  | some x =>
    simp only [Option.map_some, Option.some.injEq]
    exact ⟨renumber_inj R (ha u x hu h) hi, fun h => by rw [h]⟩

theorem shift_in {a : Vec Nat} (ha : ClustersIn n a) : ClustersIn n (shiftClusters n σ τ a) := by
  intro j i hj h
  unfold shiftClusters at h
  rw [if_pos hj] at h
  cases h' : a (τ j) with
  | none => rw [h'] at h; cases h
  | some x =>
    rw [h'] at h
    injection h with h
    rw [← h]
    exact (R.there x (ha _ _ (R.back j hj).1 h')).1

variable {W W' : Mat Rat} (hm : MovedMat n σ W W')
include hm

theorem candidate_moved {a : Vec Nat} (ha : ClustersIn n a) {i j : Nat} (hi : i < n) (hj : j < n) :
    Candidate n W' (shiftClusters n σ τ a) (σ i) (σ j) ↔ Candidate n W a i j := by
  constructor
  · rintro ⟨u, hu, h1, h2⟩
    refine ⟨τ u, (R.back u hu).1, ?_, ?_⟩
    · rw [← (R.back u hu).2] at h1
      exact (shift_some R ha (R.back u hu).1 hi).1 h1
    · rw [← hm _ _ (R.back u hu).1 hj, (R.back u hu).2]; exact h2
  · rintro ⟨u, hu, h1, h2⟩
    exact ⟨σ u, (R.there u hu).1, (shift_some R ha hu hi).2 h1, by rw [hm u j hu hj]; exact h2⟩

theorem votes_moved {a : Vec Nat} (ha : ClustersIn n a) {i j : Nat} (hi : i < n) (hj : j < n) :
    votes n W' (shiftClusters n σ τ a) (σ i) (σ j) = votes n W a i j := by
  unfold votes
  rw [rsum_eq, rsum_eq, ← rsum_renumber R]
  refine rsum_congr fun u hu => ?_
  rw [hm u j hu hj]
  by_cases h : a u = some i
  · rw [if_pos h, if_pos ((shift_some R ha hu hi).2 h)]
  · rw [if_neg h, if_neg (fun h' => h ((shift_some R ha hu hi).1 h'))]

end

theorem candidate_in {W : Mat Rat} {a : Vec Nat} (ha : ClustersIn n a) {i j : Nat} (h : Candidate n W a i j) : i < n := by
  obtain ⟨u, hu, h1, -⟩ := h
  exact ha u i hu h1

theorem next_in {W : Mat Rat} {a b : Vec Nat} (ha : ClustersIn n a) (h : NextClusters n W a b) : ClustersIn n b :=
  fun j i hj hb => candidate_in ha ((h.elected j i hj).1 hb).candidate

/-- Without ties the winner has more votes than any other. -/
theorem clear_votes {W : Mat Rat} (ht : ClearVotes n W) {a : Vec Nat} {i i' j : Nat} (hj : j < n)
    (h : Candidate n W a i j) (h' : Candidate n W a i' j) (hv : votes n W a i' j = votes n W a i j) : i' = i := by
  refine Classical.byContradiction fun hne => ?_
  refine ht j (fun u => decide (a u = some i')) (fun u => decide (a u = some i)) hj ?_ ?_ ?_ ?_
  · rintro u ⟨h1, h2⟩
    have h1 := of_decide_eq_true h1
    have h2 := of_decide_eq_true h2
    rw [h1] at h2
    injection h2 with h2
    exact hne h2
  · obtain ⟨u, hu, h1, h2⟩ := h'
    exact ⟨u, hu, decide_eq_true h1, h2⟩
  · obtain ⟨u, hu, h1, h2⟩ := h
    exact ⟨u, hu, decide_eq_true h1, h2⟩
  · simpa [votesOf, votes] using hv

section
variable (R : Renumbering n σ τ) {W W' : Mat Rat} (hm : MovedMat n σ W W') (ht : ClearVotes n W)
include R hm ht

theorem elected_moved {a : Vec Nat} (ha : ClustersIn n a) {i j : Nat} (hi : i < n) (hj : j < n) :
    Elected n W' (shiftClusters n σ τ a) (σ j) (σ i) ↔ Elected n W a j i := by
  constructor
  · rintro ⟨h1, h2⟩
    have h1' := (candidate_moved R hm ha hi hj).1 h1
    refine ⟨h1', fun i' h' => ?_⟩
    have hi' := candidate_in ha h'
    rcases h2 (σ i') ((candidate_moved R hm ha hi' hj).2 h') with h | ⟨h, -⟩
    · rw [votes_moved R hm ha hi hj, votes_moved R hm ha hi' hj] at h
      exact .inl h
    · rw [votes_moved R hm ha hi hj, votes_moved R hm ha hi' hj] at h
      exact .inr ⟨h, Nat.le_of_eq (clear_votes ht hj h1' h' h)⟩
  · rintro ⟨h1, h2⟩
    refine ⟨(candidate_moved R hm ha hi hj).2 h1, fun x hx => ?_⟩
    have hxn := candidate_in (shift_in R ha) hx
    rw [← (R.back x hxn).2] at hx ⊢
    have hi' := (R.back x hxn).1
    have h' := (candidate_moved R hm ha hi' hj).1 hx
    rw [votes_moved R hm ha hi hj, votes_moved R hm ha hi' hj]
    rcases h2 _ h' with h | ⟨h, -⟩
    · exact .inl h
    · exact .inr ⟨h, Nat.le_of_eq (congrArg σ (clear_votes ht hj h1 h' h))⟩

theorem next_moved {a b : Vec Nat} (ha : ClustersIn n a) (h : NextClusters n W a b) :
    NextClusters n W' (shiftClusters n σ τ a) (shiftClusters n σ τ b) := by
  have hb := next_in ha h
  refine ⟨fun y x hy => ?_, fun y hy => ?_⟩
  · obtain ⟨hj, ej⟩ := R.back y hy
    rw [← ej]
    by_cases hx : x < n
    · obtain ⟨hi, ei⟩ := R.back x hx
      rw [← ei, shift_some R hb hj hi, h.elected _ _ hj, elected_moved R hm ht ha hi hj]
    · constructor
      · exact fun h' => absurd (shift_in R hb _ _ (R.there _ hj).1 h') hx
      · exact fun h' => absurd (candidate_in (shift_in R ha) h'.candidate) hx
  · obtain ⟨hj, ej⟩ := R.back y hy
    rw [← ej, shift_at R hj, Option.map_eq_none_iff, h.none _ hj]
    constructor
    · intro hh x hx
      have hxn := candidate_in (shift_in R ha) hx
      rw [← (R.back x hxn).2] at hx
      exact hh _ ((candidate_moved R hm ha (R.back x hxn).1 hj).1 hx)
    · exact fun hh i hi => hh _ ((candidate_moved R hm ha (candidate_in ha hi) hj).2 hi)

theorem pressure_moved {a0 b : Vec Nat} {K : Nat} (h0 : ClustersIn n a0) (h : PeerPressure n W a0 K b) :
    PeerPressure n W' (shiftClusters n σ τ a0) K (shiftClusters n σ τ b) := by
  obtain ⟨k, a, e0, rfl, hk, hst, hend⟩ := h
  have hin : ∀ t, t ≤ k → ClustersIn n (a t) := by
    intro t
    induction t with
    | zero => intro _; rw [e0]; exact h0
    | succ t ih => intro h; exact next_in (ih (by omega)) (hst t (by omega)).1
  refine ⟨k, fun t => shiftClusters n σ τ (a t), congrArg _ e0, rfl, hk, fun t htk => ?_, fun hl => ?_⟩
  · obtain ⟨h1, j, hj, h2⟩ := hst t htk
    refine ⟨next_moved R hm ht (hin t (by omega)) h1, σ j, (R.there j hj).1, ?_⟩
    dsimp only
    rw [shift_at R hj, shift_at R hj]
    intro he
    apply h2
    cases h3 : a t j with
    | none => rw [h3] at he; exact Option.map_eq_none_iff.1 he
    | some x =>
      rw [h3] at he
      cases h4 : a (t + 1) j with
      | none => rw [h4] at he; cases he
      | some y =>
        rw [h4] at he
        injection he with he
        rw [renumber_inj R (hin (t + 1) (by omega) j y hj h4) (hin t (by omega) j x hj h3) he]
  · exact next_moved R hm ht (hin k (Nat.le_refl k)) (hend hl)

end

theorem normalized_moved (R : Renumbering n σ τ) {W W' : Mat Rat} (hm : MovedMat n σ W W') :
    MovedMat n σ (rowsNormalized n W) (rowsNormalized n W') := by
  intro u v hu hv
  unfold rowsNormalized
  rw [hm u v hu hv]
  congr 1
  funext x
  rw [sumOf_eq, sumOf_eq, ← rsum_renumber R]
  congr 1
  exact rsum_congr fun k hk => by rw [hm u k hu hk]

theorem sum_moved (R : Renumbering n σ τ) {W W' : Mat Rat} (hm : MovedMat n σ W W') {u : Nat} (hu : u < n) :
    sumOf n (W' (σ u)) = sumOf n (W u) := by
  rw [sumOf_eq, sumOf_eq, ← rsum_renumber R]
  exact rsum_congr fun k hk => by rw [hm u k hu hk]

theorem shift_own (R : Renumbering n σ τ) : shiftClusters n σ τ (ownCluster n) = ownCluster n := by
  funext j
  unfold shiftClusters ownCluster
  by_cases hj : j < n
  · rw [if_pos hj, if_pos hj, if_pos (R.back j hj).1, Option.map_some, (R.back j hj).2]
  · rw [if_neg hj, if_neg hj]

theorem clustering_moved (R : Renumbering n σ τ) {C C' : Lil Bool} {b b' : Vec Nat} (hC : IsClustering n C b)
    (hC' : IsClustering n C' b') (h : ∀ j, j < n → b' j = shiftClusters n σ τ b j) : MovedMat n σ C.get C'.get := by
  intro i j hi hj
  rw [hC.get i j hi hj, hC'.get _ _ (R.there i hi).1 (R.there j hj).1, h _ (R.there j hj).1]
  by_cases hb : b j = some i
  · rw [if_pos hb, if_pos ((shift_some R hC.lt hj hi).2 hb)]
  · rw [if_neg hb, if_neg (fun h' => hb ((shift_some R hC.lt hj hi).1 h'))]

theorem renumber_edges (R : Renumbering n σ τ) {G G' : Lil α} (hm : MovedMat n σ G.get G'.get)
    (hG : Sh n n G') {u v : Nat} (h : G'.get u v ≠ none) : u < n ∧ v < n ∧ G.get (τ u) (τ v) = G'.get u v := by
  have hu : u < n ∧ v < n := Classical.byContradiction fun hc => h (hG.out hc)
  refine ⟨hu.1, hu.2, ?_⟩
  rw [← hm _ _ (R.back u hu.1).1 (R.back v hu.2).1, (R.back u hu.1).2, (R.back v hu.2).2]

/-- **C104** Peer-pressure clustering of the renumbered graph gives the renumbered clusters, if
there can be no ties. -/
theorem C104_peer_pressure_partial {conv : α → Rat} {G G' : Lil α} {maxIters : Nat}
    (R : Renumbering G.nrows σ τ) (hm : MovedMat G.nrows σ G.get G'.get)
    (hn : 0 < G.nrows) (hG : G.WF) (hsq : G.ncols = G.nrows) (hG' : G'.WF) (hr' : G'.nrows = G.nrows) (hc' : G'.ncols = G.nrows)
    (hs : ∀ u, (∃ v, G.get u v ≠ none) → sumOf G.nrows (fun v => (G.get u v).map conv) ≠ 0)
    (ht : ClearVotes G.nrows (rowsNormalized G.nrows fun u v => (G.get u v).map conv)) :
    ∃ C C', peerPressureId conv G maxIters = .ok C ∧ peerPressureId conv G' maxIters = .ok C' ∧
      MovedMat G.nrows σ C.get C'.get := by
  have hw : MovedMat G.nrows σ (fun u v => (G.get u v).map conv) (fun u v => (G'.get u v).map conv) :=
    fun u v hu hv => congrArg (Option.map conv) (hm u v hu hv)
  obtain ⟨C, b, e, hC, hp⟩ := C62_peer_pressure_start (maxIters := maxIters) hG hn hsq hs
  obtain ⟨C', b', e', hC', hp'⟩ := C62_peer_pressure_start (conv := conv) (maxIters := maxIters) hG' (by omega) (by omega)
    (by
      rintro u ⟨v, hv⟩
      obtain ⟨hu, hv', hg⟩ := renumber_edges R hm ⟨hG', hr', hc'⟩ hv
      rw [hr', ← (R.back u hu).2, sum_moved R hw (R.back u hu).1]
      exact hs _ ⟨τ v, by rw [hg]; exact hv⟩)
  rw [hr'] at hC' hp'
  have hq := pressure_moved R (normalized_moved R hw) ht (fun j i hj h => by
    unfold ownCluster at h; rw [if_pos hj] at h; injection h with h; omega) hp
  rw [shift_own R] at hq
  exact ⟨C, C', e, e', clustering_moved R hC hC' (hp'.unique hq)⟩

/-- **C104** The same for `peer_pressure_cluster_v2`, which does not normalise the votes, from any
clusters to start from. -/
theorem C104_peer_pressure_v2_partial {conv : α → Rat} {G G' : Lil α} {C0 C0' : Lil Bool} {a0 : Vec Nat} {maxIters : Nat}
    (R : Renumbering G.nrows σ τ) (hm : MovedMat G.nrows σ G.get G'.get)
    (hn : 0 < G.nrows) (hG : G.WF) (hsq : G.ncols = G.nrows) (hG' : G'.WF) (hr' : G'.nrows = G.nrows) (hc' : G'.ncols = G.nrows)
    (h0 : IsClustering G.nrows C0 a0) (h0' : C0'.WF) (h0r : C0'.nrows = G.nrows) (h0c : C0'.ncols = G.nrows)
    (hm0 : MovedMat G.nrows σ C0.get C0'.get)
    (ht : ClearVotes G.nrows fun u v => (G.get u v).map conv) :
    ∃ C C', peerPressureV2 conv G C0 maxIters = .ok C ∧ peerPressureV2 conv G' C0' maxIters = .ok C' ∧
      MovedMat G.nrows σ C.get C'.get := by
  have hw : MovedMat G.nrows σ (fun u v => (G.get u v).map conv) (fun u v => (G'.get u v).map conv) :=
    fun u v hu hv => congrArg (Option.map conv) (hm u v hu hv)
  have hi : IsClustering G.nrows C0' (shiftClusters G.nrows σ τ a0) := by
    refine ⟨⟨h0', h0r, h0c⟩, fun i j hi hj => ?_, shift_in R h0.lt⟩
    obtain ⟨hi', ei⟩ := R.back i hi
    obtain ⟨hj', ej⟩ := R.back j hj
    rw [← ei, ← ej, hm0 _ _ hi' hj', h0.get _ _ hi' hj']
    by_cases hb : a0 (τ j) = some (τ i)
    · rw [if_pos hb, if_pos ((shift_some R h0.lt hj' hi').2 hb)]
    · rw [if_neg hb, if_neg (fun h' => hb ((shift_some R h0.lt hj' hi').1 h'))]
  obtain ⟨C, b, e, hC, hp⟩ := C62_peer_pressure_v2 (conv := conv) (maxIters := maxIters) hG hn hsq h0
  obtain ⟨C', b', e', hC', hp'⟩ := C62_peer_pressure_v2 (conv := conv) (maxIters := maxIters) hG' (by omega) (by omega)
    (by rw [hr']; exact hi)
  rw [hr'] at hC' hp'
  have hq := pressure_moved R hw ht h0.lt hp
  exact ⟨C, C', e, e', clustering_moved R hC hC' (hp'.unique hq)⟩

/-! ### Edge betweenness -/

section
variable {E E' : Nat → Nat → Bool} (R : Renumbering n σ τ) (hm : ∀ u v, u < n → v < n → E' (σ u) (σ v) = E u v)
include R hm

theorem hops_moved {s t : Nat} (hs : s < n) (ht : t < n) : hops n E' (σ s) (σ t) = hops n E s t :=
  hops_congr fun k => cnt_moved R hm k hs ht

theorem ext_moved {s v : Nat} (hs : s < n) (hv : v < n) : ext n E' (σ s) (σ v) = ext n E s v := by
  unfold ext
  rw [← sumTo_renumber (d := τ) (τ := σ) ⟨R.back, R.there⟩]
  refine sumTo_congr fun t ht => ?_
  unfold con
  rw [hops_moved R hm hs hv, hops_moved R hm hs ht]
  split
  · rw [cnt_moved R hm _ hv ht]
  · rfl

theorem edgePaths_moved (hE : EdgesIn n E) (hE' : EdgesIn n E') {s v w : Nat} (hs : s < n) (hv : v < n) (hw : w < n) :
    edgePaths n E' (σ s) (σ v) (σ w) = edgePaths n E s v w := by
  have hd : Down n E' (σ s) (σ v) (σ w) ↔ Down n E s v w := by
    unfold Down
    rw [hm v w hv hw, hops_moved R hm hs hv, hops_moved R hm hs hw]
  by_cases h : Down n E s v w
  · rw [edgePaths_down hE' (R.there s hs).1 (hd.2 h), edgePaths_down hE hs h, ext_moved R hm hs hw]
    obtain ⟨-, i, hi, -⟩ := h
    rw [spc_eq hE hs hi, spc_eq hE' (R.there s hs).1 ((hops_moved R hm hs hv).trans hi), cnt_moved R hm i hs hv]
  · rw [edgePaths_not hE' (R.there s hs).1 (fun h' => h (hd.1 h')), edgePaths_not hE hs h]

theorem edgeScore_moved (hE : EdgesIn n E) (hE' : EdgesIn n E') {v w : Nat} (hv : v < n) (hw : w < n) :
    edgeScore n E' (σ v) (σ w) = edgeScore n E v w := by
  have h : ∀ (E : Nat → Nat → Bool) v w, edgeScore n E v w = sumTo n fun s => edgePaths n E s v w := fun _ _ _ => sumTo_eq _ _
  rw [h, h, ← sumTo_renumber (d := τ) (τ := σ) ⟨R.back, R.there⟩]
  exact sumTo_congr fun s hs => edgePaths_moved R hm hE hE' hs hv hw

end

/-- **C104** The scores of the edges of a renumbered graph are those of the graph, loops
included. -/
theorem C104_edge_betweenness {A A' : Lil Rat} (R : Renumbering A.nrows σ τ) (hm : MovedMat A.nrows σ A.get A'.get)
    (hA : A.WF) (hsq : A.nrows = A.ncols) (h1 : ∀ u v a, A.get u v = some a → a = 1) (hA' : A'.WF)
    (hr' : A'.nrows = A.nrows) (hc' : A'.ncols = A.nrows) {fuel : Nat} (hf : A.nrows ≤ fuel) :
    ∃ S S', ebc fuel .rat A = .ok S ∧ ebc fuel .rat A' = .ok S' ∧ MovedMat A.nrows σ S.get S'.get := by
  have h1' : ∀ u v a, A'.get u v = some a → a = 1 := by
    intro u v a h
    obtain ⟨-, -, hg⟩ := renumber_edges R hm ⟨hA', hr', hc'⟩ (by rw [h]; simp : A'.get u v ≠ none)
    exact h1 _ _ _ (hg.trans h)
  obtain ⟨S, e, -, -, -, g⟩ := C59_edge_betweenness_actual hA hsq h1 hf
  obtain ⟨S', e', -, -, -, g'⟩ := C59_edge_betweenness_actual hA' (by omega) h1' (by omega : A'.nrows ≤ fuel)
  have hm' : ∀ u v, u < A.nrows → v < A.nrows → edges A' (σ u) (σ v) = edges A u v := by
    intro u v hu hv
    unfold edges
    rw [hm u v hu hv]
  have hE := edges_in (A := A) ⟨hA, rfl, hsq.symm⟩
  have hE' := edges_in (A := A') ⟨hA', hr', hc'⟩
  refine ⟨S, S', e, e', fun v w hv hw => ?_⟩
  rw [g, g', hr', hm' v w hv hw, hm' v v hv hv, edgeScore_moved R hm' hE hE' hv hw, edgePaths_moved R hm' hE hE' hv hv hw]
  have : σ w = σ v ↔ w = v := ⟨renumber_inj R hw hv, fun h => by rw [h]⟩
  simp only [this]

/-! ### Witnesses and examples -/
namespace Ex
/-- Exchanges 0 and 1. -/
def swap01 (v : Nat) : Nat := if v < 2 then 1 - v else v

theorem swap01_renumbering : Renumbering 3 swap01 swap01 :=
  ⟨(by decide : ∀ i, i < 3 → _), (by decide : ∀ i, i < 3 → _)⟩

/-- Vertices 0 and 1 each vote for themselves and for 2. -/
def tieGraph : Lil Rat := ⟨3, 3, 4, [[(0, 1), (2, 1)], [(1, 1), (2, 1)], []]⟩

/-- Each vertex has two voters, with different votes. -/
def clearGraph : Lil Rat := ⟨3, 3, 6, [[(0, 1), (1, 3)], [(1, 1), (2, 1)], [(0, 2), (2, 3)]]⟩

/-- The same with 0 and 1 exchanged. -/
def clearGraph' : Lil Rat := ⟨3, 3, 6, [[(0, 1), (2, 1)], [(0, 3), (1, 1)], [(1, 2), (2, 3)]]⟩

theorem clear_moved : MovedMat 3 swap01 clearGraph.get clearGraph'.get := by
  intro u v hu hv
  match u, v, hu, hv with
  | 0, 0, _, _ | 0, 1, _, _ | 0, 2, _, _ | 1, 0, _, _ | 1, 1, _, _ | 1, 2, _, _ | 2, 0, _, _ | 2, 1, _, _ | 2, 2, _, _ =>
    decide +kernel

theorem clear_pos (u v : Nat) (x : Rat) (hx : clearGraph.get u v = some x) : 0 < id x := by
  have hu : u < 3 ∧ v < 3 := Classical.byContradiction fun hc => by
    rw [Sh.out (r := 3) (c := 3) ⟨Lil.wf_chk (by decide +kernel), rfl, rfl⟩ hc] at hx
    cases hx
  match u, v, hu.1, hu.2 with
  | 0, 0, _, _ | 0, 1, _, _ | 0, 2, _, _ | 1, 0, _, _ | 1, 1, _, _ | 1, 2, _, _ | 2, 0, _, _ | 2, 1, _, _ | 2, 2, _, _ =>
    first
    | (cases hx; done)
    | (cases hx; decide +kernel)

theorem clear3 {W : Mat Rat} (hW : ∀ j, j < 3 → ∀ a0 a1 a2 b0 b1 b2 : Bool,
    ¬ (a0 = true ∧ b0 = true) → ¬ (a1 = true ∧ b1 = true) → ¬ (a2 = true ∧ b2 = true) →
    (a0 = true ∧ W 0 j ≠ none ∨ a1 = true ∧ W 1 j ≠ none ∨ a2 = true ∧ W 2 j ≠ none) →
    (b0 = true ∧ W 0 j ≠ none ∨ b1 = true ∧ W 1 j ≠ none ∨ b2 = true ∧ W 2 j ≠ none) →
    (if a0 then (W 0 j).getD 0 else 0) + ((if a1 then (W 1 j).getD 0 else 0) + ((if a2 then (W 2 j).getD 0 else 0) + 0)) ≠
    (if b0 then (W 0 j).getD 0 else 0) + ((if b1 then (W 1 j).getD 0 else 0) + ((if b2 then (W 2 j).getD 0 else 0) + 0))) :
    ClearVotes 3 W := by
  intro j S S' hj hd h h'
  have some_ : ∀ T : Nat → Bool, (∃ u, u < 3 ∧ T u = true ∧ W u j ≠ none) →
      (T 0 = true ∧ W 0 j ≠ none) ∨ (T 1 = true ∧ W 1 j ≠ none) ∨ (T 2 = true ∧ W 2 j ≠ none) := by
    rintro T ⟨u, hu, h⟩
    match u, hu with
    | 0, _ => exact .inl h
    | 1, _ => exact .inr (.inl h)
    | 2, _ => exact .inr (.inr h)
  exact hW j hj (S 0) (S 1) (S 2) (S' 0) (S' 1) (S' 2) (hd 0) (hd 1) (hd 2) (some_ S h) (some_ S' h')

theorem clear_normalized : ClearVotes 3 (rowsNormalized 3 fun u v => (clearGraph.get u v).map id) := by
  refine clear3 fun j hj a0 a1 a2 b0 b1 b2 => ?_
  match j, hj with
  | 0, _ | 1, _ | 2, _ => cases a0 <;> cases a1 <;> cases a2 <;> cases b0 <;> cases b1 <;> cases b2 <;> decide +kernel

theorem clear_plain : ClearVotes 3 fun u v => (clearGraph.get u v).map id := by
  refine clear3 fun j hj a0 a1 a2 b0 b1 b2 => ?_
  match j, hj with
  | 0, _ | 1, _ | 2, _ => cases a0 <;> cases a1 <;> cases a2 <;> cases b0 <;> cases b1 <;> cases b2 <;> decide +kernel

/-- Vertices 0 and 1 are in cluster 0, vertex 2 in cluster 1. -/
def clearC : Lil Bool := ⟨3, 3, 3, [[(0, true), (1, true)], [(2, true)], []]⟩

/-- The same with 0 and 1 exchanged. -/
def clearC' : Lil Bool := ⟨3, 3, 3, [[(2, true)], [(0, true), (1, true)], []]⟩

theorem clearC_clustering : IsClustering 3 clearC fun j => if j < 2 then some 0 else some 1 := by
  refine ⟨⟨Lil.wf_chk (by decide +kernel), rfl, rfl⟩, fun i j hi hj => ?_, fun j i hj h => ?_⟩
  · match i, j, hi, hj with
    | 0, 0, _, _ | 0, 1, _, _ | 0, 2, _, _ | 1, 0, _, _ | 1, 1, _, _ | 1, 2, _, _ | 2, 0, _, _ | 2, 1, _, _ | 2, 2, _, _ =>
      decide +kernel
  · split at h <;> injection h with h <;> omega

theorem clearC_moved : MovedMat 3 swap01 clearC.get clearC'.get := by
  intro u v hu hv
  match u, v, hu, hv with
  | 0, 0, _, _ | 0, 1, _, _ | 0, 2, _, _ | 1, 0, _, _ | 1, 1, _, _ | 1, 2, _, _ | 2, 0, _, _ | 2, 1, _, _ | 2, 2, _, _ =>
    decide +kernel

/-- 0 and 1 have edges to 2, which has one to 3; 0 has a loop. -/
def forkGraph : Lil Rat := ⟨4, 4, 4, [[(0, 1), (2, 1)], [(2, 1)], [(3, 1)], []]⟩

/-- The same with 0 and 3 exchanged. -/
def forkGraph' : Lil Rat := ⟨4, 4, 4, [[], [(2, 1)], [(0, 1)], [(2, 1), (3, 1)]]⟩

def swap03 (v : Nat) : Nat := if v = 0 then 3 else if v = 3 then 0 else v
end Ex

/-- **C104** With ties, peer-pressure clustering depends on the numbering: exchanging 0 and 1 does
not change this graph, but 2 ends in the cluster of 1. -/
theorem C104_peer_pressure_wrong :
    Renumbering 3 Ex.swap01 Ex.swap01 ∧ Ex.tieGraph.WF ∧ MovedMat 3 Ex.swap01 Ex.tieGraph.get Ex.tieGraph.get ∧
      ∃ C, peerPressureId id Ex.tieGraph 9 = .ok C ∧ C.get 1 2 = some true ∧ C.get 0 2 = none ∧
        ¬ MovedMat 3 Ex.swap01 C.get C.get := by
  refine ⟨Ex.swap01_renumbering, Lil.wf_chk (by decide +kernel), fun u v hu hv => ?_, ⟨3, 3, 3, [[(0, true)], [(1, true), (2, true)], []]⟩, by decide +kernel, by decide +kernel, by decide +kernel, fun h => ?_⟩
  · match u, v, hu, hv with
    | 0, 0, _, _ | 0, 1, _, _ | 0, 2, _, _ | 1, 0, _, _ | 1, 1, _, _ | 1, 2, _, _ | 2, 0, _, _ | 2, 1, _, _ | 2, 2, _, _ =>
      decide +kernel
  · exact absurd (h 1 2 (by decide) (by decide)) (by decide +kernel)

/-- The hypotheses of `C104_peer_pressure_partial` and `C104_markov` hold of a graph. -/
example : ∃ C C', peerPressureId id Ex.clearGraph 9 = .ok C ∧ peerPressureId id Ex.clearGraph' 9 = .ok C' ∧
    MovedMat 3 Ex.swap01 C.get C'.get :=
  C104_peer_pressure_partial (G := Ex.clearGraph) Ex.swap01_renumbering
    Ex.clear_moved (by decide) (Lil.wf_chk (by decide +kernel)) rfl (Lil.wf_chk (by decide +kernel)) rfl rfl
    (by
      rintro u ⟨v, hv⟩
      match u with
      | 0 => decide +kernel
      | 1 => decide +kernel
      | 2 => decide +kernel
      | u + 3 => exact absurd rfl hv) Ex.clear_normalized

example : ∃ C C', markovCluster id Ex.clearGraph 2 2 (1 / 100) 9 = .ok C ∧ markovCluster id Ex.clearGraph' 2 2 (1 / 100) 9 = .ok C' ∧
    MovedMat 3 Ex.swap01 C.get C'.get :=
  C104_markov (G := Ex.clearGraph) Ex.swap01_renumbering Ex.clear_moved (by decide) (Lil.wf_chk (by decide +kernel)) rfl
    (Lil.wf_chk (by decide +kernel)) rfl rfl
    Ex.clear_pos (by decide) (by decide)

/-- Only the weights of the edges to vertex 0 differ. -/
example : ∃ C, markovCluster id Ex.clearGraph 2 2 (1 / 100) 9 = .ok C ∧
    markovCluster id (⟨3, 3, 6, [[(0, 2), (1, 3)], [(1, 1), (2, 1)], [(0, 4), (2, 3)]]⟩ : Lil Rat) 2 2 (1 / 100) 9 = .ok C :=
  C93_markov_scaled (f := fun v => if v = 0 then 2 else 1) (fun v => by split <;> decide)
    (fun u v => by
      by_cases hu : u < 3 ∧ v < 3
      · match u, v, hu.1, hu.2 with
        | 0, 0, _, _ | 0, 1, _, _ | 0, 2, _, _ | 1, 0, _, _ | 1, 1, _, _ | 1, 2, _, _ | 2, 0, _, _ | 2, 1, _, _ | 2, 2, _, _ =>
          decide +kernel
      · rw [Sh.out (r := 3) (c := 3) ⟨Lil.wf_chk (by decide +kernel), rfl, rfl⟩ hu,
          Sh.out (r := 3) (c := 3) ⟨Lil.wf_chk (by decide +kernel), rfl, rfl⟩ hu]
        rfl) (by decide) (Lil.wf_chk (by decide +kernel)) rfl
    (Lil.wf_chk (by decide +kernel)) rfl rfl Ex.clear_pos (by decide) (by decide)

example : ∃ C C', peerPressureV2 id Ex.clearGraph Ex.clearC 9 = .ok C ∧ peerPressureV2 id Ex.clearGraph' Ex.clearC' 9 = .ok C' ∧
    MovedMat 3 Ex.swap01 C.get C'.get :=
  C104_peer_pressure_v2_partial (G := Ex.clearGraph) Ex.swap01_renumbering Ex.clear_moved (by decide)
    (Lil.wf_chk (by decide +kernel)) rfl (Lil.wf_chk (by decide +kernel)) rfl rfl Ex.clearC_clustering
    (Lil.wf_chk (by decide +kernel)) rfl rfl Ex.clearC_moved Ex.clear_plain

example : ∃ S S', ebc 9 .rat Ex.forkGraph = .ok S ∧ ebc 9 .rat Ex.forkGraph' = .ok S' ∧ MovedMat 4 Ex.swap03 S.get S'.get :=
  C104_edge_betweenness (A := Ex.forkGraph) (A' := Ex.forkGraph') (fuel := 9) (σ := Ex.swap03) (τ := Ex.swap03)
    ⟨(show ∀ i, i < 4 → _ by decide), (show ∀ i, i < 4 → _ by decide)⟩
    (fun u v (hu : u < 4) (hv : v < 4) => by
      match u, v, hu, hv with
      | 0, 0, _, _ | 0, 1, _, _ | 0, 2, _, _ | 0, 3, _, _ | 1, 0, _, _ | 1, 1, _, _ | 1, 2, _, _ | 1, 3, _, _ | 2, 0, _, _
      | 2, 1, _, _ | 2, 2, _, _ | 2, 3, _, _ | 3, 0, _, _ | 3, 1, _, _ | 3, 2, _, _ | 3, 3, _, _ => decide +kernel)
    (Lil.wf_chk (by decide +kernel)) rfl
    (by
      intro u v x hx
      have hu : u < 4 ∧ v < 4 := Classical.byContradiction fun hc => by
        rw [Sh.out (r := 4) (c := 4) ⟨Lil.wf_chk (by decide +kernel), rfl, rfl⟩ hc] at hx
        cases hx
      match u, v, hu.1, hu.2 with
      | 0, 0, _, _ | 0, 1, _, _ | 0, 2, _, _ | 0, 3, _, _ | 1, 0, _, _ | 1, 1, _, _ | 1, 2, _, _ | 1, 3, _, _ | 2, 0, _, _
      | 2, 1, _, _ | 2, 2, _, _ | 2, 3, _, _ | 3, 0, _, _ | 3, 1, _, _ | 3, 2, _, _ | 3, 3, _, _ =>
        first
        | (cases hx; done)
        | (cases hx; rfl))
    (Lil.wf_chk (by decide +kernel)) rfl rfl (by decide)

end GBTL

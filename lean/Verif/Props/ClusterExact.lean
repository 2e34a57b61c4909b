import Verif.Props.ClusterAssign
import Verif.Props.LouvainAssign
import Verif.Spec.Graph
/-
**C62, C63, C66** Which vertices are in a cluster after any number of rounds, and what the
assignments are for matrices of every shape.
-/
namespace GBTL
open Spec

variable {α : Type} {n : Nat}

/-! ### which vertices are in a cluster -/

/-- After `k` rounds a vertex is in a cluster exactly when it ends a walk of `k` edges from a
vertex that was in one at the start. -/
theorem _root_.Spec.PeerPressure.walk {W : Mat Rat} {a0 b : Vec Nat} {K : Nat} (h : PeerPressure n W a0 K b) :
    ∃ k, k ≤ K ∧ (k < K → NextClusters n W b b) ∧ ∀ j, j < n →
      (b j ≠ none ↔ Walk (fun u v => u < n ∧ W u v ≠ none) (fun u => a0 u ≠ none) k j) := by
  obtain ⟨k, a, ha, rfl, hk, hst, hend⟩ := h
  refine ⟨k, hk, hend, ?_⟩
  have : ∀ t, t ≤ k → ∀ j, j < n →
      (a t j ≠ none ↔ Walk (fun u v => u < n ∧ W u v ≠ none) (fun u => a0 u ≠ none) t j) := by
    intro t
    induction t with
    | zero => intro _ j _; rw [ha]; exact Iff.rfl
    | succ t ih =>
      intro ht j hj
      rw [Ne, (hst t ht).1.none j hj]
      constructor
      · intro h
        obtain ⟨i, hi⟩ := Classical.not_forall.1 h
        obtain ⟨u, hu, hau, hW⟩ := Classical.not_not.1 hi
        exact ⟨u, (ih (by omega) u hu).1 (by rw [hau]; simp), hu, hW⟩
      · rintro ⟨u, hw, hu, hW⟩ h
        cases hau : a t u with
        | none => exact (ih (by omega) u hu).2 hw hau
        | some i => exact h i ⟨u, hu, hau, hW⟩
  exact this k (Nat.le_refl k)

theorem _root_.Spec.Walk.mono {E E' : Nat → Nat → Prop} {S S' : Nat → Prop} (hE : ∀ u v, E u v → E' u v) (hS : ∀ u, S u → S' u) :
    ∀ {k v}, Walk E S k v → Walk E' S' k v := by
  intro k
  induction k with
  | zero => exact fun h => hS _ h
  | succ k ih => exact fun ⟨u, h1, h2⟩ => ⟨u, ih h1, hE _ _ h2⟩

/-- In the matrix of a clustering, a column has an element when the vertex is in a cluster. -/
theorem IsClustering.mem {C : Lil Bool} {a : Vec Nat} (hC : IsClustering n C a) {j : Nat} (hj : j < n) :
    (∃ i, C.get i j = some true) ↔ a j ≠ none := by
  constructor
  · rintro ⟨i, hi⟩ ha
    have : i < n := by
      have := (some_lt hC.sh.wf (i := i) (j := j) (by rw [hi]; simp)).1
      rw [hC.sh.nr] at this; exact this
    rw [hC.get i j this hj, ha, if_neg (by simp)] at hi
    cases hi
  · intro h
    cases ha : a j with
    | none => exact absurd ha h
    | some i => exact ⟨i, by rw [hC.get i j (hC.lt j i hj ha) hj, if_pos ha]⟩

/-- **C62** After the `k` rounds that peer-pressure clustering makes, a vertex is in a cluster
exactly when a walk of `k` edges leads to it from a vertex that was in one at the start. It
makes fewer than the limit only if another would change nothing. -/
theorem C62_peer_pressure_members {conv : α → Rat} {G : Lil α} {C : Lil Bool} {a0 : Vec Nat} {maxIters : Nat} (hG : G.WF)
    (hn : 0 < G.nrows) (hsq : G.ncols = G.nrows) (hC : IsClustering G.nrows C a0)
    (hs : ∀ u, (∃ v, G.get u v ≠ none) → sumOf G.nrows (fun v => (G.get u v).map conv) ≠ 0) :
    ∃ C' b k, peerPressure conv G C maxIters = .ok C' ∧ IsClustering G.nrows C' b ∧ k ≤ maxIters ∧
      (k < maxIters → NextClusters G.nrows (rowsNormalized G.nrows fun u v => (G.get u v).map conv) b b) ∧
      ∀ j, j < G.nrows → ((∃ i, C'.get i j = some true) ↔
        Walk (fun u v => G.get u v ≠ none) (fun u => a0 u ≠ none) k j) := by
  obtain ⟨C', b, e, hc, hp⟩ := C62_peer_pressure (maxIters := maxIters) hG hn hsq hC hs
  obtain ⟨k, h1, h2, h3⟩ := hp.walk
  refine ⟨C', b, k, e, hc, h1, h2, fun j hj => ?_⟩
  rw [hc.mem hj, h3 j hj]
  constructor
  · refine Walk.mono (fun u v h => ?_) fun _ h => h
    intro hz
    exact h.2 (by show ((G.get u v).map conv).map _ = none; rw [hz]; rfl)
  · refine Walk.mono (fun u v h => ⟨(some_lt hG h).1, ?_⟩) fun _ h => h
    intro hz
    have hz' : ((G.get u v).map conv).map _ = none := hz
    rw [Option.map_eq_none_iff, Option.map_eq_none_iff] at hz'
    exact h hz'

/-- **C62** Without an initial clustering: a vertex is in a cluster exactly when some walk of
`k` edges ends in it. -/
theorem C62_peer_pressure_start_members {conv : α → Rat} {G : Lil α} {maxIters : Nat} (hG : G.WF)
    (hn : 0 < G.nrows) (hsq : G.ncols = G.nrows)
    (hs : ∀ u, (∃ v, G.get u v ≠ none) → sumOf G.nrows (fun v => (G.get u v).map conv) ≠ 0) :
    ∃ C' b k, peerPressureId conv G maxIters = .ok C' ∧ IsClustering G.nrows C' b ∧ k ≤ maxIters ∧
      (k < maxIters → NextClusters G.nrows (rowsNormalized G.nrows fun u v => (G.get u v).map conv) b b) ∧
      ∀ j, j < G.nrows → ((∃ i, C'.get i j = some true) ↔
        Walk (fun u v => G.get u v ≠ none) (fun u => u < G.nrows) k j) := by
  obtain ⟨C, e, h1, h2, h3, h4⟩ := C41_scaled_identity G.nrows true
  obtain ⟨C', b, k, e', hc, hk, hend, hw⟩ := C62_peer_pressure_members (conv := conv) (maxIters := maxIters) hG hn hsq
    (own_isClustering ⟨h1, h2, h3⟩ h4) hs
  refine ⟨C', b, k, ?_, hc, hk, hend, fun j hj => ?_⟩
  · unfold peerPressureId
    rw [e]
    exact e'
  · rw [hw j hj]
    have : ∀ u, ownCluster G.nrows u ≠ none ↔ u < G.nrows := by
      intro u
      rw [ownCluster]
      by_cases h : u < G.nrows <;> simp [h]
    exact ⟨Walk.mono (fun _ _ h => h) fun u h => (this u).1 h, Walk.mono (fun _ _ h => h) fun u h => (this u).2 h⟩

/-- **C62** The same for `peer_pressure_cluster_v2`. -/
theorem C62_peer_pressure_v2_members {conv : α → Rat} {G : Lil α} {C : Lil Bool} {a0 : Vec Nat} {maxIters : Nat} (hG : G.WF)
    (hn : 0 < G.nrows) (hsq : G.ncols = G.nrows) (hC : IsClustering G.nrows C a0) :
    ∃ C' b k, peerPressureV2 conv G C maxIters = .ok C' ∧ IsClustering G.nrows C' b ∧ k ≤ maxIters ∧
      (k < maxIters → NextClusters G.nrows (fun u v => (G.get u v).map conv) b b) ∧
      ∀ j, j < G.nrows → ((∃ i, C'.get i j = some true) ↔
        Walk (fun u v => G.get u v ≠ none) (fun u => a0 u ≠ none) k j) := by
  obtain ⟨C', b, e, hc, hp⟩ := C62_peer_pressure_v2 (conv := conv) (maxIters := maxIters) hG hn hsq hC
  obtain ⟨k, h1, h2, h3⟩ := hp.walk
  refine ⟨C', b, k, e, hc, h1, h2, fun j hj => ?_⟩
  rw [hc.mem hj, h3 j hj]
  constructor
  · refine Walk.mono (fun u v h => ?_) fun _ h => h
    intro hz
    exact h.2 (by rw [hz]; rfl)
  · refine Walk.mono (fun u v h => ⟨(some_lt hG h).1, ?_⟩) fun _ h => h
    rw [Ne, Option.map_eq_none_iff]
    exact h

/-- The hypotheses hold, with and without lost vertices: the pair, and the edge from 0 to 1,
where nothing is left of the clusters after two rounds. -/
example : (∃ C' k, peerPressureId id ppPair 7 = .ok C' ∧ ∀ j, j < 2 → ((∃ i, C'.get i j = some true) ↔
      Walk (fun u v => ppPair.get u v ≠ none) (fun u => u < 2) k j)) ∧
    ∃ C' k, peerPressureId id ppEdge 7 = .ok C' ∧ ∀ j, j < 2 → ((∃ i, C'.get i j = some true) ↔
      Walk (fun u v => ppEdge.get u v ≠ none) (fun u => u < 2) k j) := by
  obtain ⟨C, _, k, h1, _, _, _, h2⟩ := C62_peer_pressure_start_members (conv := id) (maxIters := 7) ppPair_wf (by decide) rfl ppPair_sum
  obtain ⟨C', _, k', h1', _, _, _, h2'⟩ := C62_peer_pressure_start_members (conv := id) (maxIters := 7) ppEdge_wf (by decide) rfl ppEdge_sum
  exact ⟨⟨C, k, h1, h2⟩, C', k', h1', h2'⟩

/-! ### the assignments -/

theorem asgStep_length {s s' : AsgSt} {i j : Nat} {x : Rat} (h : asgStep s i j x = .ok s') : s'.best.length = s.best.length := by
  unfold asgStep at h
  split at h
  · cases h
  · split at h <;> (injection h with h; subst h; simp)

theorem asgFold_ub {conv : α → Rat} : ∀ (l : List (Nat × Nat × α)) (s : AsgSt), s.best.length = n → (∃ t ∈ l, n ≤ t.2.1) →
    l.foldlM (fun s t => asgStep s t.1 t.2.1 (conv t.2.2)) s = (.error .ub : Except Err AsgSt)
  | [], _, _, ⟨_, h, _⟩ => by cases h
  | t :: l, s, hs, h => by
    rw [List.foldlM_cons]
    cases e : asgStep s t.1 t.2.1 (conv t.2.2) with
    | error x =>
      unfold asgStep at e
      split at e
      · injection e with e; subst e; rfl
      · split at e <;> cases e
    | ok s1 =>
      refine asgFold_ub l s1 ((asgStep_length e).trans hs) ?_
      obtain ⟨t', h1, h2⟩ := h
      rcases List.mem_cons.1 h1 with h1 | h1
      · subst h1
        unfold asgStep at e
        rw [List.getElem?_eq_none (by omega)] at e
        cases e
      · exact ⟨t', h1, h2⟩

/-- **C63** `get_cluster_assignments` of a matrix of any shape has undefined behaviour exactly
when an element is in a column that is not below the number of rows. -/
theorem C63_cluster_assignments_actual [Inhabited α] {conv : α → Rat} {C : Lil α} (hC : C.WF) :
    ((∃ i j, C.get i j ≠ none ∧ C.nrows ≤ j) → clusterAssignments conv C = .error .ub) ∧
    ((∀ i j, C.get i j ≠ none → j < C.nrows) →
      ∃ r, clusterAssignments conv C = .ok r ∧ r.length = C.nrows ∧ ∀ j, j < C.nrows →
        (∃ i x, r[j]? = some i ∧ -1 < x ∧ FirstBest (fun i j => (C.get i j).map conv) j i x) ∨
        (r[j]? = some (2 ^ 64 - 1) ∧ ∀ i x, C.get i j = some x → conv x ≤ -1)) := by
  refine ⟨?_, clusterAssignments_ok hC⟩
  rintro ⟨i, j, h1, h2⟩
  obtain ⟨-, hm, hl⟩ := C07_matrix_tuples C hC
  cases hx : C.get i j with
  | none => exact absurd hx h1
  | some x =>
    unfold clusterAssignments
    rw [matTuples_eq hl]
    simp only [bind, Except.bind]
    rw [asgFold_ub (n := C.nrows) _ _ (List.length_replicate ..) ⟨(i, j, x), (hm i j x).2 hx, h2⟩]

/-- Both cases occur on a matrix of one row and two columns. -/
example : (∃ i j, asgWide.get i j ≠ none ∧ asgWide.nrows ≤ j) ∧
    ∃ C : Lil Rat, C.WF ∧ C.nrows < C.ncols ∧ (∃ j, C.get 0 j ≠ none) ∧ clusterAssignments id C = .ok [0] :=
  ⟨⟨0, 1, by decide +kernel, by decide⟩,
    { nrows := 1, ncols := 2, nvals := 1, rows := [[(0, 1)]] }, Lil.wf_chk (by decide +kernel), by decide, ⟨0, by decide +kernel⟩,
    by decide +kernel⟩

/-- **C66** `get_louvain_cluster_assignments` refuses every matrix that is not square,
whatever is in it, and throws also for a matrix without rows or columns. -/
theorem C66_louvain_assignments_actual {C : Lil Bool} (hC : C.WF) :
    (0 < C.nrows → 0 < C.ncols → C.nrows ≠ C.ncols → louvainAssignments C = .error (.err .dimension)) ∧
    ((C.nrows = 0 ∨ C.ncols = 0) → louvainAssignments C = .error (.err .invalidValue)) := by
  constructor
  · intro hr hc hne
    obtain ⟨w, e1, z1, -⟩ := newV (τ := Nat) hc
    obtain ⟨v, w0, e2, e3, z3, g3⟩ := indexVec_ok hr
    unfold louvainAssignments
    rw [e1, lift_ok, prog_bind_ok, e2, lift_ok, prog_bind_ok, e3, prog_bind_ok,
      (C26_mxv (o := vPlain id w) (sr := (⟨max, fun _ y => y, fun x _ => x⟩ : SR Bool Nat Nat)) (A := .plain C) (u := v)
        (vPlain_wf z1.wf) hC z3.wf).1 (fun h => hne (h.out.symm.trans z1.sz))]
    rfl
  · intro h
    unfold louvainAssignments
    by_cases hc : C.ncols = 0
    · rw [hc]; rfl
    · obtain ⟨w, e1, z1, -⟩ := newV (τ := Nat) (show 0 < C.ncols by omega)
      rw [e1, lift_ok, prog_bind_ok, h.resolve_right hc]
      rfl

end GBTL

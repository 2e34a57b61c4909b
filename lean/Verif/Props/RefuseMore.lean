import Verif.Props.Refuse
import Verif.Lemmas.RefuseMore
import Verif.Model.Metrics
import Verif.Model.Triangle
import Verif.Model.KTruss
import Verif.Model.Mis
import Verif.Model.Mst
import Verif.Model.Cluster
import Verif.Model.PageRank
import Verif.Model.Markov
import Verif.Model.Louvain
import Verif.Model.BetweennessV
import Verif.Model.EdgeBetweenness
import Verif.Model.AppendixBfs
import Verif.Model.FordFulk
import Verif.Model.DeltaStep
/-
C97: the other algorithms.
-/
namespace GBTL
open Spec (Outp MaskKind Accum)

variable {α γ δ ρ : Type}

/-! ### The traversals of the appendix -/

/-- `bfs_level_appendixB1(v, A, src)`. -/
theorem C97_bfs_B1 {fuel : Nat} {gtrue : α → Bool} {G : Lil α} {source : Nat} {L : LevTy γ}
    {levels : BVec γ} (hG : G.WF) (hl : levels.WF)
    (h : ¬ (G.nrows = G.ncols ∧ source < G.nrows ∧ levels.size = G.nrows)) :
    Throws (bfsB1 fuel gtrue G source L levels) := by
  apply Ends.throws
  unfold bfsB1
  refine (BVec.new_ends _).bind fun wave ⟨h1, h2, _⟩ => ?_
  refine (BVec.setElement_ends h1 source true).bind fun wave ⟨w1, w2, w3, w4⟩ => ?_
  refine Ends.bind (Q := fun _ => False) ?_ fun _ h => h.elim
  unfold b1Body
  refine (VCall.ends (.assignConst id _ .all) (VOut.WF.of1 (o := b1Out L levels wave) hl rfl w1)
    trivial).bind fun lev ⟨l1, l2, l3, l4⟩ => ?_
  refine (VCall.ends (.vxm _ wave (.plain G)) (VOut.WF.of1 (o := waveOut id L.truthy wave lev) w1 rfl l1)
    ⟨w1, hG⟩).bind fun _ ⟨_, _, m3, m4, m5⟩ => ?_
  have := l3.size
  simp only [b1Out, waveOut, Operand.nrows, Operand.ncols, VCall.Accepts] at *
  omega

/-- `bfs_level_appendixB2(v, A, src)`. -/
theorem C97_bfs_B2 {fuel : Nat} {gtrue : α → Bool} {G : Lil α} {source : Nat} {L : LevTy γ}
    {levels : BVec γ} (hG : G.WF) (hl : levels.WF)
    (h : ¬ (G.nrows = G.ncols ∧ source < G.nrows ∧ levels.size = G.nrows)) :
    Throws (bfsB2 fuel gtrue G source L levels) := by
  apply Ends.throws
  unfold bfsB2
  refine (BVec.new_ends _).bind fun wave ⟨h1, h2, _⟩ => ?_
  refine (BVec.setElement_ends h1 source true).bind fun wave ⟨w1, w2, w3, w4⟩ => ?_
  refine Ends.bind (Q := fun _ => False) ?_ fun _ h => h.elim
  unfold b2Body
  refine (VCall.ends (.apply _ wave) (VOut.WF.of0 (o := b2Out L levels) hl rfl) w1).bind
    fun lev ⟨l1, l2, _, l4⟩ => ?_
  refine (VCall.ends (.vxm _ wave (.plain G)) (VOut.WF.of1 (o := waveOut id L.truthy wave lev) w1 rfl l1)
    ⟨w1, hG⟩).bind fun _ ⟨_, _, m3, m4, m5⟩ => ?_
  simp only [b2Out, waveOut, Operand.nrows, Operand.ncols, VCall.Accepts] at *
  omega

/-- `bfs_parent_appendixB3(parents, A, src)`. -/
theorem C97_bfs_B3 {fuel : Nat} {G : Lil α} {source : Nat} {parents : BVec Nat} (hG : G.WF)
    (hp : parents.WF) (hf : 0 < fuel)
    (h : ¬ (G.nrows = G.ncols ∧ source < G.nrows ∧ parents.size = G.nrows)) :
    Throws (bfsB3 fuel G source parents) := by
  apply Ends.throws
  unfold bfsB3
  refine (indexRamp_ends _).bind fun ramp ⟨r1, r2, _⟩ => ?_
  refine (BVec.setElement_ends (BVec.clear_wf hp.vlen) source _).bind fun par ⟨p1, p2, p3, p4⟩ => ?_
  refine (BVec.new_ends _).bind fun wave ⟨h1, h2, _⟩ => ?_
  refine (BVec.setElement_ends h1 source _).bind fun wave ⟨w1, w2, w3, w4⟩ => ?_
  refine Ends.loop_bind hf (by exact decide_eq_true (BVec.nvals_pos w1 w4)) ?_
  unfold b3Body
  refine (VCall.ends (.eWiseMult _ ramp wave) (VOut.WF.of0 (o := vPlain id wave) w1 rfl) ⟨r1, w1⟩).bind
    fun wave2 ⟨e1, e2, _, e4⟩ => ?_
  refine (VCall.ends (.vxm _ wave2 (.plain G)) (VOut.WF.of1 (o := waveOutS wave2 par) e1 rfl p1)
    ⟨e1, hG⟩).bind fun _ ⟨_, _, m3, m4, m5⟩ => ?_
  have := m3.size
  have hc : parents.clear.size = parents.size := rfl
  simp only [vPlain, waveOutS, Operand.nrows, Operand.ncols, VCall.Accepts] at *
  omega

/-! ### Distances -/

/-- `sssp`, `filtered_sssp` and `batch_sssp`. -/
theorem C97_sssp {t : ITy} {ov : Int → Int → Int} {G : Lil Int} {dist : BVec Int}
    (h : ¬ (G.nrows = G.ncols ∧ dist.size = G.nrows)) :
    sssp t ov G dist = .error (.err .dimension) ∧ filteredSssp t ov G dist = .error (.err .dimension) := by
  have h' : G.nrows ≠ dist.size ∨ G.ncols ≠ dist.size := by omega
  exact ⟨by rw [sssp, if_pos h'], by rw [filteredSssp, if_pos h']⟩

theorem C97_batch_sssp {t : ITy} {ov : Int → Int → Int} {G dists : Lil Int}
    (h : ¬ (G.nrows = G.ncols ∧ dists.ncols = G.nrows)) :
    batchSssp t ov G dists = .error (.err .dimension) := by
  rw [batchSssp, if_pos (by omega)]

/-- `apsp`. -/
theorem C97_apsp {t : ITy} {ov : Int → Int → Int} {G : Lil Int} (h : G.nrows ≠ G.ncols) :
    apsp t ov G = .error (.err .dimension) := by
  rw [apsp, if_pos h]

/-- `sssp_delta_step`: a graph that is not square, or a source out of range. -/
theorem C97_delta_step {fuel : Nat} {t : ITy} {ov : Int → Int → Int} {G : Lil Int} {delta : Int} {src : Nat}
    {paths : BVec Int} (hG : G.WF) (h : ¬ (G.nrows = G.ncols ∧ src < G.nrows)) :
    Throws (deltaStep fuel t ov G delta src paths) := by
  apply Ends.throws
  unfold deltaStep
  refine (BVec.new_ends _).bind fun d0 ⟨h1, h2, _⟩ => ?_
  refine (BVec.new_ends _).bind fun _ _ => (BVec.new_ends _).bind fun _ _ => (BVec.new_ends _).bind
    fun _ _ => (BVec.new_ends _).bind fun _ _ => (BVec.new_ends _).bind fun _ _ => (BVec.new_ends _).bind
    fun _ _ => ?_
  refine (BVec.setElement_ends h1 src 0).bind fun d ⟨w1, w2, w3, w4⟩ => ?_
  refine Ends.bind (Q := fun _ => False) ?_ fun _ h => h.elim
  unfold edgesWhere
  refine (MCall.ends (.apply _ (.plain G)) (MOut.WF.of0 (o := mPlain ofBool (Lil.new G.nrows G.nrows))
    (Lil.new_wf _ _) rfl) hG).bind fun _ ⟨_, _, _, _, m⟩ => ?_
  simp only [MCall.Accepts, mPlain, Lil.new, Operand.nrows, Operand.ncols] at m
  omega

/-- `graph_distance`, `closeness_centrality` and `vertex_eccentricity`. -/
theorem C97_graph_distance {t : ITy} {ov : Int → Int → Int} {G : Lil Int} {sid : Nat} {result : BVec Int}
    (hr : result.WF) (h : ¬ (G.nrows = G.ncols ∧ sid < G.nrows ∧ result.size = G.nrows)) :
    Throws (graphDistance t ov G sid result) := by
  apply Ends.throws
  unfold graphDistance
  split
  · exact Ends.err (by simp)
  · refine (BVec.setElement_ends (BVec.clear_wf hr.vlen) sid 0).bind fun _ ⟨_, _, p3, _⟩ => ?_
    have hc : result.clear.size = result.size := rfl
    omega

theorem C97_closeness {t : ITy} {ov : Int → Int → Int} {G : Lil Int} {vid : Nat}
    (h : ¬ (G.nrows = G.ncols ∧ vid < G.nrows)) : Throws (closenessCentrality t ov G vid) := by
  apply Ends.throws
  unfold closenessCentrality
  refine (BVec.new_ends _).bind fun d ⟨h1, h2, _⟩ => ?_
  obtain ⟨e, he, hg⟩ := C97_graph_distance (t := t) (ov := ov) (sid := vid) h1
    (fun ⟨a, b, _⟩ => h ⟨a, b⟩ : ¬ (G.nrows = G.ncols ∧ vid < G.nrows ∧ d.size = G.nrows))
  rw [hg]
  exact Ends.err he

theorem C97_vertex_eccentricity {t : ITy} {ov : Int → Int → Int} {G : Lil Int} {vid : Nat}
    (h : ¬ (G.nrows = G.ncols ∧ vid < G.nrows)) : Throws (vertexEccentricity t ov G vid) := by
  apply Ends.throws
  unfold vertexEccentricity
  split
  · exact Ends.err (by simp)
  · refine (BVec.new_ends _).bind fun d ⟨h1, h2, _⟩ => ?_
    refine (BVec.setElement_ends h1 vid 0).bind fun _ ⟨_, _, p3, _⟩ => ?_
    omega

/-- `graph_distance_matrix`, `graph_radius` and `graph_diameter`. -/
theorem C97_graph_distance_matrix {t : ITy} {ov : Int → Int → Int} {G result : Lil Int}
    (h : ¬ (G.nrows = G.ncols ∧ result.nrows = G.nrows ∧ result.ncols = G.ncols)) :
    graphDistanceMatrix t ov G result = .error (.err .dimension) := by
  rw [graphDistanceMatrix, if_pos (by omega)]

theorem C97_radius_diameter {t : ITy} {ov : Int → Int → Int} {G : Lil Int} (h : G.nrows ≠ G.ncols) :
    graphRadius t ov G = .error (.err .dimension) ∧ graphDiameter t ov G = .error (.err .dimension) := by
  have := C97_graph_distance_matrix (t := t) (ov := ov) (result := Lil.new G.nrows G.ncols)
    (fun x => h x.1)
  exact ⟨by rw [graphRadius, this]; rfl, by rw [graphDiameter, this]; rfl⟩

/-! ### Triangles and trusses -/

/-- `triangle_count(graph)`. -/
theorem C97_triangle_count {t : ITy} {ov : Int → Int → Int} {G : Lil Int} (hG : G.WF)
    (h : G.nrows ≠ G.ncols) : Throws (triangleCount t ov G) := by
  apply Ends.throws
  unfold triangleCount
  obtain ⟨L, U, e, hL, hU, l1, l2, u1, u2, -⟩ := C41_split G (Lil.new G.nrows G.ncols) (Lil.new G.nrows G.ncols)
    hG (Lil.new_wf _ _) (Lil.new_wf _ _) ⟨rfl, rfl⟩ ⟨rfl, rfl⟩ (fun _ _ => Lil.get_new ..) (fun _ _ => Lil.get_new ..)
  rw [e]
  refine (MCall.ends (.mxm _ id (.plain L) (.plain U)) (MOut.WF.of0 (o := mPlain id (Lil.new G.nrows G.ncols))
    (Lil.new_wf _ _) rfl) ⟨hL, hU⟩).bind fun _ ⟨_, _, _, _, m⟩ => ?_
  simp only [MCall.Accepts, mPlain, Lil.new, Operand.nrows, Operand.ncols] at m
  omega

/-- `triangle_count_masked(L, U)`: the second part must be square and fit the columns of the first. -/
theorem C97_triangle_masked {t : ITy} {ov : Int → Int → Int} {L U : Lil Int} (hL : L.WF) (hU : U.WF)
    (h : ¬ (U.nrows = L.ncols ∧ U.ncols = L.ncols)) : Throws (triangleCountMasked t ov L U) := by
  apply Ends.throws
  unfold triangleCountMasked
  refine (MCall.ends (.mxm _ id (.plain L) (.plain U)) (MOut.WF.of1 (o := byL (Lil.new L.nrows L.ncols) L)
    (Lil.new_wf _ _) rfl hL) ⟨hL, hU⟩).bind fun _ ⟨_, _, _, _, m⟩ => ?_
  simp only [MCall.Accepts, byL, Lil.new, Operand.nrows, Operand.ncols] at m
  omega

/-- The counts on the lower half alone. -/
theorem C97_triangle_lower {t : ITy} {ov : Int → Int → Int} {L : Lil Int} (hL : L.WF)
    (h : L.nrows ≠ L.ncols) : Throws (triangleCountMaskedT t ov L) ∧ Throws (triangleCountMaskedNoT t ov L) ∧
      Throws (triangleCountB7 ov L) := by
  refine ⟨?_, ?_, ?_⟩ <;> apply Ends.throws
  · unfold triangleCountMaskedT
    refine (MCall.ends (.mxm _ id (.plain L) (.tr L)) (MOut.WF.of1 (o := byL (Lil.new L.nrows L.ncols) L)
      (Lil.new_wf _ _) rfl hL) ⟨hL, hL⟩).bind fun _ ⟨_, _, _, _, m⟩ => ?_
    simp only [MCall.Accepts, byL, Lil.new, Operand.nrows, Operand.ncols] at m
    omega
  · unfold triangleCountMaskedNoT
    refine (MCall.ends (.mxm _ id (.plain L) (.plain L)) (MOut.WF.of1 (o := byL (Lil.new L.nrows L.ncols) L)
      (Lil.new_wf _ _) rfl hL) ⟨hL, hL⟩).bind fun _ ⟨_, _, _, _, m⟩ => ?_
    simp only [MCall.Accepts, byL, Lil.new, Operand.nrows, Operand.ncols] at m
    omega
  · unfold triangleCountB7
    refine (MCall.ends (.mxm _ id (.plain L) (.tr L)) (MOut.WF.of1 (o := byL (Lil.new L.nrows L.nrows) L)
      (Lil.new_wf _ _) rfl hL) ⟨hL, hL⟩).bind fun _ ⟨_, _, _, m, _⟩ => ?_
    have := m.shape
    simp only [byL, Lil.new] at this
    omega

/-- `triangle_count_newGBTL(L, U)`. -/
theorem C97_triangle_new {t : ITy} {ov : Int → Int → Int} {L U : Lil Int} (hL : L.WF) (hU : U.WF)
    (h : ¬ (L.nrows = L.ncols ∧ U.nrows = L.nrows ∧ U.ncols = L.nrows)) :
    Throws (triangleCountNew t ov L U) := by
  apply Ends.throws
  unfold triangleCountNew sumInto
  refine (MCall.ends (.mxm _ id (.plain L) (.plain U)) (MOut.WF.of0 (o := mPlain id (Lil.new L.nrows L.ncols))
    (Lil.new_wf _ _) rfl) ⟨hL, hU⟩).bind fun B ⟨b1, b2, b3, _, m⟩ => ?_
  refine (MCall.ends (.eWiseMult _ (.plain L) (.plain B)) (MOut.WF.of0 (o := plainReplace (Lil.new L.nrows L.ncols))
    (Lil.new_wf _ _) rfl) ⟨hL, b1⟩).bind fun C ⟨c1, c2, c3, _, m2⟩ => ?_
  refine Ends.bind (Q := fun _ => True) ?_ fun sum _ => ?_
  · exact reduceMS_ends c1
  refine (MCall.ends (.eWiseMult _ (.plain U) (.plain B)) (MOut.WF.of0 (o := plainReplace C)
    c1 rfl) ⟨hU, b1⟩).bind fun _ ⟨_, _, _, _, m3⟩ => ?_
  simp only [MCall.Accepts, plainReplace, mPlain, Lil.new, Operand.nrows, Operand.ncols] at *
  omega

/-- `k_truss2`. -/
theorem C97_k_truss {t : ITy} {ov : Int → Int → Int} {fuel : Nat} {A : Lil Int} {k : Nat} (hA : A.WF)
    (h : A.nrows ≠ A.ncols) : Throws (kTruss2 t ov fuel A k) := by
  apply Ends.throws
  unfold kTruss2
  refine Ends.bind (Q := fun _ => False) ?_ fun _ h => h.elim
  unfold trussBody
  refine (MCall.ends (.mxm _ id (.tr A) (.plain A)) (MOut.WF.of1 (o := supportOut
    ⟨A, Lil.new A.ncols A.ncols, Lil.new A.ncols A.ncols, 0, A.nvals⟩) (Lil.new_wf _ _) rfl hA)
    ⟨hA, hA⟩).bind fun _ ⟨_, _, _, m, _⟩ => ?_
  have := m.shape
  simp only [supportOut, Lil.new] at this
  omega

/-! ### Independent sets, spanning trees, clusterings, ranks -/

/-- `mis`. -/
theorem C97_mis [Inhabited δ] [Inhabited ρ] {fuel : Nat} {R : MisTy α δ ρ} {G : Lil α}
    {draw : Nat → Nat → ρ} {iset : BVec Bool} (h : ¬ (G.nrows = G.ncols ∧ iset.size = G.nrows)) :
    mis fuel R G draw iset = .error (.err .dimension) := by
  rw [mis, if_pos (by omega)]

/-- `mis_appendixB6`: a set of another size. -/
theorem C97_mis_B6_set [Inhabited δ] [Inhabited ρ] {fuel : Nat} {R : MisTy α δ ρ} {G : Lil α}
    {draw : Nat → Nat → ρ} {iset : BVec Bool} (hG : G.WF) (hi : iset.WF) (h : iset.size ≠ G.nrows) :
    Throws (misB6 fuel R G draw iset) := by
  apply Ends.throws
  unfold misB6
  refine (BVec.new_ends _).bind fun _ _ => (BVec.new_ends _).bind fun _ _ => (BVec.new_ends _).bind
    fun _ _ => (BVec.new_ends _).bind fun _ _ => (BVec.new_ends _).bind fun cand ⟨c1, c2, _⟩ => ?_
  refine (BVec.new_ends _).bind fun deg ⟨d1, d2, _⟩ => ?_
  refine (VCall.ends (.reduce ⟨fun x y => R.plus (R.toD x) (R.toD y), fun t y => R.plus t (R.toD y), R.plus, R.toD⟩
    (.plain G)) (VOut.WF.of0 (o := vPlain id deg) d1 rfl) ⟨hG, fun _ _ => rfl⟩).bind fun deg' ⟨e1, e2, _⟩ => ?_
  refine (VCall.ends (.assignConst id true .all) (VOut.WF.of1 (o := vMasked id cand .plain R.dtrue deg' .merge)
    c1 rfl e1) trivial).bind fun _ _ => ?_
  refine (VCall.ends (.assignConst id true .all) (VOut.WF.of1 (o := vMasked id iset .comp R.dtrue deg' .replace)
    hi rfl e1) trivial).bind fun _ ⟨_, _, m, _⟩ => ?_
  have := m.size
  simp only [vMasked, vPlain] at this e2
  omega

/-- `mst`. -/
theorem C97_mst {fuel : Nat} {t : ITy} {ov : Int → Int → Int} {G : Lil Int} {parents : BVec Nat}
    (h : ¬ (G.nrows = G.ncols ∧ parents.size = G.nrows)) :
    mst fuel t ov G parents = .error (.err .dimension) := by
  rw [mst, if_pos (by omega)]

/-- `peer_pressure_cluster` with an initial clustering and `peer_pressure_cluster_v2`. -/
theorem C97_peer_pressure {conv : α → Rat} {G : Lil α} {C : Lil Bool} {maxIters : Nat}
    (h : ¬ (G.nrows = G.ncols ∧ C.nrows = G.nrows ∧ C.ncols = G.ncols)) :
    peerPressure conv G C maxIters = .error (.err .dimension) ∧
    peerPressureV2 conv G C maxIters = .error (.err .dimension) := by
  by_cases h1 : G.nrows = G.ncols
  · have h2 : G.nrows ≠ C.nrows ∨ G.ncols ≠ C.ncols := by omega
    exact ⟨by rw [peerPressure, if_neg (by omega), if_pos h2], by rw [peerPressureV2, if_neg (by omega), if_pos h2]⟩
  · exact ⟨by rw [peerPressure, if_pos h1], by rw [peerPressureV2, if_pos h1]⟩

/-- `page_rank`. -/
theorem C97_page_rank {conv : α → Rat} {size : Rat} {G : Lil α} {rank : BVec Rat} {d threshold : Rat}
    {maxIters : Nat} (h : ¬ (G.nrows = G.ncols ∧ rank.size = G.nrows)) :
    pageRank conv size G rank d threshold maxIters = .error (.err .dimension) := by
  rw [pageRank, if_pos (by omega)]

/-- `markov_cluster` and the Louvain clusterings. -/
theorem C97_markov {conv : α → Rat} {G : Lil α} {e r : Nat} {threshold : Rat} {maxIters : Nat}
    (h : G.nrows ≠ G.ncols) : markovCluster conv G e r threshold maxIters = .error (.err .dimension) := by
  rw [markovCluster, if_pos h]

theorem C97_louvain {masked : Bool} {rnd : Nat → Rat} {fuel : Nat} {G : Lil Rat} {maxIters : Nat}
    (h : G.nrows ≠ G.ncols) : louvain masked rnd fuel G maxIters = .error (.err .dimension) := by
  rw [louvain, if_pos h]

/-- `get_louvain_cluster_assignments`. -/
theorem C97_louvain_assignments {C : Lil Bool} (hC : C.WF) (h : C.nrows ≠ C.ncols) :
    Throws (louvainAssignments C) := by
  apply Ends.throws
  unfold louvainAssignments
  refine (BVec.new_ends _).bind fun w ⟨w1, w2, _⟩ => ?_
  refine (BVec.new_ends _).bind fun ix ⟨i1, i2, _⟩ => ?_
  refine (Ends.forP (fun r : BVec Nat => r.WF ∧ r.size = C.nrows) ⟨i1, i2⟩ fun i r _ ⟨r1, r2⟩ =>
    (BVec.setElement_ends r1 i i).mono fun _ ⟨q1, q2, _⟩ => ⟨q1, q2.trans r2⟩).bind fun ix ⟨j1, j2⟩ => ?_
  refine (VCall.ends (.mxv _ (.plain C) ix) (VOut.WF.of0 (o := vPlain id w) w1 rfl) ⟨hC, j1⟩).mono
    fun _ ⟨_, _, _, m⟩ => ?_
  simp only [VCall.Accepts, vPlain, Operand.nrows, Operand.ncols] at m
  omega

/-! ### Betweenness -/

/-- The batches of sources: an empty batch, a graph that is not square, a source that is not
a vertex. -/
theorem C97_betweenness_batch {fuel : Nat} {ov : Int → Int → Int} {gI : α → Int} {gF : α → Rat} {A : Lil α}
    {s : List Nat} (hA : A.WF) (h : ¬ (s ≠ [] ∧ A.nrows = A.ncols ∧ ∀ v, v ∈ s → v < A.nrows)) :
    Throws (bcBatch fuel ov gI gF A s) ∧ Throws (bcAlt fuel ov gI gF A s) ∧
    Throws (bcAltTrans fuel ov gI gF A s) ∧ Throws (bcAltTransV2 fuel ov gI gF A s) ∧
    Throws (bcOld fuel ov gI gF A s) := by
  have key : ∀ {β : Type} {p : Prog β}, (A.nrows = A.ncols → (∃ v, v ∈ s ∧ ¬ v < A.ncols) → Ends p fun _ => False) →
      Throws (if s.length = 0 then .error (.err .dimension)
        else if A.nrows ≠ A.ncols then .error (.err .dimension) else p) := by
    intro β p hp
    apply Ends.throws
    split
    · exact Ends.err (by simp)
    · next h0 =>
      split
      · exact Ends.err (by simp)
      · next h1 =>
        have h1 : A.nrows = A.ncols := Decidable.not_not.1 h1
        refine hp h1 ?_
        apply Classical.byContradiction
        intro hv
        exact h ⟨fun e => h0 (by rw [e]; rfl), h1, fun v hm => Classical.byContradiction fun hn =>
          hv ⟨v, hm, h1 ▸ hn⟩⟩
  exact ⟨key fun _ hv => (bcBuild_ends_rows hv).bind fun _ h => h.elim,
    key fun _ hv => (MCall.ends (.extract (.tr A) .all (.list s)) (MOut.WF.of0
      (o := mWhole gI (Lil.new A.ncols s.length) .merge) (Lil.new_wf _ _) rfl) hA).bind fun _ _ =>
      (bcBuild_ends_rows hv).bind fun _ h => h.elim,
    key fun _ hv => (MCall.ends (.extract (.plain A) (.list s) .all) (MOut.WF.of0
      (o := mWhole gI (Lil.new s.length A.ncols) .merge) (Lil.new_wf _ _) rfl) hA).bind fun _ _ =>
      (bcBuild_ends_cols hv).bind fun _ h => h.elim,
    key fun _ hv => (MCall.ends (.extract (.plain A) (.list s) .all) (MOut.WF.of0
      (o := mWhole gI (Lil.new s.length A.ncols) .merge) (Lil.new_wf _ _) rfl) hA).bind fun _ _ =>
      (bcBuild_ends_cols hv).bind fun _ h => h.elim,
    key fun _ hv => (bcBuild_ends_cols hv).bind fun _ h => h.elim⟩

/-- `vertex_betweenness_centrality` and `edge_betweenness_centrality`. -/
theorem C97_betweenness {T : Type} [Inhabited T] {fuel : Nat} {o : BcOps T} {A : Lil T}
    (h : A.nrows ≠ A.ncols) : vbc fuel o A = .error (.err .dimension) := by
  rw [vbc, if_pos h]

theorem C97_edge_betweenness {T : Type} [Inhabited T] {fuel : Nat} {o : EbcOps T} {A : Lil T}
    (h : A.nrows ≠ A.ncols) : ebc fuel o A = .error (.err .dimension) := by
  rw [ebc, if_pos h]

/-- `BC_appendixB4`: a graph that is not square, or a source that is not a vertex. -/
theorem C97_betweenness_B4 {fuel : Nat} {ov : Int → Int → Int} {gI : α → Int} {gF : α → Rat} {delta : BVec Rat}
    {A : Lil α} {src : Nat} (hA : A.WF) (h : ¬ (A.nrows = A.ncols ∧ src < A.nrows)) :
    Throws (bcB4 fuel ov gI gF delta A src) := by
  apply Ends.throws
  unfold bcB4
  refine (BVec.new_ends _).bind fun q ⟨h1, h2, _⟩ => ?_
  refine (BVec.setElement_ends h1 src 1).bind fun q ⟨w1, w2, w3, w4⟩ => ?_
  refine Ends.bind (Q := fun _ => False) ?_ fun _ h => h.elim
  unfold b4Step
  refine (VCall.ends (.vxm _ q (.plain A)) (VOut.WF.of1 (o := vMasked id q .comp nonzero q .replace) w1 rfl w1)
    ⟨w1, hA⟩).mono fun _ ⟨_, _, _, m4, m5⟩ => ?_
  simp only [vMasked, Operand.nrows, Operand.ncols] at m4 m5
  omega

/-! ### Flows -/

/-- `maxflow_ford_fulk`: a source or a sink that is not a vertex. -/
theorem C97_ford_fulkerson_vertices {fuel : Nat} {t : ITy} {ov : Int → Int → Int} {G : Lil Int}
    {source sink : Nat} (h : ¬ (source < G.nrows ∧ sink < G.nrows)) :
    Throws (maxflowFordFulk fuel t ov G source sink) := by
  apply Ends.throws
  unfold maxflowFordFulk
  dsimp only
  by_cases hn : G.nrows = 0
  · rw [BVec.new, if_pos hn]
    exact Ends.err (by simp)
  obtain ⟨r0, r, e1, e2, -⟩ := ramp_spec hn
  rw [e1, lift_ok, prog_bind_ok, e2, method_ok, lift_ok, prog_bind_ok]
  refine Ends.bind (Q := fun _ => False) ?_ fun _ h => h.elim
  unfold ffCond
  refine Ends.bind (Q := fun _ => False) ?_ fun _ h => h.elim
  unfold maxflowBfs
  refine (BVec.new_ends _).bind fun p ⟨h1, h2, _⟩ => ?_
  refine (BVec.setElement_ends h1 source _).bind fun p ⟨p1, p2, p3, p4⟩ => ?_
  refine (BVec.new_ends _).bind fun w ⟨w1, w2, _⟩ => ?_
  refine (BVec.setElement_ends w1 source _).bind fun w ⟨v1, v2, v3, v4⟩ => ?_
  refine (BVec.hasElement_ends p1 sink).bind fun _ ⟨_, hs⟩ => ?_
  dsimp only at *
  omega

/-- `maxflow_ford_fulk`: a graph that is not square. -/
theorem C97_ford_fulkerson {fuel : Nat} {t : ITy} {ov : Int → Int → Int} {G : Lil Int}
    {source sink : Nat} (hf : 0 < fuel) (hne : source ≠ sink) (h : G.nrows ≠ G.ncols) :
    Throws (maxflowFordFulk fuel t ov G source sink) := by
  apply Ends.throws
  unfold maxflowFordFulk
  dsimp only
  by_cases hn : G.nrows = 0
  · rw [BVec.new, if_pos hn]
    exact Ends.err (by simp)
  obtain ⟨r0, r, e1, e2, r1, r2, -⟩ := ramp_spec hn
  rw [e1, lift_ok, prog_bind_ok, e2, method_ok, lift_ok, prog_bind_ok]
  refine Ends.bind (Q := fun _ => False) ?_ fun _ h => h.elim
  unfold ffCond
  refine Ends.bind (Q := fun _ => False) ?_ fun _ h => h.elim
  unfold maxflowBfs
  obtain ⟨p0, ep, h1, h2, h3⟩ := BVec.new_spec (α := Nat) hn
  rw [ep, lift_ok, prog_bind_ok]
  by_cases hs : source < G.nrows
  · obtain ⟨p, eq, p1, p2, p3⟩ := BVec.setElement_spec h1 (h2.symm ▸ hs) source
    rw [eq, method_ok, lift_ok, prog_bind_ok]
    refine (BVec.new_ends _).bind fun w ⟨w1, w2, _⟩ => ?_
    refine (BVec.setElement_ends w1 source _).bind fun w ⟨v1, v2, v3, v4⟩ => ?_
    refine (BVec.hasElement_ends p1 sink).bind fun _ ⟨_, hk⟩ => ?_
    refine Ends.loop_bind hf ?_ ?_
    · rw [searching, BVec.hasElement_spec p1 hk, p3, if_neg (Ne.symm hne), h3]
      exact decide_eq_true (BVec.nvals_pos v1 v4)
    · unfold searchBody
      refine (VCall.ends (.eWiseMult _ r w) (VOut.WF.of0 (o := vPlain id w) v1 rfl) ⟨r1, v1⟩).bind
        fun _ ⟨_, _, _, e4⟩ => ?_
      dsimp only [VCall.Accepts, vPlain] at *
      omega
  · rw [BVec.setElement, if_pos (by omega)]
    exact Ends.err (by simp)

/-- `maxflow_push_relabel`: a source that is not a vertex. -/
theorem C97_push_relabel_source {fuel : Nat} {t : ITy} {ov : Int → Int → Int} {C : Lil Int}
    {source sink : Nat} (h : ¬ source < C.nrows) :
    Throws (maxflowPushRelabel fuel t ov C source sink) := by
  apply Ends.throws
  unfold maxflowPushRelabel
  refine (BVec.new_ends _).bind fun p ⟨h1, h2, _⟩ => (BVec.new_ends _).bind fun _ _ =>
    (BVec.new_ends _).bind fun _ _ => ?_
  refine (BVec.setElement_ends h1 source _).bind fun _ ⟨_, _, p3, _⟩ => ?_
  omega

/-! ### Calls with arguments that do not fit -/

namespace Ex

variable (L : LevTy Int) (g : Int → Bool) (ov : Int → Int → Int) (t : ITy) (gI : Int → Int) (gF : Int → Rat)

example : Throws (bfsB1 5 g edgeI 2 L two) := C97_bfs_B1 edgeI_wf two_wf (by decide)
example : Throws (bfsB2 5 g wideI 0 L two) := C97_bfs_B2 wideI_wf two_wf (by decide)
example : Throws (bfsB3 5 wideI 0 noTwo) := C97_bfs_B3 wideI_wf noTwo_wf (by decide) (by decide)
example : sssp t ov edgeI three = .error (.err .dimension) := (C97_sssp (by decide)).1
example : batchSssp t ov wideI rowTwo = .error (.err .dimension) := C97_batch_sssp (by decide)
example : apsp t ov wideI = .error (.err .dimension) := C97_apsp (by decide)
example : Throws (deltaStep 5 t ov edgeI 1 2 two) := C97_delta_step edgeI_wf (by decide)
example : Throws (graphDistance t ov edgeI 2 two) := C97_graph_distance two_wf (by decide)
example : Throws (closenessCentrality t ov edgeI 2) := C97_closeness (by decide)
example : Throws (vertexEccentricity t ov edgeI 2) := C97_vertex_eccentricity (by decide)
example : graphDistanceMatrix t ov edgeI wideI = .error (.err .dimension) := C97_graph_distance_matrix (by decide)
example : graphRadius t ov wideI = .error (.err .dimension) := (C97_radius_diameter (by decide)).1
example : Throws (triangleCount t ov wideI) := C97_triangle_count wideI_wf (by decide)
example : Throws (triangleCountMasked t ov edgeI wideI) := C97_triangle_masked edgeI_wf wideI_wf (by decide)
example : Throws (triangleCountB7 ov wideI) := (C97_triangle_lower (t := .i32) wideI_wf (by decide)).2.2
example : Throws (triangleCountNew t ov edgeI wideI) := C97_triangle_new edgeI_wf wideI_wf (by decide)
example : Throws (kTruss2 t ov 5 wideI 3) := C97_k_truss wideI_wf (by decide)
example (R : MisTy Int Int Int) : mis 5 R edgeI (fun _ _ => 1) ⟨3, 0, [false, false, false], [false, false, false]⟩
    = .error (.err .dimension) := C97_mis (by decide)
example (R : MisTy Int Int Int) : Throws (misB6 5 R edgeI (fun _ _ => (1 : Int))
    ⟨3, 0, [false, false, false], [false, false, false]⟩) := C97_mis_B6_set edgeI_wf ⟨rfl, rfl, rfl⟩ (by decide)
example : mst 5 t ov wideI noTwo = .error (.err .dimension) := C97_mst (by decide)
example : peerPressure gF edgeI ⟨2, 3, 0, [[], []]⟩ 5 = .error (.err .dimension) := (C97_peer_pressure (by decide)).1
example : pageRank gF 2 wideI ⟨2, 0, [0, 0], [false, false]⟩ 1 1 5 = .error (.err .dimension) :=
  C97_page_rank (by decide)
example : markovCluster gF wideI 2 2 1 5 = .error (.err .dimension) := C97_markov (by decide)
example : louvain true (fun _ => 0) 5 ⟨2, 3, 0, [[], []]⟩ 5 = .error (.err .dimension) := C97_louvain (by decide)
example : Throws (louvainAssignments ⟨2, 3, 0, [[], []]⟩) :=
  C97_louvain_assignments (Lil.wf_chk (by decide +kernel)) (by decide)
example : Throws (bcBatch 5 ov gI gF edgeI [0, 2]) := (C97_betweenness_batch edgeI_wf (by decide)).1
example : Throws (bcOld 5 ov gI gF edgeI []) := (C97_betweenness_batch edgeI_wf (by decide)).2.2.2.2
example (o : BcOps Int) : vbc 5 o wideI = .error (.err .dimension) := C97_betweenness (by decide)
example (o : EbcOps Int) : ebc 5 o wideI = .error (.err .dimension) := C97_edge_betweenness (by decide)
example (d : BVec Rat) : Throws (bcB4 5 ov gI gF d edgeI 2) := C97_betweenness_B4 edgeI_wf (by decide)
example : Throws (maxflowFordFulk 5 t ov edgeI 0 2) := C97_ford_fulkerson_vertices (by decide)
example : Throws (maxflowFordFulk 5 t ov wideI 0 1) := C97_ford_fulkerson (by decide) (by decide) (by decide)
example : Throws (maxflowPushRelabel 5 t ov edgeI 2 1) := C97_push_relabel_source (by decide)

end Ex

end GBTL

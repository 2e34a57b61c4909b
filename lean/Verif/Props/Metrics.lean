import Verif.Model.Metrics
import Verif.Props.Apsp
import Verif.Lemmas.Triangle
/-
C47: distances, eccentricity, radius, diameter and far-ness (`metrics.hpp`).
-/
namespace GBTL
open Spec

/-! ### reductions -/

theorem ofold_osum {f : Int → Int → Int} (l : List (Option Int)) : ofold id f l = osum f l := by
  unfold ofold osum
  congr 1
  funext a b
  cases a <;> cases b <;> rfl

theorem ITy.maxT_eq {t : ITy} {x y : Int} (hx : t.Has x) (hy : t.Has y) : t.maxT x y = max x y := by
  rw [ITy.maxT, (run_max hx hy).1]; rfl

theorem ITy.has_max2 {t : ITy} {x y : Int} (hx : t.Has x) (hy : t.Has y) : t.Has (max x y) := (run_max hx hy).2

theorem osum_maxT {t : ITy} {n : Nat} {f : Nat → Option Int} (hf : ∀ k x, k < n → f k = some x → t.Has x)
    {x : Int} (h : osum t.maxT ((List.range n).map f) = some x) :
    t.Has x ∧ (∃ k, k < n ∧ f k = some x) ∧ ∀ k y, k < n → f k = some y → y ≤ x := by
  obtain ⟨h1, h2⟩ := osum_swap (P := t.Has) (add := t.maxT) (add' := max)
    (fun x y hx hy => by rw [ITy.maxT_eq hx hy]; exact ITy.has_max2 hx hy)
    (fun x y hx hy => ITy.maxT_eq hx hy) hf
  refine ⟨h2 x h, ?_⟩
  rw [h1] at h
  exact osum_best (le := fun x y : Int => y ≤ x) (fun _ => Int.le_refl _)
    (fun _ _ _ h1 h2 => Int.le_trans h2 h1) (fun x y => ⟨by omega, by omega, by omega⟩) h

theorem osum_minT {t : ITy} {n : Nat} {f : Nat → Option Int} (hf : ∀ k x, k < n → f k = some x → t.Has x)
    {x : Int} (h : osum t.minT ((List.range n).map f) = some x) :
    (∃ k, k < n ∧ f k = some x) ∧ ∀ k y, k < n → f k = some y → x ≤ y := by
  obtain ⟨h1, -⟩ := osum_swap (P := t.Has) (add := t.minT) (add' := min)
    (fun x y hx hy => by rw [ITy.minT_eq hx hy]; exact ITy.has_min2 hx hy)
    (fun x y hx hy => ITy.minT_eq hx hy) hf
  rw [h1] at h
  exact osum_min x h

theorem reduceInto_eq {f : Int → Int → Int} {e val : Int} {u : BVec Int} (hu : u.WF) :
    reduceInto ⟨f, f, f, id⟩ e val u = .ok ((osum f ((List.range u.size).map u.get)).getD e) := by
  have h := reduceVec_spec (op := f) (op' := f) (cast1 := id) (fun _ _ => rfl) e hu
  rw [ofold_osum] at h
  unfold reduceInto reduceVS
  simp only [h]
  rfl

/-- Reducing the matrix: an invariant of the loop over the rows. -/
theorem reduceMat_inv {f : Int → Int → Int} {e : Int} {A : Lil Int} (hA : A.WF) (I : Nat → Int → Prop)
    (h0 : I 0 e) (hnone : ∀ i x, i < A.nrows → I i x →
      osum f ((List.range A.ncols).map (A.get i)) = none → I (i + 1) x)
    (hsome : ∀ i x y, i < A.nrows → I i x →
      osum f ((List.range A.ncols).map (A.get i)) = some y → I (i + 1) (f x y)) :
    ∃ x, reduceMat f f f id e A = .ok x ∧ I A.nrows x := by
  unfold reduceMat
  split
  · obtain ⟨x, e1, h⟩ := forN_inv (n := A.nrows) (s := e)
      (body := fun i t => do
        let a ← A.row i
        if !a.isEmpty then .ok (reduceStep f t (reduction f f id id a)) else .ok t) I h0 (by
        intro i x hi hx
        simp only [hA.row_ok hi, Except.bind_ok']
        have hred := reduction_spec (op := f) (op' := f) (cast1 := id) (fun _ _ => rfl) (hA.rowD_ok i)
        rw [show Row.get (A.rowD i) = A.get i from rfl, ofold_osum] at hred
        cases hr : A.rowD i with
        | nil =>
          rw [hr] at hred
          exact ⟨_, rfl, hnone i x hi hx hred.symm⟩
        | cons p r =>
          rw [hr] at hred
          refine ⟨_, rfl, ?_⟩
          cases hy : reduction f f id id (p :: r) with
          | none => rw [hy] at hred; exact hnone i x hi hx hred.symm
          | some y => rw [hy] at hred; exact hsome i x y hi hx hred.symm)
    exact ⟨x, e1, h⟩
  · rename_i hz
    refine ⟨e, rfl, ?_⟩
    have : ∀ i, i ≤ A.nrows → I i e := by
      intro i
      induction i with
      | zero => exact fun _ => h0
      | succ i ih =>
        intro hi
        refine hnone i e (by omega) (ih (by omega)) ?_
        rw [osum_range_none]
        intro k _
        exact Lil.WF.get_none_of_nvals hA (by omega) i k
    exact this _ (Nat.le_refl _)

/-! ### distances -/

/-- Arguments of the functions on one source vertex: a consistent square graph, weights
of the scalar type, and no walk from `s` of at most as many edges as there are vertices
has a weight that is not a value of the type. -/
structure FromInput (t : ITy) (G : Lil Int) (s : Nat) : Prop where
  graph : G.WF
  square : G.ncols = G.nrows
  size : G.nrows < 2 ^ 64
  vertex : s < G.nrows
  weights : ∀ u v w, G.get u v = some w → t.Has w
  walks : WalksWithin G.get (source s) G.nrows t.Has

theorem dist_source {W : Mat Int} {s : Nat} (hc : ¬ NegCycle W (source s)) : IsDist W (source s) s 0 := by
  have h0 : WWalk W (source s) 0 s 0 := by simp [WWalk, Spec.source]
  refine ⟨⟨0, h0⟩, ?_⟩
  intro k x h
  apply Classical.byContradiction
  intro hx
  exact hc ⟨s, ⟨0, 0, h0⟩, k, x, h, by omega⟩

theorem IsDist.unique {W : Mat Int} {S : Vec Int} {v : Nat} {x y : Int} (hx : IsDist W S v x) (hy : IsDist W S v y) :
    x = y := by
  obtain ⟨⟨k, h1⟩, h2⟩ := hx
  obtain ⟨⟨l, h3⟩, h4⟩ := hy
  have := h2 _ _ h3
  have := h4 _ _ h1
  omega

/-- The distances from one vertex are values of the scalar type. -/
theorem has_dist {t : ITy} {W : Mat Int} {s n : Nat} (hs : s < n) (hW : ∀ u v, W u v ≠ none → u < n ∧ v < n)
    (hc : ¬ NegCycle W (source s)) (h : WalksWithin W (source s) n t.Has) {v : Nat} {x : Int}
    (hx : IsDist W (source s) v x) : v < n ∧ t.Has x := by
  have hn : Verts W (source s) n := by
    refine ⟨?_, hW⟩
    intro v hv
    unfold Spec.source at hv
    split at hv
    · omega
    · exact absurd rfl hv
  obtain ⟨⟨k, hk⟩, hmin⟩ := hx
  obtain ⟨k', x', hk', -, hle, hw'⟩ := WWalk.shorten hn hc k v x hk
  have := hmin _ _ hw'
  have e : x' = x := by omega
  subst e
  exact ⟨WWalk.lt hn hk, h k' v x' (by omega) hw'⟩

theorem sssp_from {t : ITy} {ov : Int → Int → Int} {G : Lil Int} {s : Nat} (h : FromInput t G s)
    (hc : ¬ NegCycle G.get (source s)) {r : BVec Int} (hr : r.WF) (hsz : r.size = G.nrows)
    (hempty : ∀ v, r.get v = none) :
    ∃ w d, r.setElement s 0 = (.ok (), w) ∧ sssp t ov G w = .ok (true, d) ∧ d.WF ∧ d.size = G.nrows ∧
      ∀ v, (d.get v = none ↔ ¬ WReach G.get (source s) v) ∧
        ∀ x, d.get v = some x ↔ IsDist G.get (source s) v x := by
  obtain ⟨w, e, w1, w2, w3⟩ := BVec.setElement_spec hr (i := s) (by rw [hsz]; exact h.vertex) 0
  have hw : w.get = source s := by
    funext v
    rw [w3, hempty]
    rfl
  have hin : PathInput t G w := by
    refine ⟨h.graph, w1, by omega, by rw [h.square]; omega, by rw [w2, hsz]; exact h.size, h.weights, ?_⟩
    rw [hw, w2, hsz]; exact h.walks
  obtain ⟨d, e2, d1, d2, d3⟩ := C34_sssp (ov := ov) hin (by have := h.vertex; omega) (by rw [hw]; exact hc)
  rw [hw] at d3
  exact ⟨w, d, e, e2, d1, by omega, d3⟩

/-- **C47**, `graph_distance`: on a graph without a negative cycle reachable from `sid`,
`result(v)` becomes the minimum weight over all walks from `sid` to `v`, nothing if there
is none, whatever `result` held before. -/
theorem C47_graph_distance {t : ITy} {ov : Int → Int → Int} {G : Lil Int} {sid : Nat} {result : BVec Int}
    (h : FromInput t G sid) (hr : result.WF) (hs : result.size = G.nrows)
    (hc : ¬ NegCycle G.get (source sid)) :
    ∃ d, graphDistance t ov G sid result = .ok d ∧ d.WF ∧ d.size = G.nrows ∧
      ∀ v, (d.get v = none ↔ ¬ WReach G.get (source sid) v) ∧
        ∀ x, d.get v = some x ↔ IsDist G.get (source sid) v x := by
  obtain ⟨w, d, e1, e2, h1, h2, h3⟩ := sssp_from (ov := ov) h hc (r := result.clear)
    (BVec.clear_wf hr.vlen) hs (fun v => BVec.get_clear _ _)
  refine ⟨d, ?_, h1, h2, h3⟩
  rw [graphDistance, if_neg (by rw [h.square]; omega), e1]
  show (sssp t ov G w >>= _) = _
  rw [e2]; rfl

/-- **C47**, the arguments `graph_distance` rejects: a graph that is not square, a
`result` of another size, and a vertex that does not exist. -/
theorem C47_graph_distance_rejects {t : ITy} {ov : Int → Int → Int} {G : Lil Int} {sid : Nat} {result : BVec Int} :
    (G.nrows ≠ G.ncols ∨ G.nrows ≠ result.size →
      graphDistance t ov G sid result = .error (.err .dimension)) ∧
    (G.nrows = G.ncols → G.nrows = result.size → G.nrows ≤ sid →
      graphDistance t ov G sid result = .error (.err .indexOutOfBounds)) := by
  constructor
  · intro h
    rw [graphDistance, if_pos h]
  · intro h1 h2 h3
    rw [graphDistance, if_neg (by omega), BVec.setElement, if_pos (by show result.size ≤ sid; omega)]
    rfl

/-- Arguments of the functions on all vertices. -/
structure AllInput (t : ITy) (G : Lil Int) : Prop where
  graph : G.WF
  square : G.ncols = G.nrows
  size : G.nrows < 2 ^ 64
  nonempty : 0 < G.nrows
  weights : ∀ u v w, G.get u v = some w → t.Has w
  walks : ∀ s, s < G.nrows → WalksWithin G.get (source s) G.nrows t.Has

theorem AllInput.at {t : ITy} {G : Lil Int} (h : AllInput t G) {s : Nat} (hs : s < G.nrows) : FromInput t G s :=
  ⟨h.graph, h.square, h.size, hs, h.weights, h.walks s hs⟩

theorem FromInput.edges {t : ITy} {G : Lil Int} {s : Nat} (h : FromInput t G s) (u v : Nat) (he : G.get u v ≠ none) :
    u < G.nrows ∧ v < G.nrows := by
  have := some_lt h.graph he
  rw [h.square] at this; exact this

theorem noNegAt {W : Mat Int} {s : Nat} (hc : ¬ HasNegCycle W) : ¬ NegCycle W (source s) :=
  fun ⟨v, _, k, c, h, hn⟩ => hc ⟨v, k, c, h, hn⟩

/-- **C47**, `graph_distance_matrix`: on a graph without negative cycles, the `(u,v)`
element of `result` becomes the minimum weight over all walks from `u` to `v`. -/
theorem C47_graph_distance_matrix {t : ITy} {ov : Int → Int → Int} {G result : Lil Int}
    (h : AllInput t G) (h1 : result.nrows = G.nrows) (h2 : result.ncols = G.nrows)
    (hc : ¬ HasNegCycle G.get) :
    ∃ D, graphDistanceMatrix t ov G result = .ok D ∧ D.WF ∧ D.nrows = G.nrows ∧ D.ncols = G.nrows ∧
      ∀ u v, u < G.nrows → (D.get u v = none ↔ ¬ WReach G.get (source u) v) ∧
        ∀ x, D.get u v = some x ↔ IsDist G.get (source u) v x := by
  obtain ⟨I, e0, i1, i2, i3, i4⟩ := C41_scaled_identity G.nrows (0 : Int)
  have ea : result.clear.assignFrom I = (.ok (), I) := by
    rw [Lil.assignFrom, if_neg (by
      show ¬ (result.nrows ≠ I.nrows ∨ result.ncols ≠ I.ncols)
      rw [i2, i3, h1, h2]; simp)]
    congr 1
    show (⟨result.nrows, result.ncols, I.nvals, I.rows⟩ : Lil Int) = I
    rw [h1, h2]
    calc (⟨G.nrows, G.nrows, I.nvals, I.rows⟩ : Lil Int) = ⟨I.nrows, I.ncols, I.nvals, I.rows⟩ := by rw [i2, i3]
      _ = I := rfl
  have hI : ∀ u, u < G.nrows → I.get u = source u := by
    intro u hu
    funext v
    rw [i4]
    unfold Spec.source
    by_cases e : v = u
    · subst e; simp [hu]
    · rw [if_neg (by omega), if_neg e]
  have hin : BatchInput t G I := by
    refine ⟨h.graph, i1, by omega, by rw [h.square]; omega, by rw [i3]; exact h.size, h.weights, ?_⟩
    intro r hr
    rw [hI r (by omega), i3]
    exact h.walks r (by omega)
  obtain ⟨b, d, e1, d1, d2, d3, d4, d5⟩ := C46_batch_sssp (ov := ov) hin (by have := h.nonempty; omega)
  refine ⟨d, ?_, d1, by omega, by omega, ?_⟩
  · rw [graphDistanceMatrix, if_neg (by rw [h.square]; omega), e0]
    show (lift (method (result.clear.assignFrom I)) >>= _) = _
    rw [ea]
    show (batchSssp t ov G I >>= _) = _
    rw [e1]; rfl
  · intro u v hu
    have := d5 u (by omega) (by rw [hI u hu]; exact noNegAt hc) v
    rwa [hI u hu] at this

/-- Wrong shapes are rejected, and by the metrics a graph that is not square. -/
theorem C47_wrong_shapes {t : ITy} {ov : Int → Int → Int} {G result : Lil Int} {v : Nat} :
    (G.nrows ≠ G.ncols ∨ result.nrows ≠ G.nrows ∨ result.ncols ≠ G.ncols →
      graphDistanceMatrix t ov G result = .error (.err .dimension)) ∧
    (G.nrows ≠ G.ncols → vertexEccentricity t ov G v = .error (.err .dimension) ∧
      graphRadius t ov G = .error (.err .dimension) ∧ graphDiameter t ov G = .error (.err .dimension)) := by
  refine ⟨fun h => by rw [graphDistanceMatrix, if_pos h], fun h => ⟨by rw [vertexEccentricity, if_pos h], ?_, ?_⟩⟩
  · rw [graphRadius, graphDistanceMatrix, if_pos (.inl h), prog_bind_error]
  · rw [graphDiameter, graphDistanceMatrix, if_pos (.inl h), prog_bind_error]

/-- **C47**, `vertex_eccentricity`: the largest distance from `vid` to a vertex that can
be reached from it. -/
theorem C47_vertex_eccentricity {t : ITy} {ov : Int → Int → Int} {G : Lil Int} {vid : Nat}
    (h : FromInput t G vid) (hc : ¬ NegCycle G.get (source vid)) :
    ∃ e, vertexEccentricity t ov G vid = .ok e ∧ IsEcc G.get vid e := by
  have hs := h.vertex
  obtain ⟨r, er, r1, r2, r3⟩ := BVec.new_spec (α := Int) (n := G.nrows) (by omega)
  obtain ⟨w, d, e1, e2, h1, h2, h3⟩ := sssp_from (ov := ov) h hc r1 r2 r3
  have h0 := ((h3 vid).2 0).2 (dist_source hc)
  have hrun : vertexEccentricity t ov G vid = .ok ((osum t.maxT ((List.range d.size).map d.get)).getD t.minVal) := by
    rw [vertexEccentricity, if_neg (by rw [h.square]; simp), er]
    show (lift (method (r.setElement vid 0)) >>= _) = _
    rw [e1]
    show (sssp t ov G w >>= _) = _
    rw [e2]
    exact reduceInto_eq h1
  rw [hrun]
  cases ho : osum t.maxT ((List.range d.size).map d.get) with
  | none =>
    have := osum_range_none.1 ho vid (by omega)
    rw [h0] at this; cases this
  | some x =>
    obtain ⟨-, ⟨k, hk, hx⟩, hmax⟩ := osum_maxT (fun k x _ hx =>
      (has_dist hs h.edges hc h.walks (((h3 k).2 x).1 hx)).2) ho
    refine ⟨x, rfl, ⟨k, ((h3 k).2 x).1 hx⟩, ?_⟩
    intro v y hy
    exact hmax v y (by rw [h2]; exact (has_dist hs h.edges hc h.walks hy).1) (((h3 v).2 y).2 hy)

/-- **C47**, `graph_radius`: the smallest eccentricity. -/
theorem C47_graph_radius {t : ITy} {ov : Int → Int → Int} {G : Lil Int}
    (h : AllInput t G) (hc : ¬ HasNegCycle G.get) :
    ∃ r, graphRadius t ov G = .ok r ∧ IsRadius G.get G.nrows r := by
  have hn := h.nonempty
  obtain ⟨D, e1, d1, d2, d3, d4⟩ := C47_graph_distance_matrix (ov := ov) (result := Lil.new G.nrows G.ncols) h rfl
    h.square hc
  obtain ⟨w, e2, w1, w2, w3⟩ := BVec.new_spec (α := Int) (n := G.nrows) (by omega)
  obtain ⟨w', e3, y⟩ := C16_reduce_rows_op (o := vPlain id w) (f := t.maxT) (c := id) (A := .plain D)
    (vPlain_wf w1) d1 ⟨vPlain_fits _, by show w.size = D.nrows; omega⟩
  obtain ⟨y1, y2, y3⟩ := plain_yields y
  have hHas : ∀ u, u < G.nrows → ∀ k x, D.get u k = some x → t.Has x := fun u hu k x hx =>
    (has_dist hu (h.at hu).edges (noNegAt hc) (h.walks u hu) (((d4 u k hu).2 x).1 hx)).2
  have hecc : ∀ u, u < G.nrows → ∃ x, w'.get u = some x ∧ t.Has x ∧ IsEcc G.get u x := by
    intro u hu
    rw [y3 u (by omega)]
    show ∃ x, (ofold id t.maxT ((List.range D.ncols).map (D.get u))).map id = some x ∧ _
    rw [ofold_osum]
    cases ho : osum t.maxT ((List.range D.ncols).map (D.get u)) with
    | none =>
      have := osum_range_none.1 ho u (by omega)
      rw [((d4 u u hu).2 0).2 (dist_source (noNegAt hc))] at this; cases this
    | some x =>
      obtain ⟨hx1, ⟨k, hk, hx⟩, hmax⟩ := osum_maxT (fun k x _ hx => hHas u hu k x hx) ho
      refine ⟨x, rfl, hx1, ⟨k, ((d4 u k hu).2 x).1 hx⟩, ?_⟩
      intro v y hy
      exact hmax v y (by rw [d3]; exact (has_dist hu (h.at hu).edges (noNegAt hc) (h.walks u hu) hy).1)
        (((d4 u v hu).2 y).2 hy)
  have huniq : ∀ u x y, IsEcc G.get u x → IsEcc G.get u y → x = y := by
    rintro u x y ⟨⟨a, ha⟩, hx⟩ ⟨⟨b, hb⟩, hy⟩
    have := hx _ _ hb
    have := hy _ _ ha
    omega
  have hrun : graphRadius t ov G = .ok ((osum t.minT ((List.range w'.size).map w'.get)).getD t.maxVal) := by
    rw [graphRadius, e1, prog_bind_ok, e2, lift_ok, prog_bind_ok,
      show redMax t = .of t.maxT id from rfl, e3, exec_done, prog_bind_ok]
    exact reduceInto_eq y1
  rw [hrun]
  cases ho : osum t.minT ((List.range w'.size).map w'.get) with
  | none =>
    obtain ⟨x, hx, -⟩ := hecc 0 (by omega)
    have := osum_range_none.1 ho 0 (by omega)
    rw [hx] at this; cases this
  | some x =>
    obtain ⟨⟨k, hk, hx⟩, hmin⟩ := osum_minT (t := t) (fun k x hk hx => by
      obtain ⟨z, hz, hh, -⟩ := hecc k (by omega)
      rw [hz] at hx; cases hx; exact hh) ho
    refine ⟨x, rfl, ⟨k, by omega, ?_⟩, ?_⟩
    · obtain ⟨z, hz, -, hh⟩ := hecc k (by omega)
      rw [hz] at hx; cases hx; exact hh
    · intro v e hv he
      obtain ⟨z, hz, -, hh⟩ := hecc v hv
      have := huniq v _ _ he hh
      subst this
      exact hmin v e (by omega) hz

/-- **C47**, `graph_diameter`: the largest eccentricity. -/
theorem C47_graph_diameter {t : ITy} {ov : Int → Int → Int} {G : Lil Int}
    (h : AllInput t G) (hc : ¬ HasNegCycle G.get) :
    ∃ r, graphDiameter t ov G = .ok r ∧ IsDiameter G.get G.nrows r := by
  have hn := h.nonempty
  obtain ⟨D, e1, d1, d2, d3, d4⟩ := C47_graph_distance_matrix (ov := ov) (result := Lil.new G.nrows G.ncols) h rfl
    h.square hc
  have hHas : ∀ u, u < G.nrows → ∀ k x, D.get u k = some x → t.Has x := fun u hu k x hx =>
    (has_dist hu (h.at hu).edges (noNegAt hc) (h.walks u hu) (((d4 u k hu).2 x).1 hx)).2
  have hmin : ∀ x, t.Has x → t.minVal ≤ x := fun x hx => hx.1
  obtain ⟨x, e2, hx1, hx2, hx3⟩ := reduceMat_inv (f := t.maxT) (e := t.minVal) d1
    (fun i x => t.Has x ∧ (∀ u v y, u < i → v < G.nrows → D.get u v = some y → y ≤ x) ∧
      (x = t.minVal ∨ ∃ u v, u < i ∧ D.get u v = some x))
    ⟨by cases t <;> decide, fun u v y hu => by omega, Or.inl rfl⟩
    (by
      rintro i x hi ⟨a1, a2, a3⟩ ho
      refine ⟨a1, ?_, ?_⟩
      · intro u v y hu hv hy
        by_cases e : u < i
        · exact a2 u v y e hv hy
        · have : u = i := by omega
          subst this
          rw [osum_range_none.1 ho v (by omega)] at hy; cases hy
      · rcases a3 with a3 | ⟨u, v, hu, hv⟩
        · exact Or.inl a3
        · exact Or.inr ⟨u, v, by omega, hv⟩)
    (by
      rintro i x y hi ⟨a1, a2, a3⟩ ho
      obtain ⟨b1, ⟨k, hk, b2⟩, b3⟩ := osum_maxT (fun k x _ hx => hHas i (by omega) k x hx) ho
      rw [ITy.maxT_eq a1 b1]
      refine ⟨ITy.has_max2 a1 b1, ?_, ?_⟩
      · intro u v z hu hv hz
        by_cases e : u < i
        · have := a2 u v z e hv hz
          omega
        · have : u = i := by omega
          subst this
          have := b3 v z (by omega) hz
          omega
      · rcases Int.le_total x y with hxy | hxy
        · right
          refine ⟨i, k, by omega, ?_⟩
          rw [show max x y = y by omega]; exact b2
        · rw [show max x y = x by omega]
          rcases a3 with a3 | ⟨u, v, hu, hv⟩
          · exact Or.inl a3
          · exact Or.inr ⟨u, v, by omega, hv⟩)
  have h00 := ((d4 0 0 hn).2 0).2 (dist_source (noNegAt hc))
  have hx4 : ∃ u v, u < G.nrows ∧ D.get u v = some x := by
    rcases hx3 with hx3 | ⟨u, v, hu, hv⟩
    · have a := hx2 0 0 0 (by omega) hn h00
      have b := hmin 0 (hHas 0 hn 0 0 h00)
      have : x = 0 := by omega
      subst this
      exact ⟨0, 0, hn, h00⟩
    · exact ⟨u, v, by omega, hv⟩
  refine ⟨x, ?_, ?_, ?_⟩
  · rw [graphDiameter, e1, prog_bind_ok]
    unfold reduceMS redMax
    simp only [show Mon.max.identity t = t.minVal from rfl, e2]
    rfl
  · obtain ⟨u, v, hu, hv⟩ := hx4
    refine ⟨u, hu, ⟨v, ((d4 u v hu).2 x).1 hv⟩, ?_⟩
    intro w y hy
    exact hx2 u w y (by omega) (has_dist hu (h.at hu).edges (noNegAt hc) (h.walks u hu) hy).1
      (((d4 u w hu).2 y).2 hy)
  · rintro v e hv ⟨⟨w, hw⟩, -⟩
    exact hx2 v w e (by omega) (has_dist hv (h.at hv).edges (noNegAt hc) (h.walks v hv) hw).1
      (((d4 v w hv).2 e).2 hw)

/-- Sums without overflow. -/
theorem osum_plusT {t : ITy} {ov : Int → Int → Int} {n : Nat} {f : Nat → Option Int} {lo hi : Int}
    (h1 : lo ≤ 0) (h2 : 0 ≤ hi) (hlo : t.minVal ≤ n * lo) (hhi : n * hi ≤ t.maxVal)
    (hf : ∀ k x, k < n → f k = some x → lo ≤ x ∧ x ≤ hi) :
    ∀ m, m ≤ n → (osum (t.plusT ov) ((List.range m).map f)).getD 0 = total m (fun k => (f k).getD 0) ∧
      m * lo ≤ total m (fun k => (f k).getD 0) ∧ total m (fun k => (f k).getD 0) ≤ m * hi := by
  have hHas : ∀ (m : Nat) x, m ≤ n → m * lo ≤ x → x ≤ m * hi → t.Has x := by
    intro m x hm a b
    have := Int.mul_le_mul_of_nonpos_right (c := lo) (Int.ofNat_le.2 hm) h1
    have := Int.mul_le_mul_of_nonneg_right (c := hi) (Int.ofNat_le.2 hm) h2
    constructor
    · show t.minVal ≤ x; omega
    · show x ≤ t.maxVal; omega
  intro m
  induction m with
  | zero => intro _; exact ⟨rfl, by simp [total], by simp [total]⟩
  | succ m ih =>
    intro hm
    obtain ⟨i1, i2, i3⟩ := ih (by omega)
    have ht : total (m + 1) (fun k => (f k).getD 0) = total m (fun k => (f k).getD 0) + (f m).getD 0 := by
      simp [total, List.range_succ]
    have hs : ((m + 1 : Nat) : Int) * lo = m * lo + lo := by push_cast; rw [Int.add_mul, Int.one_mul]
    have hs' : ((m + 1 : Nat) : Int) * hi = m * hi + hi := by push_cast; rw [Int.add_mul, Int.one_mul]
    rw [ht, hs, hs', List.range_succ, List.map_append, List.map_cons, List.map_nil, osum_append]
    cases hfm : f m with
    | none =>
      rw [show (none : Option Int).getD 0 = 0 from rfl]
      refine ⟨?_, by omega, by omega⟩
      rw [Int.add_zero, ← i1]
      cases osum (t.plusT ov) ((List.range m).map f) <;> rfl
    | some x =>
      rw [show (some x : Option Int).getD 0 = x from rfl]
      obtain ⟨b1, b2⟩ := hf m x (by omega) hfm
      refine ⟨?_, by omega, by omega⟩
      cases ho : osum (t.plusT ov) ((List.range m).map f) with
      | none =>
        rw [ho] at i1
        have i1 : (0 : Int) = _ := i1
        rw [← i1, Int.zero_add]; rfl
      | some a =>
        rw [ho] at i1
        have i1 : a = _ := i1
        show t.plusT ov a x = _
        rw [← i1] at i2 i3 ⊢
        have hx : t.Has x := hHas 1 x (by omega) (by simpa using b1) (by simpa using b2)
        rw [ITy.plusT_eq ov (hHas m a (by omega) i2 i3) hx (hHas (m + 1) _ hm (by omega) (by omega))]

/-- **C47**, `closeness_centrality`, proved part: it returns the sum of the distances
*from* `vid` to the vertices that can be reached, provided the partial sums are values of
the type. Missing: the documented value is the reciprocal of the sum of the distances
*to* `vid`; see `C47_closeness_differs`. -/
theorem C47_closeness_partial {t : ITy} {ov : Int → Int → Int} {G : Lil Int} {vid : Nat} {lo hi : Int}
    (h : FromInput t G vid) (hc : ¬ NegCycle G.get (source vid))
    (hb : ∀ v x, IsDist G.get (source vid) v x → lo ≤ x ∧ x ≤ hi)
    (hlo : t.minVal ≤ G.nrows * lo) (hhi : G.nrows * hi ≤ t.maxVal)
    {d : Nat → Int} (hd : ∀ v, WReach G.get (source vid) v → IsDist G.get (source vid) v (d v))
    (hd0 : ∀ v, ¬ WReach G.get (source vid) v → d v = 0) :
    closenessCentrality t ov G vid = .ok (total G.nrows d) := by
  have hs := h.vertex
  obtain ⟨r, er, r1, r2, r3⟩ := BVec.new_spec (α := Int) (n := G.nrows) (by omega)
  obtain ⟨w, e1, h1, h2, h3⟩ := C47_graph_distance (ov := ov) h r1 r2 hc
  obtain ⟨b1, b2⟩ := hb vid 0 (dist_source hc)
  have hsum := (osum_plusT (t := t) (ov := ov) b1 b2 hlo hhi (f := w.get)
    (fun k x _ hx => hb k x (((h3 k).2 x).1 hx)) G.nrows (Nat.le_refl _)).1
  have hv : ∀ v, (w.get v).getD 0 = d v := by
    intro v
    by_cases hr : WReach G.get (source vid) v
    · rw [((h3 v).2 _).2 (hd v hr)]; rfl
    · rw [(h3 v).1.2 hr, hd0 v hr]; rfl
  rw [closenessCentrality, er, lift_ok, prog_bind_ok, e1, prog_bind_ok, show redPlus t ov = ⟨t.plusT ov, t.plusT ov, t.plusT ov, id⟩ from rfl,
    reduceInto_eq h1, h2, show Mon.plus.identity t = 0 by cases t <;> rfl, hsum]
  simp only [hv]

namespace Ex

/-- A directed cycle 0 →(2) 1 →(3) 2 →(4) 0. -/
def ring : Lil Int := { nrows := 3, ncols := 3, nvals := 3, rows := [[(1, 2)], [(2, 3)], [(0, 4)]] }

theorem ring_wf : ring.WF := Lil.wf_chk (by decide)

theorem ring_nonneg (u v : Nat) (w : Int) (h : ring.get u v = some w) : 0 ≤ w :=
  get_chk ring_wf (P := fun w => 0 ≤ w) (by decide) h

theorem ring_all : AllInput .i32 ring := by
  have hw : ∀ u v w, ring.get u v = some w → -(4 : Nat) ≤ w ∧ w ≤ (4 : Nat) := fun u v w h =>
    get_chk ring_wf (P := fun w => -(4 : Nat) ≤ w ∧ w ≤ (4 : Nat)) (by decide) h
  refine ⟨ring_wf, rfl, by decide, by decide, ?_, ?_⟩
  · intro u v w h
    exact get_chk ring_wf (P := fun w => ITy.Has .i32 w) (by decide) h
  · intro s _ k v x hk h
    have := walks_small (by
      intro v x h
      unfold source at h
      split at h
      · cases h; rfl
      · cases h) hw 3 k v x hk h
    have h1 : -(12 : Nat) ≤ x := this.1
    have h2 : x ≤ (12 : Nat) := this.2
    exact ⟨by show (-2147483648 : Int) ≤ x; omega, by show x ≤ (2147483647 : Int); omega⟩

theorem ring_noNeg : ¬ HasNegCycle ring.get := noNeg_of_nonneg ring_nonneg

end Ex

example : FromInput .i32 Ex.ring 1 ∧ ¬ NegCycle Ex.ring.get (source 1) ∧
    graphDistance .i32 (fun _ _ => 0) Ex.ring 1 ⟨3, 1, [9, 9, 9], [true, false, false]⟩
      = .ok ⟨3, 3, [7, 0, 3], [true, true, true]⟩ ∧
    vertexEccentricity .i32 (fun _ _ => 0) Ex.ring 1 = .ok 7 ∧
    graphDistance .i32 (fun _ _ => 0) Ex.ring 3 ⟨3, 1, [9, 9, 9], [true, false, false]⟩
      = .error (.err .indexOutOfBounds) :=
  ⟨Ex.ring_all.at (by decide), noNegAt Ex.ring_noNeg, by decide +kernel, by decide +kernel, by decide +kernel⟩

example : AllInput .i32 Ex.ring ∧ ¬ HasNegCycle Ex.ring.get ∧
    graphDistanceMatrix .i32 (fun _ _ => 0) Ex.ring (Lil.new 3 3)
      = .ok ⟨3, 3, 9, [[(0, 0), (1, 2), (2, 5)], [(0, 7), (1, 0), (2, 3)], [(0, 4), (1, 6), (2, 0)]]⟩ ∧
    graphRadius .i32 (fun _ _ => 0) Ex.ring = .ok 5 ∧ graphDiameter .i32 (fun _ _ => 0) Ex.ring = .ok 7 :=
  ⟨Ex.ring_all, Ex.ring_noNeg, by decide +kernel, by decide +kernel, by decide +kernel⟩

/-- **C47**, `closeness_centrality` does not return what its comment says: there is a
graph without negative weights and a vertex `v` such that the result is neither the
sum `f` of the distances to `v` (the "far-ness") nor `1/f`. -/
theorem C47_closeness_differs : ∃ (G : Lil Int) (v : Nat) (c : Int) (d : Nat → Int),
    AllInput .i32 G ∧ (∀ a b w, G.get a b = some w → 0 ≤ w) ∧ v < G.nrows ∧
    (∀ u, u < G.nrows → IsDist G.get (source u) v (d u)) ∧
    (∀ ov, closenessCentrality .i32 ov G v = .ok c) ∧ c ≠ total G.nrows d ∧ c * total G.nrows d ≠ 1 := by
  refine ⟨Ex.ring, 0, 7, fun u => if u = 0 then 0 else if u = 1 then 7 else 4, Ex.ring_all, Ex.ring_nonneg,
    by decide, ?_, ?_, by decide, by decide⟩
  · obtain ⟨D, e, -, -, -, h⟩ := C47_graph_distance_matrix (ov := fun _ _ => 0) (result := Lil.new 3 3) Ex.ring_all
      rfl rfl Ex.ring_noNeg
    have e' : graphDistanceMatrix .i32 (fun _ _ => 0) Ex.ring (Lil.new 3 3)
      = .ok ⟨3, 3, 9, [[(0, 0), (1, 2), (2, 5)], [(0, 7), (1, 0), (2, 3)], [(0, 4), (1, 6), (2, 0)]]⟩ := by
      decide +kernel
    rw [e'] at e; cases e
    intro u hu
    refine ((h u 0 hu).2 _).1 ?_
    have hu : u < 3 := hu
    have : u = 0 ∨ u = 1 ∨ u = 2 := by omega
    rcases this with rfl | rfl | rfl <;> rfl
  · intro ov
    obtain ⟨w, e, -, -, h⟩ := C47_graph_distance (ov := fun _ _ => 0) (Ex.ring_all.at (s := 0) (by decide))
      (result := ⟨3, 0, [0, 0, 0], [false, false, false]⟩) ⟨rfl, rfl, rfl⟩ rfl (noNegAt Ex.ring_noNeg)
    have e' : graphDistance .i32 (fun _ _ => 0) Ex.ring 0 ⟨3, 0, [0, 0, 0], [false, false, false]⟩
      = .ok ⟨3, 3, [0, 2, 5], [true, true, true]⟩ := by decide +kernel
    rw [e'] at e; cases e
    have hval : ∀ v x, BVec.get ⟨3, 3, [(0 : Int), 2, 5], [true, true, true]⟩ v = some x →
        0 ≤ x ∧ x ≤ 5 := by
      intro v x hx
      match v with
      | 0 => cases (show some (0 : Int) = some x from hx); omega
      | 1 => cases (show some (2 : Int) = some x from hx); omega
      | 2 => cases (show some (5 : Int) = some x from hx); omega
      | v + 3 => simp [BVec.get] at hx
    refine C47_closeness_partial (lo := 0) (hi := 5) (Ex.ring_all.at (by decide)) (noNegAt Ex.ring_noNeg)
      (fun v x hx => hval v x (((h v).2 x).2 hx)) (by decide) (by decide)
      (d := fun v => (BVec.get ⟨3, 3, [(0 : Int), 2, 5], [true, true, true]⟩ v).getD 0) ?_ ?_
    · intro v hr
      cases hg : BVec.get ⟨3, 3, [(0 : Int), 2, 5], [true, true, true]⟩ v with
      | none => exact absurd hr ((h v).1.1 hg)
      | some x => exact ((h v).2 x).1 hg
    · intro v hr
      rw [(h v).1.2 hr]; rfl

end GBTL

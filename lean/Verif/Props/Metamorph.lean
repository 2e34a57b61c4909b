import Verif.Lemmas.Metamorph
import Verif.Lemmas.MinCut
import Verif.Props.Agree
/-
C84: the results of the path algorithms obey the laws of distances.
C85: the result of the maximum flow algorithm is the minimum cut, and obeys its laws.
C86: trusses are nested, and trusses and triangles grow with the graph.
-/
namespace GBTL
open Spec

variable {α γ : Type} {t : ITy} {ov : Int → Int → Int}

/-! ### C84 -/

/-- **C84**, the Bellman equations: no edge offers a shorter way, and every distance is a
start value or comes over an edge from a vertex with a distance. -/
theorem C84_sssp_bellman {G : Lil Int} {dist : BVec Int} (h : PathInput t G dist) (h0 : 0 < dist.size)
    (hc : ¬ NegCycle G.get dist.get) :
    ∃ d, sssp t ov G dist = .ok (true, d) ∧
      (∀ v x, dist.get v = some x → ∃ y, d.get v = some y ∧ y ≤ x) ∧
      (∀ u v x w, d.get u = some x → G.get u v = some w → ∃ y, d.get v = some y ∧ y ≤ x + w) ∧
      ∀ v y, d.get v = some y → dist.get v = some y ∨ ∃ u x w, d.get u = some x ∧ G.get u v = some w ∧ y = x + w := by
  obtain ⟨d, e, _, _, hd⟩ := C34_sssp (ov := ov) h h0 hc
  have hr : ∀ k v x, WWalk G.get dist.get k v x → ∃ y, d.get v = some y ∧ y ≤ x := by
    intro k v x hk
    cases hv : d.get v with
    | none => exact absurd ⟨k, x, hk⟩ ((hd v).1.1 hv)
    | some y => exact ⟨y, rfl, (((hd v).2 y).1 hv).2 k x hk⟩
  refine ⟨d, e, fun v x hx => hr 0 v x hx, fun u v x w hx hw => ?_, fun v y hy => ?_⟩
  · obtain ⟨⟨k, hk⟩, _⟩ := ((hd u).2 x).1 hx
    exact hr (k + 1) v _ ⟨u, x, w, hk, hw, rfl⟩
  · rcases IsDist.last (((hd v).2 y).1 hy) with h1 | ⟨u, x, w, h1, h2, h3⟩
    · exact .inl h1
    · exact .inr ⟨u, x, w, ((hd u).2 x).2 h1, h2, h3⟩

/-- **C84**, adding edges and making edges lighter makes no distance larger. -/
theorem C84_sssp_monotone {G G' : Lil Int} {dist : BVec Int} (h : PathInput t G dist) (h' : PathInput t G' dist)
    (h0 : 0 < dist.size) (hc : ¬ NegCycle G'.get dist.get)
    (hm : ∀ u v w, G.get u v = some w → ∃ w', G'.get u v = some w' ∧ w' ≤ w) :
    ∃ d d', sssp t ov G dist = .ok (true, d) ∧ sssp t ov G' dist = .ok (true, d') ∧
      ∀ v x, d.get v = some x → ∃ x', d'.get v = some x' ∧ x' ≤ x := by
  obtain ⟨d, e, _, _, hd⟩ := C34_sssp (ov := ov) h h0 (fun hn => hc (negCycle_mono hm hn))
  obtain ⟨d', e', _, _, hd'⟩ := C34_sssp (ov := ov) h' h0 hc
  refine ⟨d, d', e, e', fun v x hx => ?_⟩
  obtain ⟨⟨k, hk⟩, _⟩ := ((hd v).2 x).1 hx
  obtain ⟨x1, hx1, hle⟩ := WWalk.mono hm hk
  cases hv : d'.get v with
  | none => exact absurd ⟨k, x1, hx1⟩ ((hd' v).1.1 hv)
  | some y => exact ⟨y, rfl, Int.le_trans ((((hd' v).2 y).1 hv).2 k x1 hx1) hle⟩

/-- **C84**, multiplying all weights by a positive number multiplies the distances by it. -/
theorem C84_sssp_scale {G G' : Lil Int} {dist dist' : BVec Int} {c : Int} (hpos : 0 < c) (h : PathInput t G dist)
    (h' : PathInput t G' dist') (h0 : 0 < dist.size) (h0' : 0 < dist'.size) (hc : ¬ NegCycle G.get dist.get)
    (hG : ∀ u v, G'.get u v = (G.get u v).map (c * ·)) (hS : ∀ v, dist'.get v = (dist.get v).map (c * ·)) :
    ∃ d d', sssp t ov G dist = .ok (true, d) ∧ sssp t ov G' dist' = .ok (true, d') ∧
      ∀ v, d'.get v = (d.get v).map (c * ·) := by
  obtain ⟨d, e, _, _, hd⟩ := C34_sssp (ov := ov) h h0 hc
  obtain ⟨d', e', _, _, hd'⟩ := C34_sssp (ov := ov) h' h0' (fun hn => hc (negCycle_scale hpos hG hS hn))
  refine ⟨d, d', e, e', fun v => ?_⟩
  cases hv : d.get v with
  | none => exact (hd' v).1.2 fun hr => (hd v).1.1 hv ((wreach_scale hG hS).1 hr)
  | some x => exact ((hd' v).2 _).2 (isDist_scale hpos hG hS (((hd v).2 x).1 hv))

/-- **C84**, adding edges makes no level larger. -/
theorem C84_bfs_monotone (gtrue : α → Bool) (G G' : Lil α) (s : Nat) (L : LevTy γ) (levels : BVec γ) (hG : G.WF)
    (hG' : G'.WF) (hsq : G.nrows = G.ncols) (hsq' : G'.nrows = G'.ncols) (hn : G'.nrows = G.nrows) (hs : s < G.nrows)
    (ht : ∀ u v x, G.get u v = some x → gtrue x = true) (ht' : ∀ u v x, G'.get u v = some x → gtrue x = true)
    (hl : levels.WF) (hls : levels.size = G.nrows) (hle : ∀ v, levels.get v = none) (hL : L.Fits G.nrows) (fuel : Nat)
    (hf : G.nrows ≤ fuel) (hm : ∀ u v, Edge G.get u v → Edge G'.get u v) :
    ∃ l l', bfsLevel fuel gtrue G s L levels = .ok l ∧ bfsLevel fuel gtrue G' s L levels = .ok l' ∧
      ∀ v x, l.get v = some x → ∃ a b, l.get v = some (L.ofIx a) ∧ l'.get v = some (L.ofIx b) ∧ b ≤ a := by
  obtain ⟨l, e, _, _, a, b⟩ := C32_bfs_level gtrue G s L levels hG hsq hs ht hl hls hle hL fuel hf
  obtain ⟨l', e', _, _, a', b'⟩ := C32_bfs_level gtrue G' s L levels hG' hsq' (by rw [hn]; exact hs) ht' hl
    (by rw [hn]; exact hls) hle (by rw [hn]; exact hL) fuel (by rw [hn]; exact hf)
  refine ⟨l, l', e, e', fun v x hx => ?_⟩
  by_cases hr : Reachable (Edge G.get) (· = s) v
  · obtain ⟨k, hk⟩ := hr
    obtain ⟨d, _, hd⟩ := hk.dist
    obtain ⟨d', _, hd'⟩ := (Walk.mono hm hd.1).dist
    exact ⟨d + 1, d' + 1, a v d hd, a' v d' hd', by have := hd'.2 d (Walk.mono hm hd.1); omega⟩
  · rw [b v hr] at hx; cases hx

/-- **C84**, the triangle inequality. The restriction on loops is that of C37. -/
theorem C84_apsp_triangle {G : Lil Int} (h : ApspInput t G) (hc : ¬ HasNegCycle G.get)
    (hl : ∀ u w, G.get u u = some w → w ≤ 0) :
    ∃ D, apsp t ov G = .ok D ∧ (∀ u, u < G.nrows → D.get u u = some 0) ∧
      ∀ u v w x y, D.get u v = some x → D.get v w = some y → ∃ z, D.get u w = some z ∧ z ≤ x + y := by
  obtain ⟨D, e, hD, hr, hcol, hd⟩ := C37_apsp_partial (ov := ov) h hc hl
  refine ⟨D, e, fun u hu => ?_, fun u v w x y hx hy => ?_⟩
  · exact ((hd u u hu).2 0).2 (dist_source fun ⟨v, _, k, c, hk⟩ => hc ⟨v, k, c, hk⟩)
  · have hu : u < G.nrows := by
      have := (some_lt hD (i := u) (j := v) (by rw [hx]; simp)).1
      omega
    have hv : v < G.nrows := by
      have := (some_lt hD (i := v) (j := w) (by rw [hy]; simp)).1
      omega
    obtain ⟨⟨k, hk⟩, _⟩ := ((hd u v hu).2 x).1 hx
    obtain ⟨⟨j, hj⟩, _⟩ := ((hd v w hv).2 y).1 hy
    have hw := WWalk.trans hk hj
    cases hz : D.get u w with
    | none => exact absurd ⟨_, _, hw⟩ ((hd u w hu).1.1 hz)
    | some z => exact ⟨z, rfl, (((hd u w hu).2 z).1 hz).2 _ _ hw⟩

/-- **C84**, the distances in the reversed graph are the distances, transposed. -/
theorem C84_apsp_reverse {G G' : Lil Int} (h : ApspInput t G) (h' : ApspInput t G') (hn : G'.nrows = G.nrows)
    (hrev : ∀ u v, G'.get v u = G.get u v) (hc : ¬ HasNegCycle G.get) (hl : ∀ u w, G.get u u = some w → w ≤ 0) :
    ∃ D D', apsp t ov G = .ok D ∧ apsp t ov G' = .ok D' ∧ ∀ u v, D'.get v u = D.get u v := by
  obtain ⟨D, e, hD, hr, hcol, hd⟩ := C37_apsp_partial (ov := ov) h hc hl
  obtain ⟨D', e', hD', hr', hcol', hd'⟩ := C37_apsp_partial (ov := ov) h' (fun hn => hc (hasNegCycle_rev hrev hn))
    (fun u w hw => hl u w (by rw [← hrev]; exact hw))
  refine ⟨D, D', e, e', fun u v => ?_⟩
  by_cases hu : u < G.nrows
  · by_cases hv : v < G.nrows
    · exact opt_ext fun x => by rw [(hd u v hu).2, (hd' v u (by omega)).2]; exact (isDist_rev hrev).symm
    · rw [show D.get u v = none from Classical.byContradiction fun hx => hv (by have := (some_lt hD hx).2; omega),
        show D'.get v u = none from Classical.byContradiction fun hx => hv (by have := (some_lt hD' hx).1; omega)]
  · rw [show D.get u v = none from Classical.byContradiction fun hx => hu (by have := (some_lt hD hx).1; omega),
      show D'.get v u = none from Classical.byContradiction fun hx => hu (by have := (some_lt hD' hx).2; omega)]

/-- **C84**, in an undirected graph the distances are symmetric. -/
theorem C84_apsp_symmetric {G : Lil Int} (h : ApspInput t G) (hsym : ∀ u v, G.get v u = G.get u v)
    (hc : ¬ HasNegCycle G.get) (hl : ∀ u w, G.get u u = some w → w ≤ 0) :
    ∃ D, apsp t ov G = .ok D ∧ ∀ u v, D.get v u = D.get u v := by
  obtain ⟨D, D', e, e', hd⟩ := C84_apsp_reverse (ov := ov) h h rfl hsym hc hl
  rw [e] at e'
  cases e'
  exact ⟨D, e, hd⟩

/-! ### C85 -/

/-- What the theorems need of a network, as in C51. -/
structure FlowInput (t : ITy) (C : Lil Int) (s k fuel : Nat) : Prop where
  wf : C.WF
  square : C.nrows = C.ncols
  source : s < C.nrows
  sink : k < C.nrows
  apart : s ≠ k
  nonneg : ∀ u v x, C.get u v = some x → 0 ≤ x
  sum : t.Has (totalCapacity C.nrows (capacityOf C.get))
  negSum : t.Has (- totalCapacity C.nrows (capacityOf C.get))
  small : t.Has (2 * C.nrows)
  fuel : 2 * (C.nrows * C.nrows * C.nrows) + 6 * (C.nrows * C.nrows) + 6 * C.nrows + 1 ≤ fuel

theorem FlowInput.run {C : Lil Int} {s k fuel : Nat} (h : FlowInput t C s k fuel) (ov : Int → Int → Int) :
    ∃ m, maxflowPushRelabel fuel t ov C s k = .ok m ∧ IsMaxFlow C.nrows s k (capacityOf C.get) m :=
  C51_push_relabel ov h.wf h.square h.source h.sink h.apart h.nonneg h.sum h.negSum h.small h.fuel

theorem FlowInput.cap_nonneg {C : Lil Int} {s k fuel : Nat} (h : FlowInput t C s k fuel) (x y : Nat) :
    0 ≤ capacityOf C.get x y := by
  unfold capacityOf
  cases e : C.get x y with
  | none => exact Int.le_refl _
  | some z => exact h.nonneg x y z e

variable {C C' : Lil Int} {s k fuel : Nat}

/-- **C85**, the maximum flow is the minimum cut. -/
theorem C85_min_cut (h : FlowInput t C s k fuel) :
    ∃ m, maxflowPushRelabel fuel t ov C s k = .ok m ∧ IsMinCut C.nrows s k (capacityOf C.get) m := by
  obtain ⟨m, e, hm⟩ := h.run ov
  exact ⟨m, e, max_flow_min_cut h.source h.apart (fun x y _ _ => h.cap_nonneg x y) hm⟩

/-- **C85**, more capacity does not make the flow smaller. -/
theorem C85_monotone (h : FlowInput t C s k fuel) (h' : FlowInput t C' s k fuel) (hn : C'.nrows = C.nrows)
    (hm : ∀ u v, capacityOf C.get u v ≤ capacityOf C'.get u v) :
    ∃ m m', maxflowPushRelabel fuel t ov C s k = .ok m ∧ maxflowPushRelabel fuel t ov C' s k = .ok m' ∧ m ≤ m' := by
  obtain ⟨m, e, h1⟩ := h.run ov
  obtain ⟨m', e', h2⟩ := h'.run ov
  rw [hn] at h2
  exact ⟨m, m', e, e', maxFlow_mono (fun x y _ _ => hm x y) h1 h2⟩

/-- **C85**, as much flows from the sink to the source of the reversed network. -/
theorem C85_reverse (h : FlowInput t C s k fuel) (h' : FlowInput t C' k s fuel) (hn : C'.nrows = C.nrows)
    (hrev : ∀ u v, C'.get v u = C.get u v) :
    ∃ m, maxflowPushRelabel fuel t ov C s k = .ok m ∧ maxflowPushRelabel fuel t ov C' k s = .ok m := by
  obtain ⟨m, e, h1⟩ := h.run ov
  obtain ⟨m', e', h2⟩ := h'.run ov
  rw [hn] at h2
  have := maxFlow_rev h.source h.sink h.apart (fun x y _ _ => show capacityOf C'.get y x = _ by
    unfold capacityOf; rw [hrev]) h1 h2
  exact ⟨m, e, this ▸ e'⟩

/-- **C85**, multiplying the capacities by a number multiplies the flow by it. -/
theorem C85_scale {a : Int} (ha : 0 ≤ a) (h : FlowInput t C s k fuel) (h' : FlowInput t C' s k fuel)
    (hn : C'.nrows = C.nrows) (hm : ∀ u v, capacityOf C'.get u v = a * capacityOf C.get u v) :
    ∃ m, maxflowPushRelabel fuel t ov C s k = .ok m ∧ maxflowPushRelabel fuel t ov C' s k = .ok (a * m) := by
  obtain ⟨m, e, h1⟩ := h.run ov
  obtain ⟨m', e', h2⟩ := h'.run ov
  rw [hn] at h2
  have := maxFlow_scale ha h.source h.apart (fun x y _ _ => h.cap_nonneg x y) (fun x y _ _ => hm x y) h1 h2
  exact ⟨m, e, this ▸ e'⟩

/-! ### C86 -/

variable {n : Nat} {E E' : Nat → Nat → Bool}

/-- **C86**, trusses are nested: the elements `k_truss2` returns for a larger `k`, or for a
graph with fewer edges, it returns as well for the smaller `k` and the larger graph. The
restriction on `k` is that of C39. -/
theorem C86_truss_nested {k k' : Nat} {A A' : Lil Int} (hu : Undirected E) (hu' : Undirected E') (hA : Is01 n E A)
    (hA' : Is01 n E' A') (hn : (n : Int) ≤ t.maxVal) (hk : 3 ≤ k') (hkk : k' ≤ k)
    (hk2 : ((k - 2 : Nat) : Int) ≤ t.maxVal) (hk3 : k < 2 ^ 64) (hsub : ∀ i j, E i j = true → E' i j = true) :
    ∃ R R', (∀ fuel, A.nvals + 1 ≤ fuel → kTruss2 t ov fuel A k = .ok R) ∧
      (∀ fuel, A'.nvals + 1 ≤ fuel → kTruss2 t ov fuel A' k' = .ok R') ∧
      ∀ i j, R.get i j = some 1 → R'.get i j = some 1 := by
  obtain ⟨R, F, e, hR, T⟩ := C39_k_truss2_partial (t := t) (ov := ov) hu hA hn (Nat.le_trans hk hkk) hk2 hk3
  obtain ⟨R', F', e', hR', T'⟩ := C39_k_truss2_partial (t := t) (ov := ov) hu' hA' hn hk (by omega) (by omega)
  exact ⟨R, R', e, e', fun i j h => (hR'.one i j).2
    (T'.largest F (IsTruss.less hkk hsub T.truss) i j ((hR.one i j).1 h))⟩

/-- **C86**, the k-truss of the k-truss is the k-truss, and so is that of any graph between
it and the graph. -/
theorem C86_truss_again {k : Nat} {A : Lil Int} (hu : Undirected E) (hA : Is01 n E A) (hn : (n : Int) ≤ t.maxVal)
    (hk : 3 ≤ k) (hk2 : ((k - 2 : Nat) : Int) ≤ t.maxVal) (hk3 : k < 2 ^ 64) :
    ∃ R, (∀ fuel, A.nvals + 1 ≤ fuel → kTruss2 t ov fuel A k = .ok R) ∧
      ∀ (E' : Nat → Nat → Bool) (A' : Lil Int), Undirected E' → Is01 n E' A' →
        (∀ i j, R.get i j = some 1 → A'.get i j = some 1) → (∀ i j, A'.get i j = some 1 → A.get i j = some 1) →
        ∃ R', (∀ fuel, A'.nvals + 1 ≤ fuel → kTruss2 t ov fuel A' k = .ok R') ∧
          ∀ i j, R'.get i j = some 1 ↔ R.get i j = some 1 := by
  obtain ⟨R, F, e, hR, T⟩ := C39_k_truss2_partial (t := t) (ov := ov) hu hA hn hk hk2 hk3
  refine ⟨R, e, fun E' A' hu' hA' h1 h2 => ?_⟩
  obtain ⟨R', F', e', hR', T'⟩ := C39_k_truss2_partial (t := t) (ov := ov) hu' hA' hn hk hk2 hk3
  refine ⟨R', e', fun i j => ?_⟩
  rw [hR'.one, hR.one, IsKTruss.between T (fun i j hf => (hA'.one i j).1 (h1 i j ((hR.one i j).2 hf)))
    (fun i j he => (hA.one i j).1 (h2 i j ((hA'.one i j).2 he))) T']

/-- **C86**, the same for `k_truss`, with graphs as incidence matrices. -/
theorem C86_truss_incidence_nested {k k' : Nat} {es es' : List (Nat × Nat)} {I I' : Lil Int} (hs : SimpleEdges n es)
    (hs' : SimpleEdges n es') (hI : Incidence n es I) (hI' : Incidence n es' I') (hne : es ≠ []) (hne' : es' ≠ [])
    (hn : (n : Int) ≤ t.maxVal) (hk : t.Has ((k : Int) - 2)) (hk' : t.Has ((k' : Int) - 2)) (hkk : k' ≤ k)
    (hk3 : k < 2 ^ 64) (hsub : ∀ i j, adjOf es i j = true → adjOf es' i j = true) :
    ∃ J J' fs fs', (∀ fuel, es.length ≤ fuel → kTruss fuel t ov I k = .ok J) ∧
      (∀ fuel, es'.length ≤ fuel → kTruss fuel t ov I' k' = .ok J') ∧ Incidence n fs J ∧ Incidence n fs' J' ∧
      ∀ i j, adjOf fs i j = true → adjOf fs' i j = true := by
  obtain ⟨J, fs, e, _, hJ, T⟩ := C53_k_truss (t := t) (ov := ov) (k := k) hs hI hne hn hk hk3
  obtain ⟨J', fs', e', _, hJ', T'⟩ := C53_k_truss (t := t) (ov := ov) (k := k') hs' hI' hne' hn hk' (by omega)
  exact ⟨J, J', fs, fs', e, e', hJ, hJ', T'.largest _ (IsTruss.less hkk hsub T.truss)⟩

/-- **C86**, adding edges does not lose triangles. -/
theorem C86_triangles_monotone {G G' : Lil Int} (hu : Undirected E) (hu' : Undirected E') (hG : Is01 n E G)
    (hG' : Is01 n E' G') (hn : (n : Int) ≤ t.maxVal) (ht : ((2 * triangles n E' : Nat) : Int) ≤ t.maxVal)
    (hsub : ∀ i j, E i j = true → E' i j = true) :
    ∃ c c', triangleCount t ov G = .ok c ∧ triangleCount t ov G' = .ok c' ∧ c ≤ c' := by
  have hle := triangles_mono (n := n) hsub
  exact ⟨_, _, C38_triangle_count hu hG hn (by omega), C38_triangle_count hu' hG' hn ht, by omega⟩

/-- **C86**, all triangles are in the 3-truss. -/
theorem C86_triangles_of_truss {A : Lil Int} (hu : Undirected E) (hA : Is01 n E A) (hn : (n : Int) ≤ t.maxVal)
    (ht : ((2 * triangles n E : Nat) : Int) ≤ t.maxVal) (hlt : ∀ i j, E i j = true → i < n ∧ j < n) :
    ∃ R c, (∀ fuel, A.nvals + 1 ≤ fuel → kTruss2 t ov fuel A 3 = .ok R) ∧ triangleCount t ov A = .ok c ∧
      triangleCount t ov R = .ok c := by
  obtain ⟨R, F, e, hR, T⟩ := C39_k_truss2_partial (t := t) (ov := ov) (k := 3) hu hA hn (Nat.le_refl _)
    (by have := t.one_le_max; simpa using this) (by decide)
  have hF : Undirected F := ⟨T.truss.symm, fun i => by
    cases h : F i i with
    | false => rfl
    | true => rw [← hu.irrefl i, T.truss.sub i i h]⟩
  have htri : triangles n F = triangles n E := by
    refine Nat.le_antisymm (triangles_mono T.truss.sub) ?_
    unfold triangles
    rw [← List.countP_eq_length_filter, ← List.countP_eq_length_filter]
    refine List.countP_mono_left fun ⟨i, j, m⟩ _ hx => ?_
    simp only [Bool.and_eq_true] at hx ⊢
    obtain ⟨⟨hij, hjm⟩, him⟩ := hx
    have T3 : IsTruss n 3 E (fun a b => E a b && decide (a ∈ [i, j, m]) && decide (b ∈ [i, j, m])) := by
      refine ⟨fun a b => ?_, fun a b h => ?_, fun a b h => ?_⟩
      · rw [hu.symm a b]
        cases E b a <;> simp [Bool.and_comm]
      · simp only [Bool.and_eq_true] at h; exact h.1.1
      · simp only [Bool.and_eq_true, decide_eq_true_eq] at h
        obtain ⟨⟨hab, ha⟩, hb⟩ := h
        have hne : ∀ x, E x x = true → False := fun x hx => by rw [hu.irrefl x] at hx; cases hx
        have hsy : ∀ x y, E x y = true → E y x = true := fun x y hx => by rw [hu.symm]; exact hx
        have : ∃ c, c ∈ [i, j, m] ∧ E a c = true ∧ E c b = true := by
          simp only [List.mem_cons, List.not_mem_nil, or_false] at ha hb
          rcases ha with rfl | rfl | rfl <;> rcases hb with rfl | rfl | rfl
          · exact (hne _ hab).elim
          · exact ⟨m, by simp, him, hsy _ _ hjm⟩
          · exact ⟨j, by simp, hij, hjm⟩
          · exact ⟨m, by simp, hjm, hsy _ _ him⟩
          · exact (hne _ hab).elim
          · exact ⟨i, by simp, hsy _ _ hij, him⟩
          · exact ⟨j, by simp, hsy _ _ hjm, hsy _ _ hij⟩
          · exact ⟨i, by simp, hsy _ _ him, hij⟩
          · exact (hne _ hab).elim
        obtain ⟨c, hc, h1, h2⟩ := this
        have : c ∈ (List.range n).filter fun x => (E a x && decide (a ∈ [i, j, m]) && decide (x ∈ [i, j, m])) &&
            (E x b && decide (x ∈ [i, j, m]) && decide (b ∈ [i, j, m])) := by
          simp only [List.mem_filter, List.mem_range, Bool.and_eq_true, decide_eq_true_eq]
          exact ⟨(hlt _ _ h1).2, ⟨⟨h1, ha⟩, hc⟩, ⟨h2, hc⟩, hb⟩
        have := List.length_pos_of_mem this
        exact Nat.add_le_add_right this 2
    have hin : ∀ a b, E a b = true → a ∈ [i, j, m] → b ∈ [i, j, m] → F a b = true := fun a b h ha hb =>
      T.largest _ T3 a b (by simp only [Bool.and_eq_true, decide_eq_true_eq]; exact ⟨⟨h, ha⟩, hb⟩)
    exact ⟨⟨hin _ _ hij (by simp) (by simp), hin _ _ hjm (by simp) (by simp)⟩, hin _ _ him (by simp) (by simp)⟩
  exact ⟨R, _, e, C38_triangle_count hu hA hn ht, htri ▸ C38_triangle_count hF hR hn (by rw [htri]; exact ht)⟩

/-! ### Concrete cases -/

namespace Ex

/-- `dsGraph` with the edge 0 → 2 lighter and an edge 2 → 4. -/
def dsMore : Lil Int :=
  { nrows := 5, ncols := 5, nvals := 6, rows := [[(1, 1), (2, 2)], [(2, 2)], [(3, 9), (4, 4)], [(0, 1)], []] }

/-- `dsGraph` with all weights multiplied by 3. -/
def dsTriple : Lil Int :=
  { nrows := 5, ncols := 5, nvals := 5, rows := [[(1, 3), (2, 21)], [(2, 6)], [(3, 27)], [(0, 3)], []] }

/-- `dsGraph` reversed. -/
def dsBack : Lil Int :=
  { nrows := 5, ncols := 5, nvals := 5, rows := [[(3, 1)], [(0, 1)], [(0, 7), (1, 2)], [(2, 9)], []] }

/-- An undirected graph: 0 -(1)- 1 -(2)- 2 -(9)- 3, 0 -(7)- 2; vertex 4 is alone. -/
def dsBoth : Lil Int := { nrows := 5, ncols := 5, nvals := 8
                          rows := [[(1, 1), (2, 7)], [(0, 1), (2, 2)], [(0, 7), (1, 2), (3, 9)], [(2, 9)], []] }

/-- The inputs of the examples. -/
structure Small (G : Lil Int) : Prop where
  wf : G.WF
  rows : G.nrows = 5
  cols : G.ncols = 5
  weights : ∀ u v w, G.get u v = some w → 0 ≤ w ∧ w ≤ (50 : Nat)
  noLoop : ∀ u w, G.get u u = some w → w ≤ 0

theorem small_of {G : Lil Int} (hw : G.WF) (hr : G.nrows = 5) (hc : G.ncols = 5)
    (h : ∀ r ∈ G.rows, ∀ p ∈ r, 0 ≤ p.2 ∧ p.2 ≤ (50 : Nat)) (hl : ∀ u, u < 5 → G.get u u = none) : Small G := by
  refine ⟨hw, hr, hc, fun u v w hg => get_chk hw (P := fun w => 0 ≤ w ∧ w ≤ (50 : Nat)) h hg, fun u w hg => ?_⟩
  have := (some_lt hw (i := u) (j := u) (by rw [hg]; simp)).1
  rw [hl u (by omega)] at hg
  cases hg

theorem Small.noNeg {G : Lil Int} (h : Small G) : ¬ HasNegCycle G.get := noNeg_of_nonneg fun u v w hg => (h.weights u v w hg).1

theorem Small.noNegFrom {G : Lil Int} (h : Small G) (S : Vec Int) : ¬ NegCycle G.get S :=
  fun ⟨v, _, k, c, hk⟩ => h.noNeg ⟨v, k, c, hk⟩

theorem Small.path {G : Lil Int} (h : Small G) : PathInput .i32 G from0of5 := by
  refine PathInput.of_small h.wf ⟨rfl, rfl, rfl⟩ h.rows h.cols (by decide) (source_zero from0of5_eq) 50 ?_ ?_
  · intro u v w hg
    have := h.weights u v w hg
    refine ⟨by omega, this.2, ?_, ?_⟩
    · show (-2147483648 : Int) ≤ w; omega
    · show w ≤ (2147483647 : Int); omega
  · intro x h1 h2
    have e : from0of5.size * 50 = 250 := rfl
    rw [e] at h1 h2
    constructor
    · show (-2147483648 : Int) ≤ x; omega
    · show x ≤ (2147483647 : Int); omega

theorem Small.apsp {G : Lil Int} (h : Small G) : ApspInput .i32 G := by
  refine ⟨h.wf, by rw [h.rows, h.cols], h.path.weights, ?_⟩
  intro u _ k v x hk hw
  have h3 := walks_small (B := 50) (fun v x h => by
    unfold source at h; split at h <;> cases h; rfl) (fun u v w hg => ⟨by have := (h.weights u v w hg).1; omega,
      (h.weights u v w hg).2⟩) (2 * G.nrows) k v x hk hw
  rw [h.rows] at h3
  have h1 : (-500 : Int) ≤ x ∧ x ≤ 500 := h3
  constructor
  · show (-2147483648 : Int) ≤ x; omega
  · show x ≤ (2147483647 : Int); omega

theorem ds_small : Small dsGraph := small_of (Lil.wf_chk (by decide)) rfl rfl (by decide) (by decide)
theorem dsMore_small : Small dsMore := small_of (Lil.wf_chk (by decide)) rfl rfl (by decide) (by decide)
theorem dsTriple_small : Small dsTriple := small_of (Lil.wf_chk (by decide)) rfl rfl (by decide) (by decide)
theorem dsBack_small : Small dsBack := small_of (Lil.wf_chk (by decide)) rfl rfl (by decide) (by decide)
theorem dsBoth_small : Small dsBoth := small_of (Lil.wf_chk (by decide)) rfl rfl (by decide) (by decide)

/-- Two matrices of order 5, compared element by element. -/
theorem chk5 {A B : Lil Int} {P : Option Int → Option Int → Prop} (hA : Small A) (hB : Small B) (h0 : P none none)
    (h : ∀ u, u < 5 → ∀ v, v < 5 → P (A.get u v) (B.get u v)) (u v : Nat) : P (A.get u v) (B.get u v) := by
  by_cases hu : u < 5 ∧ v < 5
  · exact h u hu.1 v hu.2
  · rw [show A.get u v = none from Classical.byContradiction fun hx => hu (by
        have := some_lt hA.wf hx; rw [hA.rows, hA.cols] at this; exact this),
      show B.get u v = none from Classical.byContradiction fun hx => hu (by
        have := some_lt hB.wf hx; rw [hB.rows, hB.cols] at this; exact this)]
    exact h0

theorem chk5T {A B : Lil Int} (hA : Small A) (hB : Small B) (h : ∀ u, u < 5 → ∀ v, v < 5 → B.get v u = A.get u v)
    (u v : Nat) : B.get v u = A.get u v := by
  by_cases hu : u < 5 ∧ v < 5
  · exact h u hu.1 v hu.2
  · rw [show A.get u v = none from Classical.byContradiction fun hx => hu (by
        have := some_lt hA.wf hx; rw [hA.rows, hA.cols] at this; exact this),
      show B.get v u = none from Classical.byContradiction fun hx => hu (by
        have := some_lt hB.wf hx; rw [hB.rows, hB.cols] at this; exact ⟨this.2, this.1⟩)]

end Ex

example : ∃ d d', sssp .i32 (fun _ _ => 0) Ex.dsGraph Ex.from0of5 = .ok (true, d) ∧
    sssp .i32 (fun _ _ => 0) Ex.dsMore Ex.from0of5 = .ok (true, d') ∧
    ∀ v x, d.get v = some x → ∃ x', d'.get v = some x' ∧ x' ≤ x :=
  C84_sssp_monotone Ex.ds_small.path Ex.dsMore_small.path (by decide) (Ex.dsMore_small.noNegFrom _)
    (Ex.chk5 (P := fun a b => ∀ w, a = some w → ∃ w', b = some w' ∧ w' ≤ w) Ex.ds_small Ex.dsMore_small
      (fun _ h => by cases h) fun u hu v hv w hw => by
        have : ∀ u, u < 5 → ∀ v, v < 5 → ∀ w ∈ Ex.dsGraph.get u v, ∃ w' ∈ Ex.dsMore.get u v, w' ≤ w := by decide +kernel
        exact this u hu v hv w hw)

/-- The distances do become smaller, and a new vertex is reached. -/
example : sssp .i32 (fun _ _ => 0) Ex.dsGraph Ex.from0of5
      = .ok (true, { size := 5, nvals := 4, vals := [0, 1, 3, 12, 0], bitmap := [true, true, true, true, false] }) ∧
    sssp .i32 (fun _ _ => 0) Ex.dsMore Ex.from0of5
      = .ok (true, { size := 5, nvals := 5, vals := [0, 1, 2, 11, 6], bitmap := [true, true, true, true, true] }) := by
  decide +kernel

example : ∃ d d', sssp .i32 (fun _ _ => 0) Ex.dsGraph Ex.from0of5 = .ok (true, d) ∧
    sssp .i32 (fun _ _ => 0) Ex.dsTriple Ex.from0of5 = .ok (true, d') ∧ ∀ v, d'.get v = (d.get v).map (3 * ·) :=
  C84_sssp_scale (by decide) Ex.ds_small.path Ex.dsTriple_small.path (by decide) (by decide) (Ex.ds_small.noNegFrom _)
    (Ex.chk5 (P := fun a b => b = a.map (3 * ·)) Ex.ds_small Ex.dsTriple_small rfl (by decide +kernel))
    (fun v => by rw [Ex.from0of5_eq]; exact source_scale 3 0 v)

example : ∃ d, sssp .i32 (fun _ _ => 0) Ex.dsGraph Ex.from0of5 = .ok (true, d) ∧
    ∀ u v x w, d.get u = some x → Ex.dsGraph.get u v = some w → ∃ y, d.get v = some y ∧ y ≤ x + w := by
  obtain ⟨d, e, _, h, _⟩ := C84_sssp_bellman (ov := fun _ _ => 0) Ex.ds_small.path (by decide) (Ex.ds_small.noNegFrom _)
  exact ⟨d, e, h⟩

example : ∃ l l', bfsLevel 5 (fun _ => true) Ex.dsGraph 0 ITy.i32.lev { size := 5, nvals := 0, vals := [0, 0, 0, 0, 0], bitmap := [false, false, false, false, false] } = .ok l ∧
    bfsLevel 5 (fun _ => true) Ex.dsMore 0 ITy.i32.lev { size := 5, nvals := 0, vals := [0, 0, 0, 0, 0], bitmap := [false, false, false, false, false] } = .ok l' ∧
    ∀ v x, l.get v = some x → ∃ a b, l.get v = some (ITy.i32.lev.ofIx a) ∧ l'.get v = some (ITy.i32.lev.ofIx b) ∧ b ≤ a := by
  refine C84_bfs_monotone (fun _ => true) Ex.dsGraph Ex.dsMore 0 ITy.i32.lev _ Ex.ds_small.wf Ex.dsMore_small.wf rfl rfl rfl
    (by decide) (fun _ _ _ _ => rfl) (fun _ _ _ _ => rfl) ⟨rfl, rfl, rfl⟩ rfl (fun v => ?_)
    (ITy.lev_fits _ _ (by decide) (by decide)) 5 (by decide) fun u v h => ?_
  · match v with
    | 0 | 1 | 2 | 3 | 4 => rfl
    | v + 5 => simp [BVec.get]
  · exact Ex.chk5 (P := fun a b => a.isSome → b.isSome) Ex.ds_small Ex.dsMore_small (fun h => h) (by decide +kernel) u v h

example : ∃ D, apsp .i32 (fun _ _ => 0) Ex.dsGraph = .ok D ∧ (∀ u, u < 5 → D.get u u = some 0) ∧
    ∀ u v w x y, D.get u v = some x → D.get v w = some y → ∃ z, D.get u w = some z ∧ z ≤ x + y :=
  C84_apsp_triangle Ex.ds_small.apsp Ex.ds_small.noNeg Ex.ds_small.noLoop

example : ∃ D D', apsp .i32 (fun _ _ => 0) Ex.dsGraph = .ok D ∧ apsp .i32 (fun _ _ => 0) Ex.dsBack = .ok D' ∧
    ∀ u v, D'.get v u = D.get u v :=
  C84_apsp_reverse Ex.ds_small.apsp Ex.dsBack_small.apsp rfl (Ex.chk5T Ex.ds_small Ex.dsBack_small (by decide +kernel))
    Ex.ds_small.noNeg Ex.ds_small.noLoop

example : ∃ D, apsp .i32 (fun _ _ => 0) Ex.dsBoth = .ok D ∧ ∀ u v, D.get v u = D.get u v :=
  C84_apsp_symmetric Ex.dsBoth_small.apsp (Ex.chk5T Ex.dsBoth_small Ex.dsBoth_small (by decide +kernel))
    Ex.dsBoth_small.noNeg Ex.dsBoth_small.noLoop

namespace Ex

theorem flow_input {C : Lil Int} {s k fuel : Nat} (hw : C.WF) (hsq : C.nrows = C.ncols) (hs : s < C.nrows)
    (hk : k < C.nrows) (hsk : s ≠ k) (hc : ∀ r ∈ C.rows, ∀ p ∈ r, decide (0 ≤ p.2) = true)
    (h1 : ITy.Has .i16 (totalCapacity C.nrows (capacityOf C.get)))
    (h2 : ITy.Has .i16 (- totalCapacity C.nrows (capacityOf C.get))) (h3 : ITy.Has .i16 (2 * C.nrows))
    (hf : 2 * (C.nrows * C.nrows * C.nrows) + 6 * (C.nrows * C.nrows) + 6 * C.nrows + 1 ≤ fuel) :
    FlowInput .i16 C s k fuel :=
  ⟨hw, hsq, hs, hk, hsk, fun _ _ _ h => of_decide_eq_true (get_chk hw (P := fun x => decide (0 ≤ x) = true) hc h), h1, h2, h3, hf⟩

theorem flowNet_input : FlowInput .i16 flowNet 0 5 700 :=
  flow_input (Lil.wf_chk (by decide +kernel)) (by decide +kernel) (by decide +kernel) (by decide +kernel) (by decide)
    (by decide +kernel) (by decide +kernel) (by decide +kernel) (by decide +kernel) (by decide +kernel)

/-- `flowNet` reversed. -/
def flowBack : Lil Int :=
  ((Lil.new 6 6 : Lil Int).build (fun _ y => y) [(1, 0, 16), (2, 0, 13), (2, 1, 10), (1, 2, 4), (3, 1, 12),
    (2, 3, 9), (4, 2, 14), (3, 4, 7), (5, 3, 20), (5, 4, 4)]).2

theorem flowBack_input : FlowInput .i16 flowBack 5 0 700 :=
  flow_input (Lil.wf_chk (by decide +kernel)) (by decide +kernel) (by decide +kernel) (by decide +kernel) (by decide)
    (by decide +kernel) (by decide +kernel) (by decide +kernel) (by decide +kernel) (by decide +kernel)

/-- `flowNet` with ten times the capacities. -/
def flowTen : Lil Int :=
  ((Lil.new 6 6 : Lil Int).build (fun _ y => y) [(0, 1, 160), (0, 2, 130), (1, 2, 100), (2, 1, 40), (1, 3, 120),
    (3, 2, 90), (2, 4, 140), (4, 3, 70), (3, 5, 200), (4, 5, 40)]).2

theorem flowTen_input : FlowInput .i16 flowTen 0 5 700 :=
  flow_input (Lil.wf_chk (by decide +kernel)) (by decide +kernel) (by decide +kernel) (by decide +kernel) (by decide)
    (by decide +kernel) (by decide +kernel) (by decide +kernel) (by decide +kernel) (by decide +kernel)

theorem chk6 {A B : Lil Int} {P : Option Int → Option Int → Prop} (hA : A.WF ∧ A.nrows = 6 ∧ A.ncols = 6)
    (hB : B.WF ∧ B.nrows = 6 ∧ B.ncols = 6) (h0 : P none none)
    (h : ∀ u, u < 6 → ∀ v, v < 6 → P (A.get u v) (B.get u v)) (u v : Nat) : P (A.get u v) (B.get u v) := by
  by_cases hu : u < 6 ∧ v < 6
  · exact h u hu.1 v hu.2
  · rw [show A.get u v = none from Classical.byContradiction fun hx => hu (by
        have := some_lt hA.1 hx; rw [hA.2.1, hA.2.2] at this; exact this),
      show B.get u v = none from Classical.byContradiction fun hx => hu (by
        have := some_lt hB.1 hx; rw [hB.2.1, hB.2.2] at this; exact this)]
    exact h0

end Ex

example : ∃ m, maxflowPushRelabel 700 .i16 (fun _ _ => 0) Ex.flowNet 0 5 = .ok m ∧
    IsMinCut Ex.flowNet.nrows 0 5 (capacityOf Ex.flowNet.get) m := C85_min_cut Ex.flowNet_input

/-- The cut that shows that no flow is larger than 23. -/
example : cutCapacity 6 (capacityOf Ex.flowNet.get) (fun v => v == 0 || v == 1 || v == 2 || v == 4) = 23 := by decide +kernel

example : ∃ m m', maxflowPushRelabel 700 .i16 (fun _ _ => 0) Ex.flowNet 0 5 = .ok m ∧
    maxflowPushRelabel 700 .i16 (fun _ _ => 0) Ex.flowTen 0 5 = .ok m' ∧ m ≤ m' :=
  C85_monotone Ex.flowNet_input Ex.flowTen_input (by decide +kernel)
    (Ex.chk6 (P := fun a b => a.getD 0 ≤ b.getD 0) ⟨Ex.flowNet_input.wf, by decide +kernel, by decide +kernel⟩
      ⟨Ex.flowTen_input.wf, by decide +kernel, by decide +kernel⟩ (by decide) (by decide +kernel))

example : ∃ m, maxflowPushRelabel 700 .i16 (fun _ _ => 0) Ex.flowNet 0 5 = .ok m ∧
    maxflowPushRelabel 700 .i16 (fun _ _ => 0) Ex.flowTen 0 5 = .ok (10 * m) :=
  C85_scale (by decide) Ex.flowNet_input Ex.flowTen_input (by decide +kernel)
    (Ex.chk6 (P := fun a b => b.getD 0 = 10 * a.getD 0) ⟨Ex.flowNet_input.wf, by decide +kernel, by decide +kernel⟩
      ⟨Ex.flowTen_input.wf, by decide +kernel, by decide +kernel⟩ (by decide) (by decide +kernel))

example : ∃ m, maxflowPushRelabel 700 .i16 (fun _ _ => 0) Ex.flowNet 0 5 = .ok m ∧
    maxflowPushRelabel 700 .i16 (fun _ _ => 0) Ex.flowBack 5 0 = .ok m := by
  refine C85_reverse Ex.flowNet_input Ex.flowBack_input (by decide +kernel) fun u v => ?_
  have hs : Ex.flowNet.nrows = 6 ∧ Ex.flowNet.ncols = 6 ∧ Ex.flowBack.nrows = 6 ∧ Ex.flowBack.ncols = 6 := by decide +kernel
  by_cases hu : u < 6 ∧ v < 6
  · exact (show ∀ u, u < 6 → ∀ v, v < 6 → Ex.flowBack.get v u = Ex.flowNet.get u v by decide +kernel) u hu.1 v hu.2
  · rw [show Ex.flowNet.get u v = none from Classical.byContradiction fun hx => hu (by
        have := some_lt Ex.flowNet_input.wf hx; omega),
      show Ex.flowBack.get v u = none from Classical.byContradiction fun hx => hu (by
        have := some_lt Ex.flowBack_input.wf hx; omega)]

example : ∃ R R', (∀ fuel, 13 ≤ fuel → kTruss2 .i8 (fun _ _ => 0) fuel Ex.incAdj 4 = .ok R) ∧
    (∀ fuel, 13 ≤ fuel → kTruss2 .i8 (fun _ _ => 0) fuel Ex.incAdj 3 = .ok R') ∧
    ∀ i j, R.get i j = some 1 → R'.get i j = some 1 :=
  C86_truss_nested Ex.incAdj_undirected Ex.incAdj_undirected Ex.incAdj_is Ex.incAdj_is (by decide) (by decide) (by decide)
    (by decide) (by decide) (fun _ _ h => h)

/-- The 3-truss drops the edge to vertex 4; it is the k-truss of itself. -/
example : ∃ R R', (∀ fuel, 13 ≤ fuel → kTruss2 .i8 (fun _ _ => 0) fuel Ex.incAdj 3 = .ok R) ∧
    (∀ fuel, 13 ≤ fuel → kTruss2 .i8 (fun _ _ => 0) fuel Ex.incAdj 3 = .ok R') ∧
    ∀ i j, R'.get i j = some 1 ↔ R.get i j = some 1 := by
  obtain ⟨R, e, h⟩ := C86_truss_again (t := .i8) (ov := fun _ _ => 0) (k := 3) Ex.incAdj_undirected Ex.incAdj_is (by decide)
    (by decide) (by decide) (by decide)
  obtain ⟨F, e', hF, T⟩ : ∃ F, kTruss2 .i8 (fun _ _ => 0) 13 Ex.incAdj 3 = .ok R ∧ Is01 5 F R ∧ IsKTruss 5 3 (adjOf Ex.incEdges) F := by
    obtain ⟨R', F, e', hF, T⟩ := C39_k_truss2_partial (t := .i8) (ov := fun _ _ => 0) (k := 3) Ex.incAdj_undirected Ex.incAdj_is
      (by decide) (by decide) (by decide) (by decide)
    have h1 := e 13 (by decide)
    rw [e' 13 (by decide)] at h1
    cases h1
    exact ⟨F, e' 13 (by decide), hF, T⟩
  obtain ⟨R', e2, h2⟩ := h (adjOf Ex.incEdges) Ex.incAdj Ex.incAdj_undirected Ex.incAdj_is
    (fun i j hij => (Ex.incAdj_is.one i j).2 (T.truss.sub i j ((hF.one i j).1 hij))) (fun _ _ h => h)
  exact ⟨R, R', e, e2, h2⟩

example : ∃ R c, (∀ fuel, 13 ≤ fuel → kTruss2 .i8 (fun _ _ => 0) fuel Ex.incAdj 3 = .ok R) ∧
    triangleCount .i8 (fun _ _ => 0) Ex.incAdj = .ok c ∧ triangleCount .i8 (fun _ _ => 0) R = .ok c :=
  C86_triangles_of_truss Ex.incAdj_undirected Ex.incAdj_is (by decide) (by decide +kernel) (fun _ _ h => Ex.incAdj_lt h)

example : ∃ c c', triangleCount .i8 (fun _ _ => 0) Ex.incAdj = .ok c ∧ triangleCount .i8 (fun _ _ => 0) Ex.incAdj = .ok c' ∧ c ≤ c' :=
  C86_triangles_monotone Ex.incAdj_undirected Ex.incAdj_undirected Ex.incAdj_is Ex.incAdj_is (by decide) (by decide +kernel)
    (fun _ _ h => h)

example : ∃ J J' fs fs', (∀ fuel, 6 ≤ fuel → kTruss fuel .i8 (fun _ _ => 0) Ex.incMatrix 4 = .ok J) ∧
    (∀ fuel, 6 ≤ fuel → kTruss fuel .i8 (fun _ _ => 0) Ex.incMatrix 3 = .ok J') ∧ Incidence 5 fs J ∧ Incidence 5 fs' J' ∧
    ∀ i j, adjOf fs i j = true → adjOf fs' i j = true := by
  have hs : SimpleEdges 5 Ex.incEdges := ⟨by decide, by decide, by decide⟩
  have hI := Ex.incidence_of (E := Ex.incMatrix) (Lil.wf_chk (by decide)) rfl rfl hs (by decide +kernel)
  exact C86_truss_incidence_nested hs hs hI hI (by decide) (by decide) (by decide) (by decide) (by decide) (by decide)
    (by decide) (fun _ _ h => h)

end GBTL

import Verif.Lemmas.Agree
import Verif.Lemmas.Program
import Verif.Props.BfsBatch
import Verif.Props.AppendixBfs
import Verif.Props.Apsp
import Verif.Props.DeltaStep
import Verif.Props.FordFulk
import Verif.Props.KTruss
import Verif.Props.KTrussInc
/-
C80: algorithms that answer the same question give the same answer.
C81: the answers do not depend on the numbering of the vertices.
-/
namespace GBTL
open Spec

variable {α β γ ω : Type}

/-! ### C80 -/

/-- What the theorems about level BFS say of a result. -/
theorem levels_unique {E : Nat → Nat → Prop} {S : Nat → Prop} {f g : Nat → Option γ} {c : Nat → γ}
    (f1 : ∀ v d, HopDist E S v d → f v = some (c (d + 1))) (f2 : ∀ v, ¬ Reachable E S v → f v = none)
    (g1 : ∀ v d, HopDist E S v d → g v = some (c (d + 1))) (g2 : ∀ v, ¬ Reachable E S v → g v = none) (v : Nat) :
    f v = g v := by
  by_cases h : Reachable E S v
  · obtain ⟨k, hk⟩ := h
    obtain ⟨d, _, hd⟩ := hk.dist
    rw [f1 v d hd, g1 v d hd]
  · rw [f2 v h, g2 v h]

/-- **C80**, the level searches from one vertex, `bfs_level`, `bfs_level_masked`,
`bfs_level_masked_v2` and the two of the appendix, give the same levels. -/
theorem C80_bfs_levels (gtrue : α → Bool) (gIx : α → Nat) (G : Lil α) (s : Nat) (W : WaveTy ω) (wave : BVec ω)
    (L : LevTy γ) (levels : BVec γ) (hG : G.WF) (hsq : G.nrows = G.ncols) (hs : s < G.nrows)
    (ht : ∀ u v x, G.get u v = some x → gtrue x = true) (ht' : ∀ u v x, G.get u v = some x → gIx x ≠ 0)
    (hW : W.Fits) (hw : wave.WF) (hws : wave.size = G.nrows)
    (hw1 : ∀ v, wave.get v = if v = s then some (W.ofIx 1) else none)
    (hl : levels.WF) (hls : levels.size = G.nrows) (hle : ∀ v, levels.get v = none)
    (hL : L.Fits G.nrows) (hn : G.nrows < 2 ^ 32) (fuel : Nat) (hf : G.nrows ≤ fuel) :
    ∃ l1 l2 l3 l4 l5, bfsLevel fuel gtrue G s L levels = .ok l1 ∧
      bfsLevelMasked fuel gIx G W wave L levels = .ok l2 ∧
      bfsLevelMaskedV2 fuel gIx G W wave L levels = .ok l3 ∧
      bfsB1 fuel gtrue G s L levels = .ok l4 ∧ bfsB2 fuel gtrue G s L levels = .ok l5 ∧
      ∀ v, l2.get v = l1.get v ∧ l3.get v = l1.get v ∧ l4.get v = l1.get v ∧ l5.get v = l1.get v := by
  have hw2 : ∀ v x, wave.get v = some x → x = W.ofIx 1 := by
    intro v x h
    rw [hw1] at h
    by_cases e : v = s
    · rw [if_pos e] at h; cases h; rfl
    · rw [if_neg e] at h; cases h
  have hS : (fun v => wave.get v ≠ none) = (· = s) := by
    funext v
    rw [hw1]
    by_cases e : v = s <;> simp [e]
  obtain ⟨l1, e1, _, _, a1, b1⟩ := C32_bfs_level gtrue G s L levels hG hsq hs ht hl hls hle hL fuel hf
  obtain ⟨l2, e2, _, _, a2, b2⟩ := C32_bfs_level_masked gIx G W wave L levels hG hsq ht' hW hw hws hw2 hl hls hle hL hn fuel hf
  obtain ⟨l3, e3, _, _, a3, b3⟩ := C32_bfs_level_masked_v2 gIx G W wave L levels hG hsq ht' hW hw hws hw2 hl hls hle hL fuel hf
  obtain ⟨l4, e4, _, _, a4, b4⟩ := C55_level_B1 gtrue G s L levels hG hsq hs ht hl hls hle hL fuel hf
  obtain ⟨l5, e5, _, _, a5, b5⟩ := C55_level_B2 gtrue G s L levels hG hsq hs ht hl hls hle hL fuel hf
  rw [hS] at a2 b2 a3 b3
  exact ⟨l1, l2, l3, l4, l5, e1, e2, e3, e4, e5, fun v => ⟨levels_unique a2 b2 a1 b1 v, levels_unique a3 b3 a1 b1 v,
    levels_unique a4 b4 a1 b1 v, levels_unique a5 b5 a1 b1 v⟩⟩

/-- **C80**, row `r` of a batch search, by either matrix variant, is the search from row
`r`. -/
theorem C80_bfs_batch (gIx gU : α → Nat) (G : Lil α) (W : WaveTy ω) (waves : Lil ω) (wave : BVec ω) (L : LevTy γ)
    (levels : Lil γ) (lev : BVec γ) (r : Nat) (hG : G.WF) (hsq : G.nrows = G.ncols)
    (ht : ∀ u v x, G.get u v = some x → gIx x ≠ 0) (ht' : ∀ u v x, G.get u v = some x → gU x ≠ 0)
    (hW : W.Fits) (hw : waves.WF) (hws : waves.ncols = G.nrows)
    (hw1 : ∀ r v x, waves.get r v = some x → x = W.ofIx 1) (hr : r < waves.nrows)
    (hv : wave.WF) (hvs : wave.size = G.nrows) (hrow : ∀ v, wave.get v = waves.get r v)
    (hl : levels.WF) (hlr : levels.nrows = waves.nrows) (hlc : levels.ncols = G.nrows)
    (hle : ∀ r v, levels.get r v = none)
    (hl' : lev.WF) (hls : lev.size = G.nrows) (hle' : ∀ v, lev.get v = none)
    (hL : L.Fits G.nrows) (hn : G.nrows < 2 ^ 32) (fuel : Nat) (hf : G.nrows ≤ fuel) :
    ∃ l m1 m2, bfsLevelMasked fuel gIx G W wave L lev = .ok l ∧
      batchBfsLevel fuel gIx G W waves L levels = .ok m1 ∧ bfsLevelM fuel gU G W waves L levels = .ok m2 ∧
      ∀ v, m1.get r v = l.get v ∧ m2.get r v = l.get v := by
  obtain ⟨l, e, _, _, a, b⟩ := C32_bfs_level_masked gIx G W wave L lev hG hsq ht hW hv hvs
    (fun v x h => hw1 r v x (by rw [← hrow]; exact h)) hl' hls hle' hL hn fuel hf
  obtain ⟨m1, e1, _, _, _, h1⟩ := C48_batch_bfs_level gIx G W waves L levels hG hsq ht hW hw hws hw1 hl hlr hlc hle hL hn fuel hf
  obtain ⟨m2, e2, _, _, _, h2⟩ := C48_bfs_level_matrix gU G W waves L levels hG hsq ht' hW hw hws hw1 hl hlr hlc hle hL hn fuel hf
  simp only [hrow] at a b
  exact ⟨l, m1, m2, e, e1, e2, fun v => ⟨levels_unique (h1 r hr).1 (h1 r hr).2 a b v,
    levels_unique (h2 r hr).1 (h2 r hr).2 a b v⟩⟩

variable {t t' : ITy} {ov : Int → Int → Int}

/-- **C80**, row `r` of `batch_sssp` is `sssp` of row `r`. -/
theorem C80_sssp_batch {G dists : Lil Int} {dist : BVec Int} {r : Nat} (h : BatchInput t G dists)
    (hp : PathInput t G dist) (h0 : 0 < dists.ncols) (hr : r < dists.nrows) (hrow : ∀ v, dist.get v = dists.get r v)
    (hc : ¬ NegCycle G.get dist.get) :
    ∃ b D d, batchSssp t ov G dists = .ok (b, D) ∧ sssp t ov G dist = .ok (true, d) ∧ ∀ v, D.get r v = d.get v := by
  have hs : dist.get = dists.get r := funext hrow
  obtain ⟨b, D, e, _, _, _, _, hD⟩ := C46_batch_sssp (ov := ov) h h0
  obtain ⟨d, e', _, _, hd⟩ := C34_sssp (ov := ov) hp (by rw [← hp.rows, h.rows]; exact h0) hc
  rw [hs] at hc hd
  exact ⟨b, D, d, e, e', fun v => opt_ext fun x => by rw [(hD r hr hc v).2 x, (hd v).2 x]⟩

/-- **C80**, row `u` of `apsp` is `sssp` from `u`. The restriction on loops is that of
C37. -/
theorem C80_apsp_sssp {G : Lil Int} {dist : BVec Int} {u : Nat} (h : ApspInput t G) (hp : PathInput t' G dist)
    (hu : u < G.nrows) (hsrc : ∀ v, dist.get v = source u v) (hc : ¬ HasNegCycle G.get)
    (hl : ∀ u w, G.get u u = some w → w ≤ 0) :
    ∃ D d, apsp t ov G = .ok D ∧ sssp t' ov G dist = .ok (true, d) ∧ ∀ v, D.get u v = d.get v := by
  obtain ⟨D, e, _, _, _, hD⟩ := C37_apsp_partial (ov := ov) h hc hl
  obtain ⟨d, e', _, _, hd⟩ := C34_sssp (ov := ov) hp (by rw [← hp.rows]; omega) (by
    rintro ⟨v, _, k, c, hk⟩; exact hc ⟨v, k, c, hk⟩)
  rw [show dist.get = source u from funext hsrc] at hd
  exact ⟨D, d, e, e', fun v => opt_ext fun x => by rw [(hD u v hu).2 x, (hd v).2 x]⟩

/-- **C80**, `sssp_delta_step` agrees with `sssp`. The weights are positive, as in C54. -/
theorem C80_delta_step_sssp {G : Lil Int} {delta : Int} {s B : Nat} {paths dist : BVec Int}
    (h : DeltaInput t G delta s paths B) (hp : PathInput t' G dist) (hsrc : ∀ v, dist.get v = source s v)
    {fuel : Nat} (hf : G.nrows * (G.nrows * B + 1) + 1 ≤ fuel) :
    ∃ p d, deltaStep fuel t ov G delta s paths = .ok p ∧ sssp t' ov G dist = .ok (true, d) ∧
      ∀ v, p.get v = d.get v := by
  have hc : ¬ NegCycle G.get dist.get := by
    rintro ⟨v, _, k, c, hk, hneg⟩
    have hpos : ∀ k x c, WWalk G.get (source v) k x c → 0 ≤ c := by
      intro k
      induction k with
      | zero => intro x c hk; simp only [WWalk, source] at hk; split at hk <;> cases hk; exact Int.le_refl _
      | succ k ih => rintro x c ⟨u, y, w, hu, he, rfl⟩; have := ih _ _ hu; have := (h.weights _ _ _ he).1; omega
    have := hpos _ _ _ hk
    omega
  obtain ⟨p, e, _, _, hpd⟩ := C54_delta_step_partial (t := t) ov h hf
  obtain ⟨d, e', _, _, hd⟩ := C34_sssp (ov := ov) hp (by have := h.source; rw [← hp.rows]; omega) hc
  rw [show dist.get = source s from funext hsrc] at hd
  exact ⟨p, d, e, e', fun v => opt_ext fun x => by rw [hpd v x, (hd v).2 x]⟩

/-- **C80**, a level search is a shortest path search in the graph with all weights 1: the
level is the distance plus 1. -/
theorem C80_bfs_sssp (gtrue : α → Bool) {A : Lil α} {G : Lil Int} {dist : BVec Int} (s : Nat) (L : LevTy γ)
    (levels : BVec γ) (hA : A.WF) (hsq : A.nrows = A.ncols) (hs : s < A.nrows)
    (ht : ∀ u v x, A.get u v = some x → gtrue x = true)
    (hl : levels.WF) (hls : levels.size = A.nrows) (hle : ∀ v, levels.get v = none)
    (hL : L.Fits A.nrows) (fuel : Nat) (hf : A.nrows ≤ fuel) (hp : PathInput t G dist)
    (hsrc : ∀ v, dist.get v = source s v) (hone : ∀ u v w, G.get u v = some w → w = 1)
    (hE : ∀ u v, Edge A.get u v ↔ Edge G.get u v) (h0 : 0 < dist.size) :
    ∃ l d, bfsLevel fuel gtrue A s L levels = .ok l ∧ sssp t ov G dist = .ok (true, d) ∧
      ∀ v, l.get v = (d.get v).map fun x => L.ofIx (x.toNat + 1) := by
  have hpos : ∀ r k v c, WWalk G.get (source r) k v c → 0 ≤ c := by
    intro r k v c hk
    have := ((wwalk_unit (s := r) hone hE k v c).1 hk).2
    omega
  obtain ⟨l, e, _, _, a, b⟩ := C32_bfs_level gtrue A s L levels hA hsq hs ht hl hls hle hL fuel hf
  obtain ⟨d, e', _, _, hd⟩ := C34_sssp (ov := ov) hp h0 (by
    rintro ⟨v, _, k, c, hk, hn⟩; have := hpos _ _ _ _ hk; omega)
  rw [show dist.get = source s from funext hsrc] at hd
  refine ⟨l, d, e, e', fun v => ?_⟩
  by_cases hr : Reachable (Edge A.get) (· = s) v
  · obtain ⟨k, hk⟩ := hr
    obtain ⟨m, _, hm⟩ := hk.dist
    rw [a v m hm, ((hd v).2 m).2 ((isDist_unit hone hE v m).2 hm)]
    rfl
  · have : d.get v = none := by
      rw [(hd v).1]
      rintro ⟨k, x, hk⟩
      exact hr ⟨k, ((wwalk_unit hone hE k v x).1 hk).1⟩
    rw [b v hr, this]; rfl

/-- **C80**, the two maximum flow algorithms agree as long as Ford-Fulkerson does not reach
its limit on the number of rounds (C52): its result is smaller than the number of stored
capacities, none of which is zero. -/
theorem C80_max_flow {C : Lil Int} {s k : Nat} (hC : C.WF) (hsq : C.nrows = C.ncols) (hs : s < C.nrows)
    (hk : k < C.nrows) (hsk : s ≠ k) (hc : ∀ u v x, C.get u v = some x → 0 < x) (ht : t ≠ .bool)
    (hK : t.Has (totalCapacity C.nrows (capacityOf C.get)))
    (hK' : t.Has (- totalCapacity C.nrows (capacityOf C.get))) (hsmall : t.Has (2 * C.nrows)) {fuel : Nat}
    (hf : 2 * (C.nrows * C.nrows * C.nrows) + 6 * (C.nrows * C.nrows) + 6 * C.nrows + 1 ≤ fuel)
    (hf' : C.nrows + C.nvals ≤ fuel) :
    ∃ m m', maxflowPushRelabel fuel t ov C s k = .ok m ∧ maxflowFordFulk fuel t ov C s k = .ok m' ∧ m' ≤ m ∧
      (m' < C.nvals → m' = m) := by
  have hc' : ∀ u v x, C.get u v = some x → 0 ≤ x := fun u v x h => Int.le_of_lt (hc u v x h)
  obtain ⟨m, e, h⟩ := C51_push_relabel ov hC hsq hs hk hsk hc' hK hK' hsmall hf
  obtain ⟨m', e', ⟨g, hg, hv⟩, _, h'⟩ := C52_ford_fulk_partial ov hC hsq hs hk hsk hc' ht hK.2 hf'
  have hle : m' ≤ m := by rw [← hv]; exact h.2 g hg
  refine ⟨m, m', e, e', hle, fun hlt => ?_⟩
  rcases h' (fun u v x hx => by have := hc u v x hx; omega) with hm | hm
  · obtain ⟨g', hg', hv'⟩ := h.1
    have := hm.2 g' hg'
    omega
  · omega

/-- **C80**, `k_truss` on an incidence matrix and `k_truss2` on the adjacency matrix of the
same graph return the same subgraph. -/
theorem C80_k_truss {n k : Nat} {es : List (Nat × Nat)} {E A : Lil Int} (hs : SimpleEdges n es)
    (hE : Incidence n es E) (hne : es ≠ []) (hA : Is01 n (adjOf es) A) (hu : Undirected (adjOf es))
    (hn : (n : Int) ≤ t.maxVal) (hk : 3 ≤ k) (hk2 : ((k - 2 : Nat) : Int) ≤ t.maxVal) (hk3 : k < 2 ^ 64) :
    ∃ E' es' R F, (∀ fuel, es.length ≤ fuel → kTruss fuel t ov E k = .ok E') ∧ Incidence n es' E' ∧
      (∀ fuel, A.nvals + 1 ≤ fuel → kTruss2 t ov fuel A k = .ok R) ∧ Is01 n F R ∧
      ∀ i j, F i j = adjOf es' i j := by
  obtain ⟨E', es', e, _, hI, T⟩ := C53_k_truss (t := t) (ov := ov) (k := k) hs hE hne hn
    (ITy.has_nn (by omega) (by omega)) hk3
  obtain ⟨R, F, e', hR, T'⟩ := C39_k_truss2_partial (t := t) (ov := ov) hu hA hn hk hk2 hk3
  refine ⟨E', es', R, F, e, hI, e', hR, fun i j => ?_⟩
  rw [Bool.eq_iff_iff]
  exact ⟨T.largest F T'.truss i j, T'.largest _ T.truss i j⟩

/-- The two maximum flow algorithms do not agree in general: `maxflow_ford_fulk` makes at
most as many augmentations as there are stored capacities. -/
theorem C80_max_flow_wrong :
    ∃ (C : Lil Int) (m m' : Int), C.WF ∧ C.nrows = 11 ∧ C.ncols = 11 ∧ (∀ u v x, C.get u v = some x → 0 < x) ∧
      maxflowPushRelabel 3455 .i32 (fun _ _ => 0) C 0 10 = .ok m ∧
      maxflowFordFulk 36 .i32 (fun _ _ => 0) C 0 10 = .ok m' ∧ m' < m := by
  obtain ⟨h1, h2, h3⟩ := Ex.ffNet_rows
  obtain ⟨m, e, h⟩ := C51_push_relabel (t := .i32) (fun _ _ => 0) (s := 0) (k := 10) (fuel := 3455) Ex.ffNet_wf (h1.trans h2.symm)
    (by rw [h1]; decide) (by rw [h1]; decide) (by decide) (fun u v x hx => Int.le_of_lt (Ex.ffNet_pos hx))
    (by decide +kernel) (by decide +kernel) (by decide +kernel) (by rw [h1]; decide)
  rw [h1] at h
  have h43 : flowValue 11 0 (capacityOf Ex.ffFlow.get) = 43 := by decide +kernel
  have := h.2 _ Ex.ffFlow_isFlow
  exact ⟨Ex.ffNet, m, 41, Ex.ffNet_wf, h1, h2, fun u v x hx => Ex.ffNet_pos hx, e, Ex.ffNet_result, by omega⟩

/-- `apsp` and `sssp` do not agree on the distance of a vertex from itself when it has a
loop of positive weight. -/
theorem C80_apsp_loop_wrong :
    ∃ (G D : Lil Int) (dist d : BVec Int), G.WF ∧ (∀ v, dist.get v = source 0 v) ∧ apsp .i32 (fun _ _ => 0) G = .ok D ∧
      sssp .i32 (fun _ _ => 0) G dist = .ok (true, d) ∧ D.get 0 0 = some 7 ∧ d.get 0 = some 0 := by
  refine ⟨⟨1, 1, 1, [[(0, 7)]]⟩, ⟨1, 1, 1, [[(0, 7)]]⟩, { size := 1, nvals := 1, vals := [0], bitmap := [true] },
    { size := 1, nvals := 1, vals := [0], bitmap := [true] }, Lil.wf_chk (by decide), fun v => ?_, by decide +kernel,
    by decide +kernel, rfl, rfl⟩
  match v with
  | 0 => rfl
  | v + 1 => simp [BVec.get, source]

/-! ### C81 -/

/-- The edges of a matrix are within its shape. -/
theorem edge_in {A : Lil α} (hA : A.WF) (hsq : A.nrows = A.ncols) (u v : Nat) (h : Edge A.get u v) :
    u < A.nrows ∧ v < A.nrows := by
  have := edge_lt hA h
  omega

theorem moved_edges {A A' : Lil α} {n : Nat} {d : Nat → Nat} (h : MovedMat n d A.get A'.get) (u v : Nat) (hu : u < n)
    (hv : v < n) : Edge A'.get (d u) (d v) ↔ Edge A.get u v := by
  unfold Edge; rw [h u v hu hv]

/-- **C81**, `bfs_level`: the level of a vertex is that of the same vertex in the
renumbered graph. -/
theorem C81_bfs_level {n : Nat} {d τ : Nat → Nat} (R : Renumbering n d τ) (gtrue : α → Bool) (G G' : Lil α) (s : Nat)
    (L : LevTy γ) (levels : BVec γ) (hG : G.WF) (hG' : G'.WF) (hr : G.nrows = n) (hc : G.ncols = n)
    (hr' : G'.nrows = n) (hc' : G'.ncols = n) (hm : MovedMat n d G.get G'.get) (hs : s < n)
    (ht : ∀ u v x, G.get u v = some x → gtrue x = true) (ht' : ∀ u v x, G'.get u v = some x → gtrue x = true)
    (hl : levels.WF) (hls : levels.size = n) (hle : ∀ v, levels.get v = none)
    (hL : L.Fits n) (fuel : Nat) (hf : n ≤ fuel) :
    ∃ l l', bfsLevel fuel gtrue G s L levels = .ok l ∧ bfsLevel fuel gtrue G' (d s) L levels = .ok l' ∧
      MovedVec n d l.get l'.get := by
  subst hr
  obtain ⟨l, e, _, _, a, b⟩ := C32_bfs_level gtrue G s L levels hG hc.symm hs ht hl hls hle hL fuel hf
  obtain ⟨l', e', _, _, a', b'⟩ := C32_bfs_level gtrue G' (d s) L levels hG' (by rw [hr', hc'])
    (by rw [hr']; exact (R.there s hs).1) ht' hl (by rw [hr']; exact hls) hle (by rw [hr']; exact hL) fuel (by rw [hr']; exact hf)
  refine ⟨l, l', e, e', fun v hv => ?_⟩
  have hE := edge_in hG hc.symm
  have hE' : ∀ u v, Edge G'.get u v → u < G.nrows ∧ v < G.nrows := by
    have := edge_in hG' (by rw [hr', hc']); rw [hr'] at this; exact this
  have hS : ∀ v, v < G.nrows → (d v = d s ↔ v = s) := by
    intro v hv
    refine ⟨fun h => ?_, fun h => by rw [h]⟩
    have := congrArg τ h
    rwa [(R.there v hv).2, (R.there s hs).2] at this
  by_cases hreach : Reachable (Edge G.get) (· = s) v
  · obtain ⟨k, hk⟩ := hreach
    obtain ⟨m, _, hmd⟩ := hk.dist
    rw [a v m hmd, a' (d v) m ((hopDist_moved R hE hE' (moved_edges hm) hS hv m).2 hmd)]
  · rw [b v hreach, b' (d v) fun h => hreach ((reachable_moved R hE hE' (moved_edges hm) hS hv).1 h)]

/-- **C81**, `sssp`. -/
theorem C81_sssp {n : Nat} {d τ : Nat → Nat} (R : Renumbering n d τ) {G G' : Lil Int} {dist dist' : BVec Int}
    (h : PathInput t G dist) (h' : PathInput t G' dist') (hn : dist.size = n) (hn' : dist'.size = n) (h0 : 0 < n)
    (hm : MovedMat n d G.get G'.get) (hs : MovedVec n d dist.get dist'.get) (hc : ¬ NegCycle G.get dist.get) :
    ∃ x x', sssp t ov G dist = .ok (true, x) ∧ sssp t ov G' dist' = .ok (true, x') ∧ MovedVec n d x.get x'.get := by
  have hW : ∀ u v w, G.get u v = some w → u < n ∧ v < n := by
    intro u v w hw
    have := edge_lt h.graph (u := u) (v := v) (by simp [Edge, hw])
    rw [h.rows, h.cols, hn] at this; exact this
  have hW' : ∀ u v w, G'.get u v = some w → u < n ∧ v < n := by
    intro u v w hw
    have := edge_lt h'.graph (u := u) (v := v) (by simp [Edge, hw])
    rw [h'.rows, h'.cols, hn'] at this; exact this
  have hlt' : ∀ k v x, WWalk G'.get dist'.get k v x → v < n := by
    intro k v x hk
    cases k with
    | zero => have := vec_some_lt h'.start (i := v) (by rw [show dist'.get v = some x from hk]; simp); omega
    | succ k => obtain ⟨u, y, w, _, he, _⟩ := hk; exact (hW' _ _ _ he).2
  have hc' : ¬ NegCycle G'.get dist'.get := by
    rintro ⟨v, ⟨j, x, hj⟩, k, c, hk, hneg⟩
    have hv := hlt' _ _ _ hj
    have hb := R.back v hv
    have hsrc : MovedVec n d (source (τ v)) (source v) := by
      intro u hu
      unfold source
      by_cases e : u = τ v
      · rw [if_pos e, if_pos (by rw [e]; exact hb.2)]
      · rw [if_neg e, if_neg]
        intro e'
        apply e
        rw [← e', (R.there u hu).2]
    refine hc ⟨τ v, ⟨j, x, ?_⟩, k, c, ?_, hneg⟩
    · rw [← wwalk_moved R hW hW' hm hs j (τ v) x hb.1, hb.2]; exact hj
    · rw [← wwalk_moved R hW hW' hm hsrc k (τ v) c hb.1, hb.2]; exact hk
  obtain ⟨x, e, _, _, hx⟩ := C34_sssp (ov := ov) h (by omega) hc
  obtain ⟨x', e', _, _, hx'⟩ := C34_sssp (ov := ov) h' (by omega) hc'
  exact ⟨x, x', e, e', fun v hv => opt_ext fun y => by
    rw [(hx' (d v)).2 y, (hx v).2 y, isDist_moved R hW hW' hm hs hv y]⟩

/-- **C81**, `maxflow_push_relabel`. -/
theorem C81_push_relabel {n : Nat} {d τ : Nat → Nat} (R : Renumbering n d τ) {C C' : Lil Int} {s k : Nat} (hC : C.WF)
    (hC' : C'.WF) (hr : C.nrows = n) (hcl : C.ncols = n) (hr' : C'.nrows = n) (hcl' : C'.ncols = n)
    (hm : MovedMat n d C.get C'.get) (hs : s < n) (hk : k < n) (hsk : s ≠ k)
    (hc : ∀ u v x, C.get u v = some x → 0 ≤ x)
    (hK : t.Has (totalCapacity n (capacityOf C.get))) (hK' : t.Has (- totalCapacity n (capacityOf C.get)))
    (hsmall : t.Has (2 * n)) {fuel : Nat} (hf : 2 * (n * n * n) + 6 * (n * n) + 6 * n + 1 ≤ fuel) :
    ∃ m, maxflowPushRelabel fuel t ov C s k = .ok m ∧ maxflowPushRelabel fuel t ov C' (d s) (d k) = .ok m := by
  have hcap : ∀ u v, u < n → v < n → capacityOf C'.get (d u) (d v) = capacityOf C.get u v := by
    intro u v hu hv
    unfold capacityOf; rw [hm u v hu hv]
  have htot : totalCapacity n (capacityOf C'.get) = totalCapacity n (capacityOf C.get) := by
    have R' : Renumbering n τ d := ⟨R.back, R.there⟩
    unfold totalCapacity
    rw [← total_renumber R' fun u => total n fun v => capacityOf C'.get u v]
    refine total_congr fun u hu => ?_
    rw [← total_renumber R' fun v => capacityOf C'.get (d u) v]
    exact total_congr fun v hv => hcap u v hu hv
  have hc' : ∀ u v x, C'.get u v = some x → 0 ≤ x := by
    intro u v x hx
    have hlt := edge_lt hC' (u := u) (v := v) (by simp [Edge, hx])
    have hu := R.back u (by omega)
    have hv := R.back v (by omega)
    refine hc (τ u) (τ v) x ?_
    rw [← hm _ _ hu.1 hv.1, hu.2, hv.2]; exact hx
  subst hr
  obtain ⟨m, e, h⟩ := C51_push_relabel (t := t) ov hC hcl.symm hs hk hsk hc hK hK' hsmall hf
  obtain ⟨m', e', h'⟩ := C51_push_relabel (t := t) (C := C') (s := d s) (k := d k) ov hC' (by rw [hr', hcl'])
    (by rw [hr']; exact (R.there s hs).1) (by rw [hr']; exact (R.there k hk).1)
    (fun e => hsk (by have := congrArg τ e; rwa [(R.there s hs).2, (R.there k hk).2] at this)) hc'
    (by rw [hr', htot]; exact hK) (by rw [hr', htot]; exact hK') (by rw [hr']; exact hsmall) (by rw [hr']; exact hf)
  rw [hr'] at h'
  have := maxFlow_moved R hs hk hcap h h'
  subst this
  exact ⟨m', e, e'⟩

/-- **C81**, `k_truss2`. -/
theorem C81_k_truss2 {n k : Nat} {d τ : Nat → Nat} (R : Renumbering n d τ) {E E' : Nat → Nat → Bool} {A A' : Lil Int}
    (hu : Undirected E) (hu' : Undirected E') (hA : Is01 n E A) (hA' : Is01 n E' A')
    (hm : ∀ u v, u < n → v < n → E' (d u) (d v) = E u v)
    (hn : (n : Int) ≤ t.maxVal) (hk : 3 ≤ k) (hk2 : ((k - 2 : Nat) : Int) ≤ t.maxVal) (hk3 : k < 2 ^ 64) :
    ∃ Q Q' F F', (∀ fuel, A.nvals + 1 ≤ fuel → kTruss2 t ov fuel A k = .ok Q) ∧
      (∀ fuel, A'.nvals + 1 ≤ fuel → kTruss2 t ov fuel A' k = .ok Q') ∧ Is01 n F Q ∧ Is01 n F' Q' ∧
      ∀ i j, i < n → j < n → F' (d i) (d j) = F i j := by
  have hin : ∀ {E : Nat → Nat → Bool} {A : Lil Int}, Is01 n E A → ∀ i j, E i j = true → i < n ∧ j < n := by
    intro E A hA i j h
    have := edge_lt hA.wf (u := i) (v := j) (by simp [Edge, (hA.one i j).2 h])
    rwa [hA.nrows, hA.ncols] at this
  obtain ⟨Q, F, e, hQ, T⟩ := C39_k_truss2_partial (t := t) (ov := ov) hu hA hn hk hk2 hk3
  obtain ⟨Q', F', e', hQ', T'⟩ := C39_k_truss2_partial (t := t) (ov := ov) hu' hA' hn hk hk2 hk3
  exact ⟨Q, Q', F, F', e, e', hQ, hQ', fun i j hi hj => kTruss_moved R (hin hA) (hin hA') hm T T' hi hj⟩

/-! ### Concrete cases -/

namespace Ex

def wave0 : BVec Int := { size := 4, nvals := 1, vals := [1, 5, 5, 1], bitmap := [true, false, false, false] }
def wave3 : BVec Int := { size := 4, nvals := 1, vals := [1, 5, 5, 1], bitmap := [false, false, false, true] }

theorem bG_ones (u v : Nat) (x : Int) (h : bG.get u v = some x) : x = 1 :=
  get_chk bG_wf (P := fun x => x = 1) (by decide) h

theorem bLev_none (v : Nat) : bLev.get v = none := by
  match v with
  | 0 | 1 | 2 | 3 => rfl
  | v + 4 => simp [BVec.get, bLev]

theorem bLevs_none (r v : Nat) : bLevs.get r v = none := by
  match r with
  | 0 | 1 => rfl
  | r + 2 => rfl

end Ex

example : ∃ l1 l2 l3 l4 l5, bfsLevel 4 isTrue Ex.bG 0 ITy.i32.lev Ex.bLev = .ok l1 ∧
    bfsLevelMasked 4 (fun x => (ITy.conv .u64 x).toNat) Ex.bG Ex.bW Ex.wave0 ITy.i32.lev Ex.bLev = .ok l2 ∧
    bfsLevelMaskedV2 4 (fun x => (ITy.conv .u64 x).toNat) Ex.bG Ex.bW Ex.wave0 ITy.i32.lev Ex.bLev = .ok l3 ∧
    bfsB1 4 isTrue Ex.bG 0 ITy.i32.lev Ex.bLev = .ok l4 ∧ bfsB2 4 isTrue Ex.bG 0 ITy.i32.lev Ex.bLev = .ok l5 ∧
    ∀ v, l2.get v = l1.get v ∧ l3.get v = l1.get v ∧ l4.get v = l1.get v ∧ l5.get v = l1.get v :=
  C80_bfs_levels isTrue (fun x => (ITy.conv .u64 x).toNat) Ex.bG 0 Ex.bW Ex.wave0 ITy.i32.lev Ex.bLev Ex.bG_wf rfl
    (by decide) (fun u v x h => by rw [Ex.bG_ones u v x h]; rfl) (fun u v x h => by rw [Ex.bG_ones u v x h]; decide)
    ⟨by decide, by decide⟩ ⟨rfl, rfl, rfl⟩ rfl
    (fun v => by
      match v with
      | 0 | 1 | 2 | 3 => rfl
      | v + 4 => simp [BVec.get, Ex.wave0])
    Ex.bLev_wf rfl Ex.bLev_none (ITy.lev_fits _ _ (by decide) (by decide)) (by decide) 4 (by decide)

example : ∃ l m1 m2, bfsLevelMasked 4 (fun x => (ITy.conv .u64 x).toNat) Ex.bG Ex.bW Ex.wave3 ITy.i32.lev Ex.bLev = .ok l ∧
    batchBfsLevel 4 (fun x => (ITy.conv .u64 x).toNat) Ex.bG Ex.bW Ex.bWaves ITy.i32.lev Ex.bLevs = .ok m1 ∧
    bfsLevelM 4 (fun x => (ITy.conv .u64 x).toNat) Ex.bG Ex.bW Ex.bWaves ITy.i32.lev Ex.bLevs = .ok m2 ∧
    ∀ v, m1.get 1 v = l.get v ∧ m2.get 1 v = l.get v :=
  C80_bfs_batch (fun x => (ITy.conv .u64 x).toNat) (fun x => (ITy.conv .u64 x).toNat) Ex.bG Ex.bW Ex.bWaves Ex.wave3
    ITy.i32.lev Ex.bLevs Ex.bLev 1 Ex.bG_wf rfl (fun u v x h => by rw [Ex.bG_ones u v x h]; decide)
    (fun u v x h => by rw [Ex.bG_ones u v x h]; decide) ⟨by decide, by decide⟩ Ex.bWaves_wf rfl
    (fun r v x h => Ex.get_chk Ex.bWaves_wf (P := fun x => x = 1) (by decide : ∀ r ∈ Ex.bWaves.rows, ∀ p ∈ r, p.2 = 1) h)
    (by decide) ⟨rfl, rfl, rfl⟩ rfl
    (fun v => by
      match v with
      | 0 | 1 | 2 | 3 => rfl
      | v + 4 => simp [BVec.get, Ex.wave3, Lil.get, Lil.rowD, Ex.bWaves, Row.get])
    Ex.bLevs_wf rfl rfl Ex.bLevs_none Ex.bLev_wf rfl Ex.bLev_none (ITy.lev_fits _ _ (by decide) (by decide)) (by decide) 4
    (by decide)

namespace Ex

def from0of4 : BVec Int := { size := 4, nvals := 1, vals := [0, 7, 7, 7], bitmap := [true, false, false, false] }
def from0of5 : BVec Int := { size := 5, nvals := 1, vals := [0, 0, 0, 0, 0], bitmap := [true, false, false, false, false] }

theorem from0of4_eq (v : Nat) : from0of4.get v = source 0 v := by
  match v with
  | 0 | 1 | 2 | 3 => rfl
  | v + 4 => simp [BVec.get, from0of4, source]

theorem from0of5_eq (v : Nat) : from0of5.get v = source 0 v := by
  match v with
  | 0 | 1 | 2 | 3 | 4 => rfl
  | v + 5 => simp [BVec.get, from0of5, source]

theorem source_zero {f : Nat → Option Int} (h : ∀ v, f v = source 0 v) (v : Nat) (x : Int) (hx : f v = some x) : x = 0 := by
  rw [h, source] at hx
  split at hx <;> cases hx
  rfl

theorem bG_input : PathInput .i32 bG from0of4 := by
  refine PathInput.of_small (Lil.wf_chk (by decide)) ⟨rfl, rfl, rfl⟩ rfl rfl (by decide) (source_zero from0of4_eq) 1 ?_ ?_
  · intro u v w h
    exact get_chk (Lil.wf_chk (by decide)) (P := fun w => -(1 : Nat) ≤ w ∧ w ≤ (1 : Nat) ∧ ITy.Has .i32 w) (by decide) h
  · intro x h1 h2
    have e : from0of4.size * 1 = 4 := rfl
    rw [e] at h1 h2
    constructor
    · show (-2147483648 : Int) ≤ x; omega
    · show x ≤ (2147483647 : Int); omega

theorem ds_path : PathInput .i32 dsGraph from0of5 := by
  refine PathInput.of_small (Lil.wf_chk (by decide)) ⟨rfl, rfl, rfl⟩ rfl rfl (by decide) (source_zero from0of5_eq) 9 ?_ ?_
  · intro u v w h
    exact get_chk (Lil.wf_chk (by decide)) (P := fun w => -(9 : Nat) ≤ w ∧ w ≤ (9 : Nat) ∧ ITy.Has .i32 w) (by decide) h
  · intro x h1 h2
    have e : from0of5.size * 9 = 45 := rfl
    rw [e] at h1 h2
    constructor
    · show (-2147483648 : Int) ≤ x; omega
    · show x ≤ (2147483647 : Int); omega

theorem ds_pos (u v : Nat) (w : Int) (h : dsGraph.get u v = some w) : 0 ≤ w ∧ w ≤ (9 : Nat) :=
  get_chk (Lil.wf_chk (by decide)) (P := fun w => 0 ≤ w ∧ w ≤ (9 : Nat)) (by decide : ∀ r ∈ dsGraph.rows, ∀ p ∈ r, 0 ≤ p.2 ∧ p.2 ≤ (9 : Nat)) h

end Ex

example : ∃ b D d, batchSssp .i32 (fun _ _ => 0) Ex.wg Ex.starts = .ok (b, D) ∧
    sssp .i32 (fun _ _ => 0) Ex.wg Ex.from0 = .ok (true, d) ∧ ∀ v, D.get 0 v = d.get v := by
  have e : sssp .i32 (fun _ _ => 0) Ex.wg Ex.from0
      = .ok (true, { size := 3, nvals := 3, vals := [0, -2, 2], bitmap := [true, true, true] }) := by decide +kernel
  refine C80_sssp_batch (ov := fun _ _ => 0) Ex.starts_input Ex.wg_input (by decide) (by decide) (fun v => ?_) ?_
  · match v with
    | 0 | 1 | 2 => rfl
    | v + 3 => simp [BVec.get, Ex.from0, Lil.get, Lil.rowD, Ex.starts, Row.get]
  · obtain ⟨b, d, h1, h2⟩ := C35_sssp_negative (ov := fun _ _ => 0) Ex.wg_input (by decide)
    rw [e] at h1; cases h1
    exact fun h => Bool.noConfusion (h2.2 h)

example : ∃ p d, deltaStep 300 .i32 (fun _ _ => 0) Ex.dsGraph 3 0 Ex.dsOut = .ok p ∧
    sssp .i32 (fun _ _ => 0) Ex.dsGraph Ex.from0of5 = .ok (true, d) ∧ ∀ v, p.get v = d.get v :=
  C80_delta_step_sssp (Ex.ds_input (delta := 3) (by decide) (by decide)) Ex.ds_path Ex.from0of5_eq (by decide)

example : ∃ D d, apsp .i32 (fun _ _ => 0) Ex.dsGraph = .ok D ∧
    sssp .i32 (fun _ _ => 0) Ex.dsGraph Ex.from0of5 = .ok (true, d) ∧ ∀ v, D.get 0 v = d.get v := by
  refine C80_apsp_sssp ⟨Ex.ds_path.graph, rfl, Ex.ds_path.weights, ?_⟩ Ex.ds_path (by decide) Ex.from0of5_eq
    (noNeg_of_nonneg fun u v w h => (Ex.ds_pos u v w h).1) ?_
  · intro u _ k v x hk h
    have h3 := walks_small (B := 9) (fun v x h => by
      unfold source at h; split at h <;> cases h; rfl) (fun u v w h => ⟨by have := (Ex.ds_pos u v w h).1; omega, (Ex.ds_pos u v w h).2⟩)
      (2 * Ex.dsGraph.nrows) k v x hk h
    have h1 : (-90 : Int) ≤ x ∧ x ≤ 90 := h3
    constructor
    · show (-2147483648 : Int) ≤ x; omega
    · show x ≤ (2147483647 : Int); omega
  · intro u w h
    have hlt := (edge_lt Ex.ds_path.graph (u := u) (v := u) (by simp [Edge, h])).1
    have hlt : u < 5 := hlt
    match u with
    | 0 | 1 | 2 | 3 | 4 => cases h
    | u + 5 => omega

example : ∃ l d, bfsLevel 4 isTrue Ex.bG 0 ITy.i32.lev Ex.bLev = .ok l ∧
    sssp .i32 (fun _ _ => 0) Ex.bG Ex.from0of4 = .ok (true, d) ∧
    ∀ v, l.get v = (d.get v).map fun x => ITy.i32.lev.ofIx (x.toNat + 1) :=
  C80_bfs_sssp isTrue 0 ITy.i32.lev Ex.bLev Ex.bG_wf rfl (by decide) (fun u v x h => by rw [Ex.bG_ones u v x h]; rfl)
    Ex.bLev_wf rfl Ex.bLev_none (ITy.lev_fits _ _ (by decide) (by decide)) 4 (by decide) Ex.bG_input Ex.from0of4_eq
    Ex.bG_ones (fun _ _ => Iff.rfl) (by decide)

example : ∃ m m', maxflowPushRelabel 300 .i8 (fun _ _ => 0) Ex.ffUnit 0 3 = .ok m ∧
    maxflowFordFulk 300 .i8 (fun _ _ => 0) Ex.ffUnit 0 3 = .ok m' ∧ m' ≤ m ∧ (m' < Ex.ffUnit.nvals → m' = m) :=
  C80_max_flow (t := .i8) (ov := fun _ _ => 0) (Lil.wf_chk (by decide +kernel)) (by decide +kernel) (by decide +kernel)
    (by decide +kernel) (by decide)
    (fun _ _ _ h => Ex.get_chk (Lil.wf_chk (by decide +kernel)) (P := fun x => decide (0 < x)) (by decide +kernel) h |> of_decide_eq_true)
    (by decide) (by decide +kernel) (by decide +kernel) (by decide +kernel) (by decide +kernel) (by decide +kernel)

/-- The flow found is below the number of stored capacities, so the two agree. -/
example : maxflowFordFulk 300 .i8 (fun _ _ => 0) Ex.ffUnit 0 3 = .ok 2 ∧ Ex.ffUnit.nvals = 5 := by decide +kernel

namespace Ex

/-- The adjacency matrix of `incEdges`. -/
def incAdj : Lil Int :=
  ⟨5, 5, 12, [[(1, 1), (2, 1)], [(0, 1), (2, 1), (3, 1)], [(0, 1), (1, 1), (3, 1)], [(1, 1), (2, 1), (4, 1)], [(3, 1)]]⟩

theorem incAdj_lt {i j : Nat} (h : adjOf incEdges i j = true) : i < 5 ∧ j < 5 := by
  have hs : SimpleEdges 5 incEdges := ⟨by decide, by decide, by decide⟩
  rw [adjOf, Bool.or_eq_true, List.contains_iff_mem, List.contains_iff_mem] at h
  rcases h with h | h
  · exact hs.lt _ h
  · exact ⟨(hs.lt _ h).2, (hs.lt _ h).1⟩

theorem incAdj_undirected : Undirected (adjOf incEdges) := by
  constructor
  · intro i j; unfold adjOf; rw [Bool.or_comm]
  · intro i
    cases h : adjOf incEdges i i with
    | false => rfl
    | true =>
      have := (incAdj_lt h).1
      match i with
      | 0 | 1 | 2 | 3 | 4 => exact h.symm
      | i + 5 => omega

theorem incAdj_is : Is01 5 (adjOf incEdges) incAdj :=
  is01_of (A := incAdj) (Lil.wf_chk (by decide)) rfl (by decide) (fun _ _ h => incAdj_lt h) (by decide +kernel)

end Ex

example : ∃ E' es' R F, (∀ fuel, 6 ≤ fuel → kTruss fuel .i8 (fun _ _ => 0) Ex.incMatrix 3 = .ok E') ∧ Incidence 5 es' E' ∧
    (∀ fuel, 13 ≤ fuel → kTruss2 .i8 (fun _ _ => 0) fuel Ex.incAdj 3 = .ok R) ∧ Is01 5 F R ∧
    ∀ i j, F i j = adjOf es' i j := by
  have hs : SimpleEdges 5 Ex.incEdges := ⟨by decide, by decide, by decide⟩
  exact C80_k_truss hs (Ex.incidence_of (Lil.wf_chk (by decide)) rfl rfl hs (by decide +kernel)) (by decide) Ex.incAdj_is
    Ex.incAdj_undirected (by decide) (by decide) (by decide) (by decide)

namespace Ex

/-- Every vertex moves to the next number, the last one to 0. -/
def turn (n i : Nat) : Nat := (i + 1) % n
def turnBack (n i : Nat) : Nat := (i + (n - 1)) % n

def turned (n : Nat) (A : Lil Int) : Lil Int :=
  { nrows := n, ncols := n, nvals := A.nvals,
    rows := (List.range n).map fun i => (List.range n).filterMap fun j =>
      (A.get (turnBack n i) (turnBack n j)).map fun x => (j, x) }

end Ex

example : ∃ l l', bfsLevel 4 isTrue Ex.bG 0 ITy.i32.lev Ex.bLev = .ok l ∧
    bfsLevel 4 isTrue (Ex.turned 4 Ex.bG) 1 ITy.i32.lev Ex.bLev = .ok l' ∧ MovedVec 4 (Ex.turn 4) l.get l'.get :=
  C81_bfs_level (n := 4) (d := Ex.turn 4) (τ := Ex.turnBack 4) ⟨by decide, by decide⟩ isTrue Ex.bG (Ex.turned 4 Ex.bG) 0
    ITy.i32.lev Ex.bLev Ex.bG_wf (Lil.wf_chk (by decide +kernel)) rfl rfl rfl rfl
    (by have h : ∀ u, u < 4 → ∀ v, v < 4 → (Ex.turned 4 Ex.bG).get (Ex.turn 4 u) (Ex.turn 4 v) = Ex.bG.get u v := by
          decide +kernel
        exact fun u v hu hv => h u hu v hv)
    (by decide) (fun u v x h => by rw [Ex.bG_ones u v x h]; rfl)
    (fun u v x h => Ex.get_chk (Lil.wf_chk (by decide +kernel)) (P := fun x => isTrue x = true) (by decide +kernel) h)
    Ex.bLev_wf rfl Ex.bLev_none (ITy.lev_fits _ _ (by decide) (by decide)) 4 (by decide)

namespace Ex

def from1of5 : BVec Int := { size := 5, nvals := 1, vals := [0, 0, 3, 0, 0], bitmap := [false, true, false, false, false] }

theorem ds_turned : PathInput .i32 (turned 5 dsGraph) from1of5 := by
  have hw : (turned 5 dsGraph).WF := Lil.wf_chk (by decide +kernel)
  refine PathInput.of_small hw ⟨rfl, rfl, rfl⟩ rfl rfl (by decide) ?_ 9 ?_ ?_
  · intro v x h
    match v with
    | 0 | 2 | 3 | 4 => cases h
    | 1 => cases h; rfl
    | v + 5 => simp [BVec.get, from1of5] at h
  · intro u v w h
    exact get_chk hw (P := fun w => -(9 : Nat) ≤ w ∧ w ≤ (9 : Nat) ∧ ITy.Has .i32 w) (by decide +kernel) h
  · intro x h1 h2
    have e : from1of5.size * 9 = 45 := rfl
    rw [e] at h1 h2
    constructor
    · show (-2147483648 : Int) ≤ x; omega
    · show x ≤ (2147483647 : Int); omega

end Ex

example : ∃ x x', sssp .i32 (fun _ _ => 0) Ex.dsGraph Ex.from0of5 = .ok (true, x) ∧
    sssp .i32 (fun _ _ => 0) (Ex.turned 5 Ex.dsGraph) Ex.from1of5 = .ok (true, x') ∧
    MovedVec 5 (Ex.turn 5) x.get x'.get := by
  have h : ∀ u, u < 5 → ∀ v, v < 5 → (Ex.turned 5 Ex.dsGraph).get (Ex.turn 5 u) (Ex.turn 5 v) = Ex.dsGraph.get u v := by
    decide +kernel
  refine C81_sssp (n := 5) (d := Ex.turn 5) (τ := Ex.turnBack 5) ⟨by decide, by decide⟩ Ex.ds_path Ex.ds_turned rfl rfl
    (by decide) (fun u v hu hv => h u hu v hv) (fun v hv => ?_) ?_
  · match v with
    | 0 | 1 | 2 | 3 | 4 => rfl
    | v + 5 => omega
  · rintro ⟨v, _, k, c, hk, hc⟩
    exact noNeg_of_nonneg (fun u v w h => (Ex.ds_pos u v w h).1) ⟨v, k, c, hk, hc⟩

example : ∃ m, maxflowPushRelabel 700 .i8 (fun _ _ => 0) Ex.flowNet 0 5 = .ok m ∧
    maxflowPushRelabel 700 .i8 (fun _ _ => 0) (Ex.turned 6 Ex.flowNet) 1 0 = .ok m := by
  have h : ∀ u, u < 6 → ∀ v, v < 6 → (Ex.turned 6 Ex.flowNet).get (Ex.turn 6 u) (Ex.turn 6 v) = Ex.flowNet.get u v := by
    decide +kernel
  exact C81_push_relabel (n := 6) (t := .i8) (ov := fun _ _ => 0) (d := Ex.turn 6) (τ := Ex.turnBack 6)
    ⟨by decide, by decide⟩ (Lil.wf_chk (by decide +kernel)) (Lil.wf_chk (by decide +kernel)) (by decide +kernel)
    (by decide +kernel) rfl rfl (fun u v hu hv => h u hu v hv) (by decide) (by decide) (by decide)
    (fun _ _ _ h => Ex.get_chk (Lil.wf_chk (by decide +kernel)) (P := fun x => decide (0 ≤ x)) (by decide +kernel) h |> of_decide_eq_true)
    (by decide +kernel) (by decide +kernel) (by decide +kernel) (by decide +kernel)

example : ∃ Q Q' F F', (∀ fuel, 13 ≤ fuel → kTruss2 .i8 (fun _ _ => 0) fuel Ex.incAdj 3 = .ok Q) ∧
    (∀ fuel, 13 ≤ fuel → kTruss2 .i8 (fun _ _ => 0) fuel (Ex.turned 5 Ex.incAdj) 3 = .ok Q') ∧
    Is01 5 F Q ∧ Is01 5 F' Q' ∧ ∀ i j, i < 5 → j < 5 → F' (Ex.turn 5 i) (Ex.turn 5 j) = F i j := by
  let E' : Nat → Nat → Bool := fun i j => (Ex.turned 5 Ex.incAdj).get i j == some 1
  have hw : (Ex.turned 5 Ex.incAdj).WF := Lil.wf_chk (by decide +kernel)
  have hlt : ∀ i j, E' i j = true → i < 5 ∧ j < 5 := by
    intro i j h
    have := edge_lt hw (u := i) (v := j) (by simp [Edge, eq_of_beq h])
    exact this
  have hsym : ∀ i, i < 5 → ∀ j, j < 5 → E' i j = E' j i := by decide +kernel
  have hloop : ∀ i, i < 5 → E' i i = false := by decide +kernel
  have hu : Undirected E' := by
    constructor
    · intro i j
      by_cases h : i < 5 ∧ j < 5
      · exact hsym i h.1 j h.2
      · have a : E' i j = false := by
          cases e : E' i j with
          | false => rfl
          | true => exact absurd (hlt _ _ e) h
        have b : E' j i = false := by
          cases e : E' j i with
          | false => rfl
          | true => exact absurd (hlt _ _ e).symm h
        rw [a, b]
    · intro i
      cases e : E' i i with
      | false => rfl
      | true => rw [hloop i (hlt _ _ e).1] at e; cases e
  have hm : ∀ u, u < 5 → ∀ v, v < 5 → E' (Ex.turn 5 u) (Ex.turn 5 v) = adjOf Ex.incEdges u v := by decide +kernel
  exact C81_k_truss2 (n := 5) (d := Ex.turn 5) (τ := Ex.turnBack 5) ⟨by decide, by decide⟩ Ex.incAdj_undirected hu
    Ex.incAdj_is (Ex.is01_of (A := Ex.turned 5 Ex.incAdj) (P := E') hw rfl (by decide +kernel) hlt (by decide +kernel))
    (fun u v hu hv => hm u hu v hv) (by decide) (by decide) (by decide) (by decide)

end GBTL

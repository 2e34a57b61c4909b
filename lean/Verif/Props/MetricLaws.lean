import Verif.Props.Metrics
import Verif.Props.Metamorph
/-
C92: laws of the distance metrics.
-/
namespace GBTL
open Spec

variable {n : Nat} {σ τ : Nat → Nat} {t t' : ITy} {ov ov' : Int → Int → Int}

theorem AllInput.range {G : Lil Int} (h : AllInput t G) (u v : Nat) (w : Int) (e : G.get u v = some w) :
    u < G.nrows ∧ v < G.nrows := by
  have := some_lt h.graph (i := u) (j := v) (by rw [e]; simp)
  rw [h.square] at this; exact this

theorem walk_range {W : Mat Int} (hW : ∀ u v w, W u v = some w → u < n ∧ v < n) {s : Nat} (hs : s < n) {k v : Nat} {x : Int}
    (h : WWalk W (source s) k v x) : v < n := by
  cases k with
  | zero =>
    have h : source s v = some x := h
    unfold source at h
    split at h
    · subst v; exact hs
    · cases h
  | succ k =>
    obtain ⟨u, y, w, -, e, -⟩ := h
    exact (hW u v w e).2

theorem source_moved (R : Renumbering n σ τ) {s : Nat} (hs : s < n) : MovedVec n σ (source s) (source (σ s)) := by
  intro v hv
  unfold source
  by_cases h : v = s
  · rw [if_pos h, if_pos (by rw [h])]
  · rw [if_neg h, if_neg fun he => h (by rw [← (R.there v hv).2, he, (R.there s hs).2])]

section
variable {W W' : Mat Int} (R : Renumbering n σ τ) (hW : ∀ u v w, W u v = some w → u < n ∧ v < n)
  (hW' : ∀ u v w, W' u v = some w → u < n ∧ v < n) (hm : MovedMat n σ W W')
include R hW hW' hm

theorem negCycle_moved (hc : ¬ HasNegCycle W) : ¬ HasNegCycle W' := by
  rintro ⟨v, k, c, hk, hn⟩
  have hv : v < n := by
    cases k with
    | zero =>
      have h : source v v = some c := hk
      rw [source, if_pos rfl] at h
      cases h
      exact absurd hn (by decide)
    | succ k =>
      obtain ⟨u, y, w, -, e, -⟩ := hk
      exact (hW' u v w e).2
  refine hc ⟨τ v, k, c, ?_, hn⟩
  have hb := R.back v hv
  refine (wwalk_moved R hW hW' hm (source_moved R hb.1) k (τ v) c hb.1).1 ?_
  rw [hb.2]
  exact hk

theorem isEcc_moved {v : Nat} (hv : v < n) (e : Int) : IsEcc W' (σ v) e ↔ IsEcc W v e := by
  have key := fun {w : Nat} (hw : w < n) (x : Int) => isDist_moved R hW hW' hm (source_moved R hv) hw x
  have hlt : ∀ {w : Nat} {x : Int}, IsDist W (source v) w x → w < n := fun h => walk_range hW hv h.1.choose_spec
  have hlt' : ∀ {w : Nat} {x : Int}, IsDist W' (source (σ v)) w x → w < n := fun h => walk_range hW' (R.there v hv).1 h.1.choose_spec
  constructor
  · rintro ⟨⟨w, h1⟩, h2⟩
    refine ⟨⟨τ w, (key (R.back w (hlt' h1)).1 e).1 (by rw [(R.back w (hlt' h1)).2]; exact h1)⟩, fun w x h => ?_⟩
    exact h2 (σ w) x ((key (hlt h) x).2 h)
  · rintro ⟨⟨w, h1⟩, h2⟩
    refine ⟨⟨σ w, (key (hlt h1) e).2 h1⟩, fun w x h => h2 (τ w) x ((key (R.back w (hlt' h)).1 x).1 ?_)⟩
    rw [(R.back w (hlt' h)).2]
    exact h

end

theorem isEcc_unique {W : Mat Int} {v : Nat} {e e' : Int} (h : IsEcc W v e) (h' : IsEcc W v e') : e = e' := by
  obtain ⟨⟨w, h1⟩, h2⟩ := h
  obtain ⟨⟨w', h1'⟩, h2'⟩ := h'
  exact Int.le_antisymm (h2' w e h1) (h2 w' e' h1')

/-! ### the laws -/

/-- **C92** Distances, eccentricities, the radius and the diameter do not depend on the numbering
of the vertices. -/
theorem C92_renumbered {G G' result result' : Lil Int} (R : Renumbering G.nrows σ τ) (h : AllInput t G) (h' : AllInput t' G')
    (hn : G'.nrows = G.nrows) (hm : MovedMat G.nrows σ G.get G'.get) (hc : ¬ HasNegCycle G.get)
    (h1 : result.nrows = G.nrows) (h2 : result.ncols = G.nrows) (h1' : result'.nrows = G.nrows) (h2' : result'.ncols = G.nrows) :
    (∃ D D', graphDistanceMatrix t ov G result = .ok D ∧ graphDistanceMatrix t' ov' G' result' = .ok D' ∧
      MovedMat G.nrows σ D.get D'.get) ∧
    (∀ v, v < G.nrows → ∃ e, vertexEccentricity t ov G v = .ok e ∧ vertexEccentricity t' ov' G' (σ v) = .ok e) ∧
    (∃ r, graphRadius t ov G = .ok r ∧ graphRadius t' ov' G' = .ok r) ∧
    ∃ r, graphDiameter t ov G = .ok r ∧ graphDiameter t' ov' G' = .ok r := by
  have hW' : ∀ u v w, G'.get u v = some w → u < G.nrows ∧ v < G.nrows := fun u v w e => by
    have := h'.range u v w e; rw [hn] at this; exact this
  have hc' := negCycle_moved R h.range hW' hm hc
  have hecc := fun {v : Nat} (hv : v < G.nrows) (e : Int) => isEcc_moved R h.range hW' hm hv e
  refine ⟨?_, fun v hv => ?_, ?_, ?_⟩
  · obtain ⟨D, e, -, -, -, hD⟩ := C47_graph_distance_matrix (ov := ov) h h1 h2 hc
    obtain ⟨D', e', -, -, -, hD'⟩ := C47_graph_distance_matrix (ov := ov') h' (h1'.trans hn.symm) (h2'.trans hn.symm) hc'
    refine ⟨D, D', e, e', fun u v hu hv => opt_ext fun x => ?_⟩
    rw [(hD' _ _ (by rw [hn]; exact (R.there u hu).1)).2, (hD u v hu).2]
    exact isDist_moved R h.range hW' hm (source_moved R hu) hv x
  · obtain ⟨e, r, he⟩ := C47_vertex_eccentricity (ov := ov) (h.at hv) (noNegAt hc)
    obtain ⟨e', r', he'⟩ := C47_vertex_eccentricity (ov := ov') (h'.at (s := σ v) (by rw [hn]; exact (R.there v hv).1)) (noNegAt hc')
    obtain rfl := isEcc_unique ((hecc hv e').1 he') he
    exact ⟨_, r, r'⟩
  · obtain ⟨r, e, ⟨v, hv, hr⟩, hle⟩ := C47_graph_radius (ov := ov) h hc
    obtain ⟨r', e', ⟨v', hv', hr'⟩, hle'⟩ := C47_graph_radius (ov := ov') h' hc'
    rw [hn] at hv' hle'
    have hb := R.back v' hv'
    have a := hle' (σ v) r (R.there v hv).1 ((hecc hv r).2 hr)
    have b := hle (τ v') r' hb.1 ((hecc hb.1 r').1 (by rw [hb.2]; exact hr'))
    obtain rfl : r' = r := by omega
    exact ⟨_, e, e'⟩
  · obtain ⟨r, e, ⟨v, hv, hr⟩, hle⟩ := C47_graph_diameter (ov := ov) h hc
    obtain ⟨r', e', ⟨v', hv', hr'⟩, hle'⟩ := C47_graph_diameter (ov := ov') h' hc'
    rw [hn] at hv' hle'
    have hb := R.back v' hv'
    have a := hle' (σ v) r (R.there v hv).1 ((hecc hv r).2 hr)
    have b := hle (τ v') r' hb.1 ((hecc hb.1 r').1 (by rw [hb.2]; exact hr'))
    obtain rfl : r' = r := by omega
    exact ⟨_, e, e'⟩

/-- **C92** The radius is not negative, no eccentricity is below it, and none is above the
diameter; some vertex has the radius and some vertex the diameter as its eccentricity. -/
theorem C92_chain {G : Lil Int} (h : AllInput t G) (hc : ¬ HasNegCycle G.get) :
    ∃ r d, graphRadius t ov G = .ok r ∧ graphDiameter t ov G = .ok d ∧ 0 ≤ r ∧
      (∀ v, v < G.nrows → ∃ e, vertexEccentricity t ov G v = .ok e ∧ r ≤ e ∧ e ≤ d) ∧
      (∃ v, v < G.nrows ∧ vertexEccentricity t ov G v = .ok r) ∧ ∃ v, v < G.nrows ∧ vertexEccentricity t ov G v = .ok d := by
  obtain ⟨r, er, ⟨v, hv, hr⟩, hle⟩ := C47_graph_radius (ov := ov) h hc
  obtain ⟨d, ed, ⟨v', hv', hd⟩, hle'⟩ := C47_graph_diameter (ov := ov) h hc
  have hecc : ∀ {v : Nat}, v < G.nrows → ∀ {e : Int}, IsEcc G.get v e → vertexEccentricity t ov G v = .ok e := by
    intro v hv e he
    obtain ⟨e', r, he'⟩ := C47_vertex_eccentricity (ov := ov) (h.at hv) (noNegAt hc)
    rw [r, isEcc_unique he he']
  refine ⟨r, d, er, ed, hr.2 v 0 (dist_source (noNegAt hc)), fun v hv => ?_, ⟨v, hv, hecc hv hr⟩, v', hv', hecc hv' hd⟩
  obtain ⟨e, re, he⟩ := C47_vertex_eccentricity (ov := ov) (h.at hv) (noNegAt hc)
  exact ⟨e, re, hle v e hv he, hle' v e hv he⟩

theorem dist_triangle {W : Mat Int} {a b c : Nat} {x y z : Int} (h1 : IsDist W (source a) b x) (h2 : IsDist W (source b) c y)
    (h3 : IsDist W (source a) c z) : z ≤ x + y := by
  obtain ⟨⟨k, hk⟩, -⟩ := h1
  obtain ⟨⟨j, hj⟩, -⟩ := h2
  exact h3.2 _ _ (WWalk.trans hk hj)

/-- **C92** On a connected undirected graph, the diameter is at most twice the radius. -/
theorem C92_twice {G : Lil Int} (h : AllInput t G) (hc : ¬ HasNegCycle G.get) (hsym : ∀ u v, G.get v u = G.get u v)
    (hcon : ∀ u v, u < G.nrows → v < G.nrows → WReach G.get (source u) v) :
    ∃ r d, graphRadius t ov G = .ok r ∧ graphDiameter t ov G = .ok d ∧ d ≤ 2 * r := by
  obtain ⟨r, er, ⟨v, hv, hr⟩, -⟩ := C47_graph_radius (ov := ov) h hc
  obtain ⟨d, ed, ⟨v', hv', ⟨w, hd⟩, -⟩, -⟩ := C47_graph_diameter (ov := ov) h hc
  refine ⟨r, d, er, ed, ?_⟩
  have hw : w < G.nrows := walk_range h.range hv' hd.1.choose_spec
  obtain ⟨D, -, -, -, -, hD⟩ := C47_graph_distance_matrix (ov := ov) (result := Lil.new G.nrows G.nrows) h rfl rfl hc
  have hex : ∀ u, u < G.nrows → ∃ x, IsDist G.get (source v) u x := by
    intro u hu
    cases e : D.get v u with
    | none => exact absurd (hcon v u hv hu) ((hD v u hv).1.1 e)
    | some x => exact ⟨x, ((hD v u hv).2 x).1 e⟩
  obtain ⟨x, hx⟩ := hex v' hv'
  obtain ⟨y, hy⟩ := hex w hw
  have a := hr.2 _ _ hx
  have b := hr.2 _ _ hy
  have := dist_triangle ((isDist_rev hsym).1 hx) hy hd
  omega

/-- **C92** The distance matrix is 0 on the diagonal, obeys the triangle inequality, is not above
the weight of any edge, and is symmetric when the graph is. -/
theorem C92_metric {G result : Lil Int} (h : AllInput t G) (hc : ¬ HasNegCycle G.get)
    (h1 : result.nrows = G.nrows) (h2 : result.ncols = G.nrows) :
    ∃ D, graphDistanceMatrix t ov G result = .ok D ∧ (∀ u, u < G.nrows → D.get u u = some 0) ∧
      (∀ u v w x y, u < G.nrows → v < G.nrows → D.get u v = some x → D.get v w = some y → ∃ z, D.get u w = some z ∧ z ≤ x + y) ∧
      (∀ u v c, G.get u v = some c → ∃ z, D.get u v = some z ∧ z ≤ c) ∧
      ((∀ u v, G.get v u = G.get u v) → ∀ u v, u < G.nrows → v < G.nrows → D.get v u = D.get u v) := by
  obtain ⟨D, e, -, -, -, hD⟩ := C47_graph_distance_matrix (ov := ov) h h1 h2 hc
  have hex : ∀ u v, u < G.nrows → WReach G.get (source u) v → ∃ x, D.get u v = some x := by
    intro u v hu hr
    cases e : D.get u v with
    | none => exact absurd hr ((hD u v hu).1.1 e)
    | some x => exact ⟨x, rfl⟩
  refine ⟨D, e, fun u hu => ((hD u u hu).2 0).2 (dist_source (noNegAt hc)), fun u v w x y hu hv hx hy => ?_, fun u v c hg => ?_,
    fun hsym u v hu hv => opt_ext fun x => ?_⟩
  · have hx := ((hD u v hu).2 x).1 hx
    have hy := ((hD v w hv).2 y).1 hy
    obtain ⟨k, hk⟩ := hx.1
    obtain ⟨j, hj⟩ := hy.1
    obtain ⟨z, hz⟩ := hex u w hu ⟨_, _, WWalk.trans hk hj⟩
    exact ⟨z, hz, dist_triangle hx hy (((hD u w hu).2 z).1 hz)⟩
  · have hu := (h.range u v c hg).1
    have hk : WWalk G.get (source u) 1 v c :=
      ⟨u, 0, c, show source u u = some 0 by rw [source, if_pos rfl], hg, (Int.zero_add c).symm⟩
    obtain ⟨z, hz⟩ := hex u v hu ⟨_, _, hk⟩
    exact ⟨z, hz, (((hD u v hu).2 z).1 hz).2 _ _ hk⟩
  · rw [(hD v u hv).2, (hD u v hu).2]
    exact isDist_rev hsym

/-- **C92** The closeness of a vertex is the sum of its row of the distance matrix, if such sums
are values of the scalar type. -/
theorem C92_closeness {G result : Lil Int} {lo hi : Int} {vid : Nat} (h : AllInput t G) (hc : ¬ HasNegCycle G.get)
    (h1 : result.nrows = G.nrows) (h2 : result.ncols = G.nrows) (hv : vid < G.nrows)
    (hb : ∀ v x, IsDist G.get (source vid) v x → lo ≤ x ∧ x ≤ hi)
    (hlo : t.minVal ≤ G.nrows * lo) (hhi : G.nrows * hi ≤ t.maxVal) :
    ∃ D, graphDistanceMatrix t ov G result = .ok D ∧
      closenessCentrality t ov G vid = .ok (total G.nrows fun v => (D.get vid v).getD 0) := by
  obtain ⟨D, e, -, -, -, hD⟩ := C47_graph_distance_matrix (ov := ov) h h1 h2 hc
  refine ⟨D, e, C47_closeness_partial (h.at hv) (noNegAt hc) hb hlo hhi (fun v hr => ?_) fun v hr => ?_⟩
  · cases ev : D.get vid v with
    | none => exact absurd hr ((hD vid v hv).1.1 ev)
    | some x => exact ((hD vid v hv).2 x).1 ev
  · rw [((hD vid v hv).1).2 hr]; rfl

/-! ### examples -/

namespace Ex

/-- `ring` with vertices 0 and 1 exchanged: 1 →(2) 0 →(3) 2 →(4) 1. -/
def ringMoved : Lil Int := { nrows := 3, ncols := 3, nvals := 3, rows := [[(2, 3)], [(0, 2)], [(1, 4)]] }

theorem ringMoved_wf : ringMoved.WF := Lil.wf_chk (by decide)

theorem walks_i32 {W : Mat Int} (hw : ∀ u v w, W u v = some w → -(4 : Nat) ≤ w ∧ w ≤ (4 : Nat)) (s k v : Nat) (x : Int)
    (hk : k ≤ 3) (h : WWalk W (source s) k v x) : ITy.Has .i32 x := by
  have := walks_small (by
    intro v x h
    unfold source at h
    split at h
    · cases h; rfl
    · cases h) hw 3 k v x hk h
  have h1 : -(12 : Nat) ≤ x := this.1
  have h2 : x ≤ (12 : Nat) := this.2
  exact ⟨by show (-2147483648 : Int) ≤ x; omega, by show x ≤ (2147483647 : Int); omega⟩

theorem ringMoved_all : AllInput .i32 ringMoved :=
  ⟨ringMoved_wf, rfl, by decide, by decide, fun _ _ _ h => get_chk ringMoved_wf (P := fun w => ITy.Has .i32 w) (by decide) h,
    fun s _ k v x hk h => walks_i32 (fun _ _ _ h =>
      get_chk ringMoved_wf (P := fun w => -(4 : Nat) ≤ w ∧ w ≤ (4 : Nat)) (by decide) h) s k v x hk h⟩

/-- An undirected path 0 —(2)— 1 —(3)— 2. -/
def line3 : Lil Int := { nrows := 3, ncols := 3, nvals := 4, rows := [[(1, 2)], [(0, 2), (2, 3)], [(1, 3)]] }

theorem line3_wf : line3.WF := Lil.wf_chk (by decide)

theorem line3_all : AllInput .i32 line3 :=
  ⟨line3_wf, rfl, by decide, by decide, fun _ _ _ h => get_chk line3_wf (P := fun w => ITy.Has .i32 w) (by decide) h,
    fun s _ k v x hk h => walks_i32 (fun _ _ _ h =>
      get_chk line3_wf (P := fun w => -(4 : Nat) ≤ w ∧ w ≤ (4 : Nat)) (by decide) h) s k v x hk h⟩

theorem line3_noNeg : ¬ HasNegCycle line3.get :=
  noNeg_of_nonneg fun _ _ _ h => get_chk line3_wf (P := fun w => 0 ≤ w) (by decide) h

theorem line3_sym (u v : Nat) : line3.get v u = line3.get u v := by
  by_cases h : u < 3 ∧ v < 3
  · exact (show ∀ u, u < 3 → ∀ v, v < 3 → line3.get v u = line3.get u v by decide) u h.1 v h.2
  · rw [line3_wf.toWFr.get_none (by show 3 ≤ v ∨ 3 ≤ u; omega), line3_wf.toWFr.get_none (by show 3 ≤ u ∨ 3 ≤ v; omega)]

theorem line3_con (u v : Nat) (hu : u < 3) (hv : v < 3) : WReach line3.get (source u) v := by
  obtain ⟨D, e, -, -, -, hD⟩ := C47_graph_distance_matrix (ov := fun _ _ => 0) (result := Lil.new 3 3) line3_all rfl rfl line3_noNeg
  have e' : graphDistanceMatrix .i32 (fun _ _ => 0) line3 (Lil.new 3 3)
      = .ok ⟨3, 3, 9, [[(0, 0), (1, 2), (2, 5)], [(0, 2), (1, 0), (2, 3)], [(0, 5), (1, 3), (2, 0)]]⟩ := by decide +kernel
  rw [e'] at e
  cases e
  refine Classical.byContradiction fun hr => ?_
  have := (hD u v hu).1.2 hr
  exact (show ∀ u, u < 3 → ∀ v, v < 3 →
    Lil.get ⟨3, 3, 9, [[(0, (0 : Int)), (1, 2), (2, 5)], [(0, 2), (1, 0), (2, 3)], [(0, 5), (1, 3), (2, 0)]]⟩ u v ≠ none by decide)
    u hu v hv this

end Ex

open Ex

example := C92_renumbered (ov := fun _ _ => 0) (ov' := fun _ _ => 0) (σ := fun v => if v < 2 then 1 - v else v)
  (τ := fun v => if v < 2 then 1 - v else v) (result := Lil.new 3 3) (result' := Lil.new 3 3)
  (⟨(show ∀ v, v < 3 → _ by decide), (show ∀ v, v < 3 → _ by decide)⟩ : Renumbering ring.nrows _ _) ring_all ringMoved_all rfl
  (fun u v hu hv => (show ∀ u, u < 3 → ∀ v, v < 3 → ringMoved.get (if u < 2 then 1 - u else u) (if v < 2 then 1 - v else v)
    = ring.get u v by decide) u hu v hv) ring_noNeg rfl rfl rfl rfl

example : ∃ r d, graphRadius .i32 (fun _ _ => 0) ring = .ok r ∧ graphDiameter .i32 (fun _ _ => 0) ring = .ok d ∧ 0 ≤ r := by
  obtain ⟨r, d, h1, h2, h3, -⟩ := C92_chain (ov := fun _ _ => 0) ring_all ring_noNeg
  exact ⟨r, d, h1, h2, h3⟩

example : ∃ r d, graphRadius .i32 (fun _ _ => 0) line3 = .ok r ∧ graphDiameter .i32 (fun _ _ => 0) line3 = .ok d ∧ d ≤ 2 * r :=
  C92_twice line3_all line3_noNeg line3_sym line3_con

/-- Without symmetry the bound fails: 0 →(1) 1, 0 →(1) 2, 1 →(10) 0, 2 →(10) 0. -/
example : graphRadius .i32 (fun _ _ => 0) ⟨3, 3, 4, [[(1, 1), (2, 1)], [(0, 10)], [(0, 10)]]⟩ = .ok 1 ∧
    graphDiameter .i32 (fun _ _ => 0) ⟨3, 3, 4, [[(1, 1), (2, 1)], [(0, 10)], [(0, 10)]]⟩ = .ok 11 := by decide +kernel

example := C92_metric (ov := fun _ _ => 0) (result := Lil.new 3 3) line3_all line3_noNeg rfl rfl

example := C92_closeness (ov := fun _ _ => 0) (result := Lil.new 3 3) (lo := 0) (hi := 7) (vid := 1) ring_all ring_noNeg rfl rfl (by decide)
  (fun v x hx => by
    obtain ⟨D, e, hD, -, -, h⟩ := C47_graph_distance_matrix (ov := fun _ _ => 0) (result := Lil.new 3 3) ring_all rfl rfl ring_noNeg
    have e' : graphDistanceMatrix .i32 (fun _ _ => 0) ring (Lil.new 3 3)
      = .ok ⟨3, 3, 9, [[(0, 0), (1, 2), (2, 5)], [(0, 7), (1, 0), (2, 3)], [(0, 4), (1, 6), (2, 0)]]⟩ := by decide +kernel
    rw [e'] at e
    cases e
    exact get_chk hD (P := fun x => 0 ≤ x ∧ x ≤ 7) (by decide) (((h 1 v (by decide)).2 x).2 hx)) (by decide) (by decide)

end GBTL

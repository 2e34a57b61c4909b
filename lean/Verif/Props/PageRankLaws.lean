import Verif.Props.PageRank
import Verif.Lemmas.BetweennessLaws
/-
C90: laws of page rank.
-/
namespace GBTL
open Spec

variable {α β : Type} {n : Nat} {d threshold : Rat} {σ τ : Nat → Nat} {W W' : Mat Rat}

/-- A square graph and a vector for the result, for `page_rank`. -/
structure PageArgs (n : Nat) (G : Lil α) (rank : BVec Rat) : Prop where
  vertices : 0 < n
  graph : G.WF
  rows : G.nrows = n
  cols : G.ncols = n
  result : rank.WF
  size : rank.size = n

/-- A graph with positive weights in which every vertex with an edge from it also has an
edge to it, and a damping factor: the arguments for which `page_rank` computes the textbook
iteration (C61). -/
structure PageInput (conv : α → Rat) (n : Nat) (G : Lil α) (rank : BVec Rat) (d : Rat) : Prop extends PageArgs n G rank where
  pos : ∀ u v x, G.get u v = some x → 0 < conv x
  zero : 0 ≤ d
  one : d ≤ 1
  inn : ∀ u v, G.get u v ≠ none → ∃ w, G.get w u ≠ none

/-- The weights of a graph. -/
def weights (conv : α → Rat) (G : Lil α) : Mat Rat := fun u v => (G.get u v).map conv

/-- `page_rank` stops after `k` rounds. -/
def StopsAt (err : Nat → Rat) (threshold : Rat) (maxIters k : Nat) : Prop :=
  k ≤ maxIters ∧ (∀ j, j + 1 < k → ¬ err j < threshold) ∧ (k = maxIters ∨ 0 < k ∧ err (k - 1) < threshold)

theorem PageInput.run {conv : α → Rat} {G : Lil α} {rank : BVec Rat} (h : PageInput conv n G rank d) (threshold : Rat)
    (maxIters : Nat) :
    ∃ r k, pageRank conv n G rank d threshold maxIters = .ok r ∧ r.WF ∧ r.size = n ∧
      (∀ v, v < n → r.get v = some (rankAfter n (weights conv G) d k v)) ∧
      StopsAt (rankError n (weights conv G) d) threshold maxIters k :=
  C61_page_rank_partial h.vertices h.graph h.rows h.cols h.result h.size rfl h.pos h.zero h.one h.inn

/-! ### the same shares -/

section
variable (R : Renumbering n σ τ) (c : Nat → Rat)
  (hm : ∀ u v, u < n → v < n → W' (σ u) (σ v) = (W u v).map (c u * ·))
include R hm

theorem sumOf_moved {u : Nat} (hu : u < n) : sumOf n (W' (σ u)) = c u * sumOf n (W u) := by
  rw [sumOf_eq, sumOf_eq, ← rsum_renumber R, ← rsum_mul]
  refine rsum_congr fun v hv => ?_
  rw [hm u v hu hv]
  cases W u v with
  | none => simp
  | some x => rfl

theorem share_moved (hc : ∀ u, u < n → c u ≠ 0) {u v : Nat} (hu : u < n) (hv : v < n) : share n W' (σ u) (σ v) = share n W u v := by
  unfold share
  rw [sumOf_moved R c hm hu, hm u v hu hv]
  have := hc u hu
  cases W u v with
  | none => simp [Rat.div_def]
  | some x =>
    show c u * x / (c u * _) = x / _
    rw [Rat.div_def, Rat.div_def, Rat.inv_mul_rev]
    have : c u * (c u)⁻¹ = 1 := Rat.mul_inv_cancel _ this
    grind

end

theorem renumbering_id (n : Nat) : Renumbering n id id := ⟨fun _ h => ⟨h, rfl⟩, fun _ h => ⟨h, rfl⟩⟩

theorem forP_step {s : Type} {b : Nat → s → Prog s} {k : Nat} {x x1 x2 : s} (e : forP k x b = .ok x1) (f : b k x1 = .ok x2) :
    forP (k + 1) x b = .ok x2 := by
  simp only [forP, List.range_succ, List.foldlM_append]
  simp only [forP] at e
  rw [e]
  simp only [prog_bind_ok, List.foldlM_cons, List.foldlM_nil, f]
  rfl

/-- Two loops in step. -/
theorem forP_inv2 {s1 s2 : Type} {b1 : Nat → s1 → Prog s1} {b2 : Nat → s2 → Prog s2} (I : s1 → s2 → Prop) (k : Nat) {x : s1} {y : s2}
    (h0 : I x y) (hb : ∀ i x y, I x y → ∃ x' y', b1 i x = .ok x' ∧ b2 i y = .ok y' ∧ I x' y') :
    ∃ x' y', forP k x b1 = .ok x' ∧ forP k y b2 = .ok y' ∧ I x' y' := by
  induction k with
  | zero => exact ⟨x, y, rfl, rfl, h0⟩
  | succ k ih =>
    obtain ⟨x1, y1, e1, e2, h1⟩ := ih
    obtain ⟨x2, y2, f1, f2, h2⟩ := hb k x1 y1 h1
    exact ⟨x2, y2, forP_step e1 f1, forP_step e2 f2, h2⟩

theorem osum_renumber (R : Renumbering n σ τ) {h h' : Nat → Option Rat} (he : ∀ u, u < n → h' (σ u) = h u) :
    osum (· + ·) ((List.range n).map h') = osum (· + ·) ((List.range n).map h) := by
  have hv : (osum (· + ·) ((List.range n).map h')).getD 0 = (osum (· + ·) ((List.range n).map h)).getD 0 := by
    rw [osum_rat, osum_rat, ← rsum_renumber R]
    exact rsum_congr fun u hu => by rw [he u hu]
  have hn : osum (· + ·) ((List.range n).map h') = none ↔ osum (· + ·) ((List.range n).map h) = none := by
    rw [osum_range_none, osum_range_none]
    constructor
    · intro hh u hu
      rw [← he u hu]
      exact hh _ (R.there u hu).1
    · intro hh u hu
      have := he (τ u) (R.back u hu).1
      rw [(R.back u hu).2] at this
      rw [this]
      exact hh _ (R.back u hu).1
  cases e1 : osum (· + ·) ((List.range n).map h') with
  | none => rw [hn.1 e1]
  | some x =>
    cases e2 : osum (· + ·) ((List.range n).map h) with
    | none => rw [hn.2 e2] at e1; cases e1
    | some y =>
      rw [e1, e2] at hv
      exact congrArg some hv

/-- The states of two runs on graphs with the same shares. -/
structure SameSt (n : Nat) (σ : Nat → Nat) (q q' : PrSt) : Prop where
  rank : Sz n q.rank
  new : Sz n q.new
  delta : Sz n q.delta
  rank' : Sz n q'.rank
  new' : Sz n q'.new
  delta' : Sz n q'.delta
  ranks : MovedVec n σ q.rank.get q'.rank.get
  news : MovedVec n σ q.new.get q'.new.get
  stop : q'.stop = q.stop

/-- The ranks of two graphs with the same shares. -/
theorem page_rank_moved {conv : α → Rat} {conv' : β → Rat} {G : Lil α} {G' : Lil β} {rank rank' : BVec Rat} (R : Renumbering n σ τ)
    (c : Nat → Rat) (hc : ∀ u, u < n → c u ≠ 0) (h : PageArgs n G rank) (h' : PageArgs n G' rank')
    (hm : ∀ u v, u < n → v < n → weights conv' G' (σ u) (σ v) = (weights conv G u v).map (c u * ·)) (d threshold : Rat) (maxIters : Nat) :
    ∃ r r', pageRank conv n G rank d threshold maxIters = .ok r ∧ pageRank conv' n G' rank' d threshold maxIters = .ok r' ∧
      MovedVec n σ r.get r'.get := by
  obtain ⟨m, q, zm, z1, z2, z3, hst, gm, g1, g2, hrun⟩ := prStart (conv := conv) (d := d) h.vertices ⟨h.graph, h.rows, h.cols⟩
    ⟨h.result, h.size⟩
  obtain ⟨m', q', zm', z1', z2', z3', hst', gm', g1', g2', hrun'⟩ := prStart (conv := conv') (d := d) h'.vertices
    ⟨h'.graph, h'.rows, h'.cols⟩ ⟨h'.result, h'.size⟩
  have hmm : ∀ u v, u < n → v < n → m'.get (σ u) (σ v) = m.get u v := by
    intro u v hu hv
    have h1 := share_moved R c hm hc hu hv
    have h2 := hm u v hu hv
    rw [gm', gm]
    unfold share weights at h1
    unfold weights at h2
    rw [h2] at h1 ⊢
    cases e : (G.get u v).map conv with
    | none => rfl
    | some x =>
      rw [e] at h1
      show some (_ / _ * d) = some (_ / _ * d)
      exact congrArg (fun y => some (y * d)) h1
  obtain ⟨p, p', e, e', hp⟩ := forP_inv2
    (b1 := fun _ q => if q.stop then .ok q else prBody m ((1 - d) / n) threshold n q)
    (b2 := fun _ q => if q.stop then .ok q else prBody m' ((1 - d) / n) threshold n q) (SameSt n σ) maxIters
    (x := q) (y := q')
    ⟨z1, z2, z3, z1', z2', z3', fun v hv => by rw [g1 v hv, g1' _ (R.there v hv).1], fun v _ => by rw [g2, g2'], by rw [hst, hst']⟩
    (by
      intro _ q q' I
      by_cases hs : q.stop
      · exact ⟨q, q', if_pos hs, if_pos (by rw [I.stop]; exact hs), I⟩
      obtain ⟨p, e, y1, y2, y3, y4, y5⟩ := prBody_ok (tele := (1 - d) / n) (threshold := threshold) zm I.rank I.new I.delta
      obtain ⟨p', e', y1', y2', y3', y4', y5'⟩ := prBody_ok (tele := (1 - d) / n) (threshold := threshold) zm' I.rank' I.new' I.delta'
      have hr : MovedVec n σ p.rank.get p'.rank.get := by
        intro v hv
        rw [y4 v hv, y4' _ (R.there v hv).1, prNext, prNext, I.news v hv,
          osum_renumber R (h := fun u => both (· * ·) (q.rank.get u) (m.get u v)) (fun u hu => by rw [I.ranks u hu, hmm u v hu hv])]
      refine ⟨p, p', (if_neg hs).trans e, (if_neg (by rw [I.stop]; exact hs)).trans e', y1, by rw [y2]; exact y1, y3, y1', by rw [y2']; exact y1', y3', hr,
        by rw [y2, y2']; exact hr, ?_⟩
      rw [y5, y5']
      congr 3
      rw [sumOf_eq, sumOf_eq, ← rsum_renumber R]
      exact rsum_congr fun v hv => by rw [prSq, prSq, I.ranks v hv, hr v hv])
  obtain ⟨r, f, -, g⟩ := prFill_ok (tele := (1 - d) / n) hp.rank hp.new
  obtain ⟨r', f', -, g'⟩ := prFill_ok (tele := (1 - d) / n) hp.rank' hp.new'
  refine ⟨r, r', by rw [hrun, e]; exact f, by rw [hrun', e']; exact f', fun v hv => ?_⟩
  rw [g v hv, g' _ (R.there v hv).1, hp.ranks v hv]

/-! ### the laws -/

/-- **C90** What the vector for the result holds before the call does not matter. -/
theorem C90_start {conv : α → Rat} {G : Lil α} {rank rank' : BVec Rat} (h : PageArgs n G rank)
    (h' : rank'.WF) (hs : rank'.size = n) (d threshold : Rat) (maxIters : Nat) :
    ∃ r r', pageRank conv n G rank d threshold maxIters = .ok r ∧ pageRank conv n G rank' d threshold maxIters = .ok r' ∧
      ∀ v, v < n → r'.get v = r.get v :=
  page_rank_moved (renumbering_id n) (fun _ => 1) (fun _ _ => by decide) h { h with result := h', size := hs } (fun u v _ _ => by
    cases e : weights conv G u v with
    | none => simp [e]
    | some x => simp [e]) d threshold maxIters

/-- **C90** Renumbering the vertices moves the ranks with them. -/
theorem C90_renumbered {conv : α → Rat} {G G' : Lil α} {rank rank' : BVec Rat} (R : Renumbering n σ τ)
    (h : PageArgs n G rank) (h' : PageArgs n G' rank') (hm : MovedMat n σ G.get G'.get) (d threshold : Rat) (maxIters : Nat) :
    ∃ r r', pageRank conv n G rank d threshold maxIters = .ok r ∧ pageRank conv n G' rank' d threshold maxIters = .ok r' ∧
      MovedVec n σ r.get r'.get :=
  page_rank_moved R (fun _ => 1) (fun _ _ => by decide) h h' (fun u v hu hv => by
    unfold weights
    rw [hm u v hu hv]
    cases G.get u v with
    | none => rfl
    | some x => simp) d threshold maxIters

/-- **C90** Only the proportions of the weights of the edges that leave a vertex matter:
multiplying all of them by a number, which may be another one for each vertex, changes
nothing. -/
theorem C90_scaled {conv : α → Rat} {conv' : β → Rat} {G : Lil α} {G' : Lil β} {rank rank' : BVec Rat} (c : Nat → Rat)
    (hc : ∀ u, u < n → 0 < c u) (h : PageArgs n G rank) (h' : PageArgs n G' rank')
    (hm : ∀ u v, u < n → v < n → (G'.get u v).map conv' = (G.get u v).map fun x => c u * conv x) (d threshold : Rat) (maxIters : Nat) :
    ∃ r r', pageRank conv n G rank d threshold maxIters = .ok r ∧ pageRank conv' n G' rank' d threshold maxIters = .ok r' ∧
      ∀ v, v < n → r'.get v = r.get v :=
  page_rank_moved (renumbering_id n) c (fun u hu he => by have := hc u hu; rw [he] at this; exact absurd this (by decide)) h h'
    (fun u v hu hv => by
      show (G'.get u v).map conv' = _
      rw [hm u v hu hv]
      unfold weights
      rw [Option.map_map]; rfl) d threshold maxIters

/-- **C90** Vertices to which the same edges lead, with the same weights, get the same rank. -/
theorem C90_twins {conv : α → Rat} {G : Lil α} {rank : BVec Rat} (h : PageArgs n G rank) (d threshold : Rat) (maxIters : Nat)
    {v w : Nat} (hv : v < n) (hw : w < n) (hvw : ∀ u, u < n → G.get u v = G.get u w) :
    ∃ r, pageRank conv n G rank d threshold maxIters = .ok r ∧ r.get v = r.get w := by
  obtain ⟨m, q, zm, z1, z2, z3, hst, gm, g1, g2, hrun⟩ := prStart (conv := conv) (d := d) h.vertices ⟨h.graph, h.rows, h.cols⟩
    ⟨h.result, h.size⟩
  obtain ⟨p, e, y1, y2, -, y4, -⟩ := forP_inv (b := fun _ q => if q.stop then .ok q else prBody m ((1 - d) / n) threshold n q)
    (fun _ q => Sz n q.rank ∧ Sz n q.new ∧ Sz n q.delta ∧ q.rank.get v = q.rank.get w ∧ q.new.get v = q.new.get w) maxIters q
    ⟨z1, z2, z3, by rw [g1 v hv, g1 w hw], by rw [g2, g2]⟩ (by
      rintro _ q - ⟨z1, z2, z3, hr, hn⟩
      by_cases hs : q.stop
      · exact ⟨q, if_pos hs, z1, z2, z3, hr, hn⟩
      obtain ⟨p, e, y1, y2, y3, y4, -⟩ := prBody_ok (tele := (1 - d) / n) (threshold := threshold) zm z1 z2 z3
      have : p.rank.get v = p.rank.get w := by
        rw [y4 v hv, y4 w hw, prNext, prNext, hn]
        congr 3
        refine List.map_congr_left fun u hu => ?_
        rw [gm, gm, hvw u (List.mem_range.1 hu)]
      exact ⟨p, (if_neg hs).trans e, y1, by rw [y2]; exact y1, y3, this, by rw [y2]; exact this⟩)
  obtain ⟨r, f, -, g⟩ := prFill_ok (tele := (1 - d) / n) y1 y2
  exact ⟨r, by rw [hrun, e]; exact f, by rw [g v hv, g w hw, y4]⟩

/-- **C90** A vertex without an edge to it gets exactly what every vertex receives. -/
theorem C90_no_edge_to {conv : α → Rat} {G : Lil α} {rank : BVec Rat} (h : PageArgs n G rank) (d threshold : Rat) {maxIters : Nat}
    (hit : 0 < maxIters) {v : Nat} (hv : v < n) (hin : ∀ u, u < n → G.get u v = none) :
    ∃ r, pageRank conv n G rank d threshold maxIters = .ok r ∧ r.get v = some ((1 - d) / (n : Rat)) := by
  obtain ⟨m, q, zm, z1, z2, z3, hst, gm, g1, g2, hrun⟩ := prStart (conv := conv) (d := d) h.vertices ⟨h.graph, h.rows, h.cols⟩
    ⟨h.result, h.size⟩
  obtain ⟨p, e, y1, y2, -, y4, y5⟩ := forP_inv (b := fun _ q => if q.stop then .ok q else prBody m ((1 - d) / n) threshold n q)
    (fun i q => Sz n q.rank ∧ Sz n q.new ∧ Sz n q.delta ∧ q.new.get v = none ∧ (q.rank.get v = none ∨ i = 0 ∧ q.stop = false)) maxIters q
    ⟨z1, z2, z3, g2 v, .inr ⟨rfl, hst⟩⟩ (by
      rintro i q - ⟨z1, z2, z3, hn, hr⟩
      by_cases hs : q.stop
      · refine ⟨q, if_pos hs, z1, z2, z3, hn, .inl ?_⟩
        rcases hr with hr | hr
        · exact hr
        · rw [hr.2] at hs; cases hs
      obtain ⟨p, e, y1, y2, y3, y4, -⟩ := prBody_ok (tele := (1 - d) / n) (threshold := threshold) zm z1 z2 z3
      have : p.rank.get v = none := by
        rw [y4 v hv, prNext, hn, osum_range_none.2 (fun u hu => by
          rw [gm, hin u hu]
          cases q.rank.get u <;> rfl)]
        rfl
      exact ⟨p, (if_neg hs).trans e, y1, by rw [y2]; exact y1, y3, by rw [y2]; exact this, .inl this⟩)
  obtain ⟨r, f, -, g⟩ := prFill_ok (tele := (1 - d) / n) y1 y2
  refine ⟨r, by rw [hrun, e]; exact f, ?_⟩
  rcases y5 with y5 | y5
  · rw [g v hv, y5]
  · omega

/-- **C90** All ranks are at least what every vertex receives, and together they are at most
one. -/
theorem C90_bounds_partial {conv : α → Rat} {G : Lil α} {rank : BVec Rat} (h : PageInput conv n G rank d) (maxIters : Nat) :
    ∃ r, pageRank conv n G rank d threshold maxIters = .ok r ∧ sumOf n r.get ≤ 1 ∧
      ∀ v, v < n → ∃ x, r.get v = some x ∧ (1 - d) / n ≤ x ∧ x ≤ 1 := by
  obtain ⟨r, k, e, -, -, g, -⟩ := h.run threshold maxIters
  have hW : PosW (weights conv G) := posW h.pos
  have hsum := rank_total_le (W := weights conv G) h.vertices hW h.zero h.one k
  have hge := fun v => rankAfter_ge (n := n) hW h.zero h.one k v
  refine ⟨r, e, ?_, fun v hv => ⟨_, g v hv, ?_, ?_⟩⟩
  · rw [sumOf_eq, rsum_congr (g := rankAfter n (weights conv G) d k) (fun v hv => by rw [g v hv]; rfl)]
    exact hsum
  · cases k with
    | zero =>
      show (1 - d) / (n : Rat) ≤ 1 / n
      have hN : (0 : Rat) ≤ (n : Rat)⁻¹ := by have := rat_div_nonneg (x := 1) (y := n) (by decide) Rat.natCast_nonneg; rwa [Rat.div_def, Rat.one_mul] at this
      have := Rat.mul_nonneg h.zero hN
      rw [Rat.div_def, Rat.div_def]
      grind
    | succ k => exact (hge v).2 (by omega)
  · refine Rat.le_trans ?_ hsum
    have := rsum_le (n := n) (f := fun i => if i = v then rankAfter n (weights conv G) d k i else 0)
      (g := rankAfter n (weights conv G) d k) (fun i _ => by
        show (if i = v then _ else _) ≤ _
        split
        · exact Rat.le_refl
        · exact (hge i).1)
    rw [rsum_single hv (fun j _ hj => if_neg hj), if_pos rfl] at this
    exact this

/-- **C90** Without damping factor all ranks are equal. -/
theorem C90_undamped_partial {conv : α → Rat} {G : Lil α} {rank : BVec Rat} (h : PageInput conv n G rank 0) {maxIters : Nat} :
    ∃ r, pageRank conv n G rank 0 threshold maxIters = .ok r ∧ ∀ v, v < n → r.get v = some (1 / (n : Rat)) := by
  obtain ⟨r, k, e, -, -, g, -⟩ := h.run threshold maxIters
  refine ⟨r, e, fun v hv => ?_⟩
  rw [g v hv]
  congr 1
  cases k with
  | zero => rfl
  | succ k => rw [rankAfter_succ, Rat.zero_mul, Rat.zero_add, show (1 : Rat) - 0 = 1 from by decide +kernel]

/-- **C90** On a graph in which the shares of the edges to each vertex add up to one - an
undirected graph, say, all of whose vertices have the same degree - all ranks are equal. -/
theorem C90_regular_partial {conv : α → Rat} {G : Lil α} {rank : BVec Rat} (h : PageInput conv n G rank d) {maxIters : Nat}
    (hreg : ∀ v, v < n → ((List.range n).map fun u => share n (fun u v => (G.get u v).map conv) u v).sum = 1) :
    ∃ r, pageRank conv n G rank d threshold maxIters = .ok r ∧ ∀ v, v < n → r.get v = some (1 / (n : Rat)) := by
  obtain ⟨r, k, e, -, -, g, -⟩ := h.run threshold maxIters
  refine ⟨r, e, fun v hv => ?_⟩
  rw [g v hv]
  congr 1
  clear g
  induction k generalizing v with
  | zero => rfl
  | succ k ih =>
    rw [rankAfter_succ, rsum_congr (g := fun u => 1 / (n : Rat) * share n (weights conv G) u v) (fun u hu => by rw [ih u hu]),
      rsum_mul]
    have := hreg v hv
    rw [rsum_eq] at this
    rw [show rsum n (fun u => share n (weights conv G) u v) = 1 from this, Rat.div_def, Rat.div_def]
    grind

/-- **C90**, refuted without an edge to vertex 0: on the graph with the edge from 0 to 1 only,
the ranks are not bounded by one. -/
theorem C90_bounds_wrong {rank : BVec Rat} (hrank : rank.WF) (hsz : rank.size = 2) :
    ∃ r, pageRank id (2 : Nat) prPath rank (17 / 20) (1 / 100000) 20 = .ok r ∧ r.get 1 = some (77 / 40) := by
  obtain ⟨⟨r, e, -, g⟩, -⟩ := C61_page_rank_disproof hrank hsz (K := 20) (by decide)
  exact ⟨r, e, by rw [g]; decide +kernel⟩

/-! ### examples -/

def prBlank (n : Nat) : BVec Rat := { size := n, nvals := 0, vals := List.replicate n 0, bitmap := List.replicate n false }

/-- On the same graph, without damping factor, the ranks differ after two rounds, and vertex 0
has what C90_no_edge_to says. -/
theorem C90_undamped_wrong : (pageRank id (2 : Nat) prPath (prBlank 2) 0 (1 / 100000) 2).map (fun r => (r.get 0, r.get 1)) =
    .ok (some (1 / 2), some 1) := by
  decide +kernel

theorem prBlank_wf : (prBlank 3).WF := ⟨by decide +kernel, by decide +kernel, by decide +kernel⟩

/-- The hypotheses are satisfiable: the graph of C61. -/
theorem prEx_input : PageInput id 3 prEx (prBlank 3) (17 / 20) where
  vertices := by decide
  graph := prEx_wf
  rows := rfl
  cols := rfl
  result := prBlank_wf
  size := rfl
  pos := fun _ _ _ h => prEx_get h
  zero := by decide +kernel
  one := by decide +kernel
  inn := fun u _ h => prEx_edges.1 u (some_lt prEx_wf h).1

example := C90_bounds_partial (threshold := 1 / 100000) prEx_input 7

/-- The graph with 0 and 2 exchanged. -/
def prSwap : Lil Rat := { nrows := 3, ncols := 3, nvals := 4, rows := [[(1, 3), (2, 1)], [(0, 1)], [(1, 1)]] }

theorem prSwap_args : PageArgs 3 prSwap (prBlank 3) :=
  ⟨by decide, Lil.wf_chk (by decide +kernel), rfl, rfl, prBlank_wf, rfl⟩

example : ∃ r r', pageRank id (3 : Nat) prEx (prBlank 3) (17 / 20) (1 / 100000) 7 = .ok r ∧
    pageRank id (3 : Nat) prSwap (prBlank 3) (17 / 20) (1 / 100000) 7 = .ok r' ∧ MovedVec 3 (fun v => 2 - v) r.get r'.get :=
  C90_renumbered (τ := fun v => 2 - v) ⟨fun v h => by omega, fun v h => by omega⟩ prEx_input.toPageArgs prSwap_args
    (fun u v hu hv => (show ∀ u, u < 3 → ∀ v, v < 3 → prSwap.get (2 - u) (2 - v) = prEx.get u v by decide +kernel) u hu v hv) _ _ _

/-- The graph with the weights at vertex 2 multiplied by 5. -/
def prTimes : Lil Rat := { nrows := 3, ncols := 3, nvals := 4, rows := [[(1, 1)], [(2, 1)], [(0, 5), (1, 15)]] }

example : ∃ r r', pageRank id (3 : Nat) prEx (prBlank 3) (17 / 20) (1 / 100000) 7 = .ok r ∧
    pageRank id (3 : Nat) prTimes (prBlank 3) (17 / 20) (1 / 100000) 7 = .ok r' ∧ ∀ v, v < 3 → r'.get v = r.get v :=
  C90_scaled (fun u => if u = 2 then 5 else 1) (fun u _ => by show (0 : Rat) < if u = 2 then 5 else 1; split <;> decide) prEx_input.toPageArgs
    ⟨by decide, Lil.wf_chk (by decide +kernel), rfl, rfl, prBlank_wf, rfl⟩
    (fun u v hu hv => (show ∀ u, u < 3 → ∀ v, v < 3 → (prTimes.get u v).map id =
      (prEx.get u v).map fun x => (if u = 2 then 5 else 1) * id x by decide +kernel) u hu v hv) _ _ _

example : ∃ r r', pageRank id (3 : Nat) prEx (prBlank 3) (17 / 20) (1 / 100000) 7 = .ok r ∧
    pageRank id (3 : Nat) prEx { size := 3, nvals := 1, vals := [0, 8, 0], bitmap := [false, true, false] } (17 / 20) (1 / 100000) 7 = .ok r' ∧
    ∀ v, v < 3 → r'.get v = r.get v :=
  C90_start prEx_input.toPageArgs (⟨by decide +kernel, by decide +kernel, by decide +kernel⟩) rfl _ _ _

/-- Edges from 0 to 1 and 2, and from these to 3. -/
def prFan : Lil Rat := { nrows := 4, ncols := 4, nvals := 4, rows := [[(1, 1), (2, 1)], [(3, 1)], [(3, 2)], []] }

theorem prFan_args : PageArgs 4 prFan (prBlank 4) :=
  ⟨by decide, Lil.wf_chk (by decide +kernel), rfl, rfl, ⟨by decide +kernel, by decide +kernel, by decide +kernel⟩, rfl⟩

example : ∃ r, pageRank id (4 : Nat) prFan (prBlank 4) (17 / 20) (1 / 100000) 7 = .ok r ∧ r.get 1 = r.get 2 :=
  C90_twins prFan_args _ _ _ (by decide) (by decide)
    (fun u hu => (show ∀ u, u < 4 → prFan.get u 1 = prFan.get u 2 by decide +kernel) u hu)

example : ∃ r, pageRank id (4 : Nat) prFan (prBlank 4) (17 / 20) (1 / 100000) 7 = .ok r ∧ r.get 0 = some ((1 - 17 / 20) / ((4 : Nat) : Rat)) :=
  C90_no_edge_to (maxIters := 7) prFan_args _ _ (by decide) (by decide)
    (fun u hu => (show ∀ u, u < 4 → prFan.get u 0 = none by decide +kernel) u hu)

example : ∃ r, pageRank id (3 : Nat) prEx (prBlank 3) 0 (1 / 100000) 7 = .ok r ∧ ∀ v, v < 3 → r.get v = some (1 / ((3 : Nat) : Rat)) :=
  C90_undamped_partial { prEx_input with zero := by decide, one := by decide }

/-- A triangle. -/
def prTriangle : Lil Rat :=
  { nrows := 3, ncols := 3, nvals := 6, rows := [[(1, 1), (2, 1)], [(0, 1), (2, 1)], [(0, 1), (1, 1)]] }

theorem prTriangle_wf : prTriangle.WF := Lil.wf_chk (by decide +kernel)

example : ∃ r, pageRank id (3 : Nat) prTriangle (prBlank 3) (17 / 20) (1 / 100000) 7 = .ok r ∧
    ∀ v, v < 3 → r.get v = some (1 / ((3 : Nat) : Rat)) :=
  C90_regular_partial (n := 3) (d := 17 / 20)
    { vertices := by decide, graph := prTriangle_wf, rows := rfl, cols := rfl, result := prBlank_wf, size := rfl,
      pos := fun u v x h => by
        have hlt := some_lt prTriangle_wf (i := u) (j := v) (by rw [h]; simp)
        exact (show ∀ u, u < 3 → ∀ v, v < 3 → ∀ x ∈ prTriangle.get u v, 0 < x by decide +kernel) u hlt.1 v hlt.2 x (by rw [h]; rfl)
      zero := by decide +kernel, one := by decide +kernel,
      inn := fun u v h => by
        have hlt := some_lt prTriangle_wf h
        obtain ⟨w, -, hw⟩ := (show ∀ u, u < 3 → ∃ w, w < 3 ∧ prTriangle.get w u ≠ none by decide +kernel) u hlt.1
        exact ⟨w, hw⟩ }
    (fun v hv => (show ∀ v, v < 3 → ((List.range 3).map fun u => share 3 (fun u v => (prTriangle.get u v).map id) u v).sum = 1 by
      decide +kernel) v hv)

end GBTL

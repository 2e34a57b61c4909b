import Verif.Lemmas.PageRankMath
/-
C61: page rank.
-/
namespace GBTL
open Spec

variable {α : Type} {n : Nat}

/-- **C61** `page_rank` on a graph with positive weights in which every vertex with an
edge from it also has an edge to it (`hin`): the ranks after `k` rounds of the textbook
iteration, where `k` is the first round whose mean squared change is below the threshold,
and at most `maxIters`. `hsize` says that the graph's scalar type holds the number of
vertices. -/
theorem C61_page_rank_partial {conv : α → Rat} {size d threshold : Rat} {G : Lil α} {rank : BVec Rat} {maxIters : Nat}
    (hn : 0 < n) (hG : G.WF) (hr : G.nrows = n) (hc : G.ncols = n) (hrank : rank.WF) (hsz : rank.size = n)
    (hsize : size = n) (hpos : ∀ u v x, G.get u v = some x → 0 < conv x) (hd0 : 0 ≤ d) (hd1 : d ≤ 1)
    (hin : ∀ u v, G.get u v ≠ none → ∃ w, G.get w u ≠ none) :
    ∃ r k, pageRank conv size G rank d threshold maxIters = .ok r ∧ r.WF ∧ r.size = n ∧
      (∀ v, v < n → r.get v = some (rankAfter n (fun u v => (G.get u v).map conv) d k v)) ∧
      k ≤ maxIters ∧ (∀ j, j + 1 < k → ¬ rankError n (fun u v => (G.get u v).map conv) d j < threshold) ∧
      (k = maxIters ∨ 0 < k ∧ rankError n (fun u v => (G.get u v).map conv) d (k - 1) < threshold) := by
  subst hsize
  have hGs : Sh n n G := ⟨hG, hr, hc⟩
  obtain ⟨m, q, zm, z1, z2, z3, hst, gm, g1, g2, hrun⟩ := prStart (conv := conv) (d := d) hn hGs ⟨hrank, hsz⟩
  have hW := posW hpos
  have hin' : ∀ u v, u < n → (fun u v => (G.get u v).map conv) u v ≠ none → hasIn n (fun u v => (G.get u v).map conv) u = true := by
    intro u v _ huv
    obtain ⟨w, hw⟩ := hin u v (by simpa using huv)
    have := some_lt hG hw
    exact hasIn_iff.2 ⟨w, by omega, by simpa using hw⟩
  generalize hWd : (fun u v => (G.get u v).map conv) = W at *
  have gm' : ∀ u v, m.get u v = (W u v).map fun x => x / sumOf n (W u) * d := by
    intro u v
    rw [gm u v, ← hWd]
  obtain ⟨q', k, e, hi, hk, hj, hs⟩ := pr_loop (W := W) (threshold := threshold) zm gm' hin'
    ⟨z1, z2, z3, fun v hv => by rw [g1 v hv]; rfl, fun v hv => by rw [g2]; rfl⟩ hst maxIters
  obtain ⟨r, e2, zr, gr⟩ := prFill_ok (tele := (1 - d) / n) hi.rank hi.new
  refine ⟨r, k, by rw [hrun, e]; exact e2, zr.wf, zr.sz, fun v hv => ?_, hk, hj, hs⟩
  rw [gr v hv, hi.getR v hv]
  have hN : (0 : Rat) < (n : Rat) := by exact_mod_cast hn
  by_cases h0 : k = 0 ∨ hasIn n W v = true
  · rw [if_pos h0]
    dsimp only
    by_cases hz : rankAfter n W d k v = 0
    · rw [if_pos hz, hz]
      rcases Nat.eq_zero_or_pos k with hk0 | hk0
      · subst hk0
        rw [rankAfter] at hz
        grind
      · have h1 := (rankAfter_ge (n := n) hW hd0 hd1 k v).2 hk0
        have h2 : 0 ≤ (1 - d) / (n : Rat) := rat_div_nonneg (by grind) (by grind)
        congr 1
        grind
    · rw [if_neg hz]
  · rw [if_neg h0]
    have h1 : hasIn n W v = false := by simpa using fun h => h0 (Or.inr h)
    obtain ⟨j, rfl⟩ : ∃ j, k = j + 1 := ⟨k - 1, by omega⟩
    rw [rankAfter_noIn h1]


/-- **C61** If every vertex has an edge from it and an edge to it, the ranks sum to 1. -/
theorem C61_page_rank_sum_partial {conv : α → Rat} {size d threshold : Rat} {G : Lil α} {rank : BVec Rat} {maxIters : Nat}
    (hn : 0 < n) (hG : G.WF) (hr : G.nrows = n) (hc : G.ncols = n) (hrank : rank.WF) (hsz : rank.size = n)
    (hsize : size = n) (hpos : ∀ u v x, G.get u v = some x → 0 < conv x) (hd0 : 0 ≤ d) (hd1 : d ≤ 1)
    (hin : ∀ v, v < n → ∃ u, G.get u v ≠ none) (hout : ∀ u, u < n → ∃ v, G.get u v ≠ none) :
    ∃ r, pageRank conv size G rank d threshold maxIters = .ok r ∧ sumOf n r.get = 1 ∧ ∀ v, v < n → r.get v ≠ none := by
  obtain ⟨r, k, e, -, -, g, -⟩ := C61_page_rank_partial (threshold := threshold) (maxIters := maxIters) hn hG hr hc hrank hsz hsize
    hpos hd0 hd1 (fun u v h => hin u (by have := some_lt hG h; omega))
  refine ⟨r, e, ?_, fun v hv => by rw [g v hv]; simp⟩
  rw [sumOf_eq, rsum_congr (g := rankAfter n (fun u v => (G.get u v).map conv) d k) (fun v hv => by rw [g v hv]; rfl)]
  refine rank_total_eq hn (fun u hu => ?_) k
  obtain ⟨v, hv⟩ := hout u hu
  have := sumOf_pos (n := n) (W := fun u v => (G.get u v).map conv) (posW hpos) (u := u) (v := v)
    (by have := some_lt hG hv; omega) (by simpa using hv)
  grind

/-- **C61** If the damping factor is less than 1 and the threshold is positive, then, with
a limit of `K` rounds or more, `page_rank` stops by itself, with one and the same result. -/
theorem C61_page_rank_converges_partial {conv : α → Rat} {size d threshold : Rat} {G : Lil α} {rank : BVec Rat}
    (hn : 0 < n) (hG : G.WF) (hr : G.nrows = n) (hc : G.ncols = n) (hrank : rank.WF) (hsz : rank.size = n)
    (hsize : size = n) (hpos : ∀ u v x, G.get u v = some x → 0 < conv x) (hd0 : 0 ≤ d) (hd1 : d < 1)
    (hin : ∀ u v, G.get u v ≠ none → ∃ w, G.get w u ≠ none) (ht : 0 < threshold) :
    ∃ K, rankError n (fun u v => (G.get u v).map conv) d K < threshold ∧
      ∀ maxIters, K < maxIters → ∃ r, pageRank conv size G rank d threshold maxIters = .ok r ∧
        ∀ v, v < n → r.get v = some (rankAfter n (fun u v => (G.get u v).map conv) d (K + 1) v) := by
  have hex := rankError_small (n := n) (W := fun u v => (G.get u v).map conv) hn (posW hpos) hd0 hd1 ht
  obtain ⟨K, hK, hmin⟩ := least_nat hex
  refine ⟨K, hK, fun N hN => ?_⟩
  obtain ⟨r, k, e, -, -, g, h1, h2, h3⟩ := C61_page_rank_partial (threshold := threshold) (maxIters := N) hn hG hr hc hrank hsz hsize
    hpos hd0 (Rat.le_of_lt hd1) hin
  have hk : k = K + 1 := by
    have hle : k ≤ K + 1 := Nat.le_of_not_lt fun h => h2 K h hK
    rcases h3 with h3 | ⟨h3, h4⟩
    · omega
    · have : K ≤ k - 1 := Nat.le_of_not_lt fun h => hmin _ h h4
      omega
  subst hk
  exact ⟨r, e, g⟩

/-- **C61** A graph that is not square, or a vector of another size, is refused. -/
theorem C61_page_rank_dimension {conv : α → Rat} {size d threshold : Rat} {G : Lil α} {rank : BVec Rat} {maxIters : Nat}
    (h : G.nrows ≠ G.ncols ∨ rank.size ≠ G.nrows) :
    pageRank conv size G rank d threshold maxIters = .error (.err .dimension) := if_pos h

/-! ### a vertex with edges from it but none to it -/

/-- The graph with the edge from 0 to 1 only. -/
def prPath : Lil Rat := { nrows := 2, ncols := 2, nvals := 1, rows := [[(1, 1)], []] }

theorem prPath_wf : prPath.WF := Lil.wf_chk (by decide +kernel)

/-- The graph with the edges 0 → 1, 1 → 2, 2 → 0 and 2 → 1. -/
def prEx : Lil Rat := { nrows := 3, ncols := 3, nvals := 4, rows := [[(1, 1)], [(2, 1)], [(0, 1), (1, 3)]] }

theorem prEx_wf : prEx.WF := Lil.wf_chk (by decide +kernel)

theorem prPath_get (u v : Nat) (hu : u < 2) (hv : v < 2) : prPath.get u v = if u = 0 ∧ v = 1 then some 1 else none :=
  (show ∀ u, u < 2 → ∀ v, v < 2 → prPath.get u v = if u = 0 ∧ v = 1 then some 1 else none by decide +kernel) u hu v hv

/-- **C61**, refuted for the graph with the edge from 0 to 1 only: in every round the rank
of vertex 1 grows by 3/40, although no rank is above 1 in the textbook iteration; the
default threshold is never reached. -/
theorem C61_page_rank_disproof {rank : BVec Rat} (hrank : rank.WF) (hsz : rank.size = 2) {K : Nat} (hK : 0 < K) :
    (∃ r, pageRank id 2 prPath rank (17 / 20) (1 / 100000) K = .ok r ∧
      r.get 0 = some (3 / 40) ∧ r.get 1 = some (17 / 40 + (K : Rat) * (3 / 40))) ∧
    rankAfter 2 prPath.get (17 / 20) K 1 ≤ 1 := by
  refine ⟨?_, ?_⟩
  · obtain ⟨m, q, zm, z1, z2, z3, hst, gm, g1, g2, hrun⟩ := prStart (conv := id) (d := 17 / 20) (n := 2) (by decide)
      ⟨prPath_wf, rfl, rfl⟩ ⟨hrank, hsz⟩
    have m01 : m.get 0 1 = some (17 / 20) := by rw [gm]; decide +kernel
    have m00 : m.get 0 0 = none := by rw [gm]; decide +kernel
    have m10 : m.get 1 0 = none := by rw [gm]; decide +kernel
    have m11 : m.get 1 1 = none := by rw [gm]; decide +kernel
    obtain ⟨q', e, i1, i2, i3, -, i5, i6⟩ := forP_inv
      (b := fun _ q => if q.stop then .ok q else prBody m ((1 - 17 / 20) / 2) (1 / 100000) 2 q)
      (fun i q => Sz 2 q.rank ∧ Sz 2 q.new ∧ Sz 2 q.delta ∧ q.stop = false ∧
        (q.rank.get 0 = (if i = 0 then some (1 / 2) else none) ∧ q.new.get 0 = none) ∧
        q.rank.get 1 = (if i = 0 then some (1 / 2) else some (17 / 40 + (i : Rat) * (3 / 40))) ∧
        q.new.get 1 = (if i = 0 then none else some (17 / 40 + (i : Rat) * (3 / 40)))) K q
      ⟨z1, z2, z3, hst, ⟨by rw [g1 0 (by decide)]; decide +kernel, g2 0⟩, by rw [g1 1 (by decide)]; decide +kernel, g2 1⟩
      (by
        rintro i q - ⟨z1, z2, z3, hst, ⟨r0, n0⟩, r1, n1⟩
        obtain ⟨q', e, y1, y2, y3, y4, y5⟩ := prBody_ok (tele := (1 - 17 / 20) / 2) (threshold := 1 / 100000) zm z1 z2 z3
        have a0 : q'.rank.get 0 = none := by
          rw [y4 0 (by decide), prNext]
          simp only [show List.range 2 = [0, 1] from rfl, List.map_cons, List.map_nil, m00, m10]
          rw [n0]
          cases q.rank.get 0 <;> cases q.rank.get 1 <;> rfl
        have a1 : q'.rank.get 1 = some (17 / 40 + ((i + 1 : Nat) : Rat) * (3 / 40)) := by
          rw [y4 1 (by decide), prNext]
          simp only [show List.range 2 = [0, 1] from rfl, List.map_cons, List.map_nil, m01, m11, r0, r1, n1, Rat.natCast_add]
          by_cases hi : i = 0
          · subst hi
            decide +kernel
          · rw [if_neg hi, if_neg hi, if_neg hi]
            simp [both, osum]
            grind
        refine ⟨q', by rw [hst]; exact e, y1, by rw [y2]; exact y1, y3, ?_, ⟨by rw [a0]; simp, by rw [y2, a0]⟩, by rw [a1]; simp,
          by rw [y2, a1]; simp⟩
        rw [y5, sumOf, show List.range 2 = [0, 1] from rfl]
        simp only [List.map_cons, List.map_nil, prSq, r0, r1, a0, a1, Rat.natCast_add]
        by_cases hi : i = 0
        · subst hi
          decide +kernel
        · rw [if_neg hi, if_neg hi]
          simp [either]
          grind)
    rw [if_neg (by omega)] at i5
    rw [if_neg (by omega)] at i6
    obtain ⟨r, e2, zr, gr⟩ := prFill_ok (tele := (1 - 17 / 20) / 2) i1 i2
    refine ⟨r, by rw [hrun, e]; exact e2, ?_, ?_⟩
    · rw [gr 0 (by decide), i5.1]
      decide +kernel
    · rw [gr 1 (by decide), i6.1]
      have : (0 : Rat) ≤ (K : Rat) := Rat.natCast_nonneg
      show (if 17 / 40 + (K : Rat) * (3 / 40) = 0 then _ else some (17 / 40 + (K : Rat) * (3 / 40))) = _
      exact if_neg ((show ∀ x : Rat, 0 ≤ x → 17 / 40 + x * (3 / 40) ≠ 0 from fun x hx => by grind) K this)
  · have h1 := rank_total_le (n := 2) (W := prPath.get) (d := 17 / 20) (by decide) (by
      intro u v x hx
      have hlt := some_lt prPath_wf (i := u) (j := v) (by rw [hx]; simp)
      rw [prPath_get u v hlt.1 hlt.2] at hx
      split at hx
      · cases hx; decide
      · cases hx) (by decide +kernel) (by decide +kernel) K
    have h2 := (rankAfter_ge (n := 2) (W := prPath.get) (d := 17 / 20) (by
      intro u v x hx
      have hlt := some_lt prPath_wf (i := u) (j := v) (by rw [hx]; simp)
      rw [prPath_get u v hlt.1 hlt.2] at hx
      split at hx
      · cases hx; decide
      · cases hx) (by decide +kernel) (by decide +kernel) K 0).1
    rw [rsum, rsum, rsum] at h1
    grind

/-! ### a concrete case -/

theorem prEx_get {u v : Nat} {x : Rat} (h : prEx.get u v = some x) : 0 < x := by
  have hlt := some_lt prEx_wf (i := u) (j := v) (by rw [h]; simp)
  exact (show ∀ u, u < 3 → ∀ v, v < 3 → ∀ x ∈ prEx.get u v, 0 < x by decide +kernel) u hlt.1 v hlt.2 x (by rw [h]; rfl)

theorem prEx_edges : (∀ v, v < 3 → ∃ u, prEx.get u v ≠ none) ∧ ∀ u, u < 3 → ∃ v, prEx.get u v ≠ none :=
  ⟨fun v hv => let ⟨u, _, h⟩ := (show ∀ v, v < 3 → ∃ u, u < 3 ∧ prEx.get u v ≠ none by decide +kernel) v hv; ⟨u, h⟩,
   fun u hu => let ⟨v, _, h⟩ := (show ∀ u, u < 3 → ∃ v, v < 3 ∧ prEx.get u v ≠ none by decide +kernel) u hu; ⟨v, h⟩⟩

example {rank : BVec Rat} (hrank : rank.WF) (hsz : rank.size = 3) :
    ∃ r, pageRank id 3 prEx rank (17 / 20) (1 / 100000) 7 = .ok r ∧ sumOf 3 r.get = 1 ∧ ∀ v, v < 3 → r.get v ≠ none :=
  C61_page_rank_sum_partial (by decide) prEx_wf rfl rfl hrank hsz rfl (fun u v x h => prEx_get h) (by decide +kernel) (by decide +kernel)
    prEx_edges.1 prEx_edges.2

example {rank : BVec Rat} (hrank : rank.WF) (hsz : rank.size = 3) :
    ∃ r, pageRank id 3 prEx rank (17 / 20) 0 2 = .ok r ∧ r.get 1 = some (rankAfter 3 prEx.get (17 / 20) 2 1) := by
  obtain ⟨r, k, e, -, -, g, h1, h2, h3⟩ := C61_page_rank_partial (conv := id) (size := 3) (d := 17 / 20) (threshold := 0) (maxIters := 2)
    (by decide) prEx_wf rfl rfl hrank hsz rfl (fun u v x h => prEx_get h) (by decide +kernel) (by decide +kernel)
    (fun u v h => prEx_edges.1 u (some_lt prEx_wf h).1)
  refine ⟨r, e, ?_⟩
  have hk : k = 2 := by
    rcases h3 with h3 | ⟨h3, h4⟩
    · exact h3
    · have h5 : k = 1 ∨ k = 2 := by omega
      rcases h5 with rfl | rfl
      · exact absurd h4 (by decide +kernel)
      · rfl
  subst hk
  rw [g 1 (by decide)]
  simp
  rfl

example {rank : BVec Rat} (hrank : rank.WF) (hsz : rank.size = 3) :
    ∃ K, rankError 3 (fun u v => (prEx.get u v).map id) (17 / 20) K < 1 / 100000 ∧ ∀ maxIters, K < maxIters →
      ∃ r, pageRank id 3 prEx rank (17 / 20) (1 / 100000) maxIters = .ok r ∧
        ∀ v, v < 3 → r.get v = some (rankAfter 3 (fun u v => (prEx.get u v).map id) (17 / 20) (K + 1) v) :=
  C61_page_rank_converges_partial (by decide) prEx_wf rfl rfl hrank hsz rfl (fun u v x h => prEx_get h) (by decide +kernel)
    (by decide +kernel) (fun u v h => prEx_edges.1 u (some_lt prEx_wf h).1) (by decide +kernel)

example : rankAfter 3 prEx.get (17 / 20) 1 1 = 131 / 240 := by decide +kernel

/-- The second graph of `/repo/src/test/test_page_rank.cpp`. -/
def prGilbert : Lil Rat :=
  { nrows := 7, ncols := 7, nvals := 12
    rows := [[(1, 1), (3, 1)], [(4, 1), (6, 1)], [(5, 1)], [(0, 1), (2, 1)], [(5, 1)], [(2, 1)], [(2, 1), (3, 1), (4, 1)]] }

/-- On it the model gives the ranks that the test expects, up to its tolerance. -/
example : (do
    let rank ← lift (BVec.new 7)
    let r ← pageRank id 7 prGilbert rank (17 / 20) (1 / 100000) 20
    .ok (List.zipWith (fun x (a : Int) => decide (99999 * a ≤ (x * 1000000000000).floor ∧ (x * 1000000000000).floor ≤ 100001 * a))
      r.vals [449525, 409707, 3839650, 524507, 511560, 3868290, 396759])) = (.ok (List.replicate 7 true) : Prog (List Bool)) := by
  decide +kernel

end GBTL

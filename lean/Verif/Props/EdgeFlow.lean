import Verif.Props.BetweennessLaws
import Verif.Props.EdgeBetweennessLoops
/-
C88, edge betweenness at a vertex: the shortest paths that come in and those that go out.
-/
namespace GBTL
open Spec

variable {n : Nat} {E : Nat → Nat → Bool}

/-- A walk of least length that visits `x` starts there or enters it once. -/
theorem ethr_enter (hE : EdgesIn n E) {s x : Nat} : ∀ {d t : Nat}, HopDist (bE E) (· = s) t d →
    sumTo n (fun v => ethr n E d s t v x) + (if x = s then cnt n E d s t else 0) = thr n E d s t x := by
  intro d
  induction d with
  | zero =>
    intro t h
    rw [sumTo_eq_zero (fun v _ => ethr_zero s t v x), Nat.zero_add, thr_zero, cnt_zero]
    by_cases h1 : s = t
    · subst h1
      rw [if_pos rfl]
      by_cases h2 : x = s
      · rw [if_pos h2, if_pos ⟨rfl, h2⟩]
      · rw [if_neg h2, if_neg (fun h => h2 h.2)]
    · rw [if_neg h1, if_neg (fun h : s = t ∧ x = t => h1 h.1)]
      split <;> rfl
  | succ d ih =>
    intro t h
    have hst : t ≠ s := fun e => by have := h.2 0 e; omega
    have e1 : sumTo n (fun v => ethr n E (d + 1) s t v x) = sumTo n fun u => ind (E u t) *
        sumTo n fun v => if u = v ∧ t = x then cnt n E d s u else ethr n E d s u v x := by
      rw [sumTo_congr (fun v _ => ethr_succ d s t v x), sumTo_comm]
      exact sumTo_congr fun u _ => sumTo_mul _ _ _
    rw [e1]
    by_cases hx : x = t
    · subst hx
      rw [if_neg hst, Nat.add_zero, thr_end, cnt_succ]
      refine sumTo_congr fun u hu => ?_
      cases he : E u x with
      | false => rw [show ind false = 0 from rfl, Nat.zero_mul, Nat.zero_mul]
      | true =>
        congr 1
        rw [sumTo_single hu, if_pos ⟨rfl, rfl⟩]
        intro v hv
        rw [if_neg (fun h => hv h.1.symm)]
        rcases Nat.eq_zero_or_pos (ethr n E d s u v x) with hz | hp
        · exact hz
        · have hc : 0 < cnt n E d s u := Nat.lt_of_lt_of_le hp (ethr_le d s u v x)
          obtain ⟨-, i, -, hw, hi⟩ := ethr_pos hE (hopDist_pred hE h he hc) hp
          have := hw.unique h
          omega
    · rw [thr_succ hx]
      have e2 : (if x = s then cnt n E (d + 1) s t else 0) =
          sumTo n fun u => ind (E u t) * if x = s then cnt n E d s u else 0 := by
        by_cases hs : x = s
        · simp only [if_pos hs]; exact cnt_succ d s t
        · simp only [if_neg hs, Nat.mul_zero]; exact (sumTo_zero n).symm
      rw [e2, ← sumTo_add]
      refine sumTo_congr fun u hu => ?_
      rw [← Nat.mul_add]
      cases he : E u t with
      | false => rw [show ind false = 0 from rfl, Nat.zero_mul, Nat.zero_mul]
      | true =>
        congr 1
        rw [sumTo_congr (fun v _ => if_neg (fun h => hx h.2.symm))]
        rcases Nat.eq_zero_or_pos (cnt n E d s u) with hz | hp
        · have h0 : ∀ v, ethr n E d s u v x = 0 := fun v => by have := ethr_le (n := n) (E := E) d s u v x; omega
          have h1 : thr n E d s u x = 0 := by have := thr_le (n := n) (E := E) d s u x; omega
          rw [sumTo_eq_zero (fun v _ => h0 v), h1, hz]
          split <;> rfl
        · exact ih (hopDist_pred hE h he hp)

/-- It ends in `x` or leaves it once. -/
theorem ethr_leave (hE : EdgesIn n E) {s x d t : Nat} (h : HopDist (bE E) (· = s) t d) :
    sumTo n (fun w => ethr n E d s t x w) + (if x = t then cnt n E d s t else 0) = thr n E d s t x := by
  have := ethr_enter (opposite_in hE) (x := x) ((hopDist_opposite hE).2 h)
  rw [sumTo_congr (fun w _ => ethr_opposite hE h), cnt_opposite hE, thr_opposite hE h] at this
  exact this

theorem pair_flow (hE : EdgesIn n E) {s : Nat} (hs : s < n) (t x : Nat) :
    sumTo n (fun v => ((shortestPaths n E s t).filter (usesEdge v x)).length) +
        (if x = s then (shortestPaths n E s t).length else 0) =
      sumTo n (fun w => ((shortestPaths n E s t).filter (usesEdge x w)).length) +
        (if x = t then (shortestPaths n E s t).length else 0) := by
  cases h : hops n E s t with
  | none =>
    rw [shortestPaths_none hE ((hops_none hE hs).1 h)]
    simp
  | some d =>
    have hd := (hops_some hE hs).1 h
    rw [shortestPaths_eq hE hs hd]
    exact (ethr_enter hE hd).trans (ethr_leave hE hd).symm

theorem score_sum (v w : Nat) : edgeScore n E v w =
    sumTo n fun s => sumTo n fun t => ((shortestPaths n E s t).filter (usesEdge v w)).length := by
  unfold edgeScore
  rw [sumTo_eq]
  exact sumTo_congr fun s _ => edgePaths_sumTo s v w

theorem score_flow (hE : EdgesIn n E) {x : Nat} (hx : x < n) :
    sumTo n (fun v => edgeScore n E v x) + sumTo n (fun t => (shortestPaths n E x t).length) =
      sumTo n (fun w => edgeScore n E x w) + sumTo n (fun s => (shortestPaths n E s x).length) := by
  have e1 : ∀ f : Nat → Nat → Nat → Nat, sumTo n (fun v => sumTo n fun s => sumTo n fun t => f v s t) =
      sumTo n fun s => sumTo n fun t => sumTo n fun v => f v s t := by
    intro f
    rw [sumTo_comm]
    exact sumTo_congr fun s _ => sumTo_comm _ _ _
  have e2 : sumTo n (fun t => (shortestPaths n E x t).length) =
      sumTo n fun s => sumTo n fun t => if x = s then (shortestPaths n E s t).length else 0 := by
    have h0 : ∀ s, s ≠ x → (sumTo n fun t => if x = s then (shortestPaths n E s t).length else 0) = 0 :=
      fun s hs => sumTo_eq_zero fun t _ => if_neg (fun e => hs e.symm)
    rw [sumTo_single hx h0]
    exact sumTo_congr fun t _ => (if_pos rfl).symm
  have e3 : sumTo n (fun s => (shortestPaths n E s x).length) =
      sumTo n fun s => sumTo n fun t => if x = t then (shortestPaths n E s t).length else 0 := by
    refine sumTo_congr fun s _ => ?_
    rw [sumTo_single hx, if_pos rfl]
    exact fun t ht => if_neg (fun e => ht e.symm)
  rw [sumTo_congr (fun v _ => score_sum v x), sumTo_congr (fun w _ => score_sum x w),
    e1 fun v s t => ((shortestPaths n E s t).filter (usesEdge v x)).length,
    e1 fun w s t => ((shortestPaths n E s t).filter (usesEdge x w)).length, e2, e3, ← sumTo_add, ← sumTo_add]
  refine sumTo_congr fun s hs => ?_
  rw [← sumTo_add, ← sumTo_add]
  exact sumTo_congr fun t _ => pair_flow hE hs t x

theorem score_le (hE : EdgesIn n E) (v w : Nat) :
    edgeScore n E v w + n ≤ sumTo n fun s => sumTo n fun t => (shortestPaths n E s t).length := by
  have e : n = sumTo n fun s => sumTo n fun t => if t = s then 1 else 0 := by
    have : ∀ s, s < n → (sumTo n fun t => if t = s then 1 else 0) = 1 := fun s hs => by
      rw [sumTo_single hs, if_pos rfl]
      exact fun t ht => if_neg ht
    rw [sumTo_congr this]
    clear this hE
    induction n with
    | zero => rfl
    | succ n ih => rw [sumTo, ← ih]
  rw [score_sum]
  conv => lhs; rhs; rw [e]
  rw [← sumTo_add]
  refine sumTo_mono fun s hs => ?_
  rw [← sumTo_add]
  refine sumTo_mono fun t _ => ?_
  by_cases ht : t = s
  · subst ht
    rw [shortestPaths_eq hE hs ((hopDist_zero (S := (· = t))).2 rfl), if_pos rfl]
    have h0 : ((walkList n E 0 t t).filter (usesEdge v w)).length = 0 := ethr_zero t t v w
    have h1 : (walkList n E 0 t t).length = 1 := by show cnt n E 0 t t = 1; rw [cnt_zero, if_pos rfl]
    omega
  · rw [if_neg ht]
    exact List.length_filter_le _ _

section
variable {A : Lil Rat}

theorem ebc_scores (hA : A.WF) (hsq : A.nrows = A.ncols) (h1 : ∀ u v a, A.get u v = some a → a = 1) (hl : ∀ v, A.get v v = none)
    {fuel : Nat} (hf : A.nrows ≤ fuel) :
    ∃ S, ebc fuel .rat A = .ok S ∧
      (∀ v w, S.get v w = if edges A v w = true then some (edgeScore A.nrows (edges A) v w : Rat) else none) ∧
      ∀ v w, (S.get v w).getD 0 = (edgeScore A.nrows (edges A) v w : Rat) := by
  obtain ⟨S, e, -, -, -, hg⟩ := C59_edge_betweenness_actual hA hsq h1 hf
  have hE := edges_in (A := A) ⟨hA, rfl, hsq.symm⟩
  have hg' : ∀ v w, S.get v w = if edges A v w = true then some (edgeScore A.nrows (edges A) v w : Rat) else none := by
    intro v w
    rw [hg, if_neg (by unfold edges; rw [hl v]; simp : ¬ edges A v v = true), Nat.add_zero]
  refine ⟨S, e, hg', fun v w => ?_⟩
  rw [hg']
  split
  · rfl
  · rename_i h
    have : edgeScore A.nrows (edges A) v w = 0 := by
      unfold edgeScore
      rw [sumTo_eq]
      exact sumTo_eq_zero fun s hs => edgePaths_not hE hs fun hd => h hd.1
    rw [this]
    rfl

/-- **C88**, `edge_betweenness_centrality`: at every vertex, the results of the edges that come in and
the number of shortest paths that start there are together as much as the results of the edges
that go out and the number of shortest paths that end there. -/
theorem C88_edge_flow (hA : A.WF) (hsq : A.nrows = A.ncols) (h1 : ∀ u v a, A.get u v = some a → a = 1)
    (hl : ∀ v, A.get v v = none) {fuel : Nat} (hf : A.nrows ≤ fuel) :
    ∃ S, ebc fuel .rat A = .ok S ∧ ∀ x, x < A.nrows →
      sumOf A.nrows (fun v => S.get v x) +
          (((List.range A.nrows).map fun t => (shortestPaths A.nrows (edges A) x t).length).sum : Nat) =
        sumOf A.nrows (fun w => S.get x w) +
          (((List.range A.nrows).map fun s => (shortestPaths A.nrows (edges A) s x).length).sum : Nat) := by
  obtain ⟨S, e, -, hg⟩ := ebc_scores hA hsq h1 hl hf
  refine ⟨S, e, fun x hx => ?_⟩
  have := score_flow (edges_in (A := A) ⟨hA, rfl, hsq.symm⟩) hx
  rw [sumOf_eq, sumOf_eq, rsum_congr (fun v _ => hg v x), rsum_congr (fun w _ => hg x w), ← rsum_cast, ← rsum_cast,
    sumTo_eq, sumTo_eq, ← Rat.natCast_add, ← Rat.natCast_add, this]

/-- **C88**, `edge_betweenness_centrality`: every edge has at least 1, and at most the number of
shortest paths between different vertices. -/
theorem C88_edge_bounds (hA : A.WF) (hsq : A.nrows = A.ncols) (h1 : ∀ u v a, A.get u v = some a → a = 1)
    (hl : ∀ v, A.get v v = none) {fuel : Nat} (hf : A.nrows ≤ fuel) :
    ∃ S, ebc fuel .rat A = .ok S ∧ ∀ v w x, S.get v w = some x → A.get v w = some 1 ∧ 1 ≤ x ∧
      x + A.nrows ≤ (((List.range A.nrows).map fun s => ((List.range A.nrows).map fun t =>
        (shortestPaths A.nrows (edges A) s t).length).sum).sum : Nat) := by
  obtain ⟨S, e, hg, -⟩ := ebc_scores hA hsq h1 hl hf
  have hE := edges_in (A := A) ⟨hA, rfl, hsq.symm⟩
  refine ⟨S, e, fun v w x hx => ?_⟩
  rw [hg] at hx
  split at hx
  · rename_i he
    injection hx with hx
    have hpos : 1 ≤ edgeScore A.nrows (edges A) v w := by
      have hvw : v ≠ w := fun h => by subst h; unfold edges at he; rw [hl v] at he; cases he
      unfold edgeScore
      rw [sumTo_eq]
      exact sumTo_pos.2 ⟨v, (hE v w he).1, edgePaths_pos hE hvw he⟩
    refine ⟨?_, ?_, ?_⟩
    · cases hg' : A.get v w with
      | none => unfold edges at he; rw [hg'] at he; cases he
      | some a => rw [h1 v w a hg']
    · rw [← hx]
      exact_mod_cast hpos
    · rw [← hx]
      have := score_le hE v w
      rw [sumTo_eq, sumTo_congr (fun s _ => sumTo_eq _ _)]
      exact_mod_cast this
  · cases hx

end

namespace Ex88
open Ex59

/-- The hypotheses hold of the graph of `test_bc.cpp`. -/
example : ∃ S, ebc 8 .rat (graphR 8 B) = .ok S ∧
    sumOf 8 (fun v => S.get v 3) + (((List.range 8).map fun t => (shortestPaths 8 (edges (graphR 8 B)) 3 t).length).sum : Nat) =
      sumOf 8 (fun w => S.get 3 w) + (((List.range 8).map fun s => (shortestPaths 8 (edges (graphR 8 B)) s 3).length).sum : Nat) := by
  obtain ⟨S, h1, h2⟩ := C88_edge_flow wfB (by decide +kernel) (stored_one (by decide +kernel) wfB)
    (no_loop (by decide +kernel) wfB) (fuel := 8) (by decide +kernel)
  exact ⟨S, h1, h2 3 (by decide +kernel)⟩

example : ∃ S, ebc 8 .rat (graphR 8 B) = .ok S ∧ ∀ v w x, S.get v w = some x → 1 ≤ x := by
  obtain ⟨S, h1, h2⟩ := C88_edge_bounds wfB (by decide +kernel) (stored_one (by decide +kernel) wfB)
    (no_loop (by decide +kernel) wfB) (fuel := 8) (by decide +kernel)
  exact ⟨S, h1, fun v w x h => (h2 v w x h).2.1⟩
end Ex88

end GBTL

import Verif.Model.PeerDemo
import Verif.Props.Cluster
import Verif.Props.ClusterAssign
import Verif.Props.BfsDemo
/-
C117: the peer-pressure demo.
-/
namespace Spec

/-- The number of nodes that `u` has an edge to. -/
def outDegree (n : Nat) (edges : List (Nat × Nat)) (u : Nat) : Nat := ((List.range n).filter fun v => decide ((u, v) ∈ edges)).length

/-- The vote of `u` for `v`: every node has one vote, shared equally between the nodes it has an edge to. -/
def voteShare (n : Nat) (edges : List (Nat × Nat)) : Mat Rat := fun u v =>
  if (u, v) ∈ edges then some (1 / (outDegree n edges u : Rat)) else none

/-- Once a further round changes nothing, no limit beyond changes anything. -/
theorem PeerPressure.settled {n : Nat} {W : Mat Rat} {a0 b b' : Vec Nat} {K : Nat} (h : PeerPressure n W a0 K b) (h' : PeerPressure n W a0 (K + 1) b')
    (hb : ∀ j, j < n → b j = b' j) {K' : Nat} (hK : K < K') : PeerPressure n W a0 K' b' := by
  obtain ⟨k, a, h0, rfl, hk, hst, hend⟩ := h'
  by_cases hlt : k < K + 1
  · exact ⟨k, a, h0, rfl, by omega, hst, fun _ => hend hlt⟩
  · have hkk : k = K + 1 := by omega
    subst hkk
    have hp : PeerPressure n W a0 K (a K) := ⟨K, a, h0, rfl, Nat.le_refl _, fun t ht => hst t (by omega), fun h => absurd h (Nat.lt_irrefl _)⟩
    obtain ⟨-, j, hj, hne⟩ := hst K (by omega)
    exact absurd (by rw [← hb j hj, PeerPressure.unique h hp j hj]) hne

end Spec

namespace GBTL
open Spec

theorem outDegree_sum (n : Nat) (edges : List (Nat × Nat)) (u : Nat) :
    sumOf n (fun v => if (u, v) ∈ edges then some (1 : Rat) else none) = (outDegree n edges u : Rat) := by
  unfold sumOf outDegree
  induction List.range n with
  | nil => rfl
  | cons x l ih =>
    rw [List.map_cons, List.sum_cons, ih]
    show (if (u, x) ∈ edges then some (1 : Rat) else none).getD 0 + _ = _
    by_cases hx : (u, x) ∈ edges
    · rw [if_pos hx, List.filter_cons_of_pos (by simpa using hx), List.length_cons, Rat.natCast_add, Rat.add_comm]
      rfl
    · rw [if_neg hx, List.filter_cons_of_neg (by simpa using hx)]
      exact Rat.zero_add _

theorem outDegree_pos {n : Nat} {edges : List (Nat × Nat)} {u v : Nat} (h : (u, v) ∈ edges) (hv : v < n) : outDegree n edges u ≠ 0 := by
  intro h0
  have hm : v ∈ (List.range n).filter fun v => decide ((u, v) ∈ edges) := List.mem_filter.2 ⟨List.mem_range.2 hv, decide_eq_true h⟩
  rw [List.eq_nil_of_length_eq_zero h0] at hm
  cases hm

/-- **C117** For every graph and every limit, the demo shows the clustering that peer pressure arrives at when every node starts on its own and
shares one vote between the nodes it has edges to: as a matrix and as a list, in which the greatest index stands for no cluster. -/
theorem C117_clusters {n : Nat} (hn : 0 < n) {edges : List (Nat × Nat)} (he : ∀ e ∈ edges, e.1 < n ∧ e.2 < n) (limit : Nat) :
    ∃ C r b, peerDemo limit n edges = .ok (C, r) ∧ PeerPressure n (voteShare n edges) (ownCluster n) limit b ∧
      (∀ i j, i < n → j < n → C.get i j = if b j = some i then some true else none) ∧
      (∀ j i, j < n → b j = some i → i < n) ∧ r.length = n ∧ ∀ j, j < n → r[j]? = some ((b j).getD (2 ^ 64 - 1)) := by
  obtain ⟨G, e, g1, g2, g3, g4⟩ := built_same (1 : Rat) edges he
  have hrow : ∀ u, (fun v => (G.get u v).map id) = fun v => if (u, v) ∈ edges then some (1 : Rat) else none := by
    intro u
    funext v
    rw [g4]
    by_cases hm : (u, v) ∈ edges
    · rw [if_pos hm]; rfl
    · rw [if_neg hm]; rfl
  obtain ⟨C, b, e1, hC, hp⟩ := C62_peer_pressure_start (conv := id) (maxIters := limit) g1 (by omega) (g3.trans g2.symm) (by
    rintro u ⟨v, hv⟩
    rw [hrow, outDegree_sum, g2]
    have hm : (u, v) ∈ edges := by
      apply Classical.byContradiction
      intro hm
      rw [g4, if_neg hm] at hv
      exact hv rfl
    have := outDegree_pos hm (he _ hm).2
    intro h0
    exact this (by exact_mod_cast h0))
  have hW : rowsNormalized n (fun u v => (G.get u v).map id) = voteShare n edges := by
    funext u v
    unfold rowsNormalized voteShare
    show ((G.get u v).map id).map (fun x => x / sumOf n fun v => (G.get u v).map id) = _
    rw [hrow, outDegree_sum, g4]
    by_cases hm : (u, v) ∈ edges
    · rw [if_pos hm, if_pos hm]; rfl
    · rw [if_neg hm, if_neg hm]; rfl
  rw [g2] at hC hp
  rw [hW] at hp
  obtain ⟨r, e2, r1, r2⟩ := C63_assignments_of_clustering hC
  refine ⟨C, r, b, ?_, hp, hC.get, hC.lt, r1, r2⟩
  unfold peerDemo
  rw [show method ((Lil.new n n : Lil Rat).build (fun _ b => b) (edges.map fun e => (e.1, e.2, 1))) = .ok G by rw [e]; rfl]
  show (do let ans ← peerPressureId id G limit; let clusters ← lift (clusterAssignments b2r ans); .ok (ans, clusters)) = _
  rw [e1]
  show (do let clusters ← lift (clusterAssignments b2r C); .ok (C, clusters)) = _
  rw [e2]
  rfl

/-- **C117** If every node has an edge from some node, such as a loop, every node is in a cluster in the end. -/
theorem C117_everyone {n : Nat} (hn : 0 < n) {edges : List (Nat × Nat)} (he : ∀ e ∈ edges, e.1 < n ∧ e.2 < n)
    (hin : ∀ v, v < n → ∃ u, (u, v) ∈ edges) (limit : Nat) :
    ∃ C r, peerDemo limit n edges = .ok (C, r) ∧ ∀ j, j < n → ∃ i, i < n ∧ r[j]? = some i ∧ C.get i j = some true := by
  obtain ⟨C, r, b, e, hp, hC, hlt, -, hr⟩ := C117_clusters hn he limit
  refine ⟨C, r, e, fun j hj => ?_⟩
  have hne := C62_peer_pressure_total_partial hp (fun j hj h => by unfold ownCluster at h; rw [if_pos hj] at h; cases h) (by
    intro v hv
    obtain ⟨u, hu⟩ := hin v hv
    refine ⟨u, (he _ hu).1, fun h => ?_⟩
    unfold voteShare at h
    rw [if_pos hu] at h
    cases h) j hj
  cases hb : b j with
  | none => exact absurd hb hne
  | some i =>
    refine ⟨i, hlt j i hj hb, ?_, ?_⟩
    · rw [hr j hj, hb]; rfl
    · rw [hC i j (hlt j i hj hb) hj, if_pos hb]

/-- **C117** Two limits that follow each other and give the same list give the list of every greater limit. -/
theorem C117_settles {n : Nat} (hn : 0 < n) (hb : n < 2 ^ 64) {edges : List (Nat × Nat)} (he : ∀ e ∈ edges, e.1 < n ∧ e.2 < n) {K : Nat} {C C' : Lil Bool}
    {r : List Nat} (h : peerDemo K n edges = .ok (C, r)) (h' : peerDemo (K + 1) n edges = .ok (C', r)) {limit : Nat} (hl : K < limit) :
    ∃ C'', peerDemo limit n edges = .ok (C'', r) ∧ ∀ i j, i < n → j < n → C''.get i j = C'.get i j := by
  obtain ⟨C1, r1, b1, e1, p1, -, l1, -, h1⟩ := C117_clusters hn he K
  obtain ⟨C2, r2, b2, e2, p2, c2, l2, n2, h2⟩ := C117_clusters hn he (K + 1)
  rw [h] at e1
  rw [h'] at e2
  injection e1 with e1; injection e1 with _ e1
  injection e2 with e2; injection e2 with e2' e2
  subst e1; subst e2; subst e2'
  have hbb : ∀ j, j < n → b1 j = b2 j := by
    intro j hj
    have hx : (b1 j).getD (2 ^ 64 - 1) = (b2 j).getD (2 ^ 64 - 1) := by
      have := (h1 j hj).symm.trans (h2 j hj)
      injection this
    cases hb1 : b1 j with
    | none =>
      cases hb2 : b2 j with
      | none => rfl
      | some i =>
        have := l2 j i hj hb2
        rw [hb1, hb2] at hx
        simp only [Option.getD_none, Option.getD_some] at hx
        omega
    | some i =>
      have := l1 j i hj hb1
      cases hb2 : b2 j with
      | none =>
        rw [hb1, hb2] at hx
        simp only [Option.getD_none, Option.getD_some] at hx
        omega
      | some i' =>
        rw [hb1, hb2] at hx
        exact congrArg some hx
  obtain ⟨C3, r3, b3, e3, p3, c3, -, n3, h3⟩ := C117_clusters hn he limit
  have hb3 : ∀ j, j < n → b3 j = b2 j := PeerPressure.unique p3 (p1.settled p2 hbb hl)
  have hr : r3 = r := by
    apply List.ext_getElem?
    intro j
    by_cases hj : j < n
    · rw [h3 j hj, h2 j hj, hb3 j hj]
    · rw [List.getElem?_eq_none (by omega), List.getElem?_eq_none (by omega)]
  subst hr
  refine ⟨C3, e3, fun i j hi hj => ?_⟩
  rw [c3 i j hi hj, c2 i j hi hj, hb3 j hj]

/-- What the demo of one graph computes with a limit that the kernel can count up to. -/
theorem peerDemo_small :
    (∃ C, peerDemo 2 8 peerEdges1 = .ok (C, [6, 7, 6, 7, 6, 7, 6, 7])) ∧ (∃ C, peerDemo 3 8 peerEdges1 = .ok (C, [6, 7, 6, 7, 6, 7, 6, 7])) ∧
    (∃ C, peerDemo 1 5 peerEdges2 = .ok (C, [2, 2, 2, 4, 4])) ∧ ∃ C, peerDemo 2 5 peerEdges2 = .ok (C, [2, 2, 2, 4, 4]) := by
  refine ⟨⟨⟨8, 8, 8, [[], [], [], [], [], [], [(0, true), (2, true), (4, true), (6, true)], [(1, true), (3, true), (5, true), (7, true)]]⟩, ?_⟩,
    ⟨⟨8, 8, 8, [[], [], [], [], [], [], [(0, true), (2, true), (4, true), (6, true)], [(1, true), (3, true), (5, true), (7, true)]]⟩, ?_⟩,
    ⟨⟨5, 5, 5, [[], [], [(0, true), (1, true), (2, true)], [], [(3, true), (4, true)]]⟩, ?_⟩,
    ⟨⟨5, 5, 5, [[], [], [(0, true), (1, true), (2, true)], [], [(3, true), (4, true)]]⟩, ?_⟩⟩ <;> decide +kernel

/-- **C117** The lists that the program prints for its two graphs, with the greatest `unsigned int` as the limit and with every other limit from
3 on. -/
theorem C117_prints {limit : Nat} (hl : 3 ≤ limit) : (∃ C, peerDemo limit 8 peerEdges1 = .ok (C, [6, 7, 6, 7, 6, 7, 6, 7])) ∧
    ∃ C, peerDemo limit 5 peerEdges2 = .ok (C, [2, 2, 2, 4, 4]) := by
  obtain ⟨⟨A, hA⟩, ⟨A', hA'⟩, ⟨B, hB⟩, ⟨B', hB'⟩⟩ := peerDemo_small
  obtain ⟨C, h, -⟩ := C117_settles (by decide) (by decide) (by decide) hA hA' (limit := limit) (by omega)
  obtain ⟨D, h', -⟩ := C117_settles (by decide) (by decide) (by decide) hB hB' (limit := limit) (by omega)
  exact ⟨⟨C, h⟩, ⟨D, h'⟩⟩

/- The program's graphs meet the hypotheses of `C117_clusters` and `C117_everyone`. -/
example : (∀ e ∈ peerEdges1, e.1 < 8 ∧ e.2 < 8) ∧ ∀ v, v < 8 → ∃ u, (u, v) ∈ peerEdges1 :=
  ⟨by decide, fun v hv => ⟨v, (by decide : ∀ v, v < 8 → (v, v) ∈ peerEdges1) v hv⟩⟩

end GBTL

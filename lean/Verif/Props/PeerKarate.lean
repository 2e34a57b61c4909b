import Verif.Model.PeerKarate
import Verif.Props.PeerDemo
import Verif.Props.Apsp
/-
C118: the peer-pressure demo with the karate club.
-/
namespace Spec

/-- The weight of the edge from `u` to `v` when every edge has weight 1 and then every node gets an edge of weight 1 to itself, added to the one it
may have. -/
def loopedWeight (n : Nat) (edges : List (Nat × Nat)) (u v : Nat) : Option Nat :=
  if u = v ∧ u < n then (if (u, v) ∈ edges then some 2 else some 1)
  else if (u, v) ∈ edges then some 1 else none

/-- The same as the weight of a vote. -/
def loopedVotes (n : Nat) (edges : List (Nat × Nat)) : Mat Rat := fun u v => (loopedWeight n edges u v).map fun x : Nat => (x : Rat)

end Spec

namespace GBTL
open Spec

theorem sumOf_natCast (f : Nat → Option Nat) (l : List Nat) :
    (l.map fun j => ((f j).map fun x : Nat => (x : Rat)).getD 0).sum = (((l.map fun j => (f j).getD 0).sum : Nat) : Rat) := by
  induction l with
  | nil => rfl
  | cons x l ih =>
    rw [List.map_cons, List.sum_cons, ih, List.map_cons, List.sum_cons, Rat.natCast_add]
    cases f x <;> rfl

theorem sum_pos_of_mem (g : Nat → Nat) {l : List Nat} {x : Nat} (h : x ∈ l) (hx : g x ≠ 0) : (l.map g).sum ≠ 0 := by
  induction l with
  | nil => cases h
  | cons y l ih =>
    rw [List.map_cons, List.sum_cons]
    rcases List.mem_cons.1 h with rfl | h
    · omega
    · have := ih h
      omega

theorem loopedGraph_ok {n : Nat} (hn : 0 < n) {edges : List (Nat × Nat)} (he : ∀ e ∈ edges, e.1 < n ∧ e.2 < n) :
    ∃ A C, loopedGraph n edges = .ok (A, C) ∧ Sh n n A ∧ (∀ u v, A.get u v = loopedWeight n edges u v) ∧ IsClustering n C (ownCluster n) := by
  obtain ⟨G, e, g1, g2, g3, g4⟩ := built_same (1 : Nat) edges he
  obtain ⟨C, e1, h1, h2, h3, h4⟩ := C41_scaled_identity n true
  obtain ⟨A, e2, y⟩ := C13_eWiseAdd_matrix_partial (o := mPlain id (Lil.new n n)) (f := ewLoops) (A := .plain G) (B := .plain C)
    (mWhole_wf (Lil.new_wf n n)) g1 h1 ⟨noMaskFitsM, g3.symm, g2.symm, g3.trans h3.symm, g2.trans h2.symm⟩ (by intro _ h; cases h)
  obtain ⟨z, g⟩ := whole_yields (Sh.new n n) y
  refine ⟨A, C, ?_, z, ?_, own_isClustering ⟨h1, h2, h3⟩ h4⟩
  · unfold loopedGraph
    rw [show method ((Lil.new n n : Lil Nat).build (fun _ b => b) (edges.map fun e => (e.1, e.2, 1))) = .ok G by rw [e]; rfl, e1]
    show (do let A ← exec (eWiseAddM (mPlain id (Lil.new n n)) ewLoops (.plain G) (.plain C)); .ok (A, C)) = _
    rw [e2]
    rfl
  · intro u v
    by_cases huv : u < n ∧ v < n
    · rw [g u v huv.1 huv.2]
      show Option.map id (either ewLoops.op ewLoops.c1 ewLoops.c2 (G.get u v) (C.get u v)) = _
      rw [g4, h4]
      unfold loopedWeight
      by_cases hm : (u, v) ∈ edges <;> by_cases hd : u = v ∧ u < n
      · rw [if_pos hm, if_pos hd, if_pos hd, if_pos hm]; rfl
      · rw [if_pos hm, if_neg hd, if_neg hd]; rfl
      · rw [if_neg hm, if_pos hd, if_pos hd, if_neg hm]; rfl
      · rw [if_neg hm, if_neg hd, if_neg hd]; rfl
    · rw [z.out huv]
      unfold loopedWeight
      rw [if_neg (by rintro ⟨rfl, h⟩; exact huv ⟨h, h⟩), if_neg (fun hm => huv (he _ hm))]

/-- In the end everyone is in a cluster. -/
theorem looped_everyone {n : Nat} {W : Mat Rat} {limit : Nat} {b : Vec Nat} (h : PeerPressure n W (ownCluster n) limit b)
    (hW : ∀ v, v < n → W v v ≠ none) : ∀ j, j < n → b j ≠ none :=
  C62_peer_pressure_total_partial h (fun j hj h => by unfold ownCluster at h; rw [if_pos hj] at h; cases h) fun v hv => ⟨v, hv, hW v hv⟩

theorem looped_self {n : Nat} {edges : List (Nat × Nat)} {v : Nat} (hv : v < n) : ∃ x, loopedWeight n edges v v = some x ∧ x ≠ 0 := by
  unfold loopedWeight
  rw [if_pos ⟨rfl, hv⟩]
  by_cases hm : (v, v) ∈ edges
  · rw [if_pos hm]; exact ⟨2, rfl, by omega⟩
  · rw [if_neg hm]; exact ⟨1, rfl, by omega⟩

/-- **C118** For every graph and every limit, the demo prints two clusterings that peer pressure arrives at from every node on its own, in the graph
with an edge from every node to itself: first with whole votes, then with votes that are shared. Every node is in a cluster in both. -/
theorem C118_clusters {n : Nat} (hn : 0 < n) {edges : List (Nat × Nat)} (he : ∀ e ∈ edges, e.1 < n ∧ e.2 < n) (limit : Nat) :
    ∃ r r' b b', peerKarate limit n edges = .ok (r, r') ∧ PeerPressure n (loopedVotes n edges) (ownCluster n) limit b ∧
      PeerPressure n (rowsNormalized n (loopedVotes n edges)) (ownCluster n) limit b' ∧ r.length = n ∧ r'.length = n ∧
      ∀ j, j < n → (∃ i, i < n ∧ r[j]? = some i ∧ b j = some i) ∧ ∃ i, i < n ∧ r'[j]? = some i ∧ b' j = some i := by
  obtain ⟨A, C, e, hA, gA, hC⟩ := loopedGraph_ok hn he
  obtain ⟨S, e1, h1, h2, h3, h4⟩ := C41_scaled_identity n true
  have hS := own_isClustering ⟨h1, h2, h3⟩ h4
  have hW : (fun u v => (A.get u v).map fun x : Nat => (x : Rat)) = loopedVotes n edges := by
    funext u v; rw [gA]; rfl
  have hnr : A.nrows = n := hA.nr
  obtain ⟨D, b, e2, hD, hp⟩ := C62_peer_pressure_v2 (conv := fun x : Nat => (x : Rat)) (maxIters := limit) hA.wf (by omega) (hA.nc.trans hnr.symm)
    (by rw [hnr]; exact hC)
  obtain ⟨D', b', e3, hD', hp'⟩ := C62_peer_pressure (conv := fun x : Nat => (x : Rat)) (maxIters := limit) hA.wf (by omega)
    (hA.nc.trans hnr.symm) (by rw [hnr]; exact hS) (by
      rintro u ⟨v, hv⟩
      have hu : u < n := by
        apply Classical.byContradiction
        intro hu
        exact hv (hA.out fun h => hu h.1)
      obtain ⟨x, hx, h0⟩ := looped_self (edges := edges) hu
      unfold sumOf
      rw [sumOf_natCast]
      have := sum_pos_of_mem (fun j => (A.get u j).getD 0) (l := List.range A.nrows) (x := u) (List.mem_range.2 (by omega))
        (by rw [gA, hx]; exact h0)
      intro hz
      exact this (by exact_mod_cast hz))
  rw [hnr] at hD hp hD' hp'
  rw [hW] at hp hp'
  obtain ⟨r, e4, r1, r2⟩ := C63_assignments_of_clustering hD
  obtain ⟨r', e5, r1', r2'⟩ := C63_assignments_of_clustering hD'
  refine ⟨r, r', b, b', ?_, hp, hp', r1, r1', fun j hj => ⟨?_, ?_⟩⟩
  · unfold peerKarate
    rw [e]
    show (do
      let C ← peerPressureV2 (fun x : Nat => (x : Rat)) A C limit
      let r ← lift (clusterAssignments b2r C)
      let start2 ← lift (scaledIdentity n true)
      let C2 ← peerPressure (fun x : Nat => (x : Rat)) A start2 limit
      let r2 ← lift (clusterAssignments b2r C2)
      .ok (r, r2)) = _
    rw [e2]
    simp only [prog_bind_ok]
    rw [e4, e1]
    show (do
      let C2 ← peerPressure (fun x : Nat => (x : Rat)) A S limit
      let r2 ← lift (clusterAssignments b2r C2)
      .ok (r, r2)) = _
    rw [e3]
    simp only [prog_bind_ok]
    rw [e5]
    rfl
  · have := looped_everyone hp (fun v hv => by
      obtain ⟨x, hx, -⟩ := looped_self (edges := edges) hv
      unfold loopedVotes; rw [hx]; simp) j hj
    cases hb : b j with
    | none => exact absurd hb this
    | some i => exact ⟨i, hD.lt j i hj hb, by rw [r2 j hj, hb]; rfl, rfl⟩
  · have := looped_everyone hp' (fun v hv => by
      obtain ⟨x, hx, -⟩ := looped_self (edges := edges) hv
      unfold rowsNormalized loopedVotes; rw [hx]; simp) j hj
    cases hb : b' j with
    | none => exact absurd hb this
    | some i => exact ⟨i, hD'.lt j i hj hb, by rw [r2' j hj, hb]; rfl, rfl⟩

/-- **C118** What the program prints for the karate club with its limit of 100 rounds. -/
theorem C118_prints : peerKarate 100 34 club.edges = .ok
    ([33, 33, 33, 33, 10, 16, 16, 33, 33, 33, 10, 33, 33, 33, 33, 33, 16, 33, 33, 33, 33, 33, 33, 33, 33, 33, 33, 33, 33, 33, 33, 33, 33, 33],
     [11, 21, 9, 12, 10, 16, 16, 7, 30, 9, 10, 11, 12, 13, 14, 15, 16, 17, 18, 19, 20, 21, 22, 25, 25, 25, 26, 25, 28, 26, 30, 25, 22, 26]) := by
  decide +kernel

/- The program's graph meets the hypotheses of `C118_clusters`. -/
example : 0 < 34 ∧ ∀ e ∈ club.edges, e.1 < 34 ∧ e.2 < 34 := ⟨by decide, by decide +kernel⟩

end GBTL

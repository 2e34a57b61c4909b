import Verif.Model.SsspDemo
import Verif.Props.Homework
import Verif.Props.Sssp
import Verif.Props.Apsp
import Verif.Props.Utils
import Verif.Lemmas.Agree
/-
C112: the paths of the shortest-path demo.
-/
namespace GBTL
open Spec

theorem wwalk_ones {W : Mat Int} {E : Nat → Nat → Prop} (hW : ∀ u v x, W u v = some x ↔ E u v ∧ x = 1) (s : Nat) :
    ∀ (k v : Nat) (x : Int), WWalk W (source s) k v x ↔ Walk E (fun u => u = s) k v ∧ x = k := by
  intro k
  induction k with
  | zero =>
    intro v x
    simp only [WWalk, Walk, source]
    by_cases hv : v = s
    · rw [if_pos hv]
      constructor
      · intro h; exact ⟨hv, (Option.some.inj h).symm⟩
      · rintro ⟨-, rfl⟩; rfl
    · rw [if_neg hv]
      constructor
      · intro h; cases h
      · intro h; exact absurd h.1 hv
  | succ k ih =>
    intro v x
    simp only [WWalk, Walk]
    constructor
    · rintro ⟨u, y, w, h1, h2, rfl⟩
      obtain ⟨h3, rfl⟩ := (ih u y).1 h1
      obtain ⟨h4, rfl⟩ := (hW u v w).1 h2
      exact ⟨⟨u, h3, h4⟩, by omega⟩
    · rintro ⟨⟨u, h1, h2⟩, rfl⟩
      exact ⟨u, k, 1, (ih u k).2 ⟨h1, rfl⟩, (hW u v 1).2 ⟨h2, rfl⟩, by omega⟩

theorem isDist_ones {W : Mat Int} {E : Nat → Nat → Prop} (hW : ∀ u v x, W u v = some x ↔ E u v ∧ x = 1) (s v d : Nat) :
    IsDist W (source s) v (d : Int) ↔ HopDist E (fun u => u = s) v d := by
  unfold IsDist HopDist
  constructor
  · rintro ⟨⟨k, h1⟩, h2⟩
    obtain ⟨h3, e⟩ := (wwalk_ones hW s k v d).1 h1
    have e' : d = k := by omega
    subst e'
    exact ⟨h3, fun k hk => by have := h2 k k ((wwalk_ones hW s k v k).2 ⟨hk, rfl⟩); omega⟩
  · rintro ⟨h1, h2⟩
    refine ⟨⟨d, (wwalk_ones hW s d v d).2 ⟨h1, rfl⟩⟩, fun k x hx => ?_⟩
    obtain ⟨h3, rfl⟩ := (wwalk_ones hW s k v x).1 hx
    have := h2 k h3
    omega

theorem wreach_ones {W : Mat Int} {E : Nat → Nat → Prop} (hW : ∀ u v x, W u v = some x ↔ E u v ∧ x = 1) (s v : Nat) :
    WReach W (source s) v ↔ Reachable E (fun u => u = s) v :=
  ⟨fun ⟨k, x, h⟩ => ⟨k, ((wwalk_ones hW s k v x).1 h).1⟩, fun ⟨k, h⟩ => ⟨k, k, (wwalk_ones hW s k v k).2 ⟨h, rfl⟩⟩⟩

/-- **C112** For every graph of at least one and fewer than 2^64 nodes, as long as the scalar type has the numbers up to the number of nodes:
the single search prints the number of edges from node 0 to every node, the batch prints in row `u` the number of edges from node `u`, both
print nothing where there is no way, and row 0 of the batch is the single search. -/
theorem C112_paths (t : ITy) (ov : Int → Int → Int) (n : Nat) (edges : List (Nat × Nat)) (h : ∀ e ∈ edges, e.1 < n ∧ e.2 < n)
    (h0 : 0 < n) (hn : n < 2 ^ 64) (ht : ∀ k : Nat, k ≤ n → t.Has k) :
    ∃ r, ssspDemo t ov n edges = .ok r ∧
      (∀ u v, r.graph.get u v = if (u, v) ∈ edges then some 1 else none) ∧
      (∀ v, r.source.get v = if v = 0 then some 0 else none) ∧
      (∀ v, (∀ d : Nat, r.path.get v = some (d : Int) ↔ HopDist (fun a b => (a, b) ∈ edges) (fun s => s = 0) v d) ∧
        (r.path.get v = none ↔ ¬ Reachable (fun a b => (a, b) ∈ edges) (fun s => s = 0) v)) ∧
      (∀ u v, u < n → (∀ d : Nat, r.paths.get u v = some (d : Int) ↔ HopDist (fun a b => (a, b) ∈ edges) (fun s => s = u) v d) ∧
        (r.paths.get u v = none ↔ ¬ Reachable (fun a b => (a, b) ∈ edges) (fun s => s = u) v)) ∧
      ∀ v, r.paths.get 0 v = r.path.get v := by
  have c1 : t.conv 1 = 1 := ITy.conv_id (ht 1 (by omega))
  have c0 : t.conv 0 = 0 := ITy.conv_id (ht 0 (by omega))
  obtain ⟨G, eG, g1, g2, g3, g4, -⟩ := C04_matrix_build (Lil.new n n : Lil Int) (Lil.new_wf n n) (fun _ b => b)
    (edges.map fun e => (e.1, e.2, (1 : Int))) (by
      intro t ht
      obtain ⟨p, hp, rfl⟩ := List.mem_map.1 ht
      exact h p hp)
  have hG : ∀ i j, G.get i j = if (i, j) ∈ edges then some 1 else none := by
    intro i j
    rw [g4, Lil.get_new, List.map_map]
    refine (combined_same (1 : Int) edges (i, j)).trans ?_
    by_cases hm : (i, j) ∈ edges
    · rw [if_pos hm, if_pos hm]
    · rw [if_neg hm, if_neg hm]
  have hW : ∀ u v x, G.get u v = some x ↔ (u, v) ∈ edges ∧ x = 1 := by
    intro u v x
    rw [hG]
    by_cases hm : (u, v) ∈ edges
    · rw [if_pos hm]; exact ⟨fun e => ⟨hm, (Option.some.inj e).symm⟩, fun e => by rw [e.2]⟩
    · rw [if_neg hm]; exact ⟨fun e => (by cases e), fun e => absurd e.1 hm⟩
  obtain ⟨p0, ep, p1, p2, p3⟩ := BVec.new_spec (α := Int) (n := n) (by omega)
  obtain ⟨p, es, q1, q2, q3⟩ := BVec.setElement_spec p1 (i := 0) (by omega) (0 : Int)
  have hp : p.get = source 0 := by
    funext v
    rw [q3]
    unfold source
    by_cases hv : v = 0
    · simp [hv]
    · simp [hv, p3]
  have hps : p.size = n := q2.trans p2
  obtain ⟨D, eD, d1, d2, d3, d4⟩ := C41_scaled_identity n (0 : Int)
  have hD : ∀ u, u < n → D.get u = source u := by
    intro u hu
    funext v
    rw [d4]
    unfold source
    by_cases hv : v = u
    · rw [if_pos ⟨hv.symm, hu⟩, if_pos hv]
    · rw [if_neg (fun e => hv e.1.symm), if_neg hv]
  have hneg : ¬ HasNegCycle G.get := noNeg_of_nonneg fun u v w e => by
    rw [((hW u v w).1 e).2]; omega
  have hnc : ∀ s, ¬ NegCycle G.get (source s) := fun s ⟨v, _, k, c, e⟩ => hneg ⟨v, k, c, e⟩
  have hwt : ∀ u v w, G.get u v = some w → t.Has w := by
    intro u v w e
    rw [((hW u v w).1 e).2]
    exact ht 1 (by omega)
  have hww : ∀ s, WalksWithin G.get (source s) n t.Has := by
    intro s k v x hk e
    rw [((wwalk_ones hW s k v x).1 e).2]
    exact ht k hk
  have gr : G.nrows = n := g2
  have gc : G.ncols = n := g3
  have hP : PathInput t G p := ⟨g1, q1, gr.trans hps.symm, gc.trans hps.symm, by rw [hps]; exact hn, hwt, by rw [hp, hps]; exact hww 0⟩
  have hB : BatchInput t G D := ⟨g1, d1, gr.trans d3.symm, gc.trans d3.symm, by rw [d3]; exact hn, hwt, fun r hr => by
    rw [d2] at hr; rw [hD r hr, d3]; exact hww r⟩
  obtain ⟨x, e1, -, -, hx⟩ := C34_sssp (ov := ov) hP (by omega) (by rw [hp]; exact hnc 0)
  obtain ⟨b, X, e2, -, -, -, -, hX⟩ := C46_batch_sssp (ov := ov) hB (by omega)
  have hX' : ∀ u, u < n → ∀ v, (X.get u v = none ↔ ¬ WReach G.get (source u) v) ∧
      ∀ y, X.get u v = some y ↔ IsDist G.get (source u) v y := by
    intro u hu
    have := hX u (by omega) (by rw [hD u hu]; exact hnc u)
    rw [hD u hu] at this
    exact this
  rw [hp] at hx
  refine ⟨⟨G, p, x, D, X⟩, ?_, hG, ?_, ?_, ?_, ?_⟩
  · unfold ssspDemo
    rw [c1, c0, eG, ep]
    show (do
      let source ← lift (method (p0.setElement 0 0))
      let path ← sssp t ov G source
      let sources ← lift (scaledIdentity n 0)
      let paths ← batchSssp t ov G sources
      Except.ok (⟨G, source, path.2, sources, paths.2⟩ : SsspShown)) = _
    rw [es, eD]
    show (do
      let path ← sssp t ov G p
      let paths ← batchSssp t ov G D
      Except.ok (⟨G, p, path.2, D, paths.2⟩ : SsspShown)) = _
    rw [e1, e2]
    rfl
  · intro v; show p.get v = _; rw [hp]; rfl
  · intro v
    exact ⟨fun d => ((hx v).2 d).trans (isDist_ones hW 0 v d), ((hx v).1).trans (not_congr (wreach_ones hW 0 v))⟩
  · intro u v hu
    exact ⟨fun d => ((hX' u hu v).2 d).trans (isDist_ones hW u v d), ((hX' u hu v).1).trans (not_congr (wreach_ones hW u v))⟩
  · intro v
    exact opt_ext fun y => ((hX' 0 h0 v).2 y).trans ((hx v).2 y).symm

/-- The program's own graph meets the hypotheses, and node 7, which has no edges, is reached from nowhere else. -/
example : ∃ r, ssspDemo .u32 (fun a b => a + b) 9 techNote = .ok r ∧ r.path.get 7 = none ∧ r.path.get 5 = some 4 := by
  obtain ⟨r, e, -⟩ := C112_paths .u32 (fun a b => a + b) 9 techNote (by decide) (by omega) (by omega) (by decide)
  refine ⟨r, e, ?_⟩
  have : ∀ q, (ssspDemo .u32 (fun a b => a + b) 9 techNote).toOption = some q → q.path.get 7 = none ∧ q.path.get 5 = some 4 := by
    decide +kernel
  exact this r (by rw [e]; rfl)

/-- **C112** What the program prints with `unsigned int`. -/
theorem C112_prints : ∃ r, ssspDemo .u32 (fun a b => a + b) 9 techNote = .ok r ∧
    printVector "j".toList (fun x => Nat.toDigits 10 x.toNat) r.source "Source".toList = .ok
      ("Source:\ngrb::Vector: Sequential Backend: backend::BitmapSparseVector<j>, size  = 9, nvals = 1\n" ++
      "[0, -, -, -, -, -, -, -, -]\n").toList ∧
    printVector "j".toList (fun x => Nat.toDigits 10 x.toNat) r.path "single SSSP results".toList = .ok
      ("single SSSP results:\ngrb::Vector: Sequential Backend: backend::BitmapSparseVector<j>, size  = 9, nvals = 8\n" ++
      "[0, 2, 3, 1, 2, 4, 2, -, 3]\n").toList ∧
    printMatrix "j".toList (fun x => Nat.toDigits 10 x.toNat) r.paths "batch SSSP results".toList = .ok
      ("batch SSSP results:\ngrb::Matrix: Sequential Backend: backend::LilSparseMatrix<j> (9 x 9), nvals = 65\n" ++
      "  [[0, 2, 3, 1, 2, 4, 2,  , 3]\n" ++
      "   [2, 0, 2, 1, 2, 3, 1,  , 3]\n" ++
      "   [3, 2, 0, 2, 1, 1, 1,  , 1]\n" ++
      "   [1, 1, 2, 0, 1, 3, 1,  , 2]\n" ++
      "   [2, 2, 1, 1, 0, 2, 2,  , 1]\n" ++
      "   [4, 3, 1, 3, 2, 0, 2,  , 2]\n" ++
      "   [2, 1, 1, 1, 2, 2, 0,  , 2]\n" ++
      "   [ ,  ,  ,  ,  ,  ,  , 0,  ]\n" ++
      "   [3, 3, 1, 2, 1, 2, 2,  , 0]]\n").toList := by
  refine ⟨⟨⟨9, 9, 20, [[(3, 1)], [(3, 1), (6, 1)], [(4, 1), (5, 1), (6, 1), (8, 1)], [(0, 1), (1, 1), (4, 1), (6, 1)], [(2, 1), (3, 1), (8, 1)],
      [(2, 1)], [(1, 1), (2, 1), (3, 1)], [], [(2, 1), (4, 1)]]⟩,
    ⟨9, 1, List.replicate 9 0, true :: List.replicate 8 false⟩,
    ⟨9, 8, [0, 2, 3, 1, 2, 4, 2, 0, 3], List.replicate 7 true ++ [false, true]⟩,
    ⟨9, 9, 9, (List.range 9).map fun i => [(i, 0)]⟩,
    ⟨9, 9, 65, [[0, 1, 2, 3, 4, 5, 6, 8].zip [0, 2, 3, 1, 2, 4, 2, 3], [0, 1, 2, 3, 4, 5, 6, 8].zip [2, 0, 2, 1, 2, 3, 1, 3], [0, 1, 2, 3, 4, 5, 6, 8].zip [3, 2, 0, 2, 1, 1, 1, 1],
      [0, 1, 2, 3, 4, 5, 6, 8].zip [1, 1, 2, 0, 1, 3, 1, 2], [0, 1, 2, 3, 4, 5, 6, 8].zip [2, 2, 1, 1, 0, 2, 2, 1], [0, 1, 2, 3, 4, 5, 6, 8].zip [4, 3, 1, 3, 2, 0, 2, 2],
      [0, 1, 2, 3, 4, 5, 6, 8].zip [2, 1, 1, 1, 2, 2, 0, 2], [(7, 0)], [0, 1, 2, 3, 4, 5, 6, 8].zip [3, 3, 1, 2, 1, 2, 2, 0]]⟩⟩, ?_, ?_, ?_, ?_⟩ <;> decide +kernel

end GBTL

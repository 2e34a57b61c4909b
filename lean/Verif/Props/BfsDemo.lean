import Verif.Model.BfsDemo
import Verif.Props.Homework
import Verif.Props.BfsBatch
import Verif.Lemmas.Agree
/-
C113: the parents of the breadth-first demo.
-/
namespace GBTL
open Spec

theorem built_same {n : Nat} {α : Type} (c : α) (l : List (Nat × Nat)) (h : ∀ e ∈ l, e.1 < n ∧ e.2 < n) :
    ∃ A, (Lil.new n n : Lil α).build (fun _ b => b) (l.map fun e => (e.1, e.2, c)) = (.ok (), A) ∧ A.WF ∧ A.nrows = n ∧ A.ncols = n ∧
      ∀ i j, A.get i j = if (i, j) ∈ l then some c else none := by
  obtain ⟨A, e, hA, h1, h2, h3, -⟩ := C04_matrix_build (Lil.new n n : Lil α) (Lil.new_wf n n) (fun _ b => b)
    (l.map fun e => (e.1, e.2, c)) (by
      intro t ht
      obtain ⟨p, hp, rfl⟩ := List.mem_map.1 ht
      exact h p hp)
  refine ⟨A, e, hA, h1, h2, fun i j => ?_⟩
  rw [h3, Lil.get_new, List.map_map]
  refine (combined_same c l (i, j)).trans ?_
  by_cases hm : (i, j) ∈ l
  · rw [if_pos hm, if_pos hm]
  · rw [if_neg hm, if_neg hm]

theorem isParent_unique {E : Nat → Nat → Prop} {S : Nat → Prop} {v p q : Nat} (h : IsParent E S v p) (h' : IsParent E S v q) : p = q := by
  obtain ⟨d, a1, a2, a3, a4⟩ := h
  obtain ⟨e, b1, b2, b3, b4⟩ := h'
  have : d = e := by have := a1.unique b1; omega
  subst this
  exact Nat.le_antisymm (a4 q b2 b3) (b4 p a2 a3)

/-- **C113** For every graph of fewer than 2^64 nodes and every root in it: in the printed list the root is its own parent, every other node
that can be reached has the smallest-numbered in-neighbour among the nodes one hop closer, and the rest have none; row `s` of the second
table is such a list for the root `s`; and the list is row `r` of the table. -/
theorem C113_parents (ov : Int → Int → Int) (n : Nat) (edges : List (Nat × Nat)) (h : ∀ e ∈ edges, e.1 < n ∧ e.2 < n) (r : Nat) (hr : r < n)
    (hn : n < 2 ^ 64) (fuel : Nat) (hf : n ≤ fuel) :
    ∃ o, bfsDemo fuel ov n edges r = .ok o ∧
      (∀ u v, o.graph.get u v = if (u, v) ∈ edges then some 1 else none) ∧
      o.parents.get r = some (r : Int) ∧
      (∀ v, v ≠ r → Reachable (fun a b => (a, b) ∈ edges) (fun s => s = r) v →
        ∃ p : Nat, o.parents.get v = some (p : Int) ∧ IsParent (fun a b => (a, b) ∈ edges) (fun s => s = r) v p) ∧
      (∀ v, ¬ Reachable (fun a b => (a, b) ∈ edges) (fun s => s = r) v → o.parents.get v = none) ∧
      (∀ s, s < n → o.batch.get s s = some (s : Int) ∧
        (∀ v, v ≠ s → Reachable (fun a b => (a, b) ∈ edges) (fun u => u = s) v →
          ∃ p : Nat, o.batch.get s v = some (p : Int) ∧ IsParent (fun a b => (a, b) ∈ edges) (fun u => u = s) v p) ∧
        (∀ v, ¬ Reachable (fun a b => (a, b) ∈ edges) (fun u => u = s) v → o.batch.get s v = none)) ∧
      ∀ v, o.batch.get r v = o.parents.get v := by
  obtain ⟨G, eG, g1, g2, g3, g4⟩ := built_same (1 : Int) edges h
  obtain ⟨R, eR, k1, k2, k3, k4⟩ := built_same (n := n) (1 : Int) ((List.range n).map fun i => (i, i)) (by
    intro e he
    obtain ⟨i, hi, rfl⟩ := List.mem_map.1 he
    exact ⟨List.mem_range.1 hi, List.mem_range.1 hi⟩)
  rw [List.map_map] at eR
  have hE : Edge G.get = fun a b => (a, b) ∈ edges := by
    funext a b
    apply propext
    unfold Edge
    rw [g4]
    by_cases hm : (a, b) ∈ edges
    · rw [if_pos hm]; exact ⟨fun _ => hm, fun _ => rfl⟩
    · rw [if_neg hm]; exact ⟨fun e => (by cases e), fun e => absurd e hm⟩
  have hR : ∀ s, s < n → ∀ v, R.get s v ≠ none ↔ v = s := by
    intro s hs v
    rw [k4]
    by_cases hv : v = s
    · subst hv
      rw [if_pos (List.mem_map.2 ⟨v, List.mem_range.2 hs, rfl⟩)]
      simp
    · rw [if_neg]
      · simp [hv]
      · intro hc
        obtain ⟨i, -, hi⟩ := List.mem_map.1 hc
        cases hi
        exact hv rfl
  obtain ⟨p0, ep, p1, p2, p3⟩ := BVec.new_spec (α := Int) (n := n) (by omega)
  obtain ⟨w, es, q1, q2, q3⟩ := BVec.setElement_spec p1 (i := r) (by omega) (1 : Int)
  have hw : ∀ v, w.get v ≠ none ↔ v = r := by
    intro v
    rw [q3]
    by_cases hv : v = r
    · simp [hv]
    · simp [hv, p3]
  have hu : ∀ k : Nat, k < G.nrows → ITy.Has .u64 k := by
    intro k hk
    rw [g2] at hk
    unfold ITy.Has
    have e1 : ITy.minVal .u64 = 0 := by decide
    have e2 : ITy.maxVal .u64 = 2 ^ 64 - 1 := by decide
    rw [e1, e2]
    omega
  obtain ⟨x, e1, -, -, x1, x2, x3⟩ := C49_bfs_wave_partial .u64 .u64 ov G w p0 g1 (g2.trans g3.symm) (by omega) hu hu q1
    ((q2.trans p2).trans g2.symm) p1 (p2.trans g2.symm) fuel (by omega)
  obtain ⟨X, e2, -, -, -, hX⟩ := C49_bfs_batch_partial .u64 .u64 ov G R (Lil.new n n) g1 (g2.trans g3.symm) hu hu k1 (k3.trans g2.symm)
    (Lil.new_wf n n) k2.symm g2.symm fuel (by omega)
  have hws : (fun s => w.get s ≠ none) = fun s => s = r := funext fun v => propext (hw v)
  rw [hE, hws] at x2 x3
  have hB : ∀ s, s < n → X.get s s = some (s : Int) ∧
      (∀ v, v ≠ s → Reachable (fun a b => (a, b) ∈ edges) (fun u => u = s) v →
        ∃ p : Nat, X.get s v = some (p : Int) ∧ IsParent (fun a b => (a, b) ∈ edges) (fun u => u = s) v p) ∧
      (∀ v, ¬ Reachable (fun a b => (a, b) ∈ edges) (fun u => u = s) v → X.get s v = none) := by
    intro s hs
    obtain ⟨y1, y2, y3⟩ := hX s (by omega)
    have hRs : (fun u => R.get s u ≠ none) = fun u => u = s := funext fun v => propext (hR s hs v)
    rw [hE, hRs] at y2 y3
    exact ⟨y1 s ((hR s hs s).2 rfl), fun v hv hrv => y2 v hrv (Classical.not_not.1 fun hc => hv ((hR s hs v).1 hc)), y3⟩
  have hx1 : x.get r = some (r : Int) := x1 r ((hw r).2 rfl)
  have hx2 : ∀ v, v ≠ r → Reachable (fun a b => (a, b) ∈ edges) (fun s => s = r) v →
        ∃ p : Nat, x.get v = some (p : Int) ∧ IsParent (fun a b => (a, b) ∈ edges) (fun s => s = r) v p :=
    fun v hv hrv => x2 v hrv (Classical.not_not.1 fun hc => hv ((hw v).1 hc))
  refine ⟨⟨G, x, X⟩, ?_, g4, hx1, hx2, x3, hB, ?_⟩
  · unfold bfsDemo
    rw [eG, ep]
    show (do
      let root ← lift (method (p0.setElement r 1))
      let parents ← bfsWave fuel .u64 .u64 ov G root p0
      let roots ← lift (method ((Lil.new n n : Lil Int).build (fun _ b => b) ((List.range n).map fun i => (i, i, 1))))
      let batch ← bfsBatch fuel .u64 .u64 ov G roots (Lil.new n n)
      Except.ok (⟨G, parents, batch⟩ : BfsShown)) = _
    rw [es]
    show (do
      let parents ← bfsWave fuel .u64 .u64 ov G w p0
      let roots ← lift (method ((Lil.new n n : Lil Int).build (fun _ b => b) ((List.range n).map fun i => (i, i, 1))))
      let batch ← bfsBatch fuel .u64 .u64 ov G roots (Lil.new n n)
      Except.ok (⟨G, parents, batch⟩ : BfsShown)) = _
    rw [e1, show ((List.range n).map fun i => (i, i, (1 : Int))) = (List.range n).map ((fun e => (e.1, e.2, 1)) ∘ fun i => (i, i)) from rfl, eR]
    show (do
      let batch ← bfsBatch fuel .u64 .u64 ov G R (Lil.new n n)
      Except.ok (⟨G, x, batch⟩ : BfsShown)) = _
    rw [e2]
    rfl
  · intro v
    show X.get r v = x.get v
    obtain ⟨b1, b2, b3⟩ := hB r hr
    by_cases hv : v = r
    · subst hv; rw [b1, hx1]
    · by_cases hrv : Reachable (fun a b => (a, b) ∈ edges) (fun s => s = r) v
      · obtain ⟨p, e, hp⟩ := b2 v hv hrv
        obtain ⟨q, e', hq⟩ := hx2 v hv hrv
        rw [e, e', isParent_unique hp hq]
      · rw [b3 v hrv, x3 v hrv]

/-- The program's own graph and root meet the hypotheses. -/
example : ∃ o, bfsDemo 9 (fun a b => a + b) 9 techNote 3 = .ok o ∧ o.parents.get 3 = some 3 ∧ ∀ v, o.batch.get 3 v = o.parents.get v := by
  obtain ⟨o, e, -, h1, -, -, -, h2⟩ := C113_parents (fun a b => a + b) 9 techNote (by decide) 3 (by omega) (by omega) 9 (by omega)
  exact ⟨o, e, h1, h2⟩

/-- **C113** What the program prints. -/
theorem C113_prints : ∃ o, bfsDemo 9 (fun a b => a + b) 9 techNote 3 = .ok o ∧
    printVector "m".toList (fun x => Nat.toDigits 10 x.toNat) o.parents "Parent list for root at vertex 3".toList = .ok
      ("Parent list for root at vertex 3:\ngrb::Vector: Sequential Backend: backend::BitmapSparseVector<m>, size  = 9, nvals = 8\n" ++
      "[3, 3, 4, 3, 3, 2, 3, -, 4]\n").toList ∧
    printMatrix "m".toList (fun x => Nat.toDigits 10 x.toNat) o.batch "Parents for each root (by rows):".toList = .ok
      ("Parents for each root (by rows)::\ngrb::Matrix: Sequential Backend: backend::LilSparseMatrix<m> (9 x 9), nvals = 65\n" ++
      "  [[0, 3, 4, 0, 3, 2, 3,  , 4]\n" ++
      "   [3, 1, 6, 1, 3, 2, 1,  , 2]\n" ++
      "   [3, 6, 2, 4, 2, 2, 2,  , 2]\n" ++
      "   [3, 3, 4, 3, 3, 2, 3,  , 4]\n" ++
      "   [3, 3, 4, 4, 4, 2, 2,  , 4]\n" ++
      "   [3, 6, 5, 4, 2, 5, 2,  , 2]\n" ++
      "   [3, 6, 6, 6, 2, 2, 6,  , 2]\n" ++
      "   [ ,  ,  ,  ,  ,  ,  , 7,  ]\n" ++
      "   [3, 3, 8, 4, 8, 2, 2,  , 8]]\n").toList := by
  refine ⟨⟨⟨9, 9, 20, [[(3, 1)], [(3, 1), (6, 1)], [(4, 1), (5, 1), (6, 1), (8, 1)], [(0, 1), (1, 1), (4, 1), (6, 1)], [(2, 1), (3, 1), (8, 1)],
      [(2, 1)], [(1, 1), (2, 1), (3, 1)], [], [(2, 1), (4, 1)]]⟩,
    ⟨9, 8, [3, 3, 4, 3, 3, 2, 3, 0, 4], List.replicate 7 true ++ [false, true]⟩,
    ⟨9, 9, 65, [[0, 1, 2, 3, 4, 5, 6, 8].zip [0, 3, 4, 0, 3, 2, 3, 4],
      [0, 1, 2, 3, 4, 5, 6, 8].zip [3, 1, 6, 1, 3, 2, 1, 2],
      [0, 1, 2, 3, 4, 5, 6, 8].zip [3, 6, 2, 4, 2, 2, 2, 2],
      [0, 1, 2, 3, 4, 5, 6, 8].zip [3, 3, 4, 3, 3, 2, 3, 4],
      [0, 1, 2, 3, 4, 5, 6, 8].zip [3, 3, 4, 4, 4, 2, 2, 4],
      [0, 1, 2, 3, 4, 5, 6, 8].zip [3, 6, 5, 4, 2, 5, 2, 2],
      [0, 1, 2, 3, 4, 5, 6, 8].zip [3, 6, 6, 6, 2, 2, 6, 2], [(7, 7)],
      [0, 1, 2, 3, 4, 5, 6, 8].zip [3, 3, 8, 4, 8, 2, 2, 8]]⟩⟩, ?_, ?_, ?_⟩ <;> decide +kernel

end GBTL

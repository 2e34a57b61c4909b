import Verif.Model.LevelDemo
import Verif.Props.BfsDemo
/-
C114: the levels of the breadth-first level demo.
-/
namespace GBTL
open Spec

theorem uLev_fits {n : Nat} (hn : n < 2 ^ 32) : uLev.Fits n where
  ix k _ h := by show u32 k = k; unfold u32; omega
  u k _ h := by show u32 k = k; unfold u32; omega
  same _ _ _ := rfl
  truthy k h1 h := by
    have : u32 k = k := by unfold u32; omega
    show decide (u32 k ≠ 0) = true
    rw [this]; simp; omega

theorem hopDist_of_reachable {E : Nat → Nat → Prop} {S : Nat → Prop} {v : Nat} : Reachable E S v → ∃ d, HopDist E S v d :=
  fun ⟨_, hk⟩ => hk.dist.elim fun d h => ⟨d, h.2⟩

/-- **C114** For every graph of fewer than 2^32 nodes and every root in it, both searches print one plus the number of edges from the root to
every node, and nothing where there is no way; so the second prints what the first, deprecated one does. `root` is printed unchanged after
each search. -/
theorem C114_levels (n : Nat) (edges : List (Nat × Nat)) (h : ∀ e ∈ edges, e.1 < n ∧ e.2 < n) (r : Nat) (hr : r < n) (hn : n < 2 ^ 32)
    (fuel : Nat) (hf : n ≤ fuel) :
    ∃ o, levelDemo fuel n edges r = .ok o ∧
      (∀ v, o.root.get 0 v = if v = r then some 1 else none) ∧ o.root2 = o.root ∧
      (∀ v d, o.first.get 0 v = some d ↔ 0 < d ∧ HopDist (fun a b => (a, b) ∈ edges) (fun s => s = r) v (d - 1)) ∧
      (∀ v, o.first.get 0 v = none ↔ ¬ Reachable (fun a b => (a, b) ∈ edges) (fun s => s = r) v) ∧
      o.second.nrows = 1 ∧ o.second.ncols = n ∧ ∀ v, o.second.get 0 v = o.first.get 0 v := by
  obtain ⟨G, eG, g1, g2, g3, g4⟩ := built_same (1 : Nat) edges h
  obtain ⟨R, eR, k1, k2, k3, k4⟩ := Lil.setElement_spec (Lil.new_wf 1 n : (Lil.new 1 n : Lil Nat).WF) (i := 0) (j := r)
    (show 0 < 1 by omega) (show r < n from hr) 1
  have hE : Edge G.get = fun a b => (a, b) ∈ edges := by
    funext a b
    apply propext
    unfold Edge
    rw [g4]
    by_cases hm : (a, b) ∈ edges
    · rw [if_pos hm]; exact ⟨fun _ => hm, fun _ => rfl⟩
    · rw [if_neg hm]; exact ⟨fun e => (by cases e), fun e => absurd e hm⟩
  have hR : ∀ v, R.get 0 v = if v = r then some 1 else none := by
    intro v
    rw [k4, Lil.get_new]
    by_cases hv : v = r
    · rw [if_pos ⟨rfl, hv⟩, if_pos hv]
    · rw [if_neg (fun e => hv e.2), if_neg hv]
  have hRs : (fun s => R.get 0 s ≠ none) = fun s => s = r := by
    funext s
    apply propext
    rw [hR]
    by_cases hs : s = r
    · simp [hs]
    · simp [hs]
  have one : ∀ i v x, R.get i v = some x → x = uWave.ofIx 1 := by
    intro i v x hx
    rw [k4, Lil.get_new] at hx
    split at hx
    · exact (Option.some.inj hx).symm
    · cases hx
  have gone : ∀ u v x, G.get u v = some x → id x ≠ 0 := by
    intro u v x hx
    rw [g4] at hx
    split at hx
    · have := Option.some.inj hx
      show x ≠ 0
      omega
    · cases hx
  have R1 : R.nrows = 1 := k2
  have R2 : R.ncols = n := k3
  obtain ⟨x, e1, -, -, -, x1⟩ := C48_bfs_level_matrix id G uWave R uLev (Lil.new 1 n) g1 (g2.trans g3.symm) gone ⟨rfl, rfl⟩ k1
    (R2.trans g2.symm) one (Lil.new_wf 1 n) R1.symm g2.symm (fun _ _ => Lil.get_new ..) (by rw [g2]; exact uLev_fits hn) (by omega) fuel
    (by omega)
  obtain ⟨y, e2, -, y0, y0', y1⟩ := C48_batch_bfs_level id G uWave R uLev (Lil.new 1 n) g1 (g2.trans g3.symm) gone ⟨rfl, rfl⟩ k1
    (R2.trans g2.symm) one (Lil.new_wf 1 n) R1.symm g2.symm (fun _ _ => Lil.get_new ..) (by rw [g2]; exact uLev_fits hn) (by omega) fuel
    (by omega)
  obtain ⟨x2, x3⟩ := x1 0 (by omega)
  obtain ⟨y2, y3⟩ := y1 0 (by omega)
  rw [hE, hRs] at x2 x3 y2 y3
  have small : ∀ v d, HopDist (fun a b => (a, b) ∈ edges) (fun s => s = r) v d → uLev.ofIx (d + 1) = d + 1 := by
    intro v d hd
    have : d < n := hopDist_lt (fun u v e => (h (u, v) e).2) (fun u e => by rw [e]; exact hr) hd
    show u32 (d + 1) = d + 1
    unfold u32; omega
  have key : ∀ v, x.get 0 v = y.get 0 v := by
    intro v
    by_cases hv : Reachable (fun a b => (a, b) ∈ edges) (fun s => s = r) v
    · obtain ⟨d, hd⟩ := hopDist_of_reachable hv
      rw [x2 v d hd, y2 v d hd]
    · rw [x3 v hv, y3 v hv]
  refine ⟨⟨R, x, R, y⟩, ?_, hR, rfl, ?_, ?_, y0.trans R1, y0'.trans g2, fun v => (key v).symm⟩
  · unfold levelDemo
    rw [eG, eR]
    show (do
      let levels1 ← bfsLevelM fuel id G uWave R uLev (Lil.new 1 n)
      let levels ← batchBfsLevel fuel id G uWave R uLev (Lil.new 1 n)
      Except.ok (⟨R, levels1, R, levels⟩ : LevelShown)) = _
    rw [e1, e2]
    rfl
  · intro v d
    show x.get 0 v = some d ↔ _
    constructor
    · intro hg
      by_cases hv : Reachable (fun a b => (a, b) ∈ edges) (fun s => s = r) v
      · obtain ⟨d', hd⟩ := hopDist_of_reachable hv
        rw [x2 v d' hd, small v d' hd] at hg
        have := Option.some.inj hg
        subst this
        exact ⟨by omega, hd⟩
      · rw [x3 v hv] at hg; cases hg
    · rintro ⟨h0, hd⟩
      rw [x2 v _ hd, small v _ hd]
      congr 1
      omega
  · intro v
    show x.get 0 v = none ↔ _
    constructor
    · intro hg hv
      obtain ⟨d', hd⟩ := hopDist_of_reachable hv
      rw [x2 v d' hd] at hg
      cases hg
    · exact x3 v

/-- The levels of the karate club from node 30. -/
def levelRow : List (Nat × Nat) := (List.range 34).zip
  [3, 2, 3, 3, 4, 4, 4, 3, 2, 3, 4, 4, 4, 3, 3, 3, 5, 3, 3, 3, 3, 3, 3, 3, 4, 4, 3, 3, 3, 3, 1, 3, 2, 2]

/-- **C114** What the program prints for the karate club. -/
theorem C114_prints : ∃ o, levelDemo 34 34 karateEdges 30 = .ok o ∧
    printMatrix "j".toList (Nat.toDigits 10) o.root [] = .ok
      (":\ngrb::Matrix: Sequential Backend: backend::LilSparseMatrix<j> (1 x 34), nvals = 1\n" ++
      "  [[ ,  ,  ,  ,  ,  ,  ,  ,  ,  ,  ,  ,  ,  ,  ,  ,  ,  ,  ,  ,  ,  ,  ,  ,  ,  ,  ,  ,  ,  , 1,  ,  ,  ]]\n").toList ∧
    printMatrix "j".toList (Nat.toDigits 10) o.first [] = .ok
      (":\ngrb::Matrix: Sequential Backend: backend::LilSparseMatrix<j> (1 x 34), nvals = 34\n" ++
      "  [[3, 2, 3, 3, 4, 4, 4, 3, 2, 3, 4, 4, 4, 3, 3, 3, 5, 3, 3, 3, 3, 3, 3, 3, 4, 4, 3, 3, 3, 3, 1, 3, 2, 2]]\n").toList ∧
    o.second = o.first := by
  refine ⟨⟨⟨1, 34, 1, [[(30, 1)]]⟩, ⟨1, 34, 34, [levelRow]⟩, ⟨1, 34, 1, [[(30, 1)]]⟩, ⟨1, 34, 34, [levelRow]⟩⟩, ?_, ?_, ?_, ?_⟩ <;> decide +kernel

/-- **C114** The karate club as the program has it is not undirected: it has 156 different edges, and two of them, 0 to 23 and 17 to 0, without
the one back (the list says 23 where 17 belongs). -/
theorem C114_undirected_wrong : ¬ (∀ u v, (u, v) ∈ karateEdges → (v, u) ∈ karateEdges) ∧ karateEdges.length = 156 ∧ karateEdges.Nodup ∧
    ∀ e ∈ karateEdges, (e.2, e.1) ∉ karateEdges ↔ e = (0, 23) ∨ e = (17, 0) := by
  refine ⟨fun h => absurd (h 17 0 (by decide +kernel)) (by decide +kernel), ?_, ?_, ?_⟩ <;> decide +kernel

/-- The program's own graph and root meet the hypotheses of `C114_levels`. -/
example : ∃ o, levelDemo 34 34 karateEdges 30 = .ok o ∧ ∀ v, o.second.get 0 v = o.first.get 0 v := by
  obtain ⟨o, e, -, -, -, -, -, -, h⟩ := C114_levels 34 karateEdges (by decide +kernel) 30 (by omega) (by omega) 34 (by omega)
  exact ⟨o, e, h⟩

end GBTL

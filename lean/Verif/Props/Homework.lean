import Verif.Model.Homework
import Verif.Props.BfsBatch
import Verif.Props.Print
import Verif.Props.Containers
import Verif.Lemmas.Algo
/-
C111: the searches of the homework demo.
-/
namespace GBTL
open Spec (HopDist Reachable Edge combined combinedFrom)

theorem homeworkBody_eq (G : Lil Nat) : homeworkBody G = batchBody id G ixWave ixLev := by
  funext s
  have e : (fun x => x * (s.depth + 1)) = fun x => (s.depth + 1) * ixWave.toIx x := by
    funext x; exact Nat.mul_comm ..
  unfold homeworkBody batchBody
  dsimp only
  rw [e]
  rfl

/-- **C111** The demo's search is the library's `batch_bfs_level_masked`, on every input. -/
theorem C111_same_as_library (fuel : Nat) (G waves levels : Lil Nat) :
    homeworkBfs fuel G waves levels = batchBfsLevel fuel id G ixWave waves ixLev levels := by
  unfold homeworkBfs batchBfsLevel
  rw [homeworkBody_eq]

theorem ixLev_fits {n : Nat} (hn : n < 2 ^ 32) : ixLev.Fits n where
  ix _ _ _ := rfl
  u k _ h := by show u32 k = k; unfold u32; omega
  same _ _ _ := rfl
  truthy k h _ := by show decide (k ≠ 0) = true; simp; omega

theorem combined_same {ι α : Type} [DecidableEq ι] (c : α) (l : List ι) (p : ι) :
    combined (fun _ b : α => b) (l.map fun i => (i, c)) p = if p ∈ l then some c else none := by
  have h : ∀ xs : List α, (∀ x ∈ xs, x = c) → xs.foldl (fun _ b => b) c = c := by
    intro xs
    induction xs with
    | nil => intro _; rfl
    | cons x xs ih =>
      intro hx
      have : x = c := hx x (by simp)
      subst this
      exact ih fun y hy => hx y (by simp [hy])
  unfold combined
  have hall : ∀ x ∈ ((l.map fun i => (i, c)).filter fun t => t.1 = p).map Prod.snd, x = c := by
    intro x hx
    obtain ⟨t, ht, rfl⟩ := List.mem_map.1 hx
    obtain ⟨i, -, rfl⟩ := List.mem_map.1 (List.mem_filter.1 ht).1
    rfl
  have hne : ((l.map fun i => (i, c)).filter fun t => t.1 = p).map Prod.snd = [] ↔ p ∉ l := by
    rw [List.map_eq_nil_iff, List.filter_eq_nil_iff]
    constructor
    · intro h hp; exact h (p, c) (List.mem_map.2 ⟨p, hp, rfl⟩) (by simp)
    · intro h t ht
      obtain ⟨i, hi, rfl⟩ := List.mem_map.1 ht
      simp only [decide_eq_true_eq]
      rintro rfl
      exact h hi
  generalize ((l.map fun i => (i, c)).filter fun t => t.1 = p).map Prod.snd = xs at hall hne
  cases xs with
  | nil => rw [if_neg (hne.1 rfl)]
  | cons x xs =>
    have : p ∈ l := Classical.not_not.1 fun h => by cases hne.2 h
    rw [if_pos this]
    have hx : x = c := hall x (by simp)
    rw [hx]
    show some (xs.foldl (fun _ b => b) c) = some c
    rw [h xs fun y hy => hall y (by simp [hy])]

theorem builtFrom_ones {n : Nat} (l : List (Nat × Nat)) (h : ∀ e ∈ l, e.1 < n ∧ e.2 < n) :
    ∃ A, builtFrom n (l.map fun e => (e.1, e.2, 1)) = .ok A ∧ A.WF ∧ A.nrows = n ∧ A.ncols = n ∧
      ∀ i j, A.get i j = if (i, j) ∈ l then some 1 else none := by
  obtain ⟨A, e, hA, h1, h2, h3, -⟩ := C04_matrix_build (Lil.new n n : Lil Nat) (Lil.new_wf n n) (fun _ b => b)
    (l.map fun e => (e.1, e.2, 1)) (by
      intro t ht
      obtain ⟨p, hp, rfl⟩ := List.mem_map.1 ht
      exact h p hp)
  refine ⟨A, by unfold builtFrom; rw [e], hA, h1, h2, fun i j => ?_⟩
  rw [h3, Lil.get_new, List.map_map]
  refine (combined_same 1 l (i, j)).trans ?_
  by_cases hm : (i, j) ∈ l
  · rw [if_pos hm, if_pos hm]
  · rw [if_neg hm, if_neg hm]

/-- **C111** The program prints, for every graph of fewer than 2^32 nodes, one plus the number of edges from every node to every other, and
nothing where there is no way. -/
theorem C111_levels (n : Nat) (edges : List (Nat × Nat)) (h : ∀ e ∈ edges, e.1 < n ∧ e.2 < n) (hn : n < 2 ^ 32) (fuel : Nat) (hf : n ≤ fuel) :
    ∃ G levels, homeworkMain fuel n edges = .ok (G, levels) ∧ levels.WF ∧ levels.nrows = n ∧ levels.ncols = n ∧
      (∀ i j, G.get i j = if (i, j) ∈ edges then some 1 else none) ∧
      ∀ r v d, r < n → (levels.get r v = some (d + 1) ↔ HopDist (fun a b => (a, b) ∈ edges) (fun s => s = r) v d) ∧
        (levels.get r v = none ↔ ¬ Reachable (fun a b => (a, b) ∈ edges) (fun s => s = r) v) := by
  obtain ⟨G, e1, g1, g2, g3, g4⟩ := builtFrom_ones edges h
  obtain ⟨R, e2, r1, r2, r3, r4⟩ := builtFrom_ones (n := n) ((List.range n).map fun i => (i, i)) (by
    intro e he
    obtain ⟨i, hi, rfl⟩ := List.mem_map.1 he
    exact ⟨List.mem_range.1 hi, List.mem_range.1 hi⟩)
  rw [List.map_map] at e2
  have hR : ∀ r s, r < n → (R.get r s ≠ none ↔ s = r) := by
    intro r s hr
    rw [r4]
    by_cases hs : s = r
    · subst hs
      rw [if_pos (List.mem_map.2 ⟨s, List.mem_range.2 hr, rfl⟩)]
      simp
    · rw [if_neg]
      · simp [hs]
      · intro hc
        obtain ⟨i, -, hi⟩ := List.mem_map.1 hc
        cases hi
        exact hs rfl
  have one : ∀ (A : Lil Nat) (l : List (Nat × Nat)), (∀ i j, A.get i j = if (i, j) ∈ l then some 1 else none) →
      ∀ u v x, A.get u v = some x → x = 1 := by
    intro A l hA u v x hx
    rw [hA] at hx
    split at hx
    · exact (Option.some.inj hx).symm
    · cases hx
  obtain ⟨levels, e3, l1, l2, l3, l4⟩ := C48_batch_bfs_level id G ixWave R ixLev (Lil.new n n) g1 (g2.trans g3.symm)
    (fun u v x hx => by rw [one G _ g4 u v x hx]; decide) ⟨rfl, rfl⟩ r1 (r3.trans g2.symm) (one R _ r4) (Lil.new_wf n n) r2.symm g2.symm
    (fun r v => Lil.get_new ..) (by rw [g2]; exact ixLev_fits hn) (by rw [g2]; exact hn) fuel (by rw [g2]; exact hf)
  refine ⟨G, levels, ?_, l1, l2.trans r2, l3.trans g2, g4, fun r v d hr => ?_⟩
  · unfold homeworkMain
    rw [e1]
    show (do let roots ← builtFrom n _; let levels ← homeworkBfs fuel G roots (Lil.new n n); Except.ok (G, levels)) = _
    rw [show (fun i => (i, i, 1) : Nat → Nat × Nat × Nat) = (fun e : Nat × Nat => (e.1, e.2, 1)) ∘ fun i => (i, i) from rfl, e2]
    show (do let levels ← homeworkBfs fuel G R (Lil.new n n); Except.ok (G, levels)) = _
    rw [C111_same_as_library, e3]
    rfl
  · obtain ⟨h1, h2⟩ := l4 r (by rw [r2]; exact hr)
    have hE : Edge G.get = fun a b => (a, b) ∈ edges := by
      funext a b
      apply propext
      show (G.get a b).isSome = true ↔ _
      rw [g4]
      by_cases hm : (a, b) ∈ edges
      · rw [if_pos hm]; simp [hm]
      · rw [if_neg hm]; simp [hm]
    have hS : (fun s => R.get r s ≠ none) = fun s => s = r := by
      funext s; exact propext (hR r s hr)
    rw [hE, hS] at h1 h2
    have hex : Reachable (fun a b => (a, b) ∈ edges) (fun s => s = r) v → ∃ d, HopDist (fun a b => (a, b) ∈ edges) (fun s => s = r) v d :=
      fun ⟨k, hk⟩ => by
        induction k using Nat.strongRecOn with
        | ind k ih =>
          by_cases hl : ∃ k', k' < k ∧ Spec.Walk (fun a b => (a, b) ∈ edges) (fun s => s = r) k' v
          · obtain ⟨k', h1, h2⟩ := hl
            exact ih k' h1 h2
          · exact ⟨k, hk, fun k' hk' => Nat.le_of_not_lt fun hc => hl ⟨k', hc, hk'⟩⟩
    constructor
    · constructor
      · intro hg
        by_cases hv : Reachable (fun a b => (a, b) ∈ edges) (fun s => s = r) v
        · obtain ⟨d', hd⟩ := hex hv
          have := hg.symm.trans (h1 v d' hd)
          have : d + 1 = d' + 1 := Option.some.inj this
          cases (show d = d' by omega)
          exact hd
        · rw [h2 v hv] at hg; cases hg
      · intro hd; exact h1 v d hd
    · constructor
      · intro hg hv
        obtain ⟨d', hd⟩ := hex hv
        rw [h1 v d' hd] at hg
        cases hg
      · exact h2 v

/-- **C111** What the program prints for its graph: the tables in its comments, below other headings. -/
theorem C111_prints : ∃ G levels, homeworkMain 7 7 gilbert = .ok (G, levels) ∧
    printMatrix "m".toList (Nat.toDigits 10) G "Test Graph:".toList = .ok
      ("Test Graph::\ngrb::Matrix: Sequential Backend: backend::LilSparseMatrix<m> (7 x 7), nvals = 13\n" ++
      "  [[ , 1,  , 1,  ,  ,  ]\n" ++
      "   [ ,  ,  ,  , 1,  , 1]\n" ++
      "   [ ,  ,  ,  ,  , 1,  ]\n" ++
      "   [1,  , 1,  ,  ,  , 1]\n" ++
      "   [ ,  ,  ,  ,  , 1,  ]\n" ++
      "   [ ,  , 1,  ,  ,  ,  ]\n" ++
      "   [ ,  , 1, 1, 1,  ,  ]]\n").toList ∧
    printMatrix "m".toList (Nat.toDigits 10) levels "Levels".toList = .ok
      ("Levels:\ngrb::Matrix: Sequential Backend: backend::LilSparseMatrix<m> (7 x 7), nvals = 35\n" ++
      "  [[1, 2, 3, 2, 3, 4, 3]\n" ++
      "   [4, 1, 3, 3, 2, 3, 2]\n" ++
      "   [ ,  , 1,  ,  , 2,  ]\n" ++
      "   [2, 3, 2, 1, 3, 3, 2]\n" ++
      "   [ ,  , 3,  , 1, 2,  ]\n" ++
      "   [ ,  , 2,  ,  , 1,  ]\n" ++
      "   [3, 4, 2, 2, 2, 3, 1]]\n").toList := by
  refine ⟨⟨7, 7, 13, [[(1, 1), (3, 1)], [(4, 1), (6, 1)], [(5, 1)], [(0, 1), (2, 1), (6, 1)], [(5, 1)], [(2, 1)], [(2, 1), (3, 1), (4, 1)]]⟩,
    ⟨7, 7, 35, [(List.range 7).zip [1, 2, 3, 2, 3, 4, 3], (List.range 7).zip [4, 1, 3, 3, 2, 3, 2], [(2, 1), (5, 2)],
      (List.range 7).zip [2, 3, 2, 1, 3, 3, 2], [(2, 3), (4, 1), (5, 2)], [(2, 2), (5, 1)], (List.range 7).zip [3, 4, 2, 2, 2, 3, 1]]⟩,
    by decide +kernel, by decide +kernel, by decide +kernel⟩

end GBTL

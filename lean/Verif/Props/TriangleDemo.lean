import Verif.Lemmas.TriangleDemo
/-
C78: counting triangles does not depend on the numbering of the vertices, and the triangle
counting demo prints the number of triangles of the graph in its file.
C79: what else the demo prints about the file.
-/
namespace GBTL
open Spec

variable {n : Nat} {d τ : Nat → Nat} {adj : Nat → Nat → Bool} {t : ITy} {ov : Int → Int → Int}

/-- **C78**, the number of triangles of a graph does not depend on the numbering. -/
theorem C78_number_of_triangles (h : Renumbering n d τ) (hu : Undirected adj) :
    triangles n (fun i j => adj (τ i) (τ j)) = triangles n adj :=
  triangles_renumber h hu

/-- **C78**, `triangle_count` gives the same for the adjacency matrix of the graph with
its vertices renumbered. -/
theorem C78_triangle_count {G G' : Lil Int} (h : Renumbering n d τ) (hu : Undirected adj) (hG : Is01 n adj G)
    (hG' : Is01 n (fun i j => adj (τ i) (τ j)) G') (hn : (n : Int) ≤ t.maxVal)
    (ht : ((2 * triangles n adj : Nat) : Int) ≤ t.maxVal) :
    triangleCount t ov G' = triangleCount t ov G := by
  have e := triangles_renumber h hu
  rw [C38_triangle_count hu hG hn ht, C38_triangle_count (hu.renumber τ) hG' hn (by rw [e]; exact ht), e]

/-- **C78**, the variants that take a part of the adjacency matrix: its rows and columns
may be permuted, so that the part need not be triangular. -/
theorem C78_masked {L U : Lil Int} (h : Renumbering n d τ) (hu : Undirected adj)
    (hL : Is01 n (fun i j => lower adj (τ i) (τ j)) L) (hU : Is01 n (fun i j => upper adj (τ i) (τ j)) U)
    (hn : (n : Int) ≤ t.maxVal) (ht : ((2 * triangles n adj : Nat) : Int) ≤ t.maxVal) :
    triangleCountMasked t ov L U = .ok (triangles n adj : Int) ∧
    triangleCountMaskedT t ov L = .ok (triangles n adj : Int) ∧
    triangleCountMaskedNoT t ov L = .ok (triangles n adj : Int) ∧
    triangleCountNew t ov L U = .ok (triangles n adj : Int) := by
  have H := halves_renumber h hu
  exact ⟨masked_halves H hL hU hn (by omega), maskedT_halves H hL hn (by omega),
    masked_noT_halves H hL hn (by omega), newGBTL_halves H hL hU hn ht⟩

/-- **C78**, the same for the variant of the appendix. -/
theorem C78_appendixB7 {L : Lil Int} (h : Renumbering n d τ) (hu : Undirected adj)
    (hL : Is01 n (fun i j => lower adj (τ i) (τ j)) L) (hn : n < 2 ^ 64) (ht : triangles n adj < 2 ^ 64) :
    triangleCountB7 ov L = .ok (triangles n adj : Int) :=
  appendixB7_halves (halves_renumber h hu) hL hn ht

/-! ### the demo -/

/-- What `std::sort` with the order of line 118 guarantees: the same elements, by
decreasing degree. -/
structure SortsByDegree (sort : List (Nat × Nat) → List (Nat × Nat)) : Prop where
  perm : ∀ l, (sort l).Perm l
  sorted : ∀ l, (sort l).Pairwise fun a b => b.1 ≤ a.1

/-- The file lists each edge in both directions. -/
def BothWays (rows : List (Nat × Nat)) : Prop := ∀ r ∈ rows, (r.2, r.1) ∈ rows

theorem fileGraph_undirected {rows : List (Nat × Nat)} (h : BothWays rows) : Undirected (fileGraph rows) := by
  constructor
  · intro i j
    have : rows.contains (i, j) = rows.contains (j, i) := by
      rw [Bool.eq_iff_iff, List.contains_iff_mem, List.contains_iff_mem]
      exact ⟨fun hm => h _ hm, fun hm => h _ hm⟩
    unfold fileGraph
    rw [this]
    congr 1
    by_cases e : i = j
    · subst e; rfl
    · have e' : j ≠ i := fun c => e c.symm
      simp [e, e']
  · intro i; simp [fileGraph]

section
variable {rows rs : List (Nat × Nat)} (hrs : ∀ r, r ∈ rs ↔ r ∈ rows) (i j : Nat)
include hrs

theorem mem_edgesA : fileGraph rows i j = true ↔ (i, j) ∈ edgesA rs := by
  simp only [fileGraph, edgesA, List.mem_filter, hrs, Bool.and_eq_true, Bool.or_eq_true, decide_eq_true_eq,
    List.contains_iff_mem]
  constructor
  · rintro ⟨a, b⟩; exact ⟨b, by omega⟩
  · rintro ⟨a, b⟩; exact ⟨by omega, a⟩

theorem mem_edgesL : lower (fileGraph rows) i j = true ↔ (i, j) ∈ edgesL rs := by
  simp only [lower, fileGraph, edgesL, List.mem_filter, hrs, Bool.and_eq_true, Bool.not_eq_true', decide_eq_true_eq,
    decide_eq_false_iff_not, List.contains_iff_mem]
  constructor
  · rintro ⟨a, _, b⟩; exact ⟨b, by omega, a⟩
  · rintro ⟨a, _, b⟩; exact ⟨b, by omega, a⟩

theorem mem_edgesU : upper (fileGraph rows) i j = true ↔ (i, j) ∈ edgesU rs := by
  simp only [upper, fileGraph, edgesU, List.mem_filter, hrs, Bool.and_eq_true, decide_eq_true_eq,
    List.contains_iff_mem]
  constructor
  · rintro ⟨a, _, b⟩; exact ⟨b, a⟩
  · rintro ⟨a, b⟩; exact ⟨b, by omega, a⟩

end

/-- A relabelled list of edges as a matrix. -/
theorem relabelled_ones {deg es : List (Nat × Nat)} {P : Nat → Nat → Bool} (h : (deg.map (·.2)).Perm (List.range n))
    (he : ∀ e ∈ es, e.1 < n ∧ e.2 < n) (hP : ∀ i j, P i j = true ↔ (i, j) ∈ es) :
    ∃ A, ones n (es.map fun e => (newNumber deg e.1, newNumber deg e.2)) = .ok A ∧
      Is01 n (fun i j => P (oldNumber deg i) (oldNumber deg j)) A := by
  have R := newNumber_renumbering h
  refine ones_eq ?_ fun i j => ?_
  · intro e hm
    obtain ⟨e', hm', rfl⟩ := List.mem_map.1 hm
    exact ⟨(R.there _ (he e' hm').1).1, (R.there _ (he e' hm').2).1⟩
  · rw [hP]; exact (mem_relabelled h he).symm

/-- The part of the program before the algorithms: what is printed, and the matrices. -/
theorem demoInput_eq {sort : List (Nat × Nat) → List (Nat × Nat)} (hs : SortsByDegree sort)
    {rows : List (Nat × Nat)} (h0 : rows ≠ []) (hin : ∀ r ∈ rows, r.1 < n ∧ r.2 < n)
    (hm : ∃ r ∈ rows, r.1 + 1 = n ∨ r.2 + 1 = n) :
    ∃ deg A L U, demoInput sort (some (numbers rows)) = .ok ⟨rows.length + 1, n, deg, A, L, U⟩ ∧
      deg = sort ((List.range n).map fun v => (degreeIn (rows ++ [rows.getLast h0]) v, v)) ∧
      Renumbering n (newNumber deg) (oldNumber deg) ∧
      Is01 n (fun i j => fileGraph rows (oldNumber deg i) (oldNumber deg j)) A ∧
      Is01 n (fun i j => lower (fileGraph rows) (oldNumber deg i) (oldNumber deg j)) L ∧
      Is01 n (fun i j => upper (fileGraph rows) (oldNumber deg i) (oldNumber deg j)) U := by
  have hrs : ∀ r, r ∈ rows ++ [rows.getLast h0] ↔ r ∈ rows := by
    intro r
    simp only [List.mem_append, List.mem_singleton]
    exact ⟨fun h => h.elim id fun e => e ▸ List.getLast_mem h0, Or.inl⟩
  have hin' : ∀ r ∈ rows ++ [rows.getLast h0], r.1 < n ∧ r.2 < n := fun r hr => hin r ((hrs r).1 hr)
  have hmax : maxId (rows ++ [rows.getLast h0]) + 1 = n := by
    obtain ⟨r, hr, e⟩ := hm
    exact maxId_eq hin' ⟨r, (hrs r).2 hr, e⟩
  have hdeg := degreesOf_eq (n := n) (rs := rows ++ [rows.getLast h0]) fun r hr => (hin' r hr).1
  generalize hD : ((List.range n).map fun v => (degreeIn (rows ++ [rows.getLast h0]) v, v)) = D at hdeg
  have hperm : ((sort D).map (·.2)).Perm (List.range n) := by
    have h1 := (hs.perm D).map (·.2)
    have h2 : D.map (·.2) = List.range n := by
      rw [← hD, List.map_map]
      exact List.map_id _
    rwa [h2] at h1
  have hlen : (sort D).length = n := by
    have := hperm.length_eq
    simpa using this
  have sub : ∀ {p : Nat × Nat → Bool}, ∀ e ∈ (rows ++ [rows.getLast h0]).filter p, e.1 < n ∧ e.2 < n :=
    fun e he => hin' e (List.mem_filter.1 he).1
  obtain ⟨A, eA, iA⟩ := relabelled_ones hperm (es := edgesA (rows ++ [rows.getLast h0])) sub (mem_edgesA hrs)
  obtain ⟨L, eL, iL⟩ := relabelled_ones hperm (es := edgesL (rows ++ [rows.getLast h0])) sub (mem_edgesL hrs)
  obtain ⟨U, eU, iU⟩ := relabelled_ones hperm (es := edgesU (rows ++ [rows.getLast h0])) sub (mem_edgesU hrs)
  have rA := relabelEdges_eq (deg := sort D) (es := edgesA (rows ++ [rows.getLast h0])) (by rw [hlen]; exact sub)
  have rL := relabelEdges_eq (deg := sort D) (es := edgesL (rows ++ [rows.getLast h0])) (by rw [hlen]; exact sub)
  have rU := relabelEdges_eq (deg := sort D) (es := edgesU (rows ++ [rows.getLast h0])) (by rw [hlen]; exact sub)
  refine ⟨sort D, A, L, U, ?_, rfl, newNumber_renumbering hperm, iA, iL, iU⟩
  unfold demoInput readFile
  simp only [readRows_numbers h0, bind, Except.bind, hmax, hdeg, rA, rL, rU, eA, eL, eU, List.length_append,
    List.length_singleton]

/-- **C78**, the demo: for a file that lists each edge in both directions, in any order,
with repetitions and loops, all five counts are the number of triangles of the graph. `n`
is the number of vertices, one more than the largest number in the file. -/
theorem C78_demo_counts {sort : List (Nat × Nat) → List (Nat × Nat)} (hs : SortsByDegree sort)
    {rows : List (Nat × Nat)} (h0 : rows ≠ []) (hb : BothWays rows) (hin : ∀ r ∈ rows, r.1 < n ∧ r.2 < n)
    (hm : ∃ r ∈ rows, r.1 + 1 = n ∨ r.2 + 1 = n) (hn : n < 2 ^ 31)
    (ht : 2 * triangles n (fileGraph rows) < 2 ^ 31) :
    triangleDemo sort ov (some (numbers rows)) = .ok (List.replicate 5 (triangles n (fileGraph rows) : Int)) := by
  obtain ⟨deg, A, L, U, e, _, R, iA, iL, iU⟩ := demoInput_eq hs h0 hin hm
  have hmax : ITy.maxVal .i32 = 2147483647 := rfl
  have hu := fileGraph_undirected hb
  have hn' : (n : Int) ≤ ITy.maxVal .i32 := by omega
  have ht' : ((2 * triangles n (fileGraph rows) : Nat) : Int) ≤ ITy.maxVal .i32 := by omega
  have er := triangles_renumber R hu
  have c1 : triangleCount .i32 ov A = _ := C38_triangle_count (hu.renumber _) iA hn' (by rw [er]; exact ht')
  rw [er] at c1
  obtain ⟨c2, c3, c4, c5⟩ := C78_masked (ov := ov) R hu iL iU hn' ht'
  unfold triangleDemo
  simp only [e, lift, c1, c2, c3, c4, c5, bind, Except.bind]
  rfl

/-- A file that cannot be opened counts as a graph with one vertex. -/
theorem C78_no_file {sort : List (Nat × Nat) → List (Nat × Nat)} (hs : SortsByDegree sort) :
    triangleDemo sort ov none = .ok (List.replicate 5 0) := by
  have e : sort [(0, 0)] = [(0, 0)] := List.perm_singleton.1 (hs.perm _)
  have hd : demoInput sort none = .ok ⟨0, 1, sort [(0, 0)], Lil.new 1 1, Lil.new 1 1, Lil.new 1 1⟩ := rfl
  unfold triangleDemo
  rw [hd]
  rfl

/-- **C79**, what the demo prints besides the counts, for any file of pairs: the number of
nodes, and for each vertex its degree, by decreasing degree. Missing: the number of rows is
one too many, and so is the degree of the vertex the last row begins with, unless that row
is a loop, because the last row is read twice. -/
theorem C79_demo_prints_partial {sort : List (Nat × Nat) → List (Nat × Nat)} (hs : SortsByDegree sort)
    {rows : List (Nat × Nat)} (h0 : rows ≠ []) (hin : ∀ r ∈ rows, r.1 < n ∧ r.2 < n)
    (hm : ∃ r ∈ rows, r.1 + 1 = n ∨ r.2 + 1 = n) :
    ∃ o, demoInput sort (some (numbers rows)) = .ok o ∧ o.rows = rows.length + 1 ∧ o.nodes = n ∧
      o.degrees.Pairwise (fun a b => b.1 ≤ a.1) ∧
      o.degrees.Perm ((List.range n).map fun v =>
        (degreeIn rows v + (if (rows.getLast h0).1 = v ∧ (rows.getLast h0).2 ≠ v then 1 else 0), v)) := by
  obtain ⟨deg, A, L, U, e, hd, -⟩ := demoInput_eq hs h0 hin hm
  have hD : ((List.range n).map fun v => (degreeIn (rows ++ [rows.getLast h0]) v, v)) =
      (List.range n).map fun v => (degreeIn rows v +
          (if (rows.getLast h0).1 = v ∧ (rows.getLast h0).2 ≠ v then 1 else 0), v) := by
    refine List.map_congr_left fun v _ => ?_
    congr 1
    have : degreeIn (rows ++ [rows.getLast h0]) v = degreeIn rows v + degreeIn [rows.getLast h0] v := by
      simp [degreeIn, List.filter_append]
    rw [this, degreeIn_cons]; rfl
  refine ⟨_, e, rfl, rfl, ?_, ?_⟩
  · show deg.Pairwise _
    rw [hd]; exact hs.sorted _
  · show deg.Perm _
    rw [← hD, hd]; exact hs.perm _

/-- **C79** fails for every file of pairs: the number of rows printed is not the number of
rows. -/
theorem C79_rows_wrong {sort : List (Nat × Nat) → List (Nat × Nat)} (hs : SortsByDegree sort)
    {rows : List (Nat × Nat)} (h0 : rows ≠ []) (hin : ∀ r ∈ rows, r.1 < n ∧ r.2 < n)
    (hm : ∃ r ∈ rows, r.1 + 1 = n ∨ r.2 + 1 = n) :
    ∃ o, demoInput sort (some (numbers rows)) = .ok o ∧ o.rows ≠ rows.length := by
  obtain ⟨o, e, h, -⟩ := C79_demo_prints_partial hs h0 hin hm
  exact ⟨o, e, by omega⟩

/-- **C79** fails for every file whose last row is not a loop: the degree printed for the
vertex it begins with is one too many. -/
theorem C79_degree_wrong {sort : List (Nat × Nat) → List (Nat × Nat)} (hs : SortsByDegree sort)
    {rows : List (Nat × Nat)} (h0 : rows ≠ []) (hin : ∀ r ∈ rows, r.1 < n ∧ r.2 < n)
    (hm : ∃ r ∈ rows, r.1 + 1 = n ∨ r.2 + 1 = n) (hl : (rows.getLast h0).2 ≠ (rows.getLast h0).1) :
    ∃ o, demoInput sort (some (numbers rows)) = .ok o ∧
      (degreeIn rows (rows.getLast h0).1 + 1, (rows.getLast h0).1) ∈ o.degrees ∧
      (degreeIn rows (rows.getLast h0).1, (rows.getLast h0).1) ∉ o.degrees := by
  obtain ⟨o, e, -, -, -, hp⟩ := C79_demo_prints_partial hs h0 hin hm
  refine ⟨o, e, ?_, ?_⟩
  · refine hp.mem_iff.2 (List.mem_map.2 ⟨(rows.getLast h0).1, ?_, ?_⟩)
    · exact List.mem_range.2 (hin _ (List.getLast_mem h0)).1
    · rw [if_pos ⟨rfl, hl⟩]
  · intro hc
    obtain ⟨v, _, hv⟩ := List.mem_map.1 (hp.mem_iff.1 hc)
    have h2 : v = (rows.getLast h0).1 := congrArg Prod.snd hv
    have h1 : degreeIn rows v + (if (rows.getLast h0).1 = v ∧ (rows.getLast h0).2 ≠ v then 1 else 0) =
      degreeIn rows (rows.getLast h0).1 := congrArg Prod.fst hv
    rw [h2, if_pos ⟨rfl, hl⟩] at h1
    omega

/-- **C79**, an empty file is undefined behaviour: variables that were never set are
compared. -/
theorem C79_empty_file_undefined (sort : List (Nat × Nat) → List (Nat × Nat)) :
    triangleDemo sort ov (some []) = .error (.err .ub) := rfl

/-! ### a concrete file -/

/-- Insertion by decreasing degree. -/
def insDeg (x : Nat × Nat) : List (Nat × Nat) → List (Nat × Nat)
  | [] => [x]
  | y :: l => if y.1 ≤ x.1 then x :: y :: l else y :: insDeg x l

/-- A sort by decreasing degree, stable. -/
def sortDeg (l : List (Nat × Nat)) : List (Nat × Nat) := l.foldr insDeg []

theorem insDeg_perm (x : Nat × Nat) (l : List (Nat × Nat)) : (insDeg x l).Perm (x :: l) := by
  induction l with
  | nil => exact List.Perm.refl _
  | cons y l ih =>
    rw [insDeg]
    split
    · exact List.Perm.refl _
    · exact (ih.cons y).trans (List.Perm.swap x y l)

theorem insDeg_sorted (x : Nat × Nat) (l : List (Nat × Nat)) (h : l.Pairwise fun a b => b.1 ≤ a.1) :
    (insDeg x l).Pairwise fun a b => b.1 ≤ a.1 := by
  induction l with
  | nil => simp [insDeg]
  | cons y l ih =>
    rw [insDeg]
    rw [List.pairwise_cons] at h
    split
    · rename_i hyx
      refine List.pairwise_cons.2 ⟨?_, List.pairwise_cons.2 h⟩
      intro z hz
      rcases List.mem_cons.1 hz with rfl | hz
      · exact hyx
      · exact Nat.le_trans (h.1 z hz) hyx
    · refine List.pairwise_cons.2 ⟨?_, ih h.2⟩
      intro z hz
      rcases List.mem_cons.1 ((insDeg_perm x l).mem_iff.1 hz) with rfl | hz
      · omega
      · exact h.1 z hz

theorem sortDeg_sorts : SortsByDegree sortDeg := by
  constructor
  · intro l
    induction l with
    | nil => exact List.Perm.refl _
    | cons x l ih => exact (insDeg_perm x _).trans (ih.cons x)
  · intro l
    induction l with
    | nil => exact List.Pairwise.nil
    | cons x l ih => exact insDeg_sorted x _ ih

/-- A triangle 1, 2, 3, a repeated row, a loop, and a vertex 0 with one edge. -/
def demoFile : List (Nat × Nat) :=
  [(1, 2), (2, 1), (2, 3), (3, 2), (3, 1), (2, 3), (3, 3), (1, 3), (3, 0), (0, 3)]

/-- The hypotheses of `C78_demo_counts` are met, and the graph has a triangle. -/
example : demoFile ≠ [] ∧ BothWays demoFile ∧ (∀ r ∈ demoFile, r.1 < 4 ∧ r.2 < 4) ∧
    (∃ r ∈ demoFile, r.1 + 1 = 4 ∨ r.2 + 1 = 4) ∧ triangles 4 (fileGraph demoFile) = 1 := by
  refine ⟨by decide, ?_, by decide, ⟨(2, 3), by decide, Or.inr rfl⟩, by decide +kernel⟩
  unfold BothWays; decide

example : triangleDemo sortDeg (fun _ _ => 0) (some (numbers demoFile)) = .ok [1, 1, 1, 1, 1] := by decide +kernel

/-- The renumbering in this case is not the identity. -/
example : ∃ o, demoInput sortDeg (some (numbers demoFile)) = .ok o ∧
    (o.degrees.map (·.2)) ≠ List.range 4 ∧ o.rows = 11 := by
  obtain ⟨o, e⟩ : ∃ o, demoInput sortDeg (some (numbers demoFile)) = .ok o :=
    ⟨_, (C79_demo_prints_partial sortDeg_sorts (n := 4) (rows := demoFile) (by decide) (by decide)
      ⟨(2, 3), by decide, Or.inr rfl⟩).choose_spec.1⟩
  have h : (match demoInput sortDeg (some (numbers demoFile)) with
    | .ok o => decide (o.degrees.map (·.2) ≠ List.range 4 ∧ o.rows = 11)
    | .error _ => false) = true := by decide +kernel
  rw [e] at h
  exact ⟨o, e, of_decide_eq_true h⟩

/-- The vertices are renumbered the wrong way round: in the path `0 - 1 - 2` vertex 1 has
the largest degree, but after sorting it is vertex 2, not vertex 0, that has two
neighbours in `A`. This does not change the counts (`C78_demo_counts`). -/
theorem C79_relabelling_wrong :
    (match demoInput sortDeg (some (numbers [(1, 0), (0, 1), (1, 2), (2, 1)])) with
    | .ok o => decide (o.degrees = [(2, 1), (2, 2), (1, 0)] ∧ (o.A.rows.map List.length) = [1, 1, 2])
    | .error _ => false) = true := by decide +kernel

end GBTL

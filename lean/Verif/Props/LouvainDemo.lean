import Verif.Model.LouvainDemo
import Verif.Spec.LouvainDemo
import Verif.Props.LouvainAssign
import Verif.Props.Containers
import Verif.Lemmas.PageRankMath
import Verif.Lemmas.BetweennessLaws
/-
C89: the graph that the Louvain demo makes of the file it is given, and the clusters it
prints.
-/
namespace GBTL
open Spec

theorem dec64_pos {x : Nat} (h : 0 < x) (h' : x < 2 ^ 64) : dec64 x = x - 1 := by
  unfold dec64; omega

theorem dec64_lt (x : Nat) : dec64 x < 2 ^ 64 := Nat.mod_lt _ (Nat.two_pow_pos 64)

theorem dec64_dec64 {x : Nat} (h : 2 ≤ x) (h' : x < 2 ^ 64) : dec64 (dec64 x) = x - 2 := by
  unfold dec64; omega

theorem dec64_one : dec64 (dec64 1) = 2 ^ 64 - 1 := by
  unfold dec64; omega

attribute [local irreducible] dec64

/-- The rows numbered from zero and one more. -/
def demoRows (rows : List (Nat × Nat × Nat)) (last : Nat × Nat × Nat) : List (Nat × Nat × Nat) :=
  rows.map (fun r => (dec64 r.1, dec64 r.2.1, r.2.2)) ++ [(dec64 (dec64 last.1), dec64 (dec64 last.2.1), last.2.2)]

theorem readEdges_some (s d w : Nat) (rows : List (Nat × Nat × Nat)) :
    readEdges (some (dec64 s)) (some (dec64 d)) (some w) (numbers3 rows) =
      .ok (demoRows rows (rows.getLast?.getD (s, d, w))) := by
  induction rows generalizing s d w with
  | nil => rfl
  | cons r rows ih =>
    show readEdges _ _ _ (r.1 :: r.2.1 :: r.2.2 :: numbers3 rows) = _
    rw [readEdges, ih]
    cases rows with
    | nil => rfl
    | cons r' rows => simp [demoRows, bind, Except.bind, List.getLast?_cons]

theorem readEdges_numbers {rows : List (Nat × Nat × Nat)} (h : rows ≠ []) :
    readEdges none none none (numbers3 rows) = .ok (demoRows rows (rows.getLast h)) := by
  cases rows with
  | nil => exact absurd rfl h
  | cons r rows =>
    show readEdges _ _ _ (r.1 :: r.2.1 :: r.2.2 :: numbers3 rows) = _
    rw [readEdges, readEdges_some]
    cases rows with
    | nil => rfl
    | cons r' rows =>
      have e : (r :: r' :: rows).getLast h = (r' :: rows).getLast?.getD r := by
        rw [List.getLast_cons (by simp), List.getLast?_eq_some_getLast (by simp)]; rfl
      rw [e]; simp [demoRows, bind, Except.bind]

theorem maxEdgeId_foldl (rs : List (Nat × Nat × Nat)) (m : Nat) :
    ∀ b, rs.foldl (fun m r =>
      let m := if r.1 > m then r.1 else m
      if r.2.1 > m then r.2.1 else m) m < b ↔ m < b ∧ ∀ r ∈ rs, r.1 < b ∧ r.2.1 < b := by
  induction rs generalizing m with
  | nil => intro b; simp
  | cons r rs ih =>
    intro b
    rw [List.foldl_cons, ih]
    simp only [List.mem_cons, forall_eq_or_imp]
    constructor
    · rintro ⟨a, c⟩
      refine ⟨?_, ⟨?_, ?_⟩, c⟩ <;> (revert a; split <;> split <;> omega)
    · rintro ⟨a, ⟨c, d⟩, e⟩
      refine ⟨?_, e⟩
      split <;> split <;> omega

theorem maxEdgeId_lt (rs : List (Nat × Nat × Nat)) (b : Nat) (hb : 0 < b) :
    maxEdgeId rs < b ↔ ∀ r ∈ rs, r.1 < b ∧ r.2.1 < b := by
  unfold maxEdgeId
  rw [maxEdgeId_foldl]
  simp [hb]

theorem foldl_last {α : Type} (x : α) (l : List α) : some (l.foldl (fun _ y => y) x) = (x :: l).getLast? := by
  induction l generalizing x with
  | nil => rfl
  | cons y l ih => rw [List.foldl_cons, ih]; simp [List.getLast?_cons]

theorem combined_last {ι α : Type} [DecidableEq ι] (l : List (ι × α)) (p : ι) :
    combined (fun _ y => y) l p = (l.reverse.find? fun t => t.1 = p).map (·.2) := by
  unfold combined
  rw [← List.head?_filter, List.filter_reverse]
  cases h : l.filter (fun t => decide (t.1 = p)) with
  | nil => simp
  | cons x xs =>
    simp only [List.map_cons]
    rw [foldl_last, ← List.map_cons, ← List.head?_reverse, ← List.map_reverse, List.head?_map]

/-- The file: rows of a source, a destination and a weight, with the vertices numbered from
one to `n`. -/
structure EdgeFile (n : Nat) (rows : List (Nat × Nat × Nat)) : Prop where
  ids : ∀ r ∈ rows, (0 < r.1 ∧ r.1 ≤ n) ∧ 0 < r.2.1 ∧ r.2.1 ≤ n
  used : ∃ r ∈ rows, r.1 = n ∨ r.2.1 = n
  small : n < 2 ^ 64

theorem EdgeFile.ne {n : Nat} {rows : List (Nat × Nat × Nat)} (h : EdgeFile n rows) : rows ≠ [] := by
  obtain ⟨r, hr, -⟩ := h.used
  rintro rfl
  cases hr

theorem louvainInput_ok {f : List Nat} {rs : List (Nat × Nat × Nat)} {n : Nat} {A : Lil Rat}
    (h1 : readEdges none none none f = .ok rs) (h2 : (maxEdgeId rs + 1) % 2 ^ 64 = n)
    (h3 : (Lil.new n n : Lil Rat).build (fun _ y => y) (rs.map fun r => (r.1, r.2.1, (r.2.2 : Rat))) = (.ok (), A)) :
    louvainInput (some f) = .ok ⟨rs.length, n, A⟩ := by
  unfold louvainInput readEdgeFile
  dsimp only
  rw [h1]
  show (method _ >>= fun A => _) = _
  rw [h2, h3]
  rfl

theorem louvainInput_err {f : List Nat} {rs : List (Nat × Nat × Nat)} {n : Nat} {A : Lil Rat} {x : Err}
    (h1 : readEdges none none none f = .ok rs) (h2 : (maxEdgeId rs + 1) % 2 ^ 64 = n)
    (h3 : (Lil.new n n : Lil Rat).build (fun _ y => y) (rs.map fun r => (r.1, r.2.1, (r.2.2 : Rat))) = (.error x, A)) :
    louvainInput (some f) = .error x := by
  unfold louvainInput readEdgeFile
  dsimp only
  rw [h1]
  show (method _ >>= fun A => _) = _
  rw [h2, h3]
  rfl

theorem lastWeight_shift (δ : Nat → Nat) (rows : List (Nat × Nat × Nat))
    (hp : ∀ r ∈ rows, δ r.1 + 1 = r.1 ∧ δ r.2.1 + 1 = r.2.1) (i j : Nat) :
    combined (fun _ y => y) (rows.map fun r => ((δ r.1, δ r.2.1), (r.2.2 : Rat))) (i, j) =
      (lastWeight rows (i + 1) (j + 1)).map fun w : Nat => (w : Rat) := by
  rw [combined_last, ← List.map_reverse]
  unfold lastWeight
  have key : ∀ l : List (Nat × Nat × Nat), (∀ r ∈ l, δ r.1 + 1 = r.1 ∧ δ r.2.1 + 1 = r.2.1) →
      ((l.map fun r => ((δ r.1, δ r.2.1), (r.2.2 : Rat))).find? fun t => decide (t.1 = (i, j))).map (·.2) =
        ((l.find? fun r => decide (r.1 = i + 1) && decide (r.2.1 = j + 1)).map (·.2.2)).map fun w : Nat => (w : Rat) := by
    intro l hl
    induction l with
    | nil => rfl
    | cons r l ih =>
      obtain ⟨h1, h2⟩ := hl r (List.mem_cons_self ..)
      have e : decide ((δ r.1, δ r.2.1) = (i, j)) = (decide (r.1 = i + 1) && decide (r.2.1 = j + 1)) := by
        rw [Bool.eq_iff_iff]
        simp only [decide_eq_true_eq, Bool.and_eq_true, Prod.mk.injEq]
        omega
      rw [List.map_cons, List.find?_cons, List.find?_cons, e]
      cases decide (r.1 = i + 1) && decide (r.2.1 = j + 1) with
      | true => rfl
      | false => exact ih fun r hr => hl r (List.mem_cons_of_mem _ hr)
  exact key _ fun r hr => hp r (List.mem_reverse.1 hr)

theorem combined_last_append {ι α : Type} [DecidableEq ι] (l : List (ι × α)) (t : ι × α) (p : ι) :
    combined (fun _ y => y) (l ++ [t]) p = if t.1 = p then some t.2 else combined (fun _ y => y) l p := by
  rw [combined_last, combined_last, List.reverse_append]
  simp only [List.reverse_cons, List.reverse_nil, List.nil_append, List.cons_append, List.find?_cons]
  by_cases h : t.1 = p <;> simp [h]

theorem combined_rows (δ : Nat → Nat) (rows : List (Nat × Nat × Nat)) (last : Nat × Nat × Nat)
    (hp : ∀ r ∈ rows, δ r.1 + 1 = r.1 ∧ δ r.2.1 + 1 = r.2.1) (i j : Nat) :
    combined (fun _ y => y)
      (((rows.map (fun r => (δ r.1, δ r.2.1, r.2.2)) ++ [(δ (δ last.1), δ (δ last.2.1), last.2.2)]).map fun r =>
        (r.1, r.2.1, (r.2.2 : Rat))).map fun t => ((t.1, t.2.1), t.2.2)) (i, j) =
      if δ (δ last.1) = i ∧ δ (δ last.2.1) = j then some (last.2.2 : Rat)
      else (lastWeight rows (i + 1) (j + 1)).map fun w : Nat => (w : Rat) := by
  rw [List.map_append, List.map_append, List.map_cons, List.map_nil, List.map_cons, List.map_nil,
    combined_last_append, List.map_map, List.map_map]
  by_cases h : δ (δ last.1) = i ∧ δ (δ last.2.1) = j
  · rw [if_pos h, if_pos (by rw [Prod.mk.injEq]; exact h)]
  · rw [if_neg h, if_neg (by rw [Prod.mk.injEq]; exact h)]
    exact lastWeight_shift δ rows hp i j

/-- **C89**, partial: the matrix has a row and a column for each vertex, and the element at
`(i, j)` is the weight in the last row for the edge from vertex `i + 1` to vertex `j + 1`,
except that there is one more edge: between the vertices before those of the last row, with
its weight. The number of rows printed is one too many. -/
theorem C89_graph_partial {n : Nat} {rows : List (Nat × Nat × Nat)} (h : EdgeFile n rows)
    (h1 : 2 ≤ (rows.getLast h.ne).1) (h2 : 2 ≤ (rows.getLast h.ne).2.1) :
    ∃ A, louvainInput (some (numbers3 rows)) = .ok ⟨rows.length + 1, n, A⟩ ∧ A.WF ∧ A.nrows = n ∧ A.ncols = n ∧
      ∀ i j, A.get i j =
        if i + 2 = (rows.getLast h.ne).1 ∧ j + 2 = (rows.getLast h.ne).2.1 then some ((rows.getLast h.ne).2.2 : Rat)
        else (lastWeight rows (i + 1) (j + 1)).map fun w : Nat => (w : Rat) := by
  have hl := h.ids _ (List.getLast_mem h.ne)
  have hs := h.small
  have hp : ∀ r ∈ rows, 0 < r.1 ∧ r.1 < 2 ^ 64 ∧ 0 < r.2.1 ∧ r.2.1 < 2 ^ 64 := by
    intro r hr
    have := h.ids r hr
    omega
  have hd1 : dec64 (dec64 (rows.getLast h.ne).1) = (rows.getLast h.ne).1 - 2 := dec64_dec64 h1 (by omega)
  have hd2 : dec64 (dec64 (rows.getLast h.ne).2.1) = (rows.getLast h.ne).2.1 - 2 := dec64_dec64 h2 (by omega)
  have hin : ∀ r ∈ demoRows rows (rows.getLast h.ne), r.1 < n ∧ r.2.1 < n := by
    intro r hr
    rcases List.mem_append.1 hr with hr | hr
    · obtain ⟨r', hr', rfl⟩ := List.mem_map.1 hr
      obtain ⟨a, b, c, d⟩ := hp r' hr'
      have := h.ids r' hr'
      simp only [dec64_pos a b, dec64_pos c d]
      omega
    · rw [List.mem_singleton.1 hr]
      simp only [hd1, hd2]
      omega
  have hmax : maxEdgeId (demoRows rows (rows.getLast h.ne)) + 1 = n := by
    have h1 := (maxEdgeId_lt (demoRows rows (rows.getLast h.ne)) n (by omega)).2 hin
    obtain ⟨r, hr, hrn⟩ := h.used
    obtain ⟨a, b, c, d⟩ := hp r hr
    have hm : (dec64 r.1, dec64 r.2.1, r.2.2) ∈ demoRows rows (rows.getLast h.ne) :=
      List.mem_append_left _ (List.mem_map.2 ⟨r, hr, rfl⟩)
    have h2 : ¬ maxEdgeId (demoRows rows (rows.getLast h.ne)) < n - 1 := by
      intro hc
      have := (maxEdgeId_lt _ (n - 1) (by omega)).1 hc _ hm
      simp only [dec64_pos a b, dec64_pos c d] at this
      omega
    omega
  obtain ⟨B, e, hB, hr, hc, hg, -⟩ := C04_matrix_build (Lil.new n n : Lil Rat) (Lil.new_wf n n) (fun _ y => y)
    ((demoRows rows (rows.getLast h.ne)).map fun r => (r.1, r.2.1, (r.2.2 : Rat)))
    (by
      intro t ht
      obtain ⟨r, hr, rfl⟩ := List.mem_map.1 ht
      exact hin r hr)
  refine ⟨B, ?_, hB, hr, hc, fun i j => ?_⟩
  · have hlen : (demoRows rows (rows.getLast h.ne)).length = rows.length + 1 := by simp [demoRows]
    rw [← hlen]
    exact louvainInput_ok (readEdges_numbers h.ne) (by rw [hmax]; exact Nat.mod_eq_of_lt hs) e
  · rw [hg, Lil.get_new]
    refine (combined_rows dec64 rows (rows.getLast h.ne) (fun r hr => ?_) i j).trans ?_
    · obtain ⟨a, b, c, d⟩ := hp r hr
      rw [dec64_pos a b, dec64_pos c d]; omega
    · rw [hd1, hd2]
      by_cases hij : i + 2 = (rows.getLast h.ne).1 ∧ j + 2 = (rows.getLast h.ne).2.1
      · rw [if_pos hij, if_pos (by omega)]
      · rw [if_neg hij, if_neg (by omega)]

theorem build_none (rs : List (Nat × Nat × Nat)) (h : rs ≠ []) :
    ∃ B, (Lil.new 0 0 : Lil Rat).build (fun _ y => y) (rs.map fun r => (r.1, r.2.1, (r.2.2 : Rat))) =
      (.error .indexOutOfBounds, B) := by
  cases rs with
  | nil => exact absurd rfl h
  | cons r rs =>
    obtain ⟨B, e, -, -⟩ := C04_matrix_build_out_of_range (Lil.new 0 0 : Lil Rat) (Lil.new_wf 0 0) (fun _ y => y) []
      (rs.map fun r => (r.1, r.2.1, (r.2.2 : Rat))) (r.1, r.2.1, (r.2.2 : Rat))
      (fun _ ht => by cases ht) (Or.inl (Nat.zero_le _))
    exact ⟨B, e⟩

/-- **C89** If the last row of the file has an edge from or to the first vertex, the program
ends with an exception. -/
theorem C89_first_vertex_throws {n : Nat} {rows : List (Nat × Nat × Nat)} (h : EdgeFile n rows)
    (h1 : (rows.getLast h.ne).1 = 1 ∨ (rows.getLast h.ne).2.1 = 1) (rnd : Nat → Rat) (fuel : Nat) :
    louvainInput (some (numbers3 rows)) = .error .indexOutOfBounds ∧
    louvainDemo rnd fuel (some (numbers3 rows)) = .error (.err .indexOutOfBounds) := by
  have hmax : (maxEdgeId (demoRows rows (rows.getLast h.ne)) + 1) % 2 ^ 64 = 0 := by
    generalize hb : (2 : Nat) ^ 64 = b
    have hb0 : 2 ≤ b := by omega
    have hlt : maxEdgeId (demoRows rows (rows.getLast h.ne)) < b := by
      refine (maxEdgeId_lt _ b (by omega)).2 fun r hr => ?_
      rw [← hb]
      rcases List.mem_append.1 hr with hr | hr
      · obtain ⟨r', hr', rfl⟩ := List.mem_map.1 hr
        exact ⟨dec64_lt _, dec64_lt _⟩
      · rw [List.mem_singleton.1 hr]
        exact ⟨dec64_lt _, dec64_lt _⟩
    have hone : dec64 (dec64 1) = b - 1 := by rw [← hb]; exact dec64_one
    have hge : ¬ maxEdgeId (demoRows rows (rows.getLast h.ne)) < b - 1 := by
      intro hc
      have hx : dec64 (dec64 (rows.getLast h.ne).1) < b - 1 ∧ dec64 (dec64 (rows.getLast h.ne).2.1) < b - 1 :=
        (maxEdgeId_lt _ (b - 1) (by omega)).1 hc _ (List.mem_append_right _ (List.mem_singleton.2 rfl))
      rcases h1 with h1 | h1 <;> rw [h1, hone] at hx
      · exact Nat.lt_irrefl _ hx.1
      · exact Nat.lt_irrefl _ hx.2
    rw [show maxEdgeId (demoRows rows (rows.getLast h.ne)) + 1 = b by omega]
    exact Nat.mod_self b
  have e : louvainInput (some (numbers3 rows)) = .error .indexOutOfBounds := by
    have hr := readEdges_numbers h.ne
    have hne : demoRows rows (rows.getLast h.ne) ≠ [] := by unfold demoRows; exact List.append_ne_nil_of_right_ne_nil _ (by simp)
    revert hr hmax hne
    generalize demoRows rows (rows.getLast h.ne) = rs
    intro hmax hr hne
    obtain ⟨B, e⟩ := build_none rs hne
    exact louvainInput_err hr hmax e
  refine ⟨e, ?_⟩
  unfold louvainDemo
  rw [e]; rfl

/-- **C89** fails for every file with no edge, of the weight of the last row, from the
vertex before its source to the vertex before its destination: the matrix has such an edge. -/
theorem C89_phantom_edge_wrong {n : Nat} {rows : List (Nat × Nat × Nat)} (h : EdgeFile n rows)
    (h1 : 2 ≤ (rows.getLast h.ne).1) (h2 : 2 ≤ (rows.getLast h.ne).2.1)
    (h3 : lastWeight rows ((rows.getLast h.ne).1 - 1) ((rows.getLast h.ne).2.1 - 1) ≠ some (rows.getLast h.ne).2.2) :
    ∃ d i j, louvainInput (some (numbers3 rows)) = .ok d ∧
      d.A.get i j ≠ (lastWeight rows (i + 1) (j + 1)).map fun w : Nat => (w : Rat) := by
  obtain ⟨A, e, -, -, -, hg⟩ := C89_graph_partial h h1 h2
  refine ⟨_, (rows.getLast h.ne).1 - 2, (rows.getLast h.ne).2.1 - 2, e, ?_⟩
  show A.get _ _ ≠ _
  rw [hg, if_pos (by omega)]
  rw [show (rows.getLast h.ne).1 - 2 + 1 = (rows.getLast h.ne).1 - 1 by omega,
    show (rows.getLast h.ne).2.1 - 2 + 1 = (rows.getLast h.ne).2.1 - 1 by omega]
  intro hc
  apply h3
  cases hw : lastWeight rows ((rows.getLast h.ne).1 - 1) ((rows.getLast h.ne).2.1 - 1) with
  | none => rw [hw] at hc; cases hc
  | some w =>
    rw [hw] at hc
    simp only [Option.map_some, Option.some.injEq, Rat.natCast_inj] at hc
    rw [hc]

/-- **C89** An empty file is undefined behaviour: variables that were never set are
decremented. -/
theorem C89_empty_file_undefined (rnd : Nat → Rat) (fuel : Nat) :
    louvainDemo rnd fuel (some []) = .error (.err .ub) := rfl

/-- What one call of the clustering prints. -/
theorem louvainPrint_some {masked : Bool} {rnd : Nat → Rat} {fuel : Nat} {A : Lil Rat} {w : BVec Nat} (hA : A.WF)
    (hn : 0 < A.nrows) (hw : ∀ i j, A.get i j ≠ none → 0 < allWeight A.nrows A.get)
    (h : louvainPrint masked rnd fuel A = .ok (some w)) :
    w.size = A.nrows ∧ ∃ a : Nat → Nat, (∀ i, i < A.nrows → w.get i = some (a i) ∧ a i < A.nrows) ∧
      (∀ i c, i < A.nrows → HasOut A.nrows A.get i → Considered masked A.nrows A.get a i c →
        modularity A.nrows A.get (moveTo a i c) ≤ modularity A.nrows A.get a) := by
  unfold louvainPrint at h
  cases hr : louvain masked rnd fuel A (2 ^ 32 - 1) with
  | error e => rw [hr] at h; cases h
  | ok r =>
    rw [hr, prog_bind_ok] at h
    cases r with
    | thrown t => cases h
    | returned S =>
      obtain ⟨v, e, hs, hv⟩ := C66_assignments_of_louvain hA hn hw hr
      dsimp only at h
      rw [e, prog_bind_ok] at h
      injection h with h
      injection h with h
      subst h
      obtain ⟨a, h1, -, -, h4⟩ := C65_louvain_partial hA hn hw hr
      obtain ⟨-, -, -, a', h5, h6, -⟩ := C65_louvain_returned hA hn hw hr
      have hlt : ∀ i, i < A.nrows → a i = a' i ∧ a i < A.nrows := by
        intro i hi
        have e1 := h1 i (a' i) hi (h5 i hi)
        rw [h6 i (a' i) hi (h5 i hi), if_pos rfl] at e1
        by_cases hc : a' i = a i
        · exact ⟨hc.symm, by rw [← hc]; exact h5 i hi⟩
        · rw [if_neg hc] at e1; cases e1
      refine ⟨hs, a, fun i hi => ⟨?_, (hlt i hi).2⟩, h4⟩
      rw [hv i _ hi, h1 i _ hi (hlt i hi).2, if_pos rfl]

/-- **C89**, partial: the two vectors printed are clusterings of the graph with the
additional edge: no vertex can be moved to a cluster considered for it so that the modularity
becomes greater. All weights must be positive. -/
theorem C89_clusters_partial {n : Nat} {rows : List (Nat × Nat × Nat)} {rnd : Nat → Rat} {fuel : Nat} {w1 w2 : BVec Nat}
    (h : EdgeFile n rows) (h1 : 2 ≤ (rows.getLast h.ne).1) (h2 : 2 ≤ (rows.getLast h.ne).2.1)
    (hp : ∀ r ∈ rows, 0 < r.2.2) (hd : louvainDemo rnd fuel (some (numbers3 rows)) = .ok (some (w1, w2))) :
    ∃ W : Nat → Nat → Option Rat, (∀ i j, W i j =
        if i + 2 = (rows.getLast h.ne).1 ∧ j + 2 = (rows.getLast h.ne).2.1 then some ((rows.getLast h.ne).2.2 : Rat)
        else (lastWeight rows (i + 1) (j + 1)).map fun w : Nat => (w : Rat)) ∧
      ∀ masked, (if masked then w2 else w1).size = n ∧
        ∃ a : Nat → Nat, (∀ i, i < n → (if masked then w2 else w1).get i = some (a i) ∧ a i < n) ∧
          (∀ i c, i < n → HasOut n W i → Considered masked n W a i c →
            modularity n W (moveTo a i c) ≤ modularity n W a) := by
  obtain ⟨A, e, hA, hr, hc, hg⟩ := C89_graph_partial h h1 h2
  have hn : 0 < n := by have := h.ids _ (List.getLast_mem h.ne); omega
  have hpos : ∀ i j x, A.get i j = some x → 0 < x := by
    intro i j x hx
    rw [hg] at hx
    split at hx
    · injection hx with hx
      rw [← hx]; exact_mod_cast hp _ (List.getLast_mem h.ne)
    · cases hl : lastWeight rows (i + 1) (j + 1) with
      | none => rw [hl] at hx; cases hx
      | some w =>
        rw [hl] at hx
        injection hx with hx
        rw [← hx]
        unfold lastWeight at hl
        obtain ⟨r, hr1, hr2⟩ := Option.map_eq_some_iff.1 hl
        have := hp r (List.mem_reverse.1 (List.mem_of_find?_eq_some hr1))
        rw [← hr2]; show (0 : Rat) < ((r.2.2 : Nat) : Rat); exact_mod_cast this
  have hw : ∀ i j, A.get i j ≠ none → 0 < allWeight A.nrows A.get := by
    intro i j hij
    have hge : ∀ i j, 0 ≤ (A.get i j).getD 0 := by
      intro i j
      cases hx : A.get i j with
      | none => exact Rat.le_refl
      | some x => exact Rat.le_of_lt (hpos i j x hx)
    obtain ⟨hi, hj⟩ := some_lt hA hij
    rw [allWeight_eq]
    refine (rsum_pos fun i _ => ?_).2 ⟨i, hi, ?_⟩
    · rw [outWeight_eq]; exact rsum_nonneg fun j _ => hge i j
    · rw [outWeight_eq]
      refine (rsum_pos fun j _ => hge i j).2 ⟨j, by omega, ?_⟩
      cases hx : A.get i j with
      | none => exact absurd hx hij
      | some x => exact hpos i j x hx
  refine ⟨A.get, hg, ?_⟩
  unfold louvainDemo at hd
  rw [e, lift_ok, prog_bind_ok] at hd
  cases e1 : louvainPrint false rnd fuel A with
  | error x => rw [e1] at hd; cases hd
  | ok c1 =>
    rw [e1, prog_bind_ok] at hd
    cases c1 with
    | none => cases hd
    | some v1 =>
      dsimp only at hd
      cases e2 : louvainPrint true rnd fuel A with
      | error x => rw [e2] at hd; cases hd
      | ok c2 =>
        rw [e2, prog_bind_ok] at hd
        cases c2 with
        | none => cases hd
        | some v2 =>
          injection hd with hd
          injection hd with hd
          injection hd with hd1 hd2
          subst hd1 hd2
          intro masked
          have := fun (m : Bool) (w : BVec Nat) (e : louvainPrint m rnd fuel A = .ok (some w)) =>
            louvainPrint_some hA (by rw [hr]; exact hn) hw e
          rw [hr] at this
          cases masked with
          | false => exact this false v1 e1
          | true => exact this true v2 e2

theorem prog_bind_mono {α β : Type} {x : Prog α} {f g : α → Prog β} {r : β} (h : ∀ a, f a = .ok r → g a = .ok r) :
    x >>= f = .ok r → x >>= g = .ok r := by
  cases x with
  | error e => intro h; cases h
  | ok a => exact h a

/-- A clustering that ends within `m` sweeps is the same when more sweeps are allowed. -/
theorem louvain_more {masked : Bool} {rnd : Nat → Rat} {fuel m M : Nat} {G : Lil Rat} {S : Lil Bool} (hm : m ≤ M)
    (h : louvain masked rnd fuel G m = .ok (.returned S)) : louvain masked rnd fuel G M = .ok (.returned S) := by
  have key : ∀ (b : LvSt → Prog LvSt) (s : LvSt) (r : Nat × LvSt),
      forP (m - 1) (1, s) (fun _ r => if r.2.changed then do
          let s ← b r.2
          .ok (r.1 + 1, s)
        else .ok r) = .ok r → r.2.changed = false →
      forP (M - 1) (1, s) (fun _ r => if r.2.changed then do
          let s ← b r.2
          .ok (r.1 + 1, s)
        else .ok r) = .ok r := by
    intro b s r h1 h2
    obtain ⟨k, hk⟩ : ∃ k, M - 1 = (m - 1) + k := ⟨M - 1 - (m - 1), by omega⟩
    unfold forP at h1 ⊢
    rw [hk, List.range_add, List.foldlM_append, h1, prog_bind_ok]
    generalize (List.range k).map (m - 1 + ·) = l
    induction l with
    | nil => rfl
    | cons x l ih =>
      rw [List.foldlM_cons]
      dsimp only
      rw [show (if r.2.changed = true then (do
          let s ← b r.2
          .ok (r.1 + 1, s) : Prog (Nat × LvSt)) else .ok r) = .ok r by rw [h2]; rfl]
      exact ih
  unfold louvain at h ⊢
  split at h
  · cases h
  · next hsq =>
    rw [if_neg hsq]
    dsimp only at h ⊢
    revert h
    iterate 11 refine prog_bind_mono fun _ => ?_
    intro h
    cases e : forP (m - 1) _ _ with
    | error x => rw [e] at h; cases h
    | ok r =>
      rw [e, prog_bind_ok] at h
      cases hc : r.2.changed with
      | true => rw [hc] at h; cases h
      | false =>
        rw [key _ _ r e hc, prog_bind_ok]
        exact h

theorem louvainPrint_of {masked : Bool} {rnd : Nat → Rat} {fuel m : Nat} {A : Lil Rat} (hm : m ≤ 2 ^ 32 - 1) {w : BVec Nat}
    (h : (louvain masked rnd fuel A m >>= fun r => match r with
      | .thrown _ => .ok none
      | .returned S => louvainAssignments S >>= fun w => .ok (some w)) = .ok (some w)) :
    louvainPrint masked rnd fuel A = .ok (some w) := by
  cases e : louvain masked rnd fuel A m with
  | error x => rw [e] at h; cases h
  | ok r =>
    rw [e, prog_bind_ok] at h
    cases r with
    | thrown t => cases h
    | returned S =>
      unfold louvainPrint
      rw [louvain_more hm e]
      exact h

/-! ### a concrete file -/

/-- The path 1 - 2 - 3 - 4 with weights 5, 1 and 5, each edge in both directions. -/
def lvFile : List (Nat × Nat × Nat) := [(1, 2, 5), (2, 1, 5), (3, 4, 5), (4, 3, 5), (2, 3, 1), (3, 2, 1)]

theorem lvFile_ok : EdgeFile 4 lvFile := ⟨by decide, by decide, by decide⟩

/-- The hypotheses are satisfiable: the weight of the edge from 2 to 1 is lost. -/
example : ∃ A, louvainInput (some (numbers3 lvFile)) = .ok ⟨7, 4, A⟩ ∧ A.get 0 1 = some 5 ∧ A.get 1 0 = some 1 := by
  obtain ⟨A, e, -, -, -, hg⟩ := C89_graph_partial lvFile_ok (by decide) (by decide)
  exact ⟨A, e, by rw [hg]; decide +kernel, by rw [hg]; decide +kernel⟩

example : ∃ d i j, louvainInput (some (numbers3 lvFile)) = .ok d ∧
    d.A.get i j ≠ (lastWeight lvFile (i + 1) (j + 1)).map fun w : Nat => (w : Rat) :=
  C89_phantom_edge_wrong lvFile_ok (by decide) (by decide) (by decide)

/-- The same file with the edge between 1 and 2 at its end. -/
example (rnd : Nat → Rat) (fuel : Nat) :
    louvainDemo rnd fuel (some (numbers3 [(3, 4, 5), (4, 3, 5), (1, 2, 5), (2, 1, 5)])) = .error (.err .indexOutOfBounds) :=
  (C89_first_vertex_throws (n := 4) ⟨by decide, by decide, by decide⟩ (Or.inr rfl) rnd fuel).2

/-- The matrix of that file. -/
def lvFileMat : Lil Rat :=
  { nrows := 4, ncols := 4, nvals := 6, rows := [[(1, 5)], [(0, 1), (2, 1)], [(1, 1), (3, 5)], [(2, 5)]] }

/-- The clusters printed for that file. -/
def lvFileClusters : BVec Nat := { size := 4, nvals := 4, vals := [1, 1, 3, 3], bitmap := [true, true, true, true] }

theorem lvFile_run : louvainDemo (fun k => (k : Rat)) 5 (some (numbers3 lvFile)) = .ok (some (lvFileClusters, lvFileClusters)) := by
  have e : louvainInput (some (numbers3 lvFile)) = .ok ⟨7, 4, lvFileMat⟩ := by decide +kernel
  have e1 : louvainPrint false (fun k => (k : Rat)) 5 lvFileMat = .ok (some lvFileClusters) :=
    louvainPrint_of (m := 10) (by decide) (by decide +kernel)
  have e2 : louvainPrint true (fun k => (k : Rat)) 5 lvFileMat = .ok (some lvFileClusters) :=
    louvainPrint_of (m := 10) (by decide) (by decide +kernel)
  unfold louvainDemo
  rw [e, lift_ok, prog_bind_ok, e1, prog_bind_ok]
  dsimp only
  rw [e2, prog_bind_ok]

/-- The hypotheses of the theorem on the clusters are satisfiable. -/
example : ∃ W : Nat → Nat → Option Rat, W 1 0 = some 1 ∧ W 0 1 = some 5 ∧ ∀ masked, ∃ a : Nat → Nat,
    a 0 = 1 ∧ a 2 = 3 ∧ ∀ i c, i < 4 → HasOut 4 W i → Considered masked 4 W a i c →
      modularity 4 W (moveTo a i c) ≤ modularity 4 W a := by
  obtain ⟨W, hW, h⟩ := C89_clusters_partial lvFile_ok (by decide) (by decide) (by decide) lvFile_run
  refine ⟨W, by rw [hW]; decide +kernel, by rw [hW]; decide +kernel, fun masked => ?_⟩
  obtain ⟨-, a, ha, hm⟩ := h masked
  rw [ite_self] at ha
  exact ⟨a, by have := (ha 0 (by decide)).1; injection this with this; exact this.symm,
    by have := (ha 2 (by decide)).1; injection this with this; exact this.symm, hm⟩

end GBTL

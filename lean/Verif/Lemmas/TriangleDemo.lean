import Verif.Lemmas.Renumber
import Verif.Model.TriangleDemo
import Verif.Props.Containers
/-
Facts about the parts of the triangle counting demo.
-/
namespace GBTL
open Spec

theorem numbers_cons (r : Nat × Nat) (rows : List (Nat × Nat)) : numbers (r :: rows) = r.1 :: r.2 :: numbers rows := rfl

theorem readRows_some (s d : Nat) (rows : List (Nat × Nat)) :
    readRows (some s) (some d) (numbers rows) = .ok (rows ++ [rows.getLast?.getD (s, d)]) := by
  induction rows generalizing s d with
  | nil => rfl
  | cons r rows ih =>
    rw [numbers_cons, readRows, ih]
    show Except.ok _ = _
    cases rows with
    | nil => rfl
    | cons r' rows => simp [List.getLast?_cons_cons, List.getLast?_cons]

theorem readRows_numbers {s d : Option Nat} {rows : List (Nat × Nat)} (h : rows ≠ []) :
    readRows s d (numbers rows) = .ok (rows ++ [rows.getLast h]) := by
  cases rows with
  | nil => exact absurd rfl h
  | cons r rows =>
    have := readRows_some r.1 r.2 rows
    rw [numbers_cons, readRows.eq_def]
    simp only [this]
    show Except.ok _ = _
    cases rows with
    | nil => rfl
    | cons r' rows => simp [List.getLast?_eq_some_getLast]

theorem maxId_foldl (rs : List (Nat × Nat)) (m : Nat) :
    ∀ b, rs.foldl (fun m r =>
      let m := if r.1 > m then r.1 else m
      if r.2 > m then r.2 else m) m < b ↔ m < b ∧ ∀ r ∈ rs, r.1 < b ∧ r.2 < b := by
  induction rs generalizing m with
  | nil => intro b; simp
  | cons r rs ih =>
    intro b
    rw [List.foldl_cons, ih]
    simp only [List.mem_cons, forall_eq_or_imp]
    constructor
    · rintro ⟨h1, h2⟩
      refine ⟨?_, ⟨?_, ?_⟩, h2⟩ <;> (split at h1 <;> split at h1 <;> omega)
    · rintro ⟨h1, ⟨h2, h3⟩, h4⟩
      refine ⟨?_, h4⟩
      split <;> split <;> omega

theorem maxId_eq {rs : List (Nat × Nat)} {n : Nat} (h : ∀ r ∈ rs, r.1 < n ∧ r.2 < n)
    (hm : ∃ r ∈ rs, r.1 + 1 = n ∨ r.2 + 1 = n) : maxId rs + 1 = n := by
  obtain ⟨r, hr, hn⟩ := hm
  have h1 : maxId rs < n := (maxId_foldl rs 0 n).2 ⟨by omega, h⟩
  have h2 : ¬ maxId rs < n - 1 := by
    intro hc
    have := ((maxId_foldl rs 0 (n - 1)).1 hc).2 r hr
    omega
  omega

theorem degreeIn_cons (r : Nat × Nat) (rs : List (Nat × Nat)) (v : Nat) :
    degreeIn (r :: rs) v = (if r.1 = v ∧ r.2 ≠ v then 1 else 0) + degreeIn rs v := by
  unfold degreeIn
  rw [List.filter_cons]
  by_cases h : r.1 = v ∧ r.2 ≠ v
  · simp [h]; omega
  · rw [if_neg h, if_neg (by simpa using h)]; omega

theorem countDegree_map {n : Nat} (g : Nat → Nat) {r : Nat × Nat} (h : r.1 < n) :
    countDegree ((List.range n).map fun v => (g v, v)) r =
      .ok ((List.range n).map fun v => (g v + (if r.1 = v ∧ r.2 ≠ v then 1 else 0), v)) := by
  unfold countDegree
  by_cases he : r.1 = r.2
  · rw [if_neg (by simpa using he)]
    congr 1
    refine List.map_congr_left fun v _ => ?_
    have : ¬ (r.1 = v ∧ r.2 ≠ v) := fun ⟨a, b⟩ => b (he ▸ a)
    rw [if_neg this]; rfl
  · rw [if_pos he]
    have e : rd ((List.range n).map fun v => (g v, v)) r.1 = .ok (g r.1, r.1) := by
      simp [rd, h]
    rw [e]
    show wr _ _ _ = _
    rw [wr, if_pos (by simpa using h)]
    congr 1
    apply List.ext_getElem
    · simp
    · intro i h1 h2
      rw [List.getElem_set]
      by_cases hi : r.1 = i
      · subst hi
        have : r.2 ≠ r.1 := fun a => he a.symm
        simp [this]
      · simp [hi]

theorem degreesOf_eq {n : Nat} {rs : List (Nat × Nat)} (h : ∀ r ∈ rs, r.1 < n) :
    degreesOf n rs = .ok ((List.range n).map fun v => (degreeIn rs v, v)) := by
  have key : ∀ (rs : List (Nat × Nat)) (g : Nat → Nat), (∀ r ∈ rs, r.1 < n) →
      rs.foldlM countDegree ((List.range n).map fun v => (g v, v)) =
        .ok ((List.range n).map fun v => (g v + degreeIn rs v, v)) := by
    intro rs
    induction rs with
    | nil => intro g _; rfl
    | cons r rs ih =>
      intro g h
      rw [List.foldlM_cons, countDegree_map g (h r (by simp))]
      show rs.foldlM countDegree _ = _
      rw [ih (fun v => g v + if r.1 = v ∧ r.2 ≠ v then 1 else 0) fun r' hr' => h r' (List.mem_cons_of_mem _ hr')]
      congr 1
      refine List.map_congr_left fun v _ => ?_
      rw [degreeIn_cons]
      congr 1; omega
  unfold degreesOf
  rw [key rs (fun _ => 0) h]
  simp

theorem getD_of_lt {l : List Nat} {i : Nat} (h : i < l.length) : l.getD i 0 = l[i] := by
  simp [List.getD, h]

/-- The new number of a vertex. -/
def newNumber (deg : List (Nat × Nat)) (x : Nat) : Nat := (deg.map (·.2)).getD x 0

/-- The old number. -/
def oldNumber (deg : List (Nat × Nat)) (a : Nat) : Nat := (deg.map (·.2)).idxOf a

theorem relabelEdges_eq {deg es : List (Nat × Nat)} (h : ∀ e ∈ es, e.1 < deg.length ∧ e.2 < deg.length) :
    relabelEdges deg es = .ok (es.map fun e => (newNumber deg e.1, newNumber deg e.2)) := by
  have hrd : ∀ x, x < deg.length → ∃ y, rd deg x = .ok y ∧ y.2 = newNumber deg x := by
    intro x hx
    refine ⟨deg[x], by simp [rd, hx], ?_⟩
    simp [newNumber, hx]
  induction es with
  | nil => rfl
  | cons e es ih =>
    have ih := ih fun e' he' => h e' (List.mem_cons_of_mem _ he')
    unfold relabelEdges at ih ⊢
    obtain ⟨a, ea, ha⟩ := hrd e.1 (h e (by simp)).1
    obtain ⟨b, eb, hb⟩ := hrd e.2 (h e (by simp)).2
    rw [List.mapM_cons, ih, ea, eb]
    show Except.ok _ = _
    simp [ha, hb]

theorem newNumber_renumbering {n : Nat} {deg : List (Nat × Nat)} (h : (deg.map (·.2)).Perm (List.range n)) :
    Renumbering n (newNumber deg) (oldNumber deg) := by
  have hl : (deg.map (·.2)).length = n := by rw [h.length_eq, List.length_range]
  have hnd : (deg.map (·.2)).Nodup := h.nodup_iff.2 List.nodup_range
  constructor
  · intro i hi
    have hi' : i < (deg.map (·.2)).length := by rw [hl]; exact hi
    have e : newNumber deg i = (deg.map (·.2))[i] := by
      rw [newNumber, getD_of_lt hi']
    rw [e]
    refine ⟨List.mem_range.1 (h.mem_iff.1 (List.getElem_mem hi')), ?_⟩
    exact hnd.idxOf_getElem i hi'
  · intro a ha
    have hm : a ∈ deg.map (·.2) := h.mem_iff.2 (List.mem_range.2 ha)
    have hlt : (deg.map (·.2)).idxOf a < (deg.map (·.2)).length := List.idxOf_lt_length_iff.2 hm
    refine ⟨by rw [oldNumber, ← hl]; exact hlt, ?_⟩
    rw [newNumber, oldNumber, getD_of_lt hlt, List.getElem_idxOf]

theorem oldNumber_out {n a : Nat} {deg : List (Nat × Nat)} (h : (deg.map (·.2)).Perm (List.range n)) (ha : n ≤ a) :
    oldNumber deg a = n := by
  have hl : (deg.map (·.2)).length = n := by rw [h.length_eq, List.length_range]
  rw [oldNumber, ← hl]
  apply List.idxOf_eq_length
  intro hm
  have := List.mem_range.1 (h.mem_iff.1 hm)
  omega

/-- An edge list relabelled. -/
theorem mem_relabelled {n a b : Nat} {deg es : List (Nat × Nat)} (h : (deg.map (·.2)).Perm (List.range n))
    (he : ∀ e ∈ es, e.1 < n ∧ e.2 < n) :
    (a, b) ∈ es.map (fun e => (newNumber deg e.1, newNumber deg e.2)) ↔ (oldNumber deg a, oldNumber deg b) ∈ es := by
  have R := newNumber_renumbering h
  rw [List.mem_map]
  constructor
  · rintro ⟨e, hm, heq⟩
    have := he e hm
    have h1 : newNumber deg e.1 = a := congrArg Prod.fst heq
    have h2 : newNumber deg e.2 = b := congrArg Prod.snd heq
    rw [← h1, ← h2, (R.there _ this.1).2, (R.there _ this.2).2]
    exact hm
  · intro hm
    have hb := he _ hm
    have key : ∀ x, oldNumber deg x < n → newNumber deg (oldNumber deg x) = x := by
      intro x hx
      apply (R.back x ?_).2
      apply Classical.byContradiction
      intro hc
      rw [oldNumber_out h (by omega)] at hx
      omega
    exact ⟨_, hm, by rw [key a hb.1, key b hb.2]⟩

theorem foldl_second (x : Int) (l : List Int) (h : ∀ y ∈ x :: l, y = 1) : l.foldl (fun _ y => y) x = 1 := by
  induction l generalizing x with
  | nil => exact h x (by simp)
  | cons y l ih => exact ih y fun z hz => h z (List.mem_cons_of_mem _ hz)

/-- What building ones stores. -/
theorem build_ones (es : List (Nat × Nat)) (p : Nat × Nat) :
    (combined (fun _ y => y) ((es.map fun e => (e.1, e.2, (1 : Int))).map fun t => ((t.1, t.2.1), t.2.2)) p = some 1 ∧
      p ∈ es) ∨
    (combined (fun _ y => y) ((es.map fun e => (e.1, e.2, (1 : Int))).map fun t => ((t.1, t.2.1), t.2.2)) p = none ∧
      p ∉ es) := by
  obtain ⟨i, j⟩ := p
  rw [combined, List.map_map]
  by_cases hm : (i, j) ∈ es
  · left
    refine ⟨?_, hm⟩
    cases hf : (((es.map ((fun t : Nat × Nat × Int => ((t.1, t.2.1), t.2.2)) ∘ fun e => (e.1, e.2, (1 : Int)))).filter
        fun t => t.1 = (i, j)).map Prod.snd) with
    | nil =>
      exfalso
      have : (1 : Int) ∈ (((es.map ((fun t : Nat × Nat × Int => ((t.1, t.2.1), t.2.2)) ∘ fun e => (e.1, e.2, (1 : Int)))).filter
        fun t => t.1 = (i, j)).map Prod.snd) := by
        refine List.mem_map.2 ⟨((i, j), 1), List.mem_filter.2 ⟨List.mem_map.2 ⟨(i, j), hm, rfl⟩, by simp⟩, rfl⟩
      rw [hf] at this
      cases this
    | cons x xs =>
      show some _ = some _
      congr 1
      apply foldl_second
      intro y hy
      rw [← hf] at hy
      obtain ⟨t, ht, rfl⟩ := List.mem_map.1 hy
      obtain ⟨e, _, rfl⟩ := List.mem_map.1 (List.mem_filter.1 ht).1
      rfl
  · right
    refine ⟨?_, hm⟩
    have : ((es.map ((fun t : Nat × Nat × Int => ((t.1, t.2.1), t.2.2)) ∘ fun e => (e.1, e.2, (1 : Int)))).filter
        fun t => t.1 = (i, j)) = [] := by
      rw [List.filter_eq_nil_iff]
      intro t ht
      obtain ⟨e, he, rfl⟩ := List.mem_map.1 ht
      simp only [Function.comp, decide_eq_true_eq]
      intro heq
      exact hm (heq ▸ he)
    rw [this]; rfl

theorem ones_eq {n : Nat} {es : List (Nat × Nat)} (h : ∀ e ∈ es, e.1 < n ∧ e.2 < n) {P : Nat → Nat → Bool}
    (hP : ∀ i j, P i j = true ↔ (i, j) ∈ es) : ∃ A, ones n es = .ok A ∧ Is01 n P A := by
  obtain ⟨B, e, hB, hg, _⟩ := C04_matrix_build_empty n n (fun _ y => y) (es.map fun e => (e.1, e.2, (1 : Int)))
    (by
      intro t ht
      obtain ⟨e, he, rfl⟩ := List.mem_map.1 ht
      exact h e he)
  have hsize := (Lil.build_spec (fun _ y => y) (es.map fun e => (e.1, e.2, (1 : Int))) (Lil.new n n) (Lil.new_wf n n)
    (by
      intro t ht
      obtain ⟨e, he, rfl⟩ := List.mem_map.1 ht
      exact h e he))
  obtain ⟨B', e', _, h1, h2, _⟩ := hsize
  rw [e] at e'
  cases e'
  have hget : ∀ i j, (B.get i j = some 1 ∧ (i, j) ∈ es) ∨ (B.get i j = none ∧ (i, j) ∉ es) := by
    intro i j
    rw [hg]
    exact build_ones es (i, j)
  refine ⟨B, by rw [ones, e]; rfl, hB, h1, h2, ?_, ?_⟩
  · intro i j x hx
    rcases hget i j with ⟨h', _⟩ | ⟨h', _⟩ <;> rw [h'] at hx
    · cases hx; exact Or.inr rfl
    · cases hx
  · intro i j
    rw [hP]
    rcases hget i j with ⟨h', hm⟩ | ⟨h', hm⟩ <;> rw [h'] <;> simp [hm]

end GBTL

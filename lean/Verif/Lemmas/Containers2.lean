import Verif.Lemmas.Containers
namespace GBTL
open Spec (combined combinedFrom)

/-! ### equality -/
namespace BVec
variable {α : Type}

theorem eqLoop_spec [DecidableEq α] {a b : BVec α} (ha1 : a.vals.length = a.size)
    (ha2 : a.bitmap.length = a.size) (hb1 : b.vals.length = b.size)
    (hb2 : b.bitmap.length = b.size) (is : List Nat)
    (h : ∀ i ∈ is, i < a.size ∧ i < b.size) :
    ∃ r, eqLoop a b is = .ok r ∧ (r = true ↔ ∀ i ∈ is, a.get i = b.get i) := by
  induction is with
  | nil => exact ⟨true, rfl, by simp⟩
  | cons i is ih =>
    obtain ⟨hia, hib⟩ := h i (List.mem_cons_self ..)
    obtain ⟨r, hr, hiff⟩ := ih fun j hj => h j (List.mem_cons_of_mem _ hj)
    rw [eqLoop, rd_bitmap ha1 ha2 hia, rd_bitmap hb1 hb2 hib]
    simp only [Except.bind_ok']
    cases hx : a.get i with
    | none =>
      cases hy : b.get i with
      | none => exact ⟨r, by simp [hr], by simp [hiff, hx, hy]⟩
      | some y => exact ⟨false, by simp, by simp [hx, hy]⟩
    | some x =>
      cases hy : b.get i with
      | none => exact ⟨false, by simp, by simp [hx, hy]⟩
      | some y =>
        simp only [rd_vals hx, rd_vals hy, Except.bind_ok', Option.isSome_some, ne_eq,
          not_true_eq_false, if_false, if_true]
        by_cases hxy : x = y
        · exact ⟨r, by simp [hxy, hr], by simp [hiff, hx, hy, hxy]⟩
        · exact ⟨false, by simp [hxy], by simp [hx, hy, hxy]⟩

end BVec

/-! ### tuples of a matrix -/
namespace Lil
variable {α : Type}

theorem mem_extractTuples {A : Lil α} (hA : A.WFr) (i j : Nat) (x : α) :
    (i, j, x) ∈ A.extractTuples ↔ A.get i j = some x := by
  unfold extractTuples
  simp only [List.mem_flatten, List.mem_map]
  constructor
  · rintro ⟨l, ⟨p, hp, rfl⟩, hl⟩
    obtain ⟨q, hq, e⟩ := List.mem_map.1 hl
    obtain ⟨k, hk, e2⟩ := List.getElem_of_mem hp
    simp only [List.length_zip, List.length_range, Nat.min_self] at hk
    rw [List.getElem_zip, List.getElem_range] at e2
    subst e2
    cases e
    simp only at hq
    have hs := (hA.rowOK _ (List.getElem_mem hk)).sorted
    show (A.rowD k).get q.1 = _
    rw [rowD_of_lt hk]
    exact Row.get_of_mem hs hq
  · intro h
    have hi : i < A.rows.length := by
      rcases Nat.lt_or_ge i A.rows.length with h' | h'
      · exact h'
      · rw [Lil.get, rowD_of_ge h'] at h; cases h
    unfold Lil.get at h
    rw [rowD_of_lt hi] at h
    have hm := Row.mem_of_get h
    refine ⟨_, ⟨(i, A.rows[i]), ?_, rfl⟩, ?_⟩
    · rw [List.mem_iff_getElem]
      exact ⟨i, by simpa using hi, by simp⟩
    · exact List.mem_map.2 ⟨(j, x), hm, rfl⟩

theorem extractTuples_sorted {A : Lil α} (hA : A.WFr) :
    A.extractTuples.Pairwise fun p q => p.1 < q.1 ∨ (p.1 = q.1 ∧ p.2.1 < q.2.1) := by
  unfold extractTuples
  rw [List.pairwise_flatten]
  constructor
  · intro l hl
    obtain ⟨p, hp, rfl⟩ := List.mem_map.1 hl
    have : p.2 ∈ A.rows := (List.of_mem_zip hp).2
    rw [List.pairwise_map]
    exact (hA.rowOK _ this).sorted.imp fun h => Or.inr ⟨rfl, h⟩
  · rw [List.pairwise_map, List.pairwise_iff_getElem]
    intro i j hi hj hij x hx y hy
    obtain ⟨q, _, rfl⟩ := List.mem_map.1 hx
    obtain ⟨q', _, rfl⟩ := List.mem_map.1 hy
    left
    simpa using hij

theorem extractTuples_length {A : Lil α} : A.extractTuples.length = (A.rows.map List.length).sum := by
  unfold extractTuples
  rw [List.length_flatten, List.map_map]
  congr 1
  apply List.ext_getElem
  · simp
  · intro i h1 h2
    simp

theorem combined_nodup {ι : Type} [DecidableEq ι] (dup : α → α → α) (ts : List (ι × α))
    (h : (ts.map Prod.fst).Nodup) (i : ι) (x : α) :
    combined dup ts i = some x ↔ (i, x) ∈ ts := by
  have key : ∀ (o : Option α), (o = none ∨ ∀ t ∈ ts, t.1 ≠ i) →
      (combinedFrom dup o ts i = some x ↔ (o = some x ∨ (i, x) ∈ ts)) := by
    induction ts with
    | nil => intro o _; rw [combinedFrom_nil]; simp
    | cons t ts ih =>
      intro o ho
      obtain ⟨k, y⟩ := t
      rw [List.map_cons, List.nodup_cons] at h
      rw [combinedFrom_cons]
      by_cases hk : k = i
      · subst hk
        have hne : ∀ t ∈ ts, t.1 ≠ k := fun t ht e => h.1 (List.mem_map.2 ⟨t, ht, e⟩)
        have ho' : o = none := by
          rcases ho with ho | ho
          · exact ho
          · exact absurd rfl (ho _ (List.mem_cons_self ..))
        subst ho'
        rw [if_pos rfl, ih h.2 _ (Or.inr hne)]
        constructor
        · rintro (h' | h')
          · right; simp only [Spec.mergeInto, Option.some.injEq] at h'; simp [h']
          · right; exact List.mem_cons_of_mem _ h'
        · rintro (h' | h')
          · cases h'
          · rcases List.mem_cons.1 h' with e | e
            · cases e; left; rfl
            · exact absurd rfl (hne _ e)
      · rw [if_neg hk, ih h.2 o (by
          rcases ho with ho | ho
          · exact Or.inl ho
          · exact Or.inr fun t ht => ho t (List.mem_cons_of_mem _ ht))]
        simp [Ne.symm hk]
  have := key none (Or.inl rfl)
  simpa [combinedFrom] using this

end Lil
end GBTL

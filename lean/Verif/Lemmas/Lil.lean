import Verif.Lemmas.Vec
namespace GBTL
namespace Lil
variable {α β : Type}

theorem setElementMerge_spec {A : Lil α} (hA : A.WF) {i j : Nat} (hi : i < A.nrows)
    (hj : j < A.ncols) (x : α) (merge : α → α → α) :
    ∃ B, A.setElementMerge i j x merge = (.ok (), B) ∧ B.WF ∧ B.nrows = A.nrows ∧
      B.ncols = A.ncols ∧
      ∀ k l, B.get k l = if k = i ∧ l = j then
        some (match A.get i j with | some y => merge y x | none => x) else A.get k l := by
  have hi' : i < A.rows.length := by rw [hA.len]; exact hi
  have hr := hA.toWFr.rowD_ok i
  obtain ⟨s1, s2, s3, s4⟩ := Row.insertMerge_spec merge hr.sorted j x
  have hok := Row.insertMerge_ok merge hr hj x
  unfold setElementMerge
  rw [if_neg (by omega), row_ok hi']
  refine ⟨_, rfl, ⟨hA.toWFr.set hok rfl rfl rfl, ?_⟩, rfl, rfl, ?_⟩
  · have h1 := len_sum_set A.rows i ((A.rowD i).insertMerge merge j x).1 hi'
    simp only
    rw [rowD_of_lt hi'] at *
    rw [s4] at h1
    rw [s3, hA.count]
    split <;> simp_all <;> omega
  · intro k l
    rw [get_set hi' rfl]
    by_cases hk : k = i
    · subst hk
      simp only [if_true, true_and]
      rw [s2 l]; rfl
    · simp [hk]

theorem setElement_spec {A : Lil α} (hA : A.WF) {i j : Nat} (hi : i < A.nrows)
    (hj : j < A.ncols) (x : α) :
    ∃ B, A.setElement i j x = (.ok (), B) ∧ B.WF ∧ B.nrows = A.nrows ∧
      B.ncols = A.ncols ∧
      ∀ k l, B.get k l = if k = i ∧ l = j then some x else A.get k l := by
  obtain ⟨B, h1, h2, h3, h4, h5⟩ := setElementMerge_spec hA hi hj x fun _ new => new
  refine ⟨B, h1, h2, h3, h4, ?_⟩
  intro k l
  rw [h5]
  cases A.get i j <;> rfl

theorem removeElement_spec {A : Lil α} (hA : A.WF) {i j : Nat} (hi : i < A.nrows)
    (hj : j < A.ncols) :
    ∃ B, A.removeElement i j = (.ok (), B) ∧ B.WF ∧ B.nrows = A.nrows ∧
      B.ncols = A.ncols ∧
      ∀ k l, B.get k l = if k = i ∧ l = j then none else A.get k l := by
  have hi' : i < A.rows.length := by rw [hA.len]; exact hi
  have hr := hA.toWFr.rowD_ok i
  obtain ⟨s1, s2, s3, s4⟩ := Row.erase_spec hr.sorted j
  have hok := Row.erase_ok hr j
  unfold removeElement
  rw [if_neg (by omega), row_ok hi']
  refine ⟨_, rfl, ⟨hA.toWFr.set hok rfl rfl rfl, ?_⟩, rfl, rfl, ?_⟩
  · have h1 := len_sum_set A.rows i ((A.rowD i).erase j).1 hi'
    have h2 := length_le_sum A.rows i hi'
    simp only
    rw [rowD_of_lt hi'] at *
    rw [s3, hA.count]
    split <;> simp_all <;> omega
  · intro k l
    rw [get_set hi' rfl]
    by_cases hk : k = i
    · subst hk
      simp only [if_true, true_and]
      rw [s2 l]; rfl
    · simp [hk]

theorem hasElement_spec {A : Lil α} (hA : A.WFr) {i j : Nat} (hi : i < A.nrows) (hj : j < A.ncols) :
    A.hasElement i j = .ok (A.get i j).isSome := by
  have hi' : i < A.rows.length := by rw [hA.len]; exact hi
  have hne : A.rows.isEmpty = false := by
    cases h : A.rows with
    | nil => simp [h] at hi'
    | cons a l => rfl
  unfold hasElement
  rw [if_neg (by omega), hne, row_ok hi']
  simp only [Bool.false_eq_true, if_false, Lil.get]
  split
  · next h => rw [List.isEmpty_iff.1 h]; rfl
  · rw [Row.has_eq]

theorem extractElement_spec {A : Lil α} (hA : A.WFr) {i j : Nat} (hi : i < A.nrows)
    (hj : j < A.ncols) :
    A.extractElement i j = match A.get i j with | some x => .ok x | none => .error .noValue := by
  have hi' : i < A.rows.length := by rw [hA.len]; exact hi
  have hne : A.rows.isEmpty = false := by
    cases h : A.rows with
    | nil => simp [h] at hi'
    | cons a l => rfl
  unfold extractElement
  rw [if_neg (by omega), hne, row_ok hi']
  simp only [Bool.false_eq_true, if_false, Lil.get]
  split
  · next h => rw [List.isEmpty_iff.1 h]; rfl
  · rw [Row.extract_eq]; cases (A.rowD i).get j <;> rfl

theorem takeWhile_spec {r : Row α} (hr : r.Sorted) (n : Nat) :
    Row.OK n (r.takeWhile fun p => p.1 < n) ∧
    ∀ j, Row.get (r.takeWhile fun p => p.1 < n) j = if j < n then r.get j else none := by
  induction r with
  | nil => exact ⟨Row.OK.nil, fun j => by simp⟩
  | cons p r ih =>
    obtain ⟨k, x⟩ := p
    rw [Row.sorted_cons] at hr
    obtain ⟨ih1, ih2⟩ := ih hr.2
    rw [List.takeWhile_cons]
    by_cases hk : k < n
    · simp only [hk, decide_true, if_true]
      refine ⟨?_, ?_⟩
      · rw [Row.ok_cons]
        exact ⟨hk, fun q hq => hr.1 q (List.takeWhile_prefix _ |>.subset hq), ih1⟩
      · intro j
        rw [Row.get_cons, Row.get_cons, ih2]
        by_cases h : k = j
        · subst h; simp [hk]
        · simp [h]
    · simp only [hk, decide_false, Bool.false_eq_true, if_false]
      refine ⟨Row.OK.nil, ?_⟩
      intro j
      split
      · rw [Row.get_nil, Row.get_none_of_lt]
        intro q hq
        rcases List.mem_cons.1 hq with rfl | hq
        · simp only; omega
        · have := hr.1 q hq; simp only at this; omega
      · rfl

theorem foldl_sub (l : List (Row α)) (f : Row α → Row α) (hf : ∀ r ∈ l, (f r).length ≤ r.length)
    (nv extra : Nat) (h : nv = (l.map List.length).sum + extra) :
    l.foldl (fun nv r => nv - (r.length - (f r).length)) nv
      = ((l.map f).map List.length).sum + extra := by
  induction l generalizing nv extra with
  | nil => simpa using h
  | cons r l ih =>
    have hr := hf r (List.mem_cons_self ..)
    rw [List.foldl_cons, ih (fun s hs => hf s (List.mem_cons_of_mem _ hs)) _
      (extra + (f r).length) (by simp at h; omega)]
    simp; omega

theorem resizeList_get (l : List (Row α)) (m i : Nat) :
    ((resizeList l m [])[i]?).getD [] = if i < m then (l[i]?).getD [] else [] := by
  simp only [resizeList, List.getElem?_append, List.getElem?_take, List.getElem?_replicate,
    List.length_take]
  by_cases h : i < m
  · simp only [h, if_true]
    by_cases h2 : i < l.length
    · have : i < min m l.length := by omega
      simp [this]
    · have e : l[i]? = none := by simp; omega
      have : ¬ i < min m l.length := by omega
      simp only [this, if_false, e]
      split <;> rfl
  · have : ¬ i < min m l.length := by omega
    simp only [this, h, if_false]
    split <;> first | rfl | (exfalso; omega)

theorem resizeBackend_spec {A : Lil α} (hA : A.WF) (m n : Nat) :
    (A.resizeBackend m n).WF ∧ (A.resizeBackend m n).nrows = m ∧
    (A.resizeBackend m n).ncols = n ∧
    ∀ i j, (A.resizeBackend m n).get i j = if i < m ∧ j < n then A.get i j else none := by
  have hlen : (resizeList A.rows m []).length = m := by
    simp [resizeList]; omega
  have hrows : ∀ r ∈ resizeList A.rows m [], Row.OK A.ncols r := by
    intro r hr
    simp only [resizeList, List.mem_append, List.mem_replicate] at hr
    rcases hr with h | ⟨_, rfl⟩
    · exact hA.rowOK _ (List.mem_of_mem_take h)
    · exact Row.OK.nil
  have hnv : (if m < A.nrows then ((resizeList A.rows m []).map List.length).sum else A.nvals)
      = ((resizeList A.rows m []).map List.length).sum := by
    split
    · rfl
    · rw [hA.count]
      simp only [resizeList]
      rw [List.take_of_length_le (by rw [hA.len]; omega)]
      simp
  unfold resizeBackend
  simp only [hnv]
  split
  · next hlt =>
    refine ⟨⟨⟨by simp [hlen], ?_⟩, ?_⟩, rfl, rfl, ?_⟩
    · intro r hr
      simp only [List.mem_map] at hr
      obtain ⟨s, hs, rfl⟩ := hr
      exact (takeWhile_spec (hrows s hs).sorted n).1
    · simp only
      exact foldl_sub (resizeList A.rows m []) (fun r => r.takeWhile fun p => p.1 < n)
        (fun r _ => (List.takeWhile_prefix _).length_le) _ 0 rfl
    · intro i j
      simp only [Lil.get, rowD, List.getElem?_map]
      have hg := resizeList_get A.rows m i
      cases he : (resizeList A.rows m [])[i]? with
      | none =>
        have : ¬ i < m := by
          intro h
          rw [List.getElem?_eq_none_iff, hlen] at he
          omega
        simp [this]
      | some r =>
        have him : i < m := by
          have := (List.getElem?_eq_some_iff.1 he).1; omega
        rw [he] at hg
        simp only [him, if_true, Option.getD_some] at hg
        have hr := hrows r (List.mem_of_getElem? he)
        simp only [Option.map_some, Option.getD_some, him, true_and]
        rw [(takeWhile_spec hr.sorted n).2 j, ← hg]
  · next hge =>
    refine ⟨⟨⟨hlen, ?_⟩, rfl⟩, rfl, rfl, ?_⟩
    · intro r hr
      have := hrows r hr
      exact ⟨this.sorted, fun p hp => by have := this.bound p hp; simp only; omega⟩
    · intro i j
      show Row.get (((resizeList A.rows m [])[i]?).getD []) j = _
      rw [resizeList_get]
      by_cases him : i < m
      · simp only [him, if_true, true_and]
        split
        · rfl
        · exact (hA.toWFr.rowD_ok i).get_none (by omega)
      · simp [him]

theorem WF.nvals_eq {A : Lil α} (hA : A.WF) :
    A.nvals = Spec.Mat.count A.nrows A.ncols A.get := by
  rw [hA.count, sum_length_eq_count hA.toWFr]

end Lil
end GBTL

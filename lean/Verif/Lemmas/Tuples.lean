import Verif.Model.Utils
import Verif.Lemmas.Vec
import Verif.Lemmas.Lil
/-
`extractTuples` into the caller's arrays: a block is written at the front of each array, the
rest is left, and it goes wrong exactly when the block does not fit.
-/
namespace GBTL

variable {α β : Type}

/-- The list `l` with `r` written over it from position `k` on. -/
def put (k : Nat) (r l : List α) : List α := l.take k ++ r ++ l.drop (k + r.length)

theorem put_nil {k : Nat} (l : List α) : put k [] l = l := by simp [put]

theorem put_length {k : Nat} {r l : List α} (h : k + r.length ≤ l.length) : (put k r l).length = l.length := by
  simp [put]; omega

theorem put_set {k : Nat} {r l : List α} {a : α} (h : k < l.length) :
    put (k + 1) r (l.set k a) = put k (a :: r) l := by
  unfold put
  rw [List.drop_set_of_lt (by omega), List.take_set, List.take_succ, List.getElem?_eq_getElem h]
  simp only [Option.toList_some, List.length_cons]
  rw [List.set_append_right _ _ (by simp; omega)]
  simp [Nat.min_eq_left (Nat.le_of_lt h), Nat.add_assoc, Nat.add_comm 1]

theorem put_put {k : Nat} {r s l : List α} (h : k + r.length ≤ l.length) :
    put (k + r.length) s (put k r l) = put k (r ++ s) l := by
  unfold put
  rw [List.take_append_of_le_length (by simp; omega), List.take_of_length_le (by simp; omega)]
  rw [List.drop_append]
  rw [List.drop_of_length_le (by simp; omega)]
  simp only [List.nil_append, List.length_append, List.length_take, List.drop_drop]
  rw [Nat.min_eq_left (by omega), List.append_assoc, List.append_assoc, List.append_assoc, List.append_assoc]
  congr 4
  omega

theorem put_zero_take {r l : List α} : (put 0 r l).take r.length = r := by simp [put]

theorem put_zero_getElem? {r l : List α} {k : Nat} :
    (put 0 r l)[k]? = if k < r.length then r[k]? else l[k]? := by
  unfold put
  simp only [List.take_zero, List.nil_append, Nat.zero_add]
  split
  · rename_i h; rw [List.getElem?_append_left h]
  · rename_i h
    rw [List.getElem?_append_right (by omega), List.getElem?_drop]
    congr 1; omega

theorem put_zero_full {r l : List α} (h : l.length = r.length) : put 0 r l = r := by
  simp [put, ← h]

theorem wr_ub {l : List α} {k : Nat} {a : α} (h : ¬ k < l.length) : wr l k a = .error .ub := by
  rw [wr, if_neg h]

namespace BVec

theorem tuplesLoop_eq (v : BVec α) (c : α → β) : ∀ (l : List Nat) (k : Nat) (is : List Nat) (xs : List β)
    (ts : Row α), contentsLoop v l = .ok ts → k ≤ is.length → k ≤ xs.length →
    tuplesLoop v c l k is xs =
      if k + ts.length ≤ is.length ∧ k + ts.length ≤ xs.length then
        .ok (put k (ts.map fun p => p.1) is, put k (ts.map fun p => c p.2) xs)
      else .error .ub
  | [], k, is, xs, ts, e, h1, h2 => by
    rw [contentsLoop] at e; cases e
    simp [tuplesLoop, h1, h2, put_nil]
  | idx :: l, k, is, xs, ts, e, h1, h2 => by
    rw [contentsLoop] at e
    rw [tuplesLoop]
    cases hb : rd v.bitmap idx with
    | error x => rw [hb, Except.bind_error'] at e; cases e
    | ok b =>
      rw [hb, Except.bind_ok'] at e
      rw [Except.bind_ok']
      cases b with
      | false => exact tuplesLoop_eq v c l k is xs ts e h1 h2
      | true =>
        rw [if_pos rfl] at e ⊢
        cases hx : rd v.vals idx with
        | error x => rw [hx, Except.bind_error'] at e; cases e
        | ok x =>
          rw [hx, Except.bind_ok'] at e
          cases hc : contentsLoop v l with
          | error x => rw [hc, Except.bind_error'] at e; cases e
          | ok rest =>
            rw [hc, Except.bind_ok'] at e
            cases e
            by_cases hi : k < is.length
            · rw [wr_ok hi, Except.bind_ok', Except.bind_ok']
              by_cases hv : k < xs.length
              · rw [wr_ok hv, Except.bind_ok', tuplesLoop_eq v c l (k + 1) _ _ rest hc (by simp; omega) (by simp; omega)]
                simp only [List.length_set, List.length_cons, List.map_cons, put_set hi, put_set hv]
                rw [show k + 1 + rest.length = k + (rest.length + 1) by omega]
              · rw [wr_ub hv, Except.bind_error', if_neg]
                simp; omega
            · rw [wr_ub hi, Except.bind_error', if_neg]
              simp; omega

theorem tuplesInto_eq {v : BVec α} {ts : Row α} (c : α → β) (e : v.extractTuples = .ok ts) (is : List Nat) (xs : List β) :
    v.tuplesInto c is xs =
      if ts.length ≤ is.length ∧ ts.length ≤ xs.length then
        .ok (put 0 (ts.map fun p => p.1) is, put 0 (ts.map fun p => c p.2) xs)
      else .error .ub := by
  rw [tuplesInto, tuplesLoop_eq v c _ 0 is xs ts e (by omega) (by omega)]
  simp only [Nat.zero_add]

end BVec

namespace Lil

theorem tuplesRow_eq (c : α → β) (i : Nat) : ∀ (r : Row α) (k : Nat) (is js : List Nat) (xs : List β),
    k ≤ is.length → k ≤ js.length → k ≤ xs.length →
    tuplesRow c i r k is js xs =
      if k + r.length ≤ is.length ∧ k + r.length ≤ js.length ∧ k + r.length ≤ xs.length then
        .ok (k + r.length, put k (r.map fun _ => i) is, put k (r.map fun p => p.1) js, put k (r.map fun p => c p.2) xs)
      else .error .ub
  | [], k, is, js, xs, h1, h2, h3 => by simp [tuplesRow, h1, h2, h3, put_nil]
  | (j, x) :: r, k, is, js, xs, h1, h2, h3 => by
    rw [tuplesRow]
    by_cases hi : k < is.length
    · rw [wr_ok hi, Except.bind_ok']
      by_cases hj : k < js.length
      · rw [wr_ok hj, Except.bind_ok']
        by_cases hx : k < xs.length
        · rw [wr_ok hx, Except.bind_ok', tuplesRow_eq c i r (k + 1) _ _ _ (by simp; omega) (by simp; omega) (by simp; omega)]
          simp only [List.length_set, List.length_cons, List.map_cons, put_set hi, put_set hj, put_set hx]
          rw [show k + 1 + r.length = k + (r.length + 1) by omega]
        · rw [wr_ub hx, Except.bind_error', if_neg]
          simp; omega
      · rw [wr_ub hj, Except.bind_error', if_neg]
        simp; omega
    · rw [wr_ub hi, Except.bind_error', if_neg]
      simp; omega

/-- The tuples of the rows `l`. -/
def tuplesOf (A : Lil α) (l : List Nat) : List (Nat × Nat × α) :=
  (l.map fun i => (A.rows[i]?.getD []).map fun q => (i, q.1, q.2)).flatten

theorem tuplesRows_eq (A : Lil α) (c : α → β) : ∀ (l : List Nat) (k : Nat) (is js : List Nat) (xs : List β),
    (∀ i ∈ l, i < A.rows.length) → k ≤ is.length → k ≤ js.length → k ≤ xs.length →
    tuplesRows A c l k is js xs =
      if k + (A.tuplesOf l).length ≤ is.length ∧ k + (A.tuplesOf l).length ≤ js.length ∧
          k + (A.tuplesOf l).length ≤ xs.length then
        .ok (put k ((A.tuplesOf l).map fun t => t.1) is, put k ((A.tuplesOf l).map fun t => t.2.1) js,
          put k ((A.tuplesOf l).map fun t => c t.2.2) xs)
      else .error .ub
  | [], k, is, js, xs, _, h1, h2, h3 => by simp [tuplesRows, tuplesOf, h1, h2, h3, put_nil]
  | i :: l, k, is, js, xs, hl, h1, h2, h3 => by
    have hi := hl i (List.mem_cons_self ..)
    have ec : A.tuplesOf (i :: l) = (A.rows[i].map fun q => (i, q.1, q.2)) ++ A.tuplesOf l := by
      simp [tuplesOf, List.getElem?_eq_getElem hi]
    rw [tuplesRows, rd_ok hi, Except.bind_ok', tuplesRow_eq c i _ k is js xs h1 h2 h3, ec]
    simp only [List.length_append, List.length_map, List.map_append, List.map_map]
    by_cases h : k + A.rows[i].length ≤ is.length ∧ k + A.rows[i].length ≤ js.length ∧ k + A.rows[i].length ≤ xs.length
    · obtain ⟨g1, g2, g3⟩ := h
      rw [if_pos ⟨g1, g2, g3⟩, Except.bind_ok']
      simp only
      have l1 := put_length (k := k) (r := A.rows[i].map fun _ => i) (l := is) (by simpa using g1)
      have l2 := put_length (k := k) (r := A.rows[i].map fun p => p.1) (l := js) (by simpa using g2)
      have l3 := put_length (k := k) (r := A.rows[i].map fun p => c p.2) (l := xs) (by simpa using g3)
      rw [tuplesRows_eq A c l _ _ _ _ (fun i' hi' => hl i' (List.mem_cons_of_mem _ hi'))
        (by rw [l1]; omega) (by rw [l2]; omega) (by rw [l3]; omega), l1, l2, l3, Nat.add_assoc]
      have p1 := put_put (k := k) (r := A.rows[i].map fun _ => i) (s := (A.tuplesOf l).map fun t => t.1) (l := is) (by simpa using g1)
      have p2 := put_put (k := k) (r := A.rows[i].map fun p => p.1) (s := (A.tuplesOf l).map fun t => t.2.1) (l := js) (by simpa using g2)
      have p3 := put_put (k := k) (r := A.rows[i].map fun p => c p.2) (s := (A.tuplesOf l).map fun t => c t.2.2) (l := xs) (by simpa using g3)
      simp only [List.length_map] at p1 p2 p3
      rw [p1, p2, p3]
      rfl
    · rw [if_neg h, Except.bind_error', if_neg]
      omega

theorem tuplesOf_range (A : Lil α) : A.tuplesOf (List.range A.rows.length) = A.extractTuples := by
  unfold tuplesOf extractTuples
  congr 1
  apply List.ext_getElem
  · simp
  · intro n h1 h2
    simp at h1
    simp [h1]

theorem tuplesInto_eq (A : Lil α) (c : α → β) (is js : List Nat) (xs : List β) :
    A.tuplesInto c is js xs =
      if A.extractTuples.length ≤ is.length ∧ A.extractTuples.length ≤ js.length ∧
          A.extractTuples.length ≤ xs.length then
        .ok (put 0 (A.extractTuples.map fun t => t.1) is, put 0 (A.extractTuples.map fun t => t.2.1) js,
          put 0 (A.extractTuples.map fun t => c t.2.2) xs)
      else .error .ub := by
  rw [tuplesInto, tuplesRows_eq A c _ 0 is js xs (by simp) (by omega) (by omega) (by omega), tuplesOf_range]
  simp only [Nat.zero_add]

end Lil

/-! ### arrays of exactly `nvals()` elements -/

theorem vecTuples_eq [Inhabited α] {v : BVec α} {ts : Row α} (e : v.extractTuples = .ok ts)
    (hl : ts.length = v.nvals) : vecTuples v = .ok ts := by
  rw [vecTuples, BVec.tuplesInto_eq id e, if_pos (by simp [hl]), Except.bind_ok']
  simp only
  rw [put_zero_full (by simp [hl]), put_zero_full (by simp [hl])]
  congr 1
  rw [List.zip_map']; simp

theorem matTuples_eq [Inhabited α] {A : Lil α} (hl : A.extractTuples.length = A.nvals) :
    matTuples A = .ok A.extractTuples := by
  rw [matTuples, Lil.tuplesInto_eq, if_pos (by simp [hl]), Except.bind_ok']
  simp only
  rw [put_zero_full (by simp [hl]), put_zero_full (by simp [hl]), put_zero_full (by simp [hl])]
  congr 1
  rw [List.zip_map', List.zip_map']; simp

end GBTL

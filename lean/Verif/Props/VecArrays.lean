import Verif.Model.VecArrays
import Verif.Props.Containers
/-
C42: the backend's constructor of a vector from arrays of indices and values.
-/
namespace GBTL
variable {α : Type}

theorem ofArraysLoop_eq (is : List Nat) (xs : List α) (v : BVec α) (hl : is.length ≤ xs.length) (hv : v.vals.length = v.size)
    (hb : v.bitmap.length = v.size) :
    BVec.ofArraysLoop is xs v = match BVec.buildLoop v.size (fun _ b => b) (is.zip xs) v.vals v.bitmap with
      | .ok (vals, bitmap) => .ok { v with vals := vals, bitmap := bitmap, nvals := v.nvals + is.length }
      | .error _ => .error .dimension := by
  induction is generalizing xs v with
  | nil => simp [BVec.ofArraysLoop, BVec.buildLoop]
  | cons i is ih =>
    cases xs with
    | nil => simp at hl
    | cons x xs =>
      rw [List.zip_cons_cons]
      unfold BVec.ofArraysLoop BVec.buildLoop
      by_cases h : v.size ≤ i
      · rw [if_pos h, if_pos h]
      · have h1 : i < v.vals.length := by omega
        have h2 : i < v.bitmap.length := by omega
        rw [if_neg h, if_neg h, rd_ok h2]
        simp only [wr_ok h1, wr_ok h2, Except.bind_ok', rd_ok h1]
        have key := ih xs { v with vals := v.vals.set i x, bitmap := v.bitmap.set i true, nvals := v.nvals + 1 }
          (by simpa using hl) (by simpa using hv) (by simpa using hb)
        show BVec.ofArraysLoop is xs { v with vals := v.vals.set i x, bitmap := v.bitmap.set i true, nvals := v.nvals + 1 } = _
        rw [key]
        have hset : v.bitmap[i] = true → v.bitmap.set i true = v.bitmap := fun hc => by
          rw [← hc]; exact List.set_getElem_self h2
        cases hc : v.bitmap[i] with
        | true => simp only [hset hc, if_true, List.length_cons, Nat.add_assoc, Nat.add_comm 1]
        | false => simp only [Bool.false_eq_true, if_false, List.length_cons, Nat.add_assoc, Nat.add_comm 1]

/-- **C42** With as many values as indices, all below the size, the vector holds at each position the last of the values given for it.
Missing from the full statement: the number of elements when an index is repeated. -/
theorem C42_vector_arrays_partial [Inhabited α] (n : Nat) (is : List Nat) (xs : List α) (hl : is.length ≤ xs.length)
    (hi : ∀ i ∈ is, i < n) :
    ∃ v, BVec.ofArrays n is xs = .ok v ∧ v.size = n ∧ (∀ i, v.get i = Spec.combined (fun _ b => b) (is.zip xs) i) ∧ v.nvals = is.length ∧
      (is.Nodup → v.WF) := by
  have e := ofArraysLoop_eq is xs { size := n, nvals := 0, vals := List.replicate n default, bitmap := List.replicate n false } hl
    (by simp) (by simp)
  have hf : (is.zip xs).map Prod.fst = is := List.map_fst_zip hl
  obtain ⟨w, e', hs, hg, hn, hw⟩ := C03_vector_build_partial
    ({ size := n, nvals := 0, vals := List.replicate n default, bitmap := List.replicate n false } : BVec α) (fun _ b => b) (is.zip xs)
    (fun t ht => hi _ (hf ▸ List.mem_map_of_mem ht))
  unfold BVec.build at e'
  unfold BVec.ofArrays
  rw [e]
  revert e'
  dsimp only
  cases BVec.buildLoop n (fun _ b => b) (is.zip xs) (List.replicate n default) (List.replicate n false) with
  | error er => intro e'; simp at e'
  | ok r =>
    intro e'
    have e' := (Prod.mk.injEq .. ▸ e').2
    have hz : (is.zip xs).length = is.length := by rw [← List.length_map (f := Prod.fst), hf]
    refine ⟨w, ?_, hs, hg, hn.trans hz, fun h => (hw (by rw [hf]; exact h)).1⟩
    rw [← e']
    simp only [hz, Nat.zero_add]

/-- **C42** An index that is too large makes it throw. -/
theorem C42_vector_arrays_out_of_range [Inhabited α] (n : Nat) (is : List Nat) (xs : List α) (hl : is.length ≤ xs.length)
    (hi : ∃ i ∈ is, n ≤ i) : BVec.ofArrays n is xs = .error .dimension := by
  have e := ofArraysLoop_eq is xs { size := n, nvals := 0, vals := List.replicate n default, bitmap := List.replicate n false } hl
    (by simp) (by simp)
  unfold BVec.ofArrays
  rw [e]
  obtain ⟨i, h1, h2⟩ := hi
  have hf : (is.zip xs).map Prod.fst = is := List.map_fst_zip hl
  obtain ⟨t, ht, rfl⟩ := List.mem_map.1 (hf.symm ▸ h1)
  rw [BVec.buildLoop_oob _ _ _ _ _ (by simp) (by simp) ⟨t, ht, h2⟩]

/-- **C42** A repeated index is counted twice, and the vector is inconsistent; fewer values than indices are read beyond their end. -/
theorem C42_vector_arrays_wrong : ∃ v : BVec Nat, BVec.ofArrays 3 [1, 1] [5, 6] = .ok v ∧ v.get 1 = some 6 ∧ v.nvals = 2 ∧
    Spec.Vec.count v.size v.get = 1 ∧ BVec.ofArrays 3 [1, 2] [(5 : Nat)] = .error .ub :=
  ⟨⟨3, 2, [0, 6, 0], [false, true, false]⟩, by decide +kernel⟩

example : BVec.ofArrays 3 [2, 0] [5, 6] = .ok (⟨3, 2, [6, 0, 5], [true, false, true]⟩ : BVec Nat) := by decide +kernel

end GBTL

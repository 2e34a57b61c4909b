import Verif.Lemmas.Refuse
import Verif.Lemmas.Safety
import Verif.Props.Containers
import Verif.Props.FordFulk
import Verif.Model.BetweennessV
/-
More rules for runs that end with a result or with an exception.
-/
namespace GBTL
open Spec (Outp MaskKind Accum)

variable {α γ τ ζ μ σ ρ : Type}

theorem reduceMS_ends {castZ : ζ → γ} {acc : Accum γ τ ζ} {r : RedOp α τ} {e : τ} {val : γ} {A : Lil α}
    (hA : A.WF) : Ends (exec (reduceMS castZ acc r e val (.plain A))) fun _ => True := by
  have h : Returns (reduceMat r.op r.op' r.opT r.first e A) fun _ => True := by
    rw [reduceMat]
    split
    · refine forN_returns _ trivial fun i t hi _ => ?_
      have hl : i < A.rows.length := by rw [hA.len]; exact hi
      have : A.row i = .ok A.rows[i] := by rw [Lil.row, rd_ok hl]
      rw [this]
      show Returns (if _ then _ else _) _
      split <;> trivial
    · trivial
  obtain ⟨x, hx, -⟩ := h.ex
  rw [reduceMS, hx]
  trivial

/-- A tuple out of range makes `build` throw. -/
theorem build_throws {A : Lil α} (hA : A.WF) (dup : α → α → α) (ts : List (Nat × Nat × α))
    (h : ∃ t, t ∈ ts ∧ ¬ (t.1 < A.nrows ∧ t.2.1 < A.ncols)) :
    ∃ B, A.build dup ts = (.error .indexOutOfBounds, B) := by
  obtain ⟨pre, bad, post, rfl, hp, hb⟩ : ∃ pre bad post, ts = pre ++ bad :: post ∧
      (∀ t ∈ pre, t.1 < A.nrows ∧ t.2.1 < A.ncols) ∧ ¬ (bad.1 < A.nrows ∧ bad.2.1 < A.ncols) := by
    induction ts with
    | nil => obtain ⟨t, ht, -⟩ := h; cases ht
    | cons a ts ih =>
      by_cases ha : a.1 < A.nrows ∧ a.2.1 < A.ncols
      · obtain ⟨pre, bad, post, e, hp, hb⟩ := ih (by
          obtain ⟨t, ht, hn⟩ := h
          rcases List.mem_cons.1 ht with rfl | ht
          · exact (hn ha).elim
          · exact ⟨t, ht, hn⟩)
        refine ⟨a :: pre, bad, post, by rw [e]; rfl, ?_, hb⟩
        intro t ht
        rcases List.mem_cons.1 ht with rfl | ht
        · exact ha
        · exact hp t ht
      · exact ⟨[], a, ts, rfl, by simp, ha⟩
  obtain ⟨B, e, -⟩ := C04_matrix_build_out_of_range A hA dup pre post bad hp (by omega)
  exact ⟨B, e⟩

theorem bcBuild_ends_rows {n p : Nat} {s : List Nat} (h : ∃ v, v ∈ s ∧ ¬ v < n) :
    Ends (bcBuild n p s (List.range s.length)) fun _ => False := by
  obtain ⟨v, hv, hn⟩ := h
  obtain ⟨k, hk, rfl⟩ := List.mem_iff_getElem.1 hv
  obtain ⟨B, e⟩ := build_throws (Lil.new_wf n p (α := Int)) (fun _ y => y)
    (s.zip ((List.range s.length).zip (List.replicate s.length 1)))
    ⟨(s[k], k, 1), List.mem_iff_getElem.2 ⟨k, by simpa using hk, by simp⟩, fun h => hn h.1⟩
  rw [bcBuild, Lil.buildArrays, if_neg (by simp), e]
  exact Ends.err (by simp)

theorem bcBuild_ends_cols {n p : Nat} {s : List Nat} (h : ∃ v, v ∈ s ∧ ¬ v < n) :
    Ends (bcBuild p n (List.range s.length) s) fun _ => False := by
  obtain ⟨v, hv, hn⟩ := h
  obtain ⟨k, hk, rfl⟩ := List.mem_iff_getElem.1 hv
  obtain ⟨B, e⟩ := build_throws (Lil.new_wf p n (α := Int)) (fun _ y => y)
    ((List.range s.length).zip (s.zip (List.replicate s.length 1)))
    ⟨(k, s[k], 1), List.mem_iff_getElem.2 ⟨k, by simpa using hk, by simp⟩, fun h => hn h.2⟩
  rw [bcBuild, Lil.buildArrays, if_neg (by simp), List.length_range, e]
  exact Ends.err (by simp)

theorem BVec.hasElement_ends {v : BVec α} (hv : v.WF) (i : Nat) :
    Ends (lift (v.hasElement i)) fun b => b = (v.get i).isSome ∧ i < v.size := by
  by_cases h : i < v.size
  · rw [BVec.hasElement_spec hv h]
    exact ⟨rfl, h⟩
  · rw [BVec.hasElement, if_pos (by omega)]
    exact Ends.err (by simp)

end GBTL

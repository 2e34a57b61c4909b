import Verif.Lemmas.Alloc
/-
Matrices when memory runs out: the methods, and writing row by row.
-/
namespace GBTL
open Spec (Outp MaskKind Op)
open Act (call lib output store)

variable {α β γ ζ τ μ χ σ : Type}

namespace Lil

/-- The matrix with another row `i` and another counter. -/
def put (A : Lil α) (i : Nat) (r : Row α) (k : Nat) : Lil α := { A with rows := A.rows.set i r, nvals := k }

theorem put_row {A : Lil α} {i : Nat} (h : i < A.rows.length) (r : Row α) (k : Nat) :
    (A.put i r k).row i = .ok r := by
  show rd (A.rows.set i r) i = _
  rw [rd_ok (by simpa using h)]; simp

theorem put_put (A : Lil α) (i : Nat) (r r' : Row α) (k k' : Nat) :
    (A.put i r k).put i r' k' = A.put i r' k' := by
  simp [put]

theorem pushAllL_runs {A : Lil α} {i : Nat} (h : i < A.rows.length) (cast : β → α) (k : Nat)
    {F : Lil α → Prop} : ∀ (r : Row β) (r0 : Row α),
    (∀ l, l < r.length → F (A.put i (r0 ++ (r.cast cast).take l) k)) →
    Runs (pushAllL i cast r) (A.put i r0 k) (.ok ()) (A.put i (r0 ++ r.cast cast) k) F
  | [], r0, _ => by
    rw [show r0 ++ Row.cast cast ([] : Row β) = r0 by simp [Row.cast]]
    exact Runs.pure () (A.put i r0 k)
  | (j, x) :: r, r0, hF => by
    rw [pushAllL]
    refine Runs.bind (s1 := A.put i (r0 ++ [(j, cast x)]) k) (a := ()) ?_ ?_
    · refine (Runs.request ?_).bind ((Runs.output _).bind ?_)
      · simpa using hF 0 (by simp)
      · have e := put_row h r0 k
        refine Runs.bind (a := r0) (s1 := A.put i r0 k) (Runs.lib_of e _) ?_
        have : ({ A.put i r0 k with rows := (A.put i r0 k).rows.set i (r0 ++ [(j, cast x)]) } : Lil α)
            = A.put i (r0 ++ [(j, cast x)]) k := put_put A i r0 (r0 ++ [(j, cast x)]) k k
        rw [this]
        exact Runs.store _ _
    · have := pushAllL_runs h cast k (F := F) r (r0 ++ [(j, cast x)]) (by
        intro l hl
        have := hF (l + 1) (by simpa using hl)
        simpa [Row.cast] using this)
      simpa [Row.cast] using this

/-- The copying `setRow`: the counter is right only at the end. -/
theorem setRowL_runs {A : Lil α} {i : Nat} (h : i < A.rows.length) (cast : β → α) (r : Row β)
    {F : Lil α → Prop}
    (hF : ∀ l, l < r.length →
      F (A.put i ((r.cast cast).take l) (A.nvals + r.length - (A.rowD i).length))) :
    Runs (setRowL i cast r) A (.ok ())
      (A.put i (r.cast cast) (A.nvals + r.length - (A.rowD i).length)) F := by
  refine (Runs.output _).bind (Runs.bind (Runs.lib_of (row_ok h) _) ?_)
  refine Runs.bind (s1 := A.put i [] (A.nvals + r.length - (A.rowD i).length)) (Runs.store _ _) ?_
  simpa using pushAllL_runs h cast _ r [] (by simpa using hF)

theorem setRow_put {A A' : Lil α} {i : Nat} {cast : β → α} {r : Row β} (e : A.setRow i cast r = .ok A') :
    i < A.rows.length ∧ A' = A.put i (r.cast cast) (A.nvals + r.length - (A.rowD i).length) := by
  by_cases h : i < A.rows.length
  · refine ⟨h, ?_⟩
    rw [setRow, row_ok h] at e
    simp only [Except.bind_ok', wr_ok h] at e
    cases e; rfl
  · rw [setRow, row, rd, List.getElem?_eq_none (by omega)] at e
    cases e

theorem setElementMergeL_runs (A : Lil α) (i j : Nat) (x : α) (merge : α → α → α) :
    Runs (setElementMergeL i j x merge) A (A.setElementMerge i j x merge).1
      (A.setElementMerge i j x merge).2 (· = A) := by
  refine (Runs.output _).bind ?_
  unfold setElementMerge
  split
  · exact Runs.lib _ _
  · cases hr : A.row i with
    | error e => exact Runs.bind_err (Runs.lib _ _)
    | ok r =>
      refine (Runs.lib _ _).bind ?_
      dsimp only
      cases hp : (r.insertMerge merge j x).2 with
      | true =>
        rw [if_pos rfl, if_pos rfl]
        exact Runs.bind (s1 := A) (Runs.request rfl) (Runs.store _ _)
      | false =>
        rw [if_neg (by decide), if_neg (by decide)]
        exact Runs.store _ _

theorem buildL_runs (dup : α → α → α) : ∀ (ts : List (Nat × Nat × α)) (A : Lil α),
    Runs (buildL dup ts) A (A.build dup ts).1 (A.build dup ts).2
      fun c => ∃ k, k < ts.length ∧ A.build dup (ts.take k) = (.ok (), c)
  | [], A => Runs.pure () A
  | (i, j, x) :: ts, A => by
    have h := setElementMergeL_runs A i j x dup
    rw [buildL, build]
    rcases e : A.setElementMerge i j x dup with ⟨res, A'⟩
    rw [e] at h
    cases res with
    | error er =>
      exact Runs.bind_err (h.mono fun c hc => ⟨0, by simp, by rw [hc]; rfl⟩)
    | ok u =>
      refine Runs.bind (h.mono fun c hc => ⟨0, by simp, by rw [hc]; rfl⟩) ?_
      refine (buildL_runs dup ts A').mono fun c ⟨k, hk, e'⟩ => ⟨k + 1, by simpa using hk, ?_⟩
      rw [List.take_succ_cons, build, e]
      exact e'

theorem resizeL_runs (A : Lil α) (m n : Nat) :
    Runs (resizeL m n) A (A.resize m n).1 (A.resize m n).2 (· = A) := by
  refine (Runs.output _).bind ?_
  unfold resize
  split
  · exact Runs.lib _ _
  · exact Runs.bind (s1 := A) (a := ()) (Runs.when (by rfl) _) (Runs.store _ _)

theorem copyRowsL_runs {F : Lil α → Prop} : ∀ (rs : List (Row α)) (i : Nat) (A : Lil α),
    i + rs.length = A.rows.length →
    (∀ l, l < rs.length → F { A with rows := A.rows.take i ++ rs.take l ++ A.rows.drop (i + l) }) →
    Runs (copyRowsL i rs) A (.ok ()) { A with rows := A.rows.take i ++ rs } F
  | [], i, A, h, _ => by
    have : A.rows.take i ++ [] = A.rows := by
      rw [List.append_nil, List.take_of_length_le (by simp at h; omega)]
    rw [this]; exact Runs.pure () A
  | r :: rs, i, A, h, hF => by
    have hi : i < A.rows.length := by simp at h; omega
    rw [copyRowsL]
    refine (Runs.request ?_).bind ((Runs.output _).bind ((Runs.store _ _).bind ?_))
    · simpa using hF 0 (by simp)
    · have ht : (A.rows.set i r).take (i + 1) = A.rows.take i ++ [r] := by
        rw [List.take_add_one, List.take_set_of_le (Nat.le_refl i), List.getElem?_set_self hi]; rfl
      have := copyRowsL_runs (F := F) rs (i + 1) { A with rows := A.rows.set i r } (by
        simp at h ⊢; omega) (by
        intro l hl
        have := hF (l + 1) (by simpa using hl)
        dsimp only
        rw [ht, List.drop_set_of_lt (by omega)]
        simpa [Nat.add_assoc, Nat.add_comm 1 l] using this)
      dsimp only at this
      rw [ht] at this
      simpa using this

theorem assignFromL_runs (A rhs : Lil α) (h : A.rows.length = A.nrows) (hr : rhs.rows.length = rhs.nrows) :
    Runs (assignFromL rhs) A (A.assignFrom rhs).1 (A.assignFrom rhs).2 fun c =>
      ∃ k, k < rhs.nrows ∧
        c = { A with nvals := rhs.nvals, rows := rhs.rows.take k ++ A.rows.drop k } := by
  refine (Runs.output _).bind ?_
  unfold assignFrom
  split
  · exact Runs.lib _ _
  · next hs =>
    refine (Runs.store _ _).bind ?_
    have := copyRowsL_runs (F := fun c => ∃ k, k < rhs.nrows ∧
        c = { A with nvals := rhs.nvals, rows := rhs.rows.take k ++ A.rows.drop k }) rhs.rows 0
      { A with nvals := rhs.nvals } (by simp; omega) (by
        intro l hl
        exact ⟨l, by omega, by simp⟩)
    simpa using this

/-! ### Row by row -/

/-- From `s` to `t` only row `i` changes, to `r`. -/
structure Step (s t : Lil α) (i : Nat) (r : Row α) : Prop where
  lt : i < s.rows.length
  nrows : t.nrows = s.nrows
  ncols : t.ncols = s.ncols
  rows : t.rows = s.rows.set i r
  count : ∀ d, s.nvals = s.stored + d → t.nvals = t.stored + d

theorem stored_put {A : Lil α} {i : Nat} (h : i < A.rows.length) (r : Row α) (k : Nat) :
    (A.put i r k).stored + (A.rowD i).length = A.stored + r.length := by
  have : ∀ (l : List (Row α)) (i : Nat) (h : i < l.length),
      ((l.set i r).map List.length).sum + l[i].length = (l.map List.length).sum + r.length := by
    intro l
    induction l with
    | nil => intro i h; simp at h
    | cons a l ih =>
      intro i h
      cases i with
      | zero => simp; omega
      | succ i =>
        have := ih i (by simpa using h)
        simp only [List.set_cons_succ, List.map_cons, List.sum_cons, List.getElem_cons_succ]
        omega
  rw [rowD_of_lt h]
  exact this A.rows i h

theorem Step.ofPut {A : Lil α} {i : Nat} (h : i < A.rows.length) (r : Row α) :
    Step A (A.put i r (A.nvals + r.length - (A.rowD i).length)) i r := by
  refine ⟨h, rfl, rfl, rfl, fun d e => ?_⟩
  have := stored_put h r (A.nvals + r.length - (A.rowD i).length)
  show A.nvals + r.length - (A.rowD i).length = _
  omega

/-- Rows `0, 1, ...` change one after the other. -/
def Chain (S : Nat → Lil α) (new : Nat → Row α) (k n : Nat) : Prop :=
  ∀ i, k ≤ i → i < k + n → Step (S i) (S (i + 1)) i (new i)

theorem Step.rowD {s t : Lil α} {i : Nat} {r : Row α} (h : Step s t i r) (j : Nat) :
    t.rowD j = if j = i then r else s.rowD j := rowD_set h.lt h.rows

namespace Chain
variable {S : Nat → Lil α} {new : Nat → Row α} {k n : Nat}

theorem upTo (h : Chain S new k n) {l : Nat} (hl : l ≤ n) : Chain S new k l :=
  fun i h1 h2 => h i h1 (by omega)

theorem shape (h : Chain S new k n) : (S (k + n)).nrows = (S k).nrows ∧ (S (k + n)).ncols = (S k).ncols ∧
    (S (k + n)).rows.length = (S k).rows.length := by
  induction n with
  | zero => exact ⟨rfl, rfl, rfl⟩
  | succ n ih =>
    have s := h (k + n) (by omega) (by omega)
    obtain ⟨h1, h2, h3⟩ := ih (h.upTo (by omega))
    exact ⟨s.nrows.trans h1, s.ncols.trans h2, by rw [← h3, show k + (n + 1) = k + n + 1 from rfl, s.rows]; simp⟩

theorem countMore (h : Chain S new k n) {d : Nat} (h0 : (S k).nvals = (S k).stored + d) :
    (S (k + n)).nvals = (S (k + n)).stored + d := by
  induction n with
  | zero => exact h0
  | succ n ih => exact (h (k + n) (by omega) (by omega)).count d (ih (h.upTo (by omega)))

theorem count (h : Chain S new k n) (h0 : (S k).nvals = (S k).stored) :
    (S (k + n)).nvals = (S (k + n)).stored := h.countMore (d := 0) h0

theorem rowD (h : Chain S new k n) (j : Nat) :
    (S (k + n)).rowD j = if k ≤ j ∧ j < k + n then new j else (S k).rowD j := by
  induction n with
  | zero => rw [if_neg (by omega)]; rfl
  | succ n ih =>
    rw [show k + (n + 1) = k + n + 1 from rfl, (h (k + n) (by omega) (by omega)).rowD j, ih (h.upTo (by omega))]
    by_cases hj : j = k + n
    · rw [if_pos hj, if_pos (by omega), hj]
    · rw [if_neg hj]
      by_cases hk : k ≤ j ∧ j < k + n
      · rw [if_pos hk, if_pos (by omega)]
      · rw [if_neg hk, if_neg (by omega)]

/-- The matrix in the middle of the chain. -/
theorem mid (h : Chain S new 0 n) {i : Nat} (hi : i ≤ n) (j : Nat) :
    (S i).rowD j = if j < i then (S n).rowD j else (S 0).rowD j := by
  have h1 := (h.upTo hi).rowD j
  have h2 := h.rowD j
  rw [Nat.zero_add] at h1 h2
  rw [h1, h2]
  by_cases hj : j < i
  · rw [if_pos (by omega), if_pos hj, if_pos (by omega)]
  · rw [if_neg (by omega), if_neg hj]

end Chain

/-- The loops of the library that write a matrix row by row, and where they can stop. -/
def Within (S : Nat → Lil α) (new : Nat → Row α) (n : Nat) (c : Lil α) : Prop :=
  ∃ i, i < n ∧ (c = S i ∨ ∃ l, l < (new i).length ∧ c = (S i).put i ((new i).take l) (S (i + 1)).nvals)

theorem Chain.torn {S : Nat → Lil α} {new : Nat → Row α} {n : Nat} (h : Chain S new 0 n)
    (h0 : (S 0).nvals = (S 0).stored) {c : Lil α} (hc : Within S new n c) :
    ∃ i, i < n ∧ Torn (S 0) (S n) c i := by
  obtain ⟨i, hi, hc⟩ := hc
  refine ⟨i, hi, ?_⟩
  have hs := h.shape
  have hsi := (h.upTo (Nat.le_of_lt hi)).shape
  have hct := (h.upTo (Nat.le_of_lt hi)).count h0
  have hct1 := (h.upTo (show i + 1 ≤ n from hi)).count h0
  rw [Nat.zero_add] at hs hsi hct hct1
  have st := h i (by omega) (by omega)
  have hnew : (S n).rowD i = new i := by
    have := h.rowD i
    rw [Nat.zero_add, if_pos (by omega)] at this; exact this
  rcases hc with rfl | ⟨l, hl, rfl⟩
  · refine ⟨by rw [hsi.1, hs.1], by rw [hsi.2.1, hs.2.1], hsi.2.2, ?_, ?_, .inl ⟨?_, hct⟩⟩
    · intro k hk; rw [h.mid (Nat.le_of_lt hi), if_pos hk]
    · intro k hk; rw [h.mid (Nat.le_of_lt hi), if_neg (by omega)]
    · rw [h.mid (Nat.le_of_lt hi), if_neg (by omega)]
  · have hr : ∀ k, ((S i).put i ((new i).take l) (S (i + 1)).nvals).rowD k
        = if k = i then (new i).take l else (S i).rowD k := fun k => rowD_set st.lt rfl
    refine ⟨by rw [hs.1]; exact hsi.1, by rw [hs.2.1]; exact hsi.2.1,
      by rw [← hsi.2.2]; simp [put], ?_, ?_, .inr ⟨l, ?_, ?_, ?_⟩⟩
    · intro k hk; rw [hr, if_neg (by omega), h.mid (Nat.le_of_lt hi), if_pos hk]
    · intro k hk; rw [hr, if_neg (by omega), h.mid (Nat.le_of_lt hi), if_neg (by omega)]
    · rw [hnew]; exact hl
    · rw [hr, if_pos rfl, hnew]
    · rw [hnew]
      have e1 := stored_put st.lt ((new i).take l) (S (i + 1)).nvals
      have e2 := stored_put st.lt (new i) (S (i + 1)).nvals
      have e3 : ((S i).put i (new i) (S (i + 1)).nvals).stored = (S (i + 1)).stored := by
        show (((S i).rows.set i (new i)).map List.length).sum = ((S (i + 1)).rows.map List.length).sum
        rw [st.rows]
      rw [List.length_take] at e1
      show (S (i + 1)).nvals = _
      omega

end Lil
end GBTL

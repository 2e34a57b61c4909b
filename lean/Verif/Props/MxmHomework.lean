import Verif.Model.MxmHomework
import Verif.Props.Products
import Verif.Props.Containers
import Verif.Props.Apsp
import Verif.Props.Homework
import Verif.Lemmas.EdgeBcCalls
/-
C115: what the check of the product demo accepts.
-/
namespace Spec

/-- The matrix that a list of elements describes: the last one given at a place counts. -/
def ofElements {α : Type} (l : List (Nat × Nat × α)) : Mat α :=
  fun i j => combined (fun _ b => b) (l.map fun t => ((t.1, t.2.1), t.2.2)) (i, j)

/-- There is at most one element for each place. -/
def OncePerPlace {α : Type} (l : List (Nat × Nat × α)) : Prop := (l.map fun t => (t.1, t.2.1)).Nodup

end Spec
namespace GBTL
open Spec

variable {α : Type}

theorem answered_iff {ne : α → α → Bool} {i j : Nat} {x : α} : ∀ {ans : List (Nat × Nat × α)}, OncePerPlace ans →
    (answered ne (i, j, x) ans = true ↔ ∃ y, (i, j, y) ∈ ans ∧ ne y x = false) := by
  intro ans
  induction ans with
  | nil => intro _; simp [answered]
  | cons a as ih =>
    obtain ⟨ai, aj, ax⟩ := a
    intro hn
    have hn' := List.nodup_cons.1 (show ((ai, aj) :: as.map fun t => (t.1, t.2.1)).Nodup from hn)
    unfold answered
    by_cases h : ai = i ∧ aj = j
    · rw [if_pos h]
      obtain ⟨rfl, rfl⟩ := h
      constructor
      · intro e; exact ⟨ax, by simp, by simpa using e⟩
      · rintro ⟨y, hy, e⟩
        rcases List.mem_cons.1 hy with hy | hy
        · cases hy; simp [e]
        · exact absurd (List.mem_map.2 ⟨_, hy, rfl⟩) hn'.1
    · rw [if_neg h, ih hn'.2]
      constructor
      · rintro ⟨y, hy, e⟩; exact ⟨y, List.mem_cons_of_mem _ hy, e⟩
      · rintro ⟨y, hy, e⟩
        rcases List.mem_cons.1 hy with hy | hy
        · cases hy; exact absurd ⟨rfl, rfl⟩ h
        · exact ⟨y, hy, e⟩

theorem checkAnswers_iff {ne : α → α → Bool} {ans : List (Nat × Nat × α)} : ∀ {rs : List (Nat × Nat × α)} {s : Bool},
    checkAnswers ne ans rs s = true ↔ s = true ∧ ∀ r ∈ rs, answered ne r ans = true := by
  intro rs
  induction rs with
  | nil => intro s; simp [checkAnswers]
  | cons r rs ih =>
    intro s
    unfold checkAnswers
    rw [ih]
    by_cases h : answered ne r ans = true
    · rw [if_pos h]; simp [h]
    · rw [if_neg h]; simp [h]

/-- **C115** The exit code is 0 exactly if every element of the product is one of the answers. -/
theorem C115_accepts (ne : α → α → Bool) (sr : SR α α α) (n : Nat) (as bs ans : List (Nat × Nat × α))
    (ha : ∀ t ∈ as, t.1 < n ∧ t.2.1 < n) (hb : ∀ t ∈ bs, t.1 < n ∧ t.2.1 < n) (hn : OncePerPlace ans) :
    ∃ code, mxmHomework ne sr n as bs ans = .ok code ∧ (code = 0 ∨ code = 1) ∧
      (code = 0 ↔ ∀ i j x, i < n → j < n → Spec.mxm n sr.add sr.mult (ofElements as) (ofElements bs) i j = some x →
        ∃ y, (i, j, y) ∈ ans ∧ ne y x = false) := by
  have build : ∀ ts : List (Nat × Nat × α), (∀ t ∈ ts, t.1 < n ∧ t.2.1 < n) →
      ∃ A, (Lil.new n n : Lil α).build (fun _ b => b) ts = (.ok (), A) ∧ A.WF ∧ A.nrows = n ∧ A.ncols = n ∧ A.get = ofElements ts := by
    intro ts h
    obtain ⟨A, e, hA, h1, h2, h3, -⟩ := C04_matrix_build (Lil.new n n : Lil α) (Lil.new_wf n n) (fun _ b => b) ts h
    refine ⟨A, e, hA, h1, h2, ?_⟩
    funext i j
    rw [h3, Lil.get_new]
    rfl
  obtain ⟨A, e1, a1, a2, a3, a4⟩ := build as ha
  obtain ⟨B, e2, b1, b2, b3, b4⟩ := build bs hb
  obtain ⟨C, e3, y⟩ := C09_mxm (o := mPlain id (Lil.new n n)) (sr := sr) (via := id) ⟨Lil.new_wf n n, noMaskOKM⟩ a1 b1
    ⟨noMaskFitsM, a2.symm, b3.symm, a3.trans b2.symm⟩
  obtain ⟨c1, c2, c3, c4⟩ := plain_yieldsM y
  refine ⟨if checkAnswers ne ans C.extractTuples true then 0 else 1, ?_, ?_, ?_⟩
  · unfold mxmHomework
    rw [e1, e2]
    show (do
      let c ← exec (mxm (mPlain id (Lil.new n n)) sr id (.plain A) (.plain B))
      Except.ok (if checkAnswers ne ans c.extractTuples true then 0 else 1)) = _
    rw [e3]
    rfl
  · by_cases h : checkAnswers ne ans C.extractTuples true = true
    · rw [if_pos h]; exact .inl rfl
    · rw [if_neg h]; exact .inr rfl
  · have : (if checkAnswers ne ans C.extractTuples true then (0 : Nat) else 1) = 0 ↔ checkAnswers ne ans C.extractTuples true = true := by
      by_cases h : checkAnswers ne ans C.extractTuples true = true
      · rw [if_pos h]; simp [h]
      · rw [if_neg h]; simp [h]
    rw [this, checkAnswers_iff]
    have hget : ∀ i j, i < n → j < n → C.get i j = Spec.mxm n sr.add sr.mult (ofElements as) (ofElements bs) i j := by
      intro i j hi hj
      rw [c4 i j hi hj, a3, a4, b4]
      simp
    constructor
    · rintro ⟨-, h⟩ i j x hi hj hx
      rw [← hget i j hi hj] at hx
      exact (answered_iff hn).1 (h (i, j, x) (((C07_matrix_tuples C c1).2.1 i j x).2 hx))
    · intro h
      refine ⟨rfl, ?_⟩
      rintro ⟨i, j, x⟩ hr
      have hx := ((C07_matrix_tuples C c1).2.1 i j x).1 hr
      have hlt := some_lt c1 (i := i) (j := j) (by rw [hx]; simp)
      have hi : i < n := by rw [← c2.trans (rfl : _ = n)]; exact hlt.1
      have hj : j < n := by rw [← c3.trans (rfl : _ = n)]; exact hlt.2
      exact (answered_iff hn).2 (h i j x hi hj (by rw [← hget i j hi hj]; exact hx))

/-- **C115** The program's own data, for matrices of any size: with ones on the diagonals of both and of the answers, the exit code is 0, in
every scalar type in which one times one is one and one equals itself. -/
theorem C115_identity (ne : α → α → Bool) (sr : SR α α α) (one : α) (h1 : sr.mult one one = one) (he : ne one one = false) (n : Nat) :
    mxmHomework ne sr n ((List.range n).map fun i => (i, i, one)) ((List.range n).map fun i => (i, i, one))
      ((List.range n).map fun i => (i, i, one)) = .ok 0 := by
  have hr : ∀ t ∈ (List.range n).map fun i => (i, i, one), t.1 < n ∧ t.2.1 < n := by
    intro t ht
    obtain ⟨i, hi, rfl⟩ := List.mem_map.1 ht
    exact ⟨List.mem_range.1 hi, List.mem_range.1 hi⟩
  obtain ⟨code, e, -, h⟩ := C115_accepts ne sr n _ _ ((List.range n).map fun i => (i, i, one)) hr hr (by
    unfold OncePerPlace
    rw [List.map_map]
    refine List.Pairwise.map _ (fun a b hab => ?_) (List.nodup_range (n := n))
    exact fun e => hab (Prod.mk.inj e).1)
  rw [e, h.2]
  intro i j x hi hj hx
  have hI : ∀ i j, ofElements ((List.range n).map fun i => (i, i, one)) i j = if i = j ∧ i < n then some one else none := by
    intro i j
    unfold ofElements
    rw [List.map_map]
    have := combined_same one ((List.range n).map fun i => (i, i)) (i, j)
    rw [List.map_map] at this
    refine Eq.trans this ?_
    by_cases hc : i = j ∧ i < n
    · rw [if_pos hc, if_pos (List.mem_map.2 ⟨i, List.mem_range.2 hc.2, by rw [← hc.1]⟩)]
    · rw [if_neg hc, if_neg]
      intro hm
      obtain ⟨k, hk, e⟩ := List.mem_map.1 hm
      cases e
      exact hc ⟨rfl, List.mem_range.1 hk⟩
  unfold Spec.mxm at hx
  rw [osum_single hi (by
    intro k hk hne
    rw [hI i k, if_neg (fun e => hne e.1.symm)]
    rfl)] at hx
  rw [hI, hI, if_pos ⟨rfl, hi⟩] at hx
  by_cases hij : i = j
  · subst hij
    rw [if_pos ⟨rfl, hi⟩] at hx
    have : sr.mult one one = x := Option.some.inj hx
    refine ⟨one, List.mem_map.2 ⟨i, List.mem_range.2 hi, rfl⟩, ?_⟩
    rw [← this, h1]
    exact he
  · rw [if_neg (fun e => hij e.1)] at hx
    cases hx

/-- What a reader of the check would expect: the exit code is 0 only if the product is the matrix of the answers. -/
def C115_statement : Prop :=
  ∀ (n : Nat) (as bs ans : List (Nat × Nat × Int)), (∀ t ∈ as, t.1 < n ∧ t.2.1 < n) → (∀ t ∈ bs, t.1 < n ∧ t.2.1 < n) → OncePerPlace ans →
    mxmHomework (fun x y => decide (x ≠ y)) ⟨(· + ·), (· * ·), (· * ·)⟩ n as bs ans = .ok 0 →
    ∀ i j, i < n → j < n → Spec.mxm n (· + ·) (· * ·) (ofElements as) (ofElements bs) i j = ofElements ans i j

/-- **C115** It is not so: an answer that is missing from the product goes unnoticed. -/
theorem C115_missing_answer_wrong : ¬ C115_statement := by
  intro h
  have := h 3 [(0, 0, 1), (1, 1, 1), (2, 2, 1)] [(0, 0, 1), (2, 2, 1)] [(0, 0, 1), (1, 1, 1), (2, 2, 1)] (by decide) (by decide)
    (by unfold OncePerPlace; decide) (by decide +kernel) 1 1 (by omega) (by omega)
  revert this
  decide +kernel

/-- A wrong value and an element too many are noticed. -/
example : mxmHomework (fun x y => decide (x ≠ y)) ⟨(· + ·), (· * ·), (· * ·)⟩ 3 [(0, 0, 2), (1, 1, 1)] [(0, 0, (1 : Int)), (1, 1, 1)]
    [(0, 0, 1), (1, 1, 1)] = .ok 1 ∧
    mxmHomework (fun x y => decide (x ≠ y)) ⟨(· + ·), (· * ·), (· * ·)⟩ 3 [(0, 0, 1), (0, 1, 1)] [(0, 0, (1 : Int)), (1, 1, 1)]
    [(0, 0, 1), (1, 1, 1)] = .ok 1 := by decide +kernel

end GBTL

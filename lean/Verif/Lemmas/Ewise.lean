import Verif.Lemmas.Push
/-
Contents of the intermediate results of transpose, eWiseAdd, eWiseMult, apply.
-/
namespace GBTL
open Spec (Outp MaskKind Accum both either osum)
open Row

variable {α β γ δ τ ζ μ ν : Type}

theorem Lil.get_new (m n i j : Nat) : (Lil.new m n : Lil α).get i j = none := by
  simp [Lil.get]

/-! ### transpose -/

theorem transposeT_spec {A : Lil α} (hA : A.WF) :
    ∃ T, transposeT A = .ok T ∧ T.WF ∧ T.nrows = A.ncols ∧ T.ncols = A.nrows ∧
      ∀ i j, T.get i j = A.get j i := by
  unfold transposeT
  split
  · obtain ⟨T, e, h1, h2, h3, h4⟩ := pushCols_spec (m := A.ncols) (n := A.nrows) (k := A.nrows)
      (row := fun i => A.row i) A.rowD (fun i hi => hA.row_ok hi) (fun i _ => hA.rowD_ok i)
      (Nat.le_refl _)
    refine ⟨T, e, h1, h2, h3, fun i j => ?_⟩
    rw [h4]
    split
    · rfl
    · rw [hA.get_none (Or.inl (by omega))]
  · next hn =>
    refine ⟨_, rfl, Lil.new_wf _ _, rfl, rfl, fun i j => ?_⟩
    rw [hA.get_none_of_nvals (by omega), Lil.get_new]

theorem transposed_spec {A : Lil α} (hA : A.WF) (cast : α → β) :
    ∃ T, transposed cast A = .ok T ∧ T.WF ∧ T.nrows = A.ncols ∧ T.ncols = A.nrows ∧
      ∀ i j, T.get i j = (A.get j i).map cast := by
  obtain ⟨T, e, h1, h2, h3, h4⟩ := transposeT_spec hA
  obtain ⟨Z, C', e1, e2, g1, g2, g3, g4⟩ := matrix_tail (μ := Bool) (C := (Lil.new A.ncols A.nrows : Lil β))
    id cast none (.none id) .replace (Lil.new_wf _ _) h1.toWFr h2 h3 trivial
  refine ⟨C', ?_, g1, g2, g3, fun i j => ?_⟩
  · simp only [transposed, e, Except.bind_ok', accumMat, e1, e2]
  · rw [g4, h4]
    simp [MMask.allows, Spec.write, Spec.accum]

/-! ### eWiseAdd -/

theorem ewiseAddVec_spec {n : Nat} (op : α → β → τ) (c1 : α → τ) (c2 : β → τ) {u : BVec α} {v : BVec β}
    (hu : u.WF) (hv : v.WF) (h1 : u.size = n) (h2 : v.size = n) :
    ∃ t, ewiseAddVec op c1 c2 u v = .ok t ∧ OK n t ∧
      ∀ i, Row.get t i = either op c1 c2 (u.get i) (v.get i) := by
  unfold ewiseAddVec
  split
  · obtain ⟨a, a1, a2, a3, _⟩ := BVec.getContents_spec hu
    obtain ⟨b, b1, b2, b3, _⟩ := BVec.getContents_spec hv
    rw [h1] at a2
    rw [h2] at b2
    refine ⟨ewiseOr op c1 c2 a b, by rw [a1, b1]; rfl, ewiseOr_ok a2 b2, fun i => ?_⟩
    rw [(ewiseOr_spec _ _ a2.sorted b2.sorted).2, a3, b3]
  · next hn =>
    simp only [Bool.or_eq_true, decide_eq_true_eq] at hn
    refine ⟨[], rfl, OK.nil, fun i => ?_⟩
    rw [hu.get_none_of_nvals (by omega), hv.get_none_of_nvals (by omega)]; rfl

theorem ewiseAddRow_spec {n : Nat} {op : α → β → τ} {c1 : α → τ} {c2 : β → τ} {a : Row α} {b : Row β}
    (ha : OK n a) (hb : OK n b) : OK n (ewiseAddRow op c1 c2 a b) ∧
      ∀ i, Row.get (ewiseAddRow op c1 c2 a b) i = either op c1 c2 (Row.get a i) (Row.get b i) := by
  unfold ewiseAddRow
  split
  · next h =>
    rw [List.isEmpty_iff.1 h]
    refine ⟨ha.cast, fun i => ?_⟩
    rw [get_cast]
    cases Row.get a i <;> rfl
  · split
    · next h =>
      rw [List.isEmpty_iff.1 h]
      refine ⟨hb.cast, fun i => ?_⟩
      rw [get_cast]
      cases Row.get b i <;> rfl
    · exact ⟨ewiseOr_ok ha hb, (ewiseOr_spec _ _ ha.sorted hb.sorted).2⟩

theorem ewiseAddMat_spec (op : α → β → τ) (c1 : α → τ) (c2 : β → τ) {A : Lil α} {B : Lil β}
    (hA : A.WF) (hB : B.WF) (h1 : A.nrows = B.nrows) (h2 : A.ncols = B.ncols) :
    ∃ T, ewiseAddMat op c1 c2 A B = .ok T ∧ T.WF ∧ T.nrows = A.nrows ∧ T.ncols = A.ncols ∧
      ∀ i j, T.get i j = either op c1 c2 (A.get i j) (B.get i j) := by
  have hrow := fun i => ewiseAddRow_spec (n := A.ncols) (op := op) (c1 := c1) (c2 := c2)
    (hA.rowD_ok i) (by rw [h2]; exact hB.rowD_ok i)
  unfold ewiseAddMat
  split
  · obtain ⟨D, e, g1, g2, g3, g4⟩ := Lil.rowLoop_spec (Z := (Lil.new A.nrows A.ncols : Lil τ))
      (Lil.new_wf _ _) (n := A.nrows) rfl
      (fun i => ewiseAddRow op c1 c2 (A.rowD i) (B.rowD i)) (fun i _ => (hrow i).1)
      (body := fun i T => do
        let a ← A.row i
        let b ← B.row i
        T.setRow i id (ewiseAddRow op c1 c2 a b)) (by
        intro i Z' hi _ _ _ _
        left
        rw [hA.row_ok hi, hB.row_ok (by omega)]; rfl)
    refine ⟨D, e, g1, g2, g3, fun i j => ?_⟩
    simp only [Lil.get, g4]
    split
    · exact (hrow i).2 j
    · rw [Lil.rowD_of_ge (A := A) (by rw [hA.len]; omega),
        Lil.rowD_of_ge (A := B) (by rw [hB.len]; omega)]; rfl
  · next hn =>
    simp only [Bool.or_eq_true, decide_eq_true_eq] at hn
    refine ⟨_, rfl, Lil.new_wf _ _, rfl, rfl, fun i j => ?_⟩
    rw [hA.get_none_of_nvals (by omega), hB.get_none_of_nvals (by omega), Lil.get_new]; rfl

theorem ewiseAddATBT_spec (op : α → β → τ) (c1 : α → τ) (c2 : β → τ) {A : Lil α} {B : Lil β}
    (hA : A.WF) (hB : B.WF) (h1 : A.nrows = B.nrows) (h2 : A.ncols = B.ncols) :
    ∃ T, ewiseAddATBT op c1 c2 A B = .ok T ∧ T.WF ∧ T.nrows = A.ncols ∧ T.ncols = A.nrows ∧
      ∀ i j, T.get i j = either op c1 c2 (A.get j i) (B.get j i) := by
  have hrow := fun i => ewiseAddRow_spec (n := A.ncols) (op := op) (c1 := c1) (c2 := c2)
    (hA.rowD_ok i) (by rw [h2]; exact hB.rowD_ok i)
  unfold ewiseAddATBT
  split
  · obtain ⟨T, e, g1, g2, g3, g4⟩ := pushCols_spec (m := A.ncols) (n := A.nrows) (k := A.nrows)
      (row := fun i => do
        let a ← A.row i
        let b ← B.row i
        .ok (ewiseAddRow op c1 c2 a b))
      (fun i => ewiseAddRow op c1 c2 (A.rowD i) (B.rowD i))
      (fun i hi => by rw [hA.row_ok hi, hB.row_ok (by omega)]; rfl) (fun i _ => (hrow i).1)
      (Nat.le_refl _)
    refine ⟨T, e, g1, g2, g3, fun i j => ?_⟩
    rw [g4]
    split
    · exact (hrow j).2 i
    · rw [hA.get_none (Or.inl (by omega)), hB.get_none (Or.inl (by omega))]; rfl
  · next hn =>
    simp only [Bool.or_eq_true, decide_eq_true_eq] at hn
    refine ⟨_, rfl, Lil.new_wf _ _, rfl, rfl, fun i j => ?_⟩
    rw [hA.get_none_of_nvals (by omega), hB.get_none_of_nvals (by omega), Lil.get_new]; rfl

theorem ewiseAddATB_spec (op : α → β → τ) (c1 : α → τ) (c2 : β → τ) {A : Lil α} {B : Lil β}
    (hA : A.WF) (hB : B.WF) (h1 : A.ncols = B.nrows) (h2 : A.nrows = B.ncols) :
    ∃ T, ewiseAddATB op c1 c2 A B = .ok T ∧ T.WF ∧ T.nrows = A.ncols ∧ T.ncols = A.nrows ∧
      ∀ i j, T.get i j = either op c1 c2 (A.get j i) (B.get i j) := by
  obtain ⟨At, e, w1, w2, w3, w4⟩ := transposed_spec hA id
  obtain ⟨T, e', g1, g2, g3, g4⟩ := ewiseAddMat_spec op c1 c2 w1 hB (by omega) (by omega)
  refine ⟨T, by simp only [ewiseAddATB, e, Except.bind_ok', e'], g1, by omega, by omega, fun i j => ?_⟩
  rw [g4, w4]; simp

theorem ewiseAddABT_spec (op' : α → α → τ) (c1 : α → τ) (c2' : α → τ) (castBA : β → α) {A : Lil α}
    {B : Lil β} (hA : A.WF) (hB : B.WF) (h1 : A.nrows = B.ncols) (h2 : A.ncols = B.nrows) :
    ∃ T, ewiseAddABT op' c1 c2' castBA A B = .ok T ∧ T.WF ∧ T.nrows = A.nrows ∧ T.ncols = A.ncols ∧
      ∀ i j, T.get i j = either op' c1 c2' (A.get i j) ((B.get j i).map castBA) := by
  obtain ⟨Bt, e, w1, w2, w3, w4⟩ := transposed_spec hB castBA
  obtain ⟨T, e', g1, g2, g3, g4⟩ := ewiseAddMat_spec op' c1 c2' hA w1 (by omega) (by omega)
  refine ⟨T, by simp only [ewiseAddABT, e, Except.bind_ok', e'], g1, by omega, by omega, fun i j => ?_⟩
  rw [g4, w4]

/-! ### eWiseMult -/

theorem ewiseMultVec_spec {n : Nat} (op : α → β → τ) {u : BVec α} {v : BVec β}
    (hu : u.WF) (hv : v.WF) (h1 : u.size = n) :
    ∃ t, ewiseMultVec op u v = .ok t ∧ OK n t ∧
      ∀ i, Row.get t i = both op (u.get i) (v.get i) := by
  unfold ewiseMultVec
  split
  · obtain ⟨a, a1, a2, a3, _⟩ := BVec.getContents_spec hu
    obtain ⟨b, b1, b2, b3, _⟩ := BVec.getContents_spec hv
    rw [h1] at a2
    refine ⟨ewiseAnd op a b, by rw [a1, b1]; rfl, ewiseAnd_ok a2 b2.sorted, fun i => ?_⟩
    rw [(ewiseAnd_spec _ _ a2.sorted b2.sorted).2, a3, b3]
  · next hn =>
    refine ⟨[], rfl, OK.nil, fun i => ?_⟩
    rw [get_nil]
    rcases nvals_or hn with hn | hn
    · rw [hu.get_none_of_nvals hn]; rfl
    · rw [hv.get_none_of_nvals hn]; simp

theorem ewiseAnd_nil_left (op : α → β → τ) (b : Row β) : ewiseAnd op [] b = [] := by
  unfold ewiseAnd; rfl
theorem ewiseAnd_nil_right (op : α → β → τ) (a : Row α) : ewiseAnd op a [] = [] := by
  cases a <;> (unfold ewiseAnd; rfl)

theorem ewiseMultMat_spec (op : α → β → τ) {A : Lil α} {B : Lil β}
    (hA : A.WF) (hB : B.WF) (h1 : A.nrows = B.nrows) :
    ∃ T, ewiseMultMat op A B = .ok T ∧ T.WF ∧ T.nrows = A.nrows ∧ T.ncols = A.ncols ∧
      ∀ i j, T.get i j = both op (A.get i j) (B.get i j) := by
  unfold ewiseMultMat
  split
  · obtain ⟨D, e, g1, g2, g3, g4⟩ := Lil.rowLoop_spec (Z := (Lil.new A.nrows A.ncols : Lil τ))
      (Lil.new_wf _ _) (n := A.nrows) rfl
      (fun i => ewiseAnd op (A.rowD i) (B.rowD i))
      (fun i _ => ewiseAnd_ok (hA.rowD_ok i) (hB.rowD_ok i).sorted)
      (body := fun i T => do
        let a ← A.row i
        let b ← B.row i
        if !a.isEmpty && !b.isEmpty then
          let t := ewiseAnd op a b
          if !t.isEmpty then T.setRow i id t else .ok T
        else .ok T) (by
        intro i Z' hi _ _ _ hrow
        have hz : Z'.rowD i = [] := by rw [hrow, if_neg (Nat.lt_irrefl _)]; simp
        rw [hA.row_ok hi, hB.row_ok (by omega)]
        simp only [Except.bind_ok']
        split
        · cases he : (ewiseAnd op (A.rowD i) (B.rowD i)).isEmpty with
          | false => left; rfl
          | true => right; exact ⟨List.isEmpty_iff.1 he, hz, rfl⟩
        · next hn =>
          right
          refine ⟨?_, hz, rfl⟩
          simp only [Bool.and_eq_true, Bool.not_eq_true', ← Bool.not_eq_true, List.isEmpty_iff] at hn
          by_cases ha : A.rowD i = []
          · rw [ha, ewiseAnd_nil_left]
          · by_cases hb : B.rowD i = []
            · rw [hb, ewiseAnd_nil_right]
            · exact absurd ⟨ha, hb⟩ hn)
    refine ⟨D, e, g1, g2, g3, fun i j => ?_⟩
    simp only [Lil.get, g4]
    split
    · exact (ewiseAnd_spec _ _ (hA.rowD_ok i).sorted (hB.rowD_ok i).sorted).2 j
    · rw [Lil.rowD_of_ge (A := A) (by rw [hA.len]; omega)]; rfl
  · next hn =>
    refine ⟨_, rfl, Lil.new_wf _ _, rfl, rfl, fun i j => ?_⟩
    rw [Lil.get_new]
    rcases nvals_or hn with hn | hn
    · rw [hA.get_none_of_nvals hn]; rfl
    · rw [hB.get_none_of_nvals hn]; simp

theorem ewiseMultATBT_spec (op : α → β → τ) {A : Lil α} {B : Lil β}
    (hA : A.WF) (hB : B.WF) (h1 : A.nrows = B.nrows) :
    ∃ T, ewiseMultATBT op A B = .ok T ∧ T.WF ∧ T.nrows = A.ncols ∧ T.ncols = A.nrows ∧
      ∀ i j, T.get i j = both op (A.get j i) (B.get j i) := by
  unfold ewiseMultATBT
  split
  · obtain ⟨T, e, g1, g2, g3, g4⟩ := pushCols_spec (m := A.ncols) (n := A.nrows) (k := A.nrows)
      (row := fun i => do
        let a ← A.row i
        let b ← B.row i
        if !a.isEmpty && !b.isEmpty then .ok (ewiseAnd op a b) else .ok [])
      (fun i => ewiseAnd op (A.rowD i) (B.rowD i))
      (fun i hi => by
        rw [hA.row_ok hi, hB.row_ok (by omega)]
        simp only [Except.bind_ok']
        split
        · rfl
        · next hn =>
          simp only [Bool.and_eq_true, Bool.not_eq_true', ← Bool.not_eq_true, List.isEmpty_iff] at hn
          by_cases ha : A.rowD i = []
          · rw [ha, ewiseAnd_nil_left]
          · by_cases hb : B.rowD i = []
            · rw [hb, ewiseAnd_nil_right]
            · exact absurd ⟨ha, hb⟩ hn) (fun i _ => ewiseAnd_ok (hA.rowD_ok i) (hB.rowD_ok i).sorted)
      (Nat.le_refl _)
    refine ⟨T, e, g1, g2, g3, fun i j => ?_⟩
    rw [g4]
    split
    · exact (ewiseAnd_spec _ _ (hA.rowD_ok j).sorted (hB.rowD_ok j).sorted).2 i
    · rw [hA.get_none (Or.inl (by omega))]; rfl
  · next hn =>
    refine ⟨_, rfl, Lil.new_wf _ _, rfl, rfl, fun i j => ?_⟩
    rw [Lil.get_new]
    rcases nvals_or hn with hn | hn
    · rw [hA.get_none_of_nvals hn]; rfl
    · rw [hB.get_none_of_nvals hn]; simp

theorem ewiseMultATB_spec (op : α → β → τ) {A : Lil α} {B : Lil β}
    (hA : A.WF) (hB : B.WF) (h1 : A.ncols = B.nrows) :
    ∃ T, ewiseMultATB op A B = .ok T ∧ T.WF ∧ T.nrows = A.ncols ∧ T.ncols = A.nrows ∧
      ∀ i j, T.get i j = both op (A.get j i) (B.get i j) := by
  obtain ⟨At, e, w1, w2, w3, w4⟩ := transposed_spec hA id
  obtain ⟨T, e', g1, g2, g3, g4⟩ := ewiseMultMat_spec op w1 hB (by omega)
  refine ⟨T, by simp only [ewiseMultATB, e, Except.bind_ok', e'], g1, by omega, by omega, fun i j => ?_⟩
  rw [g4, w4]; simp

theorem ewiseMultABT_spec (op' : α → α → τ) (castBA : β → α) {A : Lil α}
    {B : Lil β} (hA : A.WF) (hB : B.WF) (h1 : A.nrows = B.ncols) :
    ∃ T, ewiseMultABT op' castBA A B = .ok T ∧ T.WF ∧ T.nrows = A.nrows ∧ T.ncols = A.ncols ∧
      ∀ i j, T.get i j = both op' (A.get i j) ((B.get j i).map castBA) := by
  obtain ⟨Bt, e, w1, w2, w3, w4⟩ := transposed_spec hB castBA
  obtain ⟨T, e', g1, g2, g3, g4⟩ := ewiseMultMat_spec op' hA w1 (by omega)
  refine ⟨T, by simp only [ewiseMultABT, e, Except.bind_ok', e'], g1, by omega, by omega, fun i j => ?_⟩
  rw [g4, w4]

/-! ### apply -/

theorem applyVec_spec (op : α → τ) {u : BVec α} (hu : u.WF) :
    ∃ t, applyVec op u = .ok t ∧ OK u.size t ∧ ∀ i, Row.get t i = (u.get i).map op := by
  unfold applyVec
  split
  · obtain ⟨a, a1, a2, a3, _⟩ := BVec.getContents_spec hu
    refine ⟨Row.cast op a, by rw [a1]; rfl, a2.cast, fun i => ?_⟩
    rw [get_cast, a3]
  · refine ⟨[], rfl, OK.nil, fun i => ?_⟩
    rw [hu.get_none_of_nvals (by omega)]; rfl

theorem applyMat_spec (op : α → τ) {A : Lil α} (hA : A.WF) :
    ∃ T, applyMat op A = .ok T ∧ T.WF ∧ T.nrows = A.nrows ∧ T.ncols = A.ncols ∧
      ∀ i j, T.get i j = (A.get i j).map op := by
  obtain ⟨T, e, h1, h2, h3, h4⟩ := forN_inv (n := A.nrows) (s := (Lil.new A.nrows A.ncols : Lil τ))
    (body := fun i T => do
      let a ← A.row i
      let t ← T.row i
      T.pokeRow i (t ++ Row.cast op a))
    (fun (i : Nat) (T : Lil τ) => T.WFr ∧ T.nrows = A.nrows ∧ T.ncols = A.ncols ∧
      ∀ k, T.rowD k = if k < i then Row.cast op (A.rowD k) else [])
    ⟨(Lil.new_wf _ _).toWFr, rfl, rfl, fun k => by simp⟩ (by
      rintro i T hi ⟨hT, hr, hc, hrow⟩
      have hz : T.rowD i = [] := by rw [hrow, if_neg (Nat.lt_irrefl _)]
      obtain ⟨T1, e1, v1, v2, v3, _, v4⟩ := Lil.pokeRow_spec (i := i)
        (r := T.rowD i ++ Row.cast op (A.rowD i)) hT (by omega)
        (by rw [hz, hc]; exact (hA.rowD_ok i).cast)
      refine ⟨T1, ?_, v1, by omega, by omega, fun k => ?_⟩
      · rw [hA.row_ok hi, hT.row_ok (by omega)]; exact e1
      · rw [v4, hz, hrow]
        by_cases hk : k = i
        · subst hk; rw [if_pos rfl, if_pos (by omega)]; rfl
        · rw [if_neg hk]
          by_cases hk2 : k < i
          · rw [if_pos hk2, if_pos (by omega)]
          · rw [if_neg hk2, if_neg (by omega)])
  refine ⟨T.recomputeNvals, by simp only [applyMat, e, Except.bind_ok'], Lil.recomputeNvals_wf h1, h2, h3,
    fun i j => ?_⟩
  show Row.get (T.rowD i) j = _
  rw [h4]
  split
  · exact get_cast ..
  · rw [hA.get_none (Or.inl (by omega))]; rfl

theorem applyMatT_spec (op : α → τ) {A : Lil α} (hA : A.WF) :
    ∃ T, applyMatT op A = .ok T ∧ T.WF ∧ T.nrows = A.ncols ∧ T.ncols = A.nrows ∧
      ∀ i j, T.get i j = (A.get j i).map op := by
  obtain ⟨T, e, g1, g2, g3, g4⟩ := pushCols_spec (m := A.ncols) (n := A.nrows) (k := A.nrows)
    (row := fun i => do
      let a ← A.row i
      .ok (Row.cast op a))
    (fun i => Row.cast op (A.rowD i))
    (fun i hi => by rw [hA.row_ok hi]; rfl) (fun i _ => (hA.rowD_ok i).cast) (Nat.le_refl _)
  refine ⟨T, e, g1, g2, g3, fun i j => ?_⟩
  rw [g4]
  split
  · exact get_cast ..
  · rw [hA.get_none (Or.inl (by omega))]; rfl

end GBTL

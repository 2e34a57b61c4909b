import Verif.Lemmas.Reduce
namespace GBTL
open Spec (Outp MaskKind Accum both either osum)
open Row

variable {α β γ δ τ ζ μ ν : Type}

/-- The row whose elements at `k, k+1, …` are those of a list. -/
def listRow : Nat → List (Option α) → Row α
  | _, [] => []
  | k, x :: l => emplaceIf1D [] k x ++ listRow (k + 1) l

theorem listRow_bound (l : List (Option α)) : ∀ k, ∀ p ∈ listRow k l, k ≤ p.1 ∧ p.1 < k + l.length := by
  induction l with
  | nil => intro k p hp; simp [listRow] at hp
  | cons x l ih =>
    intro k p hp
    rcases List.mem_append.1 hp with h | h
    · cases x with
      | none => simp [emplaceIf1D] at h
      | some v => simp [emplaceIf1D] at h; subst h; simp
    · have := ih (k+1) p h
      simp only [List.length_cons]; omega

theorem listRow_spec (l : List (Option α)) : ∀ k, Sorted (listRow k l) ∧
    ∀ i, get (listRow k l) i = if k ≤ i then (l[i - k]?).join else none := by
  induction l with
  | nil => intro k; exact ⟨sorted_nil, fun i => by simp [listRow]⟩
  | cons x l ih =>
    intro k
    obtain ⟨h1, h2⟩ := ih (k+1)
    refine ⟨sorted_append.2 ⟨?_, h1, ?_⟩, ?_⟩
    · cases x <;> simp [emplaceIf1D, sorted_cons]
    · intro p hp q hq
      have := listRow_bound l (k+1) q hq
      cases x with
      | none => simp [emplaceIf1D] at hp
      | some v => simp [emplaceIf1D] at hp; subst hp; simp only; omega
    · intro i
      rw [listRow, get_append, h2]
      rcases Nat.lt_trichotomy i k with h | h | h
      · have e1 : ¬ k ≤ i := by omega
        have e2 : ¬ k + 1 ≤ i := by omega
        have e3 : ¬ k = i := by omega
        cases x <;> simp [emplaceIf1D, get_cons, e1, e2, e3]
      · subst h
        have e2 : ¬ i + 1 ≤ i := by omega
        cases x <;> simp [emplaceIf1D, get_cons, e2]
      · have e1 : k ≤ i := by omega
        have e2 : k + 1 ≤ i := by omega
        have e3 : ¬ k = i := by omega
        have e4 : i - k = (i - (k+1)) + 1 := by omega
        cases x <;> simp [emplaceIf1D, get_cons, e1, e2, e3, e4]

theorem listRow_ok {n : Nat} (l : List (Option α)) (h : l.length ≤ n) : OK n (listRow 0 l) :=
  ⟨(listRow_spec l 0).1, fun p hp => by have := listRow_bound l 0 p hp; omega⟩

theorem listRow_get {σ : Type} (l : List σ) (f : σ → Option α) (i : Nat) :
    get (listRow 0 (l.map f)) i = (l[i]?).bind f := by
  rw [(listRow_spec _ 0).2]
  simp only [Nat.zero_le, if_true, Nat.sub_zero, List.getElem?_map]
  cases l[i]? <;> rfl

theorem seek_eq {r : Row α} (hr : Sorted r) (j : Nat) : seek r j = get r j := headIs_dropBelow hr

theorem scan_eq {r : Row α} (hr : Sorted r) (j : Nat) : scan j r = get r j := by
  induction r with
  | nil => rfl
  | cons p r ih =>
    obtain ⟨k, x⟩ := p
    rw [sorted_cons] at hr
    rw [scan, get_cons]
    split
    · rfl
    · split
      · rw [get_none_of_lt]
        intro q hq
        have := hr.1 q hq
        simp only at this; omega
      · exact ih hr.2

theorem scanAll_eq {r : Row α} (hr : Sorted r) (j : Nat) : scanAll j r = (get r j).toList := by
  induction r with
  | nil => rfl
  | cons p r ih =>
    obtain ⟨k, x⟩ := p
    rw [sorted_cons] at hr
    rw [scanAll, get_cons, ih hr.2]
    split
    · next h =>
      subst h
      rw [get_none_of_lt hr.1]; rfl
    · split
      · rw [get_none_of_lt]
        · rfl
        · intro q hq
          have := hr.1 q hq
          simp only at this; omega
      · rfl

theorem vectorExtract_eq (src : Row α) (js : List Nat) : ∀ k,
    vectorExtract src k js = listRow k (js.map (seek src)) := by
  induction js with
  | nil => intro k; rfl
  | cons j js ih => intro k; rw [vectorExtract, ih]; rfl

theorem vectorExtract_spec {n : Nat} {src : Row α} (hs : Sorted src) {js : List Nat}
    (h : js.length ≤ n) : OK n (vectorExtract src 0 js) ∧
      ∀ i, get (vectorExtract src 0 js) i = (js[i]?).bind (get src) := by
  rw [vectorExtract_eq]
  refine ⟨listRow_ok _ (by simpa using h), fun i => ?_⟩
  rw [listRow_get]
  congr 1
  funext j
  exact seek_eq hs j

theorem extractRowLoop_eq {r : Row α} (hr : Sorted r) (js : List Nat) : ∀ k,
    extractRowLoop r k js = listRow k (js.map (get r)) := by
  induction js with
  | nil => intro k; rfl
  | cons j js ih =>
    intro k
    rw [extractRowLoop, ih, scanAll_eq hr]
    cases h : get r j <;> simp [listRow, emplaceIf1D, h]

theorem extractColumnLoop_eq {A : Lil α} (hA : A.WFr) (j : Nat) (is : List Nat)
    (hi : ∀ i ∈ is, i < A.nrows) : ∀ k,
    extractColumnLoop A j k is = .ok (listRow k (is.map fun i => A.get i j)) := by
  induction is with
  | nil => intro k; rfl
  | cons i is ih =>
    intro k
    rw [extractColumnLoop, hA.row_ok (hi i (List.mem_cons_self ..))]
    simp only [Except.bind_ok', ih (fun x hx => hi x (List.mem_cons_of_mem _ hx)),
      scan_eq (hA.rowD_ok i).sorted]
    rfl

/-! ### index arguments -/

theorem Idx.mem_setup {ix : Idx} {m n : Nat} (h : ix.below n) (hm : m ≤ n) :
    ∀ i ∈ setupIndices ix m, i < n := by
  cases ix with
  | list l => exact h
  | all => intro i hi; simp [setupIndices] at hi; omega

theorem checkIndex_ok {ix : Idx} {n : Nat} (h : ix.below n) : checkIndexArrayContent ix n = .ok () := by
  cases ix with
  | list l =>
    simp only [checkIndexArrayContent]
    rw [if_neg]
    simp only [List.any_eq_true, decide_eq_true_eq, not_exists, not_and]
    intro i hi
    have := h i hi
    omega
  | all => rfl

theorem checkIndex_err {ix : Idx} {n : Nat} (h : ¬ ix.below n) :
    checkIndexArrayContent ix n = .error .indexOutOfBounds := by
  cases ix with
  | list l =>
    simp only [checkIndexArrayContent]
    rw [if_pos]
    simp only [Idx.below] at h
    simp only [List.any_eq_true, decide_eq_true_eq]
    apply Classical.byContradiction
    intro hn
    exact h fun i hi => Classical.byContradiction fun hlt => hn ⟨i, hi, by omega⟩
  | all => exact absurd trivial h

theorem setup_length (ix : Idx) (n : Nat) : (setupIndices ix n).length = ix.len n := by
  cases ix <;> simp [setupIndices, Idx.len]

theorem setup_nth (ix : Idx) (n k m : Nat) (h : k < m) :
    (setupIndices ix (min m n))[k]? = Spec.nth ix.sel n k := by
  cases ix with
  | list l => rfl
  | all =>
    simp only [setupIndices, Idx.sel, Spec.nth]
    by_cases hk : k < n
    · rw [if_pos hk, List.getElem?_eq_getElem (by simp; omega)]; simp
    · rw [if_neg hk, List.getElem?_eq_none (by simp; omega)]

/-! ### extract -/

theorem extractVec_spec {w : BVec γ} {u : BVec α} {ix : Idx} (hu : u.WF) (hb : ix.below u.size)
    (hl : ix.len w.size = w.size) :
    ∃ t, extractVec w u ix = .ok t ∧ OK w.size t ∧
      ∀ k, k < w.size → get t k = Spec.extract u.size ix.sel u.get k := by
  obtain ⟨c, c1, c2, c3, _⟩ := BVec.getContents_spec hu
  have hlen : (setupIndices ix (min w.size u.size)).length ≤ w.size := by
    rw [setup_length]
    cases ix <;> simp only [Idx.len] at * <;> omega
  obtain ⟨h1, h2⟩ := vectorExtract_spec c2.sorted hlen
  refine ⟨vectorExtract c 0 (setupIndices ix (min w.size u.size)), ?_, h1, fun k hk => ?_⟩
  · simp only [extractVec, checkIndex_ok hb, c1, Except.bind_ok']
  · rw [h2, setup_nth _ _ _ _ hk, Spec.extract]
    congr 1
    funext i
    exact c3 i

theorem setRowIf_spec {T : Lil α} {k : Nat} {r : Row α} (hT : T.WF) (hk : k < T.nrows)
    (hr : OK T.ncols r) (hnil : T.rowD k = []) :
    ∃ T1, setRowIf T k r = .ok T1 ∧ T1.WF ∧ T1.nrows = T.nrows ∧ T1.ncols = T.ncols ∧
      ∀ i, T1.rowD i = if i = k then r else T.rowD i := by
  unfold setRowIf
  cases he : List.isEmpty r with
  | true =>
    refine ⟨T, rfl, hT, rfl, rfl, fun i => ?_⟩
    split
    · next h => subst h; rw [hnil, List.isEmpty_iff.1 he]
    · rfl
  | false =>
    obtain ⟨T1, s1, s2, s3, s4, s5, s6⟩ := Lil.setRow_spec (c := id) hT.toWFr hk hr
    exact ⟨T1, s1, s5 hT, s3, s4, by simpa using s6⟩

theorem matrixExtractLoop_spec {A : Lil α} (hA : A.WFr) {n : Nat} {cols : List Nat}
    (hc : cols.length ≤ n) (is : List Nat) (hi : ∀ i ∈ is, i < A.nrows) : ∀ (k : Nat) (T : Lil α),
    T.WF → T.ncols = n → k + is.length ≤ T.nrows → (∀ i, k ≤ i → T.rowD i = []) →
    ∃ T', matrixExtractLoop A cols k is T = .ok T' ∧ T'.WF ∧ T'.nrows = T.nrows ∧
      T'.ncols = T.ncols ∧
      ∀ i, T'.rowD i = if k ≤ i then
        ((is[i-k]?).map fun r => vectorExtract (A.rowD r) 0 cols).getD [] else T.rowD i := by
  induction is with
  | nil =>
    intro k T hT _ _ hnil
    refine ⟨T, rfl, hT, rfl, rfl, fun i => ?_⟩
    split
    · next h => simpa using hnil i h
    · rfl
  | cons r is ih =>
    intro k T hT hn hk hnil
    have hlen : k < T.nrows := by simp only [List.length_cons] at hk; omega
    obtain ⟨v1, v2⟩ := vectorExtract_spec (n := n) (hA.rowD_ok r).sorted hc
    obtain ⟨T1, s1, s2, s3, s4, s5⟩ := setRowIf_spec hT hlen (r := vectorExtract (A.rowD r) 0 cols)
      (by rw [hn]; exact v1) (hnil k (Nat.le_refl _))
    obtain ⟨T2, t1, t2, t3, t4, t5⟩ := ih (fun x hx => hi x (List.mem_cons_of_mem _ hx)) (k+1) T1 s2
      (by rw [s4, hn]) (by rw [s3]; simp only [List.length_cons] at hk; omega) (by
        intro i hik
        rw [s5, if_neg (by omega), hnil i (by omega)])
    refine ⟨T2, ?_, t2, by rw [t3, s3], by rw [t4, s4], fun i => ?_⟩
    · simp only [matrixExtractLoop, hA.row_ok (hi r (List.mem_cons_self ..)), Except.bind_ok', s1, t1]
    · rw [t5, s5]
      rcases Nat.lt_trichotomy i k with h | h | h
      · rw [if_neg (by omega), if_neg (by omega), if_neg (by omega)]
      · subst h
        rw [if_neg (by omega), if_pos rfl, if_pos (Nat.le_refl _)]
        simp
      · rw [if_pos (by omega), if_pos (by omega)]
        have e4 : i - k = (i - (k+1)) + 1 := by omega
        rw [e4]; rfl

theorem new_clear (m n : Nat) : (Lil.new m n : Lil α).clear = Lil.new m n := by
  simp [Lil.clear, Lil.new]

theorem extractMat_spec {C : Lil γ} {A : Lil α} {ri ci : Idx} (hA : A.WFr)
    (hr : ri.below A.nrows) (hc : ci.below A.ncols)
    (hlr : ri.len C.nrows = C.nrows) (hlc : ci.len C.ncols = C.ncols) :
    ∃ T, extractMat C A ri ci = .ok T ∧ T.WFr ∧ T.nrows = C.nrows ∧ T.ncols = C.ncols ∧
      ∀ i j, i < C.nrows → j < C.ncols →
        T.get i j = Spec.extractMat A.nrows A.ncols ri.sel ci.sel A.get i j := by
  have hcols : (setupIndices ci (min A.ncols C.ncols)).length ≤ C.ncols := by
    rw [setup_length]; cases ci <;> simp only [Idx.len] at * <;> omega
  have hrows : (setupIndices ri (min A.nrows C.nrows)).length ≤ C.nrows := by
    rw [setup_length]; cases ri <;> simp only [Idx.len] at * <;> omega
  obtain ⟨T, t1, t2, t3, t4, t5⟩ := matrixExtractLoop_spec hA hcols
    (setupIndices ri (min A.nrows C.nrows)) (Idx.mem_setup hr (by omega)) 0 (Lil.new C.nrows C.ncols)
    (Lil.new_wf _ _) rfl (by rw [Nat.zero_add]; exact hrows) (fun i _ => by simp)
  refine ⟨T, ?_, t2.toWFr, t3, t4, fun i j hi hj => ?_⟩
  · simp only [extractMat, checkIndex_ok hr, checkIndex_ok hc, Except.bind_ok', new_clear, t1]
  · rw [Lil.get, t5]
    simp only [Nat.zero_le, if_true, Nat.sub_zero, Nat.min_comm A.nrows, setup_nth ri A.nrows i _ hi,
      Spec.extractMat]
    cases Spec.nth ri.sel A.nrows i with
    | none => rfl
    | some r =>
      simp only [Option.map_some, Option.getD_some, Option.bind_some]
      rw [(vectorExtract_spec (hA.rowD_ok r).sorted hcols).2, Nat.min_comm A.ncols,
        setup_nth ci A.ncols j _ hj]
      rfl

theorem emplaceIf_eq (T : Lil τ) (l k : Nat) (x : Option τ) :
    emplaceIf T l k x = pushCol k (emplaceIf1D [] l x) T := by
  cases x with
  | none => rfl
  | some v =>
    show (do let t ← T.row l; T.pokeRow l (t ++ [(k, v)])) = _
    simp only [emplaceIf1D, pushCol, List.nil_append, List.foldlM_cons, List.foldlM_nil]
    exact (bind_pure _).symm

theorem pushCol_append (k : Nat) (r s : Row τ) (T : Lil τ) :
    pushCol k (r ++ s) T = (pushCol k r T >>= pushCol k s) := by
  simp only [pushCol, List.foldlM_append]; rfl

theorem matrixExtractColT_eq (a : Row α) (k : Nat) (js : List Nat) : ∀ (l : Nat) (T : Lil α),
    matrixExtractColT a k l js T = pushCol k (vectorExtract a l js) T := by
  induction js with
  | nil => intro l T; rfl
  | cons j js ih =>
    intro l T
    rw [matrixExtractColT, vectorExtract, emplaceIf_eq, pushCol_append]
    congr 1
    funext T
    exact ih _ _

/-- A loop over a list with a counter, as a loop over the positions. -/
theorem zip_loop {σ : Type} (js : List Nat) (body : Nat → Nat → σ → Except Err σ)
    (loop : Nat → List Nat → σ → Except Err σ) (h0 : ∀ k s, loop k [] s = .ok s)
    (h1 : ∀ k j js s, loop k (j :: js) s = (body k j s >>= loop (k + 1) js)) (s : σ) :
    loop 0 js s = forN js.length s fun i s => body i (js.getD i 0) s := by
  suffices H : ∀ (js : List Nat) (k : Nat) (s : σ), loop k js s
      = (List.range js.length).foldlM (fun s i => body (k + i) (js.getD i 0) s) s by
    simpa [forN] using H js 0 s
  intro js
  induction js with
  | nil => intro k s; rw [h0]; rfl
  | cons j js ih =>
    intro k s
    rw [h1, List.length_cons, List.range_succ_eq_map, List.foldlM_cons]
    simp only [Nat.add_zero, List.getD_cons_zero, foldlM_map']
    congr 1
    funext s
    rw [ih]
    congr 1
    funext s i
    simp only [List.getD_cons_succ]
    congr 1
    omega

theorem extractMatT_spec {C : Lil γ} {A : Lil α} {ri ci : Idx} (hA : A.WFr)
    (hr : ri.below A.ncols) (hc : ci.below A.nrows)
    (hlr : ri.len C.nrows = C.nrows) (hlc : ci.len C.ncols = C.ncols) :
    ∃ T, extractMatT C A ri ci = .ok T ∧ T.WFr ∧ T.nrows = C.nrows ∧ T.ncols = C.ncols ∧
      ∀ i j, i < C.nrows → j < C.ncols →
        T.get i j = Spec.extractMat A.ncols A.nrows ri.sel ci.sel (Spec.Mat.tr A.get) i j := by
  have hcols : (setupIndices ci (min A.nrows C.ncols)).length ≤ C.ncols := by
    rw [setup_length]; cases ci <;> simp only [Idx.len] at * <;> omega
  have hrows : (setupIndices ri (min A.ncols C.nrows)).length ≤ C.nrows := by
    rw [setup_length]; cases ri <;> simp only [Idx.len] at * <;> omega
  have hmem := Idx.mem_setup (m := min A.nrows C.ncols) hc (by omega)
  obtain ⟨T, t1, t2, t3, t4, t5⟩ := pushCols_spec (m := C.nrows) (n := C.ncols)
    (k := (setupIndices ci (min A.nrows C.ncols)).length)
    (row := fun i => do
      let a ← A.row ((setupIndices ci (min A.nrows C.ncols)).getD i 0)
      .ok (vectorExtract a 0 (setupIndices ri (min A.ncols C.nrows))))
    (fun i => vectorExtract (A.rowD ((setupIndices ci (min A.nrows C.ncols)).getD i 0)) 0
      (setupIndices ri (min A.ncols C.nrows)))
    (by
      intro i hi
      rw [hA.row_ok]
      · rfl
      · apply hmem
        rw [List.getD_eq_getElem?_getD, List.getElem?_eq_getElem hi]
        exact List.getElem_mem ..)
    (fun i _ => (vectorExtract_spec (hA.rowD_ok _).sorted hrows).1) hcols
  refine ⟨T, ?_, t2.toWFr, t3, t4, fun i j hi hj => ?_⟩
  · simp only [extractMatT, checkIndex_ok hr, checkIndex_ok hc, Except.bind_ok', new_clear]
    rw [zip_loop (setupIndices ci (min A.nrows C.ncols)) (fun k j T => do
      let a ← A.row j
      pushCol k (vectorExtract a 0 (setupIndices ri (min A.ncols C.nrows))) T)
      (matrixExtractLoopT A (setupIndices ri (min A.ncols C.nrows))) (fun _ _ => rfl) (by
        intro k j js T
        rw [matrixExtractLoopT]
        simp only [matrixExtractColT_eq, bind_assoc])]
    rw [← t1, pushCols]
    simp only [bind_assoc]
    rfl
  · rw [t5, Nat.min_comm A.nrows, Nat.min_comm A.ncols]
    simp only [Spec.extractMat]
    have hn := setup_nth ci A.nrows j _ hj
    have hn2 := setup_nth ri A.ncols i _ hi
    split
    · next hlt =>
      rw [(vectorExtract_spec (hA.rowD_ok _).sorted (n := C.nrows)
        (by rw [Nat.min_comm]; exact hrows)).2, hn2, ← hn, List.getElem?_eq_getElem hlt]
      simp only [List.getD_eq_getElem?_getD, List.getElem?_eq_getElem hlt, Option.getD_some,
        Option.bind_some]
      rfl
    · next hlt =>
      rw [← hn, List.getElem?_eq_none (by omega)]
      simp

theorem extractCol_spec {w : BVec γ} {A : Lil α} {ri : Idx} {j : Nat} (hA : A.WFr)
    (hr : ri.below A.nrows) (hl : ri.len w.size = w.size) :
    ∃ t, extractCol w A ri j = .ok t ∧ OK w.size t ∧
      ∀ k, k < w.size → get t k = Spec.extract A.nrows ri.sel (fun i => A.get i j) k := by
  have hlen : (setupIndices ri (min A.nrows w.size)).length ≤ w.size := by
    rw [setup_length]; cases ri <;> simp only [Idx.len] at * <;> omega
  refine ⟨_, ?_, listRow_ok ((setupIndices ri (min A.nrows w.size)).map fun i => A.get i j)
    (by simpa using hlen), fun k hk => ?_⟩
  · simp only [extractCol, checkIndex_ok hr, Except.bind_ok',
      extractColumnLoop_eq hA j _ (Idx.mem_setup hr (Nat.min_le_left ..))]
  · rw [listRow_get, Nat.min_comm, setup_nth _ _ _ _ hk]; rfl

theorem extractColT_spec {w : BVec γ} {A : Lil α} {ri : Idx} {j : Nat} (hA : A.WFr)
    (hr : ri.below A.ncols) (hj : j < A.nrows) (hl : ri.len w.size = w.size) :
    ∃ t, extractColT w A ri j = .ok t ∧ OK w.size t ∧
      ∀ k, k < w.size → get t k = Spec.extract A.ncols ri.sel (fun i => Spec.Mat.tr A.get i j) k := by
  have hlen : (setupIndices ri (min A.ncols w.size)).length ≤ w.size := by
    rw [setup_length]; cases ri <;> simp only [Idx.len] at * <;> omega
  refine ⟨_, ?_, listRow_ok ((setupIndices ri (min A.ncols w.size)).map (get (A.rowD j)))
    (by simpa using hlen), fun k hk => ?_⟩
  · simp only [extractColT, checkIndex_ok hr, Except.bind_ok', hA.row_ok hj,
      extractRowLoop_eq (hA.rowD_ok j).sorted]
  · rw [listRow_get, Nat.min_comm, setup_nth _ _ _ _ hk]; rfl

end GBTL

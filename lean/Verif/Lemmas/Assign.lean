import Verif.Lemmas.Extract
namespace GBTL
open Spec (Outp MaskKind Accum both either osum)
open Row

variable {α β γ δ τ ζ μ ν : Type}

/-! ### compute_outin_mapping and vectorExpand -/

theorem insertPair_perm (p : Nat × Nat) (l : List (Nat × Nat)) : (insertPair p l).Perm (p :: l) := by
  induction l with
  | nil => exact .refl _
  | cons q l ih =>
    rw [insertPair]
    split
    · exact .refl _
    · exact (ih.cons q).trans (.swap ..)

theorem sortPairs_perm (l : List (Nat × Nat)) : (sortPairs l).Perm l := by
  induction l with
  | nil => exact .refl _
  | cons p l ih => exact (insertPair_perm p _).trans (ih.cons p)

theorem insertPair_sorted (p : Nat × Nat) {l : List (Nat × Nat)} (h : l.Pairwise fun p q => p.1 ≤ q.1) :
    (insertPair p l).Pairwise fun p q => p.1 ≤ q.1 := by
  induction l with
  | nil => simp [insertPair]
  | cons q l ih =>
    rw [List.pairwise_cons] at h
    rw [insertPair]
    split
    · next hle =>
      refine List.pairwise_cons.2 ⟨fun r hr => ?_, List.pairwise_cons.2 h⟩
      rcases List.mem_cons.1 hr with rfl | hr
      · exact hle
      · exact Nat.le_trans hle (h.1 r hr)
    · next hle =>
      refine List.pairwise_cons.2 ⟨fun r hr => ?_, ih h.2⟩
      rcases List.mem_cons.1 ((insertPair_perm p l).mem_iff.1 hr) with rfl | hr
      · omega
      · exact h.1 r hr

theorem sortPairs_sorted (l : List (Nat × Nat)) : (sortPairs l).Pairwise fun p q => p.1 ≤ q.1 := by
  induction l with
  | nil => exact .nil
  | cons p l ih => exact insertPair_sorted p ih

theorem outinMapping_perm (ix : List Nat) :
    (outinMapping ix).Perm (ix.zip (List.range ix.length)) := sortPairs_perm _

theorem mem_outin {ix : List Nat} {o i : Nat} : (o, i) ∈ outinMapping ix ↔ ix[i]? = some o := by
  rw [(outinMapping_perm ix).mem_iff]
  constructor
  · intro h
    obtain ⟨k, hk, e⟩ := List.mem_iff_getElem.1 h
    rw [List.getElem_zip] at e
    simp only [List.getElem_range, Prod.mk.injEq] at e
    obtain ⟨e1, e2⟩ := e
    subst e2
    rw [← e1]
    exact List.getElem?_eq_getElem _
  · intro h
    obtain ⟨hk, e⟩ := List.getElem?_eq_some_iff.1 h
    refine List.mem_iff_getElem.2 ⟨i, by simpa using hk, ?_⟩
    rw [List.getElem_zip, e]; simp

theorem outin_sorted {ix : List Nat} (hn : ix.Nodup) :
    (outinMapping ix).Pairwise fun p q => p.1 < q.1 := by
  have h1 : (outinMapping ix).Pairwise fun p q => p.1 ≤ q.1 := sortPairs_sorted _
  have h2 : ((outinMapping ix).map (·.1)).Nodup := by
    rw [((outinMapping_perm ix).map _).nodup_iff]
    rw [List.map_fst_zip (by simp)]
    exact hn
  rw [List.Nodup, List.pairwise_map] at h2
  exact (h1.and h2).imp fun ⟨a, b⟩ => by omega

theorem vectorExpandLoop_eq {src : Row α} (hs : Sorted src) : ∀ (ps : List (Nat × Nat)) (s : Row α),
    Sorted s → (∀ o i, ps.head? = some (o, i) → ∀ j, i ≤ j → get s j = get src j) →
    vectorExpandLoop src s ps = ps.filterMap fun p => (get src p.2).map fun x => (p.1, x) := by
  intro ps
  induction ps with
  | nil => intro s _ _; simp [vectorExpandLoop]
  | cons p ps ih =>
    obtain ⟨o, i⟩ := p
    intro s hss hg
    have hg' := hg o i rfl
    have hhead : headIs i (dropBelow i s) = get src i := by
      rw [headIs_dropBelow hss, hg' i (Nat.le_refl _)]
    rw [vectorExpandLoop]
    simp only [hhead, List.filterMap_cons]
    have hrest : vectorExpandLoop src (nextSuffix src (dropBelow i s) ps) ps
        = ps.filterMap fun p => (get src p.2).map fun x => (p.1, x) := by
      match ps, ih with
      | [], _ => rfl
      | (o', i') :: ps', ih =>
        simp only [nextSuffix]
        cases hr : restart (dropBelow i s) i' with
        | true =>
          exact ih src hs (fun _ _ _ _ _ => rfl)
        | false =>
          refine ih _ (sorted_dropBelow hss) ?_
          intro o1 i1 he j hj
          simp only [List.head?_cons, Option.some.injEq, Prod.mk.injEq] at he
          obtain ⟨_, rfl⟩ := he
          match hd : dropBelow i s, hr with
          | (k, x) :: r, hr =>
            simp only [restart, decide_eq_false_iff_not] at hr
            have hge := dropBelow_ge (j := i) hss (k, x) (by rw [hd]; exact List.mem_cons_self ..)
            simp only at hge
            rw [← hd]
            simp only [Bool.false_eq_true, if_false]
            rw [get_dropBelow hss, if_pos (by omega)]
            exact hg' j (by omega)
    rw [hrest]
    cases get src i <;> simp [emplaceIf1D]

theorem idxOf?_of_nodup {l : List Nat} (hn : l.Nodup) {i o : Nat} (h : l[i]? = some o) :
    l.idxOf? o = some i := by
  obtain ⟨hi, e⟩ := List.getElem?_eq_some_iff.1 h
  refine List.idxOf?_eq_some_iff.2 ⟨hi, e, fun j hj hje => ?_⟩
  have := (List.nodup_iff_pairwise_ne.1 hn)
  rw [List.pairwise_iff_getElem] at this
  exact this j i (by omega) hi hj (by rw [hje, e])

theorem getElem?_of_idxOf? {l : List Nat} {i o : Nat} (h : l.idxOf? o = some i) :
    l[i]? = some o := by
  obtain ⟨hi, e, _⟩ := List.idxOf?_eq_some_iff.1 h
  rw [List.getElem?_eq_getElem hi, e]

theorem vectorExpand_spec {n : Nat} {src : Row α} (hs : Sorted src) {ix : List Nat} (hn : ix.Nodup)
    (hb : ∀ i ∈ ix, i < n) : OK n (vectorExpand src (outinMapping ix)) ∧
      ∀ o, get (vectorExpand src (outinMapping ix)) o = (ix.idxOf? o).bind (get src) := by
  have he : vectorExpand src (outinMapping ix)
      = (outinMapping ix).filterMap fun p => (get src p.2).map fun x => (p.1, x) :=
    vectorExpandLoop_eq hs _ _ hs (fun _ _ _ _ _ => rfl)
  have hsorted : Sorted (vectorExpand src (outinMapping ix)) := by
    rw [he, Sorted, List.pairwise_filterMap]
    refine (outin_sorted hn).imp fun {p q} h a ha b hb => ?_
    simp only [Option.map_eq_some_iff] at ha hb
    obtain ⟨_, _, rfl⟩ := ha
    obtain ⟨_, _, rfl⟩ := hb
    exact h
  have hmem : ∀ o x, (o, x) ∈ vectorExpand src (outinMapping ix) ↔
      ∃ i, ix[i]? = some o ∧ get src i = some x := by
    intro o x
    rw [he]
    simp only [List.mem_filterMap, Option.map_eq_some_iff, Prod.mk.injEq, Prod.exists]
    constructor
    · rintro ⟨a, b, h1, y, h2, rfl, rfl⟩
      exact ⟨b, mem_outin.1 h1, h2⟩
    · rintro ⟨i, h1, h2⟩
      exact ⟨o, i, mem_outin.2 h1, x, h2, rfl, rfl⟩
  refine ⟨⟨hsorted, ?_⟩, ?_⟩
  · rintro ⟨o, x⟩ hp
    obtain ⟨i, h1, _⟩ := (hmem o x).1 hp
    exact hb o (List.mem_of_getElem? h1)
  · intro o
    apply Option.ext
    intro x
    rw [get_eq_some_iff hsorted, hmem]
    constructor
    · rintro ⟨i, h1, h2⟩
      have : ix.idxOf? o = some i := idxOf?_of_nodup hn h1
      rw [this]; exact h2
    · intro h
      obtain ⟨i, h1, h2⟩ := Option.bind_eq_some_iff.1 h
      exact ⟨i, getElem?_of_idxOf? h1, h2⟩

theorem vectorExpand_nil (ps : List (Nat × Nat)) : vectorExpand ([] : Row α) ps = [] := by
  rw [vectorExpand, vectorExpandLoop_eq sorted_nil _ _ sorted_nil (fun _ _ _ _ _ => rfl)]
  simp

theorem vectorExpand_if (a : Row α) (ps : List (Nat × Nat)) :
    (if !a.isEmpty then vectorExpand a ps else []) = vectorExpand a ps := by
  cases a with
  | nil => simp [vectorExpand_nil]
  | cons p a => rfl

theorem idxOf?_range (n i : Nat) : (List.range n).idxOf? i = if i < n then some i else none := by
  by_cases h : i < n
  · rw [if_pos h]
    exact idxOf?_of_nodup List.nodup_range (by simp [h])
  · rw [if_neg h, List.idxOf?_eq_none_iff]
    simpa using h

theorem setup_pos (ix : Idx) (n i : Nat) :
    (setupIndices ix n).idxOf? i = Spec.posOf ix.sel n i := by
  cases ix with
  | list l => rfl
  | all => exact idxOf?_range n i

theorem setup_nodup {ix : Idx} (h : ix.nodup) (n : Nat) : (setupIndices ix n).Nodup := by
  cases ix with
  | list l => exact h
  | all => exact List.nodup_range

theorem search_setup (ix : Idx) (n i : Nat) :
    searchIndices (.list (setupIndices ix n)) i = Spec.selected ix.sel n i := by
  rw [Spec.selected, ← setup_pos, searchIndices]
  rw [Bool.eq_iff_iff, List.isSome_idxOf?]
  simp

/-! ### assign: the expanded source -/

/-- `all` is acceptable only when the source is not larger than the destination. -/
def Idx.fits (ix : Idx) (m n : Nat) : Prop :=
  match ix with
  | .list _ => True
  | .all => m ≤ n

theorem Idx.fits_self (ix : Idx) (n : Nat) : ix.fits n n := by
  cases ix <;> simp [Idx.fits]

theorem setup_below' {ix : Idx} {n m : Nat} (h : ix.below n) (hl : ix.fits m n) :
    ∀ i ∈ setupIndices ix m, i < n := by
  cases ix with
  | list l => exact h
  | all =>
    simp only [Idx.fits] at hl
    intro i hi
    simp only [setupIndices, List.mem_range] at hi
    omega

theorem assignVec_spec {w : BVec γ} {u : BVec α} {ix : Idx} (hu : u.WF) (hb : ix.below w.size)
    (hn : ix.nodup) (hf : ix.fits u.size w.size) :
    ∃ t, assignVec w u ix = .ok t ∧ OK w.size t ∧
      ∀ i, get t i = Spec.assignSrc u.size ix.sel u.get i := by
  obtain ⟨c, c1, c2, c3, _⟩ := BVec.getContents_spec hu
  obtain ⟨h1, h2⟩ := vectorExpand_spec c2.sorted (setup_nodup hn u.size) (setup_below' hb hf)
  refine ⟨_, ?_, h1, fun i => ?_⟩
  · simp only [assignVec, checkIndex_ok hb, c1, Except.bind_ok']
  · rw [h2, setup_pos, Spec.assignSrc]
    congr 1
    funext k
    exact c3 k

theorem matrixExpandLoop_spec {A : Lil α} (hA : A.WFr) {n : Nat} {pairs : List (Nat × Nat)}
    (hp : ∀ r, OK n (vectorExpand (A.rowD r) pairs)) (os : List Nat) : ∀ (k : Nat) (T : Lil α),
    os.Nodup → T.WF → T.ncols = n → k + os.length ≤ A.nrows → (∀ o ∈ os, o < T.nrows) →
    (∀ o ∈ os, T.rowD o = []) →
    ∃ T', matrixExpandLoop A pairs k os T = .ok T' ∧ T'.WF ∧ T'.nrows = T.nrows ∧
      T'.ncols = T.ncols ∧
      ∀ i, T'.rowD i = ((os.idxOf? i).map fun r => vectorExpand (A.rowD (k + r)) pairs).getD
        (T.rowD i) := by
  induction os with
  | nil => intro k T _ hT _ _ _ _; exact ⟨T, rfl, hT, rfl, rfl, fun i => rfl⟩
  | cons o os ih =>
    intro k T hnd hT hn hk hlt hnil
    rw [List.nodup_cons] at hnd
    simp only [List.length_cons] at hk
    obtain ⟨T1, s1, s2, s3, s4, s5⟩ := setRowIf_spec hT (hlt o (List.mem_cons_self ..))
      (r := vectorExpand (A.rowD k) pairs) (by rw [hn]; exact hp k)
      (hnil o (List.mem_cons_self ..))
    obtain ⟨T2, t1, t2, t3, t4, t5⟩ := ih (k+1) T1 hnd.2 s2 (by rw [s4, hn]) (by omega)
      (fun x hx => by rw [s3]; exact hlt x (List.mem_cons_of_mem _ hx)) (by
        intro x hx
        have hxo : x ≠ o := by rintro rfl; exact hnd.1 hx
        rw [s5, if_neg hxo, hnil x (List.mem_cons_of_mem _ hx)])
    refine ⟨T2, ?_, t2, by rw [t3, s3], by rw [t4, s4], fun i => ?_⟩
    · simp only [matrixExpandLoop, hA.row_ok (show k < A.nrows by omega), Except.bind_ok',
        vectorExpand_if, s1, t1]
    · rw [t5, s5, List.idxOf?_cons]
      by_cases h : o = i
      · subst h
        have : os.idxOf? o = none := List.idxOf?_eq_none_iff.2 hnd.1
        simp [this]
      · have h' : ¬ i = o := fun e => h e.symm
        simp only [beq_iff_eq, h, h', if_false]
        cases os.idxOf? i with
        | none => rfl
        | some r =>
          simp only [Option.map_some, Option.getD_some]
          congr 2
          omega

theorem Option.bind_comm' {α β γ : Type} (a : Option α) (b : Option β) (f : α → β → Option γ) :
    (a.bind fun x => b.bind fun y => f x y) = b.bind fun y => a.bind fun x => f x y := by
  cases a <;> cases b <;> rfl

theorem assignMat_spec {C : Lil γ} {A : Lil α} {ri ci : Idx} (hA : A.WFr)
    (hr : ri.below C.nrows) (hc : ci.below C.ncols) (hrn : ri.nodup) (hcn : ci.nodup)
    (hrl : ri.len A.nrows = A.nrows)
    (hrf : ri.fits A.nrows C.nrows) (hcf : ci.fits A.ncols C.ncols) :
    ∃ T, assignMat C A ri ci = .ok T ∧ T.WFr ∧ T.nrows = C.nrows ∧ T.ncols = C.ncols ∧
      ∀ i j, T.get i j = Spec.assignSrcMat A.nrows A.ncols ri.sel ci.sel A.get i j := by
  have hp := fun r => vectorExpand_spec (hA.rowD_ok r).sorted (setup_nodup hcn A.ncols)
    (setup_below' hc hcf)
  obtain ⟨T, t1, t2, t3, t4, t5⟩ := matrixExpandLoop_spec hA (fun r => (hp r).1)
    (setupIndices ri A.nrows) 0 (Lil.new C.nrows C.ncols) (setup_nodup hrn _) (Lil.new_wf _ _) rfl
    (by rw [setup_length]; omega) (setup_below' hr hrf) (fun o _ => by simp)
  refine ⟨T, ?_, t2.toWFr, t3, t4, fun i j => ?_⟩
  · simp only [assignMat, checkIndex_ok hr, checkIndex_ok hc, Except.bind_ok', new_clear, t1]
  · rw [Lil.get, t5, setup_pos, Spec.assignSrcMat]
    cases Spec.posOf ri.sel A.nrows i with
    | none => simp
    | some r =>
      simp only [Option.map_some, Option.getD_some, Option.bind_some, Nat.zero_add]
      rw [(hp r).2, setup_pos]; rfl

theorem assignMatT_spec {C : Lil γ} {A : Lil α} {ri ci : Idx} (hA : A.WFr)
    (hr : ri.below C.nrows) (hc : ci.below C.ncols) (hrn : ri.nodup) (hcn : ci.nodup)
    (hcl : ci.len A.nrows = A.nrows)
    (hrf : ri.fits A.ncols C.nrows) (hcf : ci.fits A.nrows C.ncols) :
    ∃ T, assignMatT C A ri ci = .ok T ∧ T.WFr ∧ T.nrows = C.nrows ∧ T.ncols = C.ncols ∧
      ∀ i j, T.get i j
        = Spec.assignSrcMat A.ncols A.nrows ri.sel ci.sel (Spec.Mat.tr A.get) i j := by
  have hp := fun r => vectorExpand_spec (hA.rowD_ok r).sorted (setup_nodup hrn A.ncols)
    (setup_below' hr hrf)
  have hcmem : ∀ p ∈ outinMapping (setupIndices ci A.nrows), p.1 < C.ncols ∧ p.2 < A.nrows := by
    rintro ⟨o, i⟩ h
    have := mem_outin.1 h
    refine ⟨setup_below' hc hcf o (List.mem_of_getElem? this), ?_⟩
    obtain ⟨hi, _⟩ := List.getElem?_eq_some_iff.1 this
    rw [setup_length] at hi
    simp only; omega
  obtain ⟨T, t1, hT⟩ := foldlM_push (m := C.nrows) (n := C.ncols)
    (fun p : Nat × Nat => (vectorExpand (A.rowD p.2)
      (outinMapping (setupIndices ri A.ncols))).map fun q => (q.1, p.1, q.2))
    (body := fun T p => do
      let a ← A.row p.2
      pushCol p.1 (vectorExpand a (outinMapping (setupIndices ri A.ncols))) T)
    (outinMapping (setupIndices ci A.nrows))
    (by
      intro p hpm T _ _ _
      left
      rw [hA.row_ok (hcmem p hpm).2]
      exact pushCol_eq ..)
    (by
      intro p hpm e he
      obtain ⟨q, hq, rfl⟩ := List.mem_map.1 he
      exact ⟨(hp p.2).1.bound q hq, (hcmem p hpm).1⟩)
    (Pushed.new C.nrows C.ncols)
    (by
      rw [List.nil_append]
      refine pairwise_flatMap'.2 ⟨?_, ?_⟩
      · intro p _
        rw [List.pairwise_map]
        exact (hp p.2).1.sorted.imp fun {a b} h e => by simp only at e; omega
      · refine (outin_sorted (setup_nodup hcn A.nrows)).imp fun {a b} hab x hx y hy _ => ?_
        obtain ⟨p, _, rfl⟩ := List.mem_map.1 hx
        obtain ⟨q, _, rfl⟩ := List.mem_map.1 hy
        exact hab)
  rw [List.nil_append] at hT
  refine ⟨T.recomputeNvals, ?_, (Lil.recomputeNvals_wf hT.wfr).toWFr, hT.nr, hT.nc, fun i j => ?_⟩
  · simp only [assignMatT, checkIndex_ok hr, checkIndex_ok hc, Except.bind_ok', new_clear,
      matrixExpandT, t1]
  · apply Option.ext
    intro x
    rw [hT.recompute.get]
    simp only [List.mem_flatMap, List.mem_map, Prod.mk.injEq, Spec.assignSrcMat]
    rw [Option.bind_comm']
    constructor
    · rintro ⟨⟨o, c⟩, hp1, ⟨a, y⟩, hq, rfl, rfl, rfl⟩
      have h1 := get_of_mem (hp c).1.sorted hq
      rw [(hp c).2, setup_pos] at h1
      rw [← setup_pos ci, idxOf?_of_nodup (setup_nodup hcn A.nrows) (mem_outin.1 hp1)]
      exact h1
    · intro h
      obtain ⟨c, hc1, hc2⟩ := Option.bind_eq_some_iff.1 h
      refine ⟨(j, c), mem_outin.2 (getElem?_of_idxOf? (by rw [setup_pos]; exact hc1)), (i, x), ?_,
        rfl, rfl, rfl⟩
      apply mem_of_get
      rw [(hp c).2, setup_pos]
      exact hc2

/-! ### assign of a constant -/

theorem const_row {n : Nat} {l : List Nat} (hl : l.Pairwise (· < ·)) (hb : ∀ i ∈ l, i < n) (v : α) :
    OK n (l.map fun i => (i, v)) ∧
      ∀ i, get (l.map fun i => (i, v) : Row α) i = if i ∈ l then some v else none := by
  have hs : Sorted (l.map fun i => (i, v)) := by
    rw [Sorted, List.pairwise_map]; exact hl
  refine ⟨⟨hs, ?_⟩, fun i => ?_⟩
  · intro p hp
    obtain ⟨i, hi, rfl⟩ := List.mem_map.1 hp
    exact hb i hi
  · split
    · next h => exact get_of_mem hs (List.mem_map.2 ⟨i, h, rfl⟩)
    · next h =>
      apply get_none_of_forall
      intro p hp e
      obtain ⟨k, hk, rfl⟩ := List.mem_map.1 hp
      simp only at e
      exact h (e ▸ hk)

theorem setup_asc {ix : Idx} (h : ix.ascending) (n : Nat) :
    (setupIndices ix n).Pairwise (· < ·) := by
  cases ix with
  | list l => exact h
  | all => exact List.pairwise_lt_range

theorem setup_mem (ix : Idx) (n i : Nat) :
    i ∈ setupIndices ix n ↔ Spec.selected ix.sel n i = true := by
  rw [Spec.selected, ← setup_pos, List.isSome_idxOf?]

theorem assignConstVec_spec {w : BVec γ} (val : α) {ix : Idx} (hb : ix.below w.size)
    (ha : ix.ascending) :
    ∃ t, assignConstVec w val ix = .ok t ∧ OK w.size t ∧
      ∀ i, get t i = if Spec.selected ix.sel w.size i then some val else none := by
  obtain ⟨h1, h2⟩ := const_row (setup_asc ha w.size) (setup_below' hb (Idx.fits_self ix _)) val
  refine ⟨_, ?_, h1, fun i => ?_⟩
  · simp only [assignConstVec, checkIndex_ok hb, Except.bind_ok']
  · rw [h2]
    simp only [setup_mem]

theorem assignConstLoop_spec (val : α) {n : Nat} {cols : List Nat}
    (hc : OK n (cols.map fun j => (j, val))) (is : List Nat) : ∀ (T : Lil α),
    T.WF → T.ncols = n → (∀ i ∈ is, i < T.nrows) →
    (∀ i, T.rowD i = [] ∨ T.rowD i = cols.map fun j => (j, val)) →
    ∃ T', assignConstLoop val cols is T = .ok T' ∧ T'.WF ∧ T'.nrows = T.nrows ∧
      T'.ncols = T.ncols ∧
      ∀ i, T'.rowD i = if i ∈ is then (cols.map fun j => (j, val)) else T.rowD i := by
  induction is with
  | nil => intro T hT _ _ _; exact ⟨T, rfl, hT, rfl, rfl, fun i => by simp⟩
  | cons k is ih =>
    intro T hT hn hlt hinv
    have hk := hlt k (List.mem_cons_self ..)
    have step : ∃ T1, setRowIf T k (cols.map fun j => (j, val)) = .ok T1 ∧ T1.WF ∧
        T1.nrows = T.nrows ∧ T1.ncols = T.ncols ∧
        ∀ i, T1.rowD i = if i = k then (cols.map fun j => (j, val)) else T.rowD i := by
      rcases hinv k with h | h
      · exact setRowIf_spec hT hk (by rw [hn]; exact hc) h
      · unfold setRowIf
        split
        · obtain ⟨T1, s1, s2, s3, s4, s5, s6⟩ := Lil.setRow_spec (c := id) hT.toWFr hk
            (r := cols.map fun j => (j, val)) (by rw [hn]; exact hc)
          exact ⟨T1, s1, s5 hT, s3, s4, by simpa using s6⟩
        · refine ⟨T, rfl, hT, rfl, rfl, fun i => ?_⟩
          split
          · next e => subst e; exact h
          · rfl
    obtain ⟨T1, s1, s2, s3, s4, s5⟩ := step
    obtain ⟨T2, t1, t2, t3, t4, t5⟩ := ih T1 s2 (by rw [s4, hn])
      (fun x hx => by rw [s3]; exact hlt x (List.mem_cons_of_mem _ hx)) (by
        intro i
        rw [s5]
        split
        · exact Or.inr rfl
        · exact hinv i)
    refine ⟨T2, ?_, t2, by rw [t3, s3], by rw [t4, s4], fun i => ?_⟩
    · simp only [assignConstLoop, s1, Except.bind_ok', t1]
    · rw [t5, s5]
      by_cases h1 : i ∈ is <;> by_cases h2 : i = k <;> simp [h1, h2]

theorem assignConstMat_spec {C : Lil γ} (val : α) {ri ci : Idx}
    (hr : ri.below C.nrows) (hc : ci.below C.ncols) (ha : ci.ascending) :
    ∃ T, assignConstMat C val ri ci = .ok T ∧ T.WFr ∧ T.nrows = C.nrows ∧ T.ncols = C.ncols ∧
      ∀ i j, T.get i j = if Spec.selected ri.sel C.nrows i && Spec.selected ci.sel C.ncols j
        then some val else none := by
  obtain ⟨h1, h2⟩ := const_row (setup_asc ha C.ncols) (setup_below' hc (Idx.fits_self ci _)) val
  obtain ⟨T, t1, t2, t3, t4, t5⟩ := assignConstLoop_spec val h1 (setupIndices ri C.nrows)
    (Lil.new C.nrows C.ncols) (Lil.new_wf _ _) rfl (setup_below' hr (Idx.fits_self ri _))
    (fun i => by simp)
  refine ⟨T, ?_, t2.toWFr, t3, t4, fun i j => ?_⟩
  · simp only [assignConstMat, checkIndex_ok hr, checkIndex_ok hc, Except.bind_ok', t1]
  · rw [Lil.get, t5]
    by_cases hi : i ∈ setupIndices ri C.nrows
    · rw [if_pos hi, h2]
      rw [setup_mem] at hi
      simp only [setup_mem, hi, Bool.true_and]
    · rw [if_neg hi]
      rw [setup_mem, Bool.not_eq_true] at hi
      simp [hi]

/-! ### accumulate under a stencil -/

theorem stencil1D_spec {w : BVec γ} {t : Row τ} (castC : γ → ζ) (st : Idx) (acc : Accum γ τ ζ)
    (hw : w.WF) (ht : OK w.size t) (hn : ∀ i, searchIndices st i = false → get t i = none) :
    ∃ z : Row ζ, ewiseOrStencilOptAccum1D castC w t st acc = .ok z ∧ OK w.size z ∧
      ∀ i, get z i = Spec.assignAt castC acc (searchIndices st i) (w.get i) (get t i) := by
  obtain ⟨c, c1, c2, c3, _⟩ := BVec.getContents_spec hw
  cases acc with
  | none cast =>
    refine ⟨ewiseOrStencil castC cast st c t, by simp only [ewiseOrStencilOptAccum1D, c1, Except.bind_ok'],
      ewiseOrStencil_ok c2 ht, fun i => ?_⟩
    rw [(ewiseOrStencil_spec _ _ c2.sorted ht.sorted).2, c3, Spec.assignAt]
    cases hs : searchIndices st i with
    | true => cases get t i <;> simp [stencilAt, Spec.accum]
    | false => rw [hn i hs]; simp [stencilAt]
  | some op cC cT =>
    refine ⟨ewiseOr op cC cT c t, by simp only [ewiseOrStencilOptAccum1D, c1, Except.bind_ok'],
      ewiseOr_ok c2 ht, fun i => ?_⟩
    rw [(ewiseOr_spec _ _ c2.sorted ht.sorted).2, c3, Spec.assignAt]
    cases hs : searchIndices st i with
    | true => cases w.get i <;> cases get t i <;> rfl
    | false => rw [hn i hs]; cases w.get i <;> rfl

theorem stencil_spec {C : Lil γ} {T : Lil τ} (castC : γ → ζ) (ri ci : Idx) (acc : Accum γ τ ζ)
    (hC : C.WFr) (hT : T.WFr) (hTr : T.nrows = C.nrows) (hTc : T.ncols = C.ncols)
    (hn : ∀ i j, (searchIndices ri i && searchIndices ci j) = false → T.get i j = none) :
    ∃ Z, ewiseOrStencilOptAccum castC (Lil.new C.nrows C.ncols) C T ri ci acc = .ok Z ∧ Z.WF ∧
      Z.nrows = C.nrows ∧ Z.ncols = C.ncols ∧
      ∀ i j, Z.get i j = Spec.assignAt castC acc (searchIndices ri i && searchIndices ci j)
        (C.get i j) (T.get i j) := by
  cases acc with
  | none cast =>
    obtain ⟨Z, h1, h2, h3, h4, h5⟩ := Lil.rowLoop_spec (Lil.new_wf (α := ζ) C.nrows C.ncols)
      (n := C.nrows) rfl
      (fun i => if searchIndices ri i then ewiseOrStencil castC cast ci (C.rowD i) (T.rowD i)
        else Row.cast castC (C.rowD i))
      (by
        intro i _
        split
        · exact ewiseOrStencil_ok (hC.rowD_ok i) (hTc ▸ hT.rowD_ok i)
        · exact (hC.rowD_ok i).cast)
      (body := fun i Z =>
        if searchIndices ri i then do
          let c ← C.row i
          let t ← T.row i
          Z.setRow i id (ewiseOrStencil castC cast ci c t)
        else do
          let c ← C.row i
          Z.setRow i castC c)
      (by
        intro i Z' hi _ _ _ _
        left
        simp only [hC.row_ok hi, hT.row_ok (show i < T.nrows by rw [hTr]; exact hi), Except.bind_ok']
        split
        · rfl
        · exact Lil.setRow_cast ..)
    refine ⟨Z, h1, h2, h3, h4, fun i j => ?_⟩
    by_cases hi : i < C.nrows
    · rw [Lil.get, h5, if_pos hi, Spec.assignAt]
      cases hs : searchIndices ri i with
      | true =>
        simp only [if_true, Bool.true_and]
        rw [(ewiseOrStencil_spec _ _ (hC.rowD_ok i).sorted (hT.rowD_ok i).sorted).2]
        cases hs2 : searchIndices ci j with
        | true =>
          show stencilAt castC cast true (C.get i j) (T.get i j) = _
          cases T.get i j <;> simp [stencilAt, Spec.accum]
        | false =>
          show stencilAt castC cast false (C.get i j) (T.get i j) = _
          rw [hn i j (by rw [hs2, Bool.and_false])]; simp [stencilAt]
      | false =>
        simp only [Bool.false_eq_true, if_false, Bool.false_and]
        rw [get_cast]; rfl
    · rw [h2.toWFr.get_none (Or.inl (by rw [h3]; exact Nat.le_of_not_lt hi)),
        hC.get_none (Or.inl (by omega)), hT.get_none (Or.inl (by omega))]
      simp [Spec.assignAt, Spec.accum]
  | some op cC cT =>
    obtain ⟨Z, h1, h2, h3, h4, h5⟩ := ewiseOrOptAccum_spec (.some op cC cT)
      (Lil.new_wf C.nrows C.ncols) hC hT rfl rfl hTr hTc
    refine ⟨Z, h1, h2, h3, h4, fun i j => ?_⟩
    rw [h5, Spec.assignAt]
    cases hs : searchIndices ri i && searchIndices ci j with
    | true => rfl
    | false => rw [hn i j hs]; cases C.get i j <;> rfl

/-! ### a column or row of a matrix -/

theorem getCol_spec {A : Lil α} (hA : A.WFr) (j : Nat) :
    ∃ c, A.getCol j = .ok c ∧ OK A.nrows c ∧ ∀ i, get c i = A.get i j := by
  have hrow : ∀ i : Nat, ∀ acc : Row α,
      acc ++ ((A.rowD i).filter fun p => p.1 = j).map (fun p => (i, p.2))
        = acc ++ emplaceIf1D [] i (A.get i j) := by
    intro i acc
    congr 1
    have : ∀ r : Row α, Sorted r → (r.filter fun p => p.1 = j).map (fun p => (i, p.2))
        = emplaceIf1D [] i (get r j) := by
      intro r hr
      induction r with
      | nil => rfl
      | cons p r ih =>
        obtain ⟨k, x⟩ := p
        rw [sorted_cons] at hr
        rw [get_cons, List.filter_cons]
        by_cases h : k = j
        · subst h
          simp only [decide_true, if_true, List.map_cons, ih hr.2]
          rw [get_none_of_lt hr.1]; rfl
        · simp only [h, decide_false, if_false, Bool.false_eq_true]
          exact ih hr.2
    exact this _ (hA.rowD_ok i).sorted
  refine ⟨ofFun A.nrows fun i => A.get i j, ?_, ofFun_ok _ _, fun i => ?_⟩
  · rw [Lil.getCol, forN_congr (g := fun i t => if (fun _ => false) i then Except.ok t
        else .ok (emplaceIf1D t i (A.get i j)))
        (fun i t hi => by
          rw [hA.row_ok hi]
          simp only [Except.bind_ok', hrow, Bool.false_eq_true, if_false]
          cases A.get i j <;> simp [emplaceIf1D])]
    obtain ⟨t, e, rfl⟩ := dotLoop_rows (n := A.nrows)
      (fun i => A.get i j) (fun _ => false) (by simp)
    exact e
  · rw [get_ofFun]
    split
    · rfl
    · exact (hA.get_none (Or.inl (by omega))).symm

theorem setColLoop_spec (cast : β → α) {j : Nat} (n : Nat) : ∀ (lo : Nat) (col : Row β) (A : Lil α),
    A.WF → j < A.ncols → lo + n = A.nrows → Sorted col → (∀ p ∈ col, lo ≤ p.1 ∧ p.1 < lo + n) →
    ∃ B, Lil.setColLoop cast j (List.range' lo n) col A = .ok B ∧ B.WF ∧ B.nrows = A.nrows ∧
      B.ncols = A.ncols ∧
      ∀ i k, B.get i k = if lo ≤ i ∧ k = j then (get col i).map cast else A.get i k := by
  induction n with
  | zero =>
    intro lo col A hA _ hlo _ hb
    refine ⟨A, rfl, hA, rfl, rfl, fun i k => ?_⟩
    split
    · next h =>
      rw [hA.toWFr.get_none (Or.inl (by omega)), get_none_of_forall]
      · rfl
      · intro p hp e; have := hb p hp; omega
    · rfl
  | succ n ih =>
    intro lo col A hA hj hlo hs hb
    have hi : lo < A.nrows := by omega
    have hlen : lo < A.rows.length := by rw [hA.len]; exact hi
    have eErase : ∀ c : Row β, (∀ p ∈ c, lo + 1 ≤ p.1) →
        Lil.setColLoop cast j (lo :: List.range' (lo+1) n) c A
          = Lil.setColLoop cast j (List.range' (lo+1) n) c (A.removeElement lo j).2 := by
      intro c hc
      have hrm : (A.removeElement lo j).2 = { A with
          rows := A.rows.set lo ((A.rowD lo).erase j).1,
          nvals := if ((A.rowD lo).erase j).2 then A.nvals - 1 else A.nvals } := by
        unfold Lil.removeElement
        rw [if_neg (by omega), Lil.row_ok hlen]
      rw [hrm]
      match c, hc with
      | [], _ =>
        simp only [Lil.setColLoop, Lil.row_ok hlen, wr_ok hlen, Except.bind_ok']
      | (k, x) :: c, hc =>
        have := hc (k, x) (List.mem_cons_self ..)
        simp only at this
        simp only [Lil.setColLoop, Lil.row_ok hlen, wr_ok hlen, Except.bind_ok',
          if_pos (show lo < k by omega)]
    rw [List.range'_succ]
    by_cases hhead : ∀ p ∈ col, lo + 1 ≤ p.1
    · rw [eErase col hhead]
      obtain ⟨B, b1, b2, b3, b4, b5⟩ := Lil.removeElement_spec hA hi hj
      rw [b1]
      obtain ⟨D, d1, d2, d3, d4, d5⟩ := ih (lo+1) col B b2 (by rw [b4]; exact hj) (by rw [b3]; omega)
        hs (fun p hp => ⟨hhead p hp, by have := hb p hp; omega⟩)
      refine ⟨D, d1, d2, by rw [d3, b3], by rw [d4, b4], fun i k => ?_⟩
      rw [d5, b5]
      by_cases hk : k = j
      · by_cases h1 : i = lo
        · subst h1
          rw [if_neg (by omega), if_pos ⟨rfl, hk⟩, if_pos ⟨Nat.le_refl _, hk⟩, get_none_of_forall]
          · rfl
          · intro p hp e; have := hhead p hp; omega
        · by_cases h2 : lo ≤ i
          · rw [if_pos ⟨by omega, hk⟩, if_pos ⟨h2, hk⟩]
          · rw [if_neg (by omega), if_neg (by omega), if_neg (by omega)]
      · rw [if_neg (by omega), if_neg (by omega), if_neg (by omega)]
    · match col, hs, hb, hhead with
      | [], _, _, hhead => exact absurd (by simp) hhead
      | (k, x) :: c, hs, hb, hhead =>
        rw [sorted_cons] at hs
        have hk : k = lo := by
          apply Classical.byContradiction
          intro hne
          apply hhead
          intro p hp
          have h0 := (hb (k, x) (List.mem_cons_self ..)).1
          rcases List.mem_cons.1 hp with rfl | hp
          · simp only at h0 ⊢; omega
          · have := hs.1 p hp; simp only at this h0; omega
        subst hk
        have eIns : Lil.setColLoop cast j (k :: List.range' (k+1) n) ((k, x) :: c) A
            = Lil.setColLoop cast j (List.range' (k+1) n) c (A.setElement k j (cast x)).2 := by
          have hrm : (A.setElement k j (cast x)).2 = { A with
              rows := A.rows.set k ((A.rowD k).insertMerge (fun _ new => new) j (cast x)).1,
              nvals := if ((A.rowD k).insertMerge (fun _ new => new) j (cast x)).2
                then A.nvals + 1 else A.nvals } := by
            unfold Lil.setElement Lil.setElementMerge
            rw [if_neg (by omega), Lil.row_ok hlen]
          rw [hrm]
          simp only [Lil.setColLoop, Lil.row_ok hlen, wr_ok hlen, Except.bind_ok',
            if_neg (Nat.lt_irrefl k), if_true]
        rw [eIns]
        obtain ⟨B, b1, b2, b3, b4, b5⟩ := Lil.setElement_spec hA hi hj (cast x)
        rw [b1]
        obtain ⟨D, d1, d2, d3, d4, d5⟩ := ih (k+1) c B b2 (by rw [b4]; exact hj) (by rw [b3]; omega)
          hs.2 (fun p hp => ⟨hs.1 p hp, by have := hb p (List.mem_cons_of_mem _ hp); omega⟩)
        refine ⟨D, d1, d2, by rw [d3, b3], by rw [d4, b4], fun i l => ?_⟩
        rw [d5, b5, get_cons]
        by_cases hl : l = j
        · by_cases h1 : i = k
          · subst h1
            rw [if_neg (by omega), if_pos ⟨rfl, hl⟩, if_pos ⟨Nat.le_refl _, hl⟩, if_pos rfl]
            rfl
          · by_cases h2 : k ≤ i
            · rw [if_pos ⟨by omega, hl⟩, if_pos ⟨h2, hl⟩, if_neg (by omega)]
            · rw [if_neg (by omega), if_neg (by omega), if_neg (by omega)]
        · rw [if_neg (by omega), if_neg (by omega), if_neg (by omega)]

theorem setCol_spec (cast : β → α) {j : Nat} {col : Row β} {A : Lil α} (hA : A.WF) (hj : j < A.ncols)
    (hc : OK A.nrows col) :
    ∃ B, A.setCol j cast col = .ok B ∧ B.WF ∧ B.nrows = A.nrows ∧ B.ncols = A.ncols ∧
      ∀ i k, B.get i k = if k = j then (get col i).map cast else A.get i k := by
  obtain ⟨B, b1, b2, b3, b4, b5⟩ := setColLoop_spec cast (j := j) A.nrows 0 col A hA hj (by omega)
    hc.sorted (fun p hp => ⟨Nat.zero_le _, by have := hc.bound p hp; omega⟩)
  refine ⟨B, ?_, b2, b3, b4, fun i k => ?_⟩
  · rw [Lil.setCol, List.range_eq_range']; exact b1
  · rw [b5]; simp

end GBTL

import Verif.Lemmas.AssignConst
import Verif.Props.Select
import Verif.Lemmas.Program

/-! Assignments whose source reaches past the end of the output (C26). -/

namespace GBTL
open Row
open Spec (Outp MaskKind Accum)

variable {α β γ τ ζ μ : Type}

/-! ### rows -/

/-- The elements of a row below column `n`. -/
def Row.upTo (n : Nat) (r : Row α) : Row α := r.filter fun p => decide (p.1 < n)

theorem Row.upTo_ok {r : Row α} (n : Nat) (h : Sorted r) : OK n (r.upTo n) :=
  ⟨List.Pairwise.filter _ h, fun p hp => by simpa using (List.mem_filter.1 hp).2⟩

theorem Row.upTo_get {r : Row α} (n : Nat) (h : Sorted r) (i : Nat) :
    get (r.upTo n) i = if i < n then get r i else none := by
  by_cases hi : i < n
  · rw [if_pos hi]
    apply Option.ext
    intro x
    constructor
    · intro e
      have := mem_of_get e
      exact get_of_mem h (List.mem_filter.1 this).1
    · intro e
      exact get_of_mem (Row.upTo_ok n h).sorted (List.mem_filter.2 ⟨mem_of_get e, by simpa using hi⟩)
  · rw [if_neg hi]
    exact (Row.upTo_ok n h).get_none (by omega)

theorem maskRow_bound (truthy : μ → Bool) (k : MaskKind) {n : Nat} {r : Row μ} (hr : OK n r) :
    ∀ p ∈ maskRow truthy k n r, p.1 < n := by
  have hc : ∀ (f : μ → Bool) (l : List Nat) (r : Row μ), (∀ x ∈ l, x < n) →
      ∀ p ∈ complementLoop f l r, p.1 < n := by
    intro f l
    induction l with
    | nil => intro r _ p hp; cases r <;> simp [complementLoop] at hp
    | cons x l ih =>
      intro r hl p hp
      have hx := hl x (List.mem_cons_self ..)
      have hl' := fun y hy => hl y (List.mem_cons_of_mem _ hy)
      cases r with
      | nil =>
        simp only [complementLoop, List.mem_cons] at hp
        rcases hp with rfl | hp
        · exact hx
        · exact ih _ hl' p hp
      | cons q r =>
        obtain ⟨k, v⟩ := q
        simp only [complementLoop] at hp
        split at hp
        · rcases List.mem_cons.1 hp with rfl | hp
          · exact hx
          · exact ih _ hl' p hp
        · split at hp
          · rcases List.mem_cons.1 hp with rfl | hp
            · exact hx
            · exact ih _ hl' p hp
          · exact ih _ hl' p hp
  have hrange : ∀ x ∈ List.range n, x < n := fun x => List.mem_range.1
  cases k with
  | plain =>
    intro p hp
    obtain ⟨q, hq, rfl⟩ := List.mem_map.1 hp
    exact hr.bound q hq
  | comp => exact hc _ _ _ hrange
  | struct =>
    intro p hp
    obtain ⟨q, hq, rfl⟩ := List.mem_map.1 hp
    exact hr.bound q hq
  | structComp => exact hc _ _ _ hrange

/-- A masked write of a row does not look at the source past the end of the mask. -/
theorem applyWithMask_upTo (truthy : μ → Bool) (castZ : ζ → γ) (k : MaskKind) (outp : Outp) {n : Nat}
    {c : Row γ} {z : Row ζ} {m : Row μ} (hc : OK n c) (hz : Sorted z) (hm : OK n m) :
    applyWithMask id castZ outp c z (maskRow truthy k n m)
      = applyWithMask id castZ outp c (z.upTo n) (maskRow truthy k n m) := by
  obtain ⟨h1, h2⟩ := maskRow_spec truthy k (n := n) hm.sorted
  obtain ⟨a1, a2⟩ := applyWithMask_spec id castZ outp _ h1 c z hc.sorted hz
  obtain ⟨b1, b2⟩ := applyWithMask_spec id castZ outp _ h1 c (z.upTo n) hc.sorted (Row.upTo_ok n hz).sorted
  refine Row.ext a1 b1 fun i => ?_
  rw [a2, b2, Row.upTo_get n hz]
  by_cases hi : i < n
  · rw [if_pos hi]
  · have : get (maskRow truthy k n m) i = none :=
      get_none_of_forall fun p hp e => hi (e ▸ maskRow_bound truthy k hm p hp)
    rw [this]
    simp [Spec.write]

/-! ### vectors -/

theorem wr_beyond {l : List α} {i : Nat} (h : l.length ≤ i) (x : α) : wr l i x = .error .ub := by
  simp [wr, show ¬ i < l.length by omega]

theorem setContentsLoop_beyond (cast : β → α) (ts : Row β) : ∀ v : BVec α,
    (∃ p ∈ ts, v.bitmap.length ≤ p.1) → (v.vals.length = v.bitmap.length) →
    BVec.setContentsLoop cast ts v = .error .ub := by
  induction ts with
  | nil => rintro v ⟨p, hp, _⟩; cases hp
  | cons q ts ih =>
    rintro v ⟨p, hp, hb⟩ hv
    obtain ⟨i, x⟩ := q
    simp only [BVec.setContentsLoop]
    by_cases hi : i < v.bitmap.length
    · rw [wr_ok hi, wr_ok (show i < v.vals.length by omega)]
      simp only [Except.bind_ok']
      refine ih _ ⟨p, ?_, by simpa using hb⟩ (by simpa using hv)
      rcases List.mem_cons.1 hp with rfl | hp
      · simp only at hb; omega
      · exact hp
    · rw [wr_beyond (by omega)]; rfl

/-- The source of a vector assignment, for a source of any size. -/
theorem assignVec_wide {w : BVec γ} {u : BVec α} {ix : Idx} (hu : u.WF) (hb : ix.below w.size)
    (hn : ix.nodup) : ∃ t, assignVec w u ix = .ok t ∧ OK (max w.size u.size) t ∧
      ∀ i, get t i = Spec.assignSrc u.size ix.sel u.get i := by
  obtain ⟨c, c1, c2, c3, _⟩ := BVec.getContents_spec hu
  have hlt : ∀ i ∈ setupIndices ix u.size, i < max w.size u.size := by
    cases ix with
    | list l => intro i hi; have := hb i hi; omega
    | all => intro i hi; have := List.mem_range.1 hi; omega
  obtain ⟨h1, h2⟩ := vectorExpand_spec c2.sorted (setup_nodup hn u.size) hlt
  refine ⟨_, ?_, h1, fun i => ?_⟩
  · simp only [assignVec, checkIndex_ok hb, c1, Except.bind_ok']
  · rw [h2, setup_pos, Spec.assignSrc]
    congr 1
    funext k
    exact c3 k

theorem stencil1D_wide {w : BVec γ} {t : Row τ} (castC : γ → ζ) (st : Idx) (acc : Accum γ τ ζ) {N : Nat}
    (hw : w.WF) (hN : w.size ≤ N) (ht : OK N t) (hn : ∀ i, searchIndices st i = false → get t i = none) :
    ∃ z : Row ζ, ewiseOrStencilOptAccum1D castC w t st acc = .ok z ∧ OK N z ∧
      ∀ i, get z i = Spec.assignAt castC acc (searchIndices st i) (w.get i) (get t i) := by
  obtain ⟨c, c1, c2, c3, _⟩ := BVec.getContents_spec hw
  have c2' : OK N c := ⟨c2.sorted, fun p hp => Nat.lt_of_lt_of_le (c2.bound p hp) hN⟩
  cases acc with
  | none cast =>
    refine ⟨ewiseOrStencil castC cast st c t, by simp only [ewiseOrStencilOptAccum1D, c1, Except.bind_ok'],
      ewiseOrStencil_ok c2' ht, fun i => ?_⟩
    rw [(ewiseOrStencil_spec _ _ c2.sorted ht.sorted).2, c3, Spec.assignAt]
    cases hs : searchIndices st i with
    | true => cases get t i <;> simp [stencilAt, Spec.accum]
    | false => rw [hn i hs]; simp [stencilAt]
  | some op cC cT =>
    refine ⟨ewiseOr op cC cT c t, by simp only [ewiseOrStencilOptAccum1D, c1, Except.bind_ok'],
      ewiseOr_ok c2' ht, fun i => ?_⟩
    rw [(ewiseOr_spec _ _ c2.sorted ht.sorted).2, c3, Spec.assignAt]
    cases hs : searchIndices st i with
    | true => cases w.get i <;> cases get t i <;> rfl
    | false => rw [hn i hs]; cases w.get i <;> rfl

/-! ### matrices of another width -/

/-- The same rows in a matrix of another width. -/
def Lil.wide (n : Nat) (A : Lil α) : Lil α := { A with ncols := n }

@[simp] theorem Lil.wide_row (A : Lil α) (n i : Nat) : (A.wide n).row i = A.row i := rfl
@[simp] theorem Lil.wide_rowD (A : Lil α) (n i : Nat) : (A.wide n).rowD i = A.rowD i := rfl
@[simp] theorem Lil.wide_get (A : Lil α) (n i j : Nat) : (A.wide n).get i j = A.get i j := rfl
@[simp] theorem Lil.wide_nrows (A : Lil α) (n : Nat) : (A.wide n).nrows = A.nrows := rfl
@[simp] theorem Lil.wide_ncols (A : Lil α) (n : Nat) : (A.wide n).ncols = n := rfl

theorem Lil.wide_setRow (A : Lil α) (n i : Nat) (c : β → α) (r : Row β) :
    (A.wide n).setRow i c r = (A.setRow i c r).map (Lil.wide n) := by
  simp only [Lil.setRow, Lil.wide_row]
  cases A.row i with
  | error e => rfl
  | ok old =>
    simp only [Except.bind_ok']
    show (wr A.rows i _ >>= _) = _
    cases wr A.rows i (r.cast c) <;> rfl

theorem Lil.wide_pokeRow (A : Lil α) (n i : Nat) (r : Row α) :
    (A.wide n).pokeRow i r = (A.pokeRow i r).map (Lil.wide n) := by
  simp only [Lil.pokeRow]
  show (wr A.rows i _ >>= _) = _
  cases wr A.rows i r <;> rfl

theorem Lil.wide_setRowIf (A : Lil α) (n i : Nat) (r : Row α) :
    setRowIf (A.wide n) i r = (setRowIf A i r).map (Lil.wide n) := by
  simp only [setRowIf]
  split
  · exact Lil.wide_setRow ..
  · rfl

theorem foldlM_map_state {σ ε κ : Type} (g : σ → σ) (f f' : σ → κ → Except ε σ)
    (h : ∀ s x, f (g s) x = (f' s x).map g) (l : List κ) : ∀ s,
    l.foldlM f (g s) = (l.foldlM f' s).map g := by
  induction l with
  | nil => intro s; rfl
  | cons x l ih =>
    intro s
    rw [List.foldlM_cons, List.foldlM_cons, h]
    cases f' s x with
    | error e => rfl
    | ok s' => exact ih s'

theorem forN_map_state {σ : Type} (g : σ → σ) {f f' : Nat → σ → Except Err σ}
    (h : ∀ i s, f i (g s) = (f' i s).map g) (n : Nat) (s : σ) :
    forN n (g s) f = (forN n s f').map g :=
  foldlM_map_state g _ _ (fun s i => h i s) _ s

theorem matrixExpandLoop_wide (A : Lil α) (pairs : List (Nat × Nat)) (n : Nat) (os : List Nat) :
    ∀ k (T : Lil α), matrixExpandLoop A pairs k os (T.wide n)
      = (matrixExpandLoop A pairs k os T).map (Lil.wide n) := by
  induction os with
  | nil => intro k T; rfl
  | cons o os ih =>
    intro k T
    simp only [matrixExpandLoop]
    cases A.row k with
    | error e => rfl
    | ok a =>
      simp only [Except.bind_ok', Lil.wide_setRowIf]
      cases setRowIf T o (if !a.isEmpty then vectorExpand a pairs else []) with
      | error e => rfl
      | ok T' => exact ih (k + 1) T'

theorem pushCol_wide (k n : Nat) (row : Row α) (T : Lil α) :
    pushCol k row (T.wide n) = (pushCol k row T).map (Lil.wide n) := by
  refine foldlM_map_state (Lil.wide n) _ _ (fun T p => ?_) row T
  simp only [Lil.wide_row]
  cases T.row p.1 with
  | error e => rfl
  | ok t => exact Lil.wide_pokeRow ..

theorem matrixExpandT_wide (A : Lil α) (rp cp : List (Nat × Nat)) (n : Nat) (T : Lil α) :
    matrixExpandT A rp cp (T.wide n) = (matrixExpandT A rp cp T).map (Lil.wide n) := by
  simp only [matrixExpandT]
  rw [foldlM_map_state (Lil.wide n) _ (fun T p => do
    let a ← A.row p.2
    pushCol p.1 (vectorExpand a rp) T) (fun T p => by
      cases A.row p.2 with
      | error e => rfl
      | ok a => exact pushCol_wide ..)]
  cases cp.foldlM (fun T p => do
    let a ← A.row p.2
    pushCol p.1 (vectorExpand a rp) T) T <;> rfl

theorem stencil_wide (castC : γ → ζ) (n N : Nat) (Z : Lil ζ) (C : Lil γ) (T : Lil τ) (ri ci : Idx)
    (acc : Accum γ τ ζ) :
    ewiseOrStencilOptAccum castC (Z.wide n) C (T.wide n) ri ci acc
      = (ewiseOrStencilOptAccum castC Z (C.wide N) T ri ci acc).map (Lil.wide n) := by
  cases acc with
  | none cast =>
    refine forN_map_state (Lil.wide n) (fun i Z => ?_) _ Z
    simp only [Lil.wide_row]
    split
    · cases C.row i with
      | error e => rfl
      | ok c =>
        cases T.row i with
        | error e => rfl
        | ok t => exact Lil.wide_setRow ..
    · cases C.row i with
      | error e => rfl
      | ok c => exact Lil.wide_setRow ..
  | some op cC cT =>
    refine forN_map_state (Lil.wide n) (fun i Z => ?_) _ Z
    simp only [Lil.wide_row]
    cases C.row i with
    | error e => rfl
    | ok c =>
      cases T.row i with
      | error e => rfl
      | ok t => exact Lil.wide_setRow ..

theorem sparseCopy_wide (cast : β → α) (C : Lil α) (Z : Lil β) (n N : Nat) (hn : C.ncols = n) :
    sparseCopy cast C (Z.wide n) = (sparseCopy cast (C.wide N) Z).map (Lil.wide n) := by
  have h := forN_map_state (Lil.wide n) (f := fun i d => do
      let srcRow ← Z.row i
      let dstRow := Row.cast cast srcRow
      if !dstRow.isEmpty then Lil.setRow d i id dstRow else .ok d)
    (f' := fun i d => do
      let srcRow ← Z.row i
      let dstRow := Row.cast cast srcRow
      if !dstRow.isEmpty then Lil.setRow d i id dstRow else .ok d) (fun i d => by
      cases Z.row i with
      | error e => rfl
      | ok z =>
        simp only [Except.bind_ok']
        split
        · exact Lil.wide_setRow ..
        · rfl) C.nrows (C.wide N).clear
  rw [show (C.wide N).clear.wide n = C.clear by rw [← hn]; rfl] at h
  exact h

/-! ### sources with too many rows -/

theorem setRowIf_beyond {T : Lil α} {k : Nat} {r : Row α} (hk : T.rows.length ≤ k) :
    setRowIf T k r = if r = [] then .ok T else .error .ub := by
  cases r with
  | nil => rfl
  | cons p r =>
    simp only [setRowIf, Lil.setRow, Lil.row, rd, List.getElem?_eq_none hk]
    rfl

theorem matrixExpandLoop_tall {A : Lil α} (hA : A.WFr) {n : Nat} {pairs : List (Nat × Nat)}
    (hp : ∀ r, OK n (vectorExpand (A.rowD r) pairs)) (os : List Nat) : ∀ (k : Nat) (T : Lil α),
    os.Nodup → T.WF → T.ncols = n → k + os.length ≤ A.nrows → (∀ o ∈ os, T.rowD o = []) →
    ((∀ r o, os[r]? = some o → T.nrows ≤ o → vectorExpand (A.rowD (k + r)) pairs = []) →
      ∃ T', matrixExpandLoop A pairs k os T = .ok T' ∧ T'.WF ∧ T'.nrows = T.nrows ∧
        T'.ncols = T.ncols ∧
        ∀ i, T'.rowD i = ((os.idxOf? i).map fun r => vectorExpand (A.rowD (k + r)) pairs).getD
          (T.rowD i)) ∧
    ((∃ r o, os[r]? = some o ∧ T.nrows ≤ o ∧ vectorExpand (A.rowD (k + r)) pairs ≠ []) →
      matrixExpandLoop A pairs k os T = .error .ub) := by
  induction os with
  | nil =>
    intro k T _ hT _ _ _
    refine ⟨fun _ => ⟨T, rfl, hT, rfl, rfl, fun i => rfl⟩, ?_⟩
    rintro ⟨r, o, h, _⟩
    simp at h
  | cons o os ih =>
    intro k T hnd hT hn hk hnil
    rw [List.nodup_cons] at hnd
    simp only [List.length_cons] at hk
    by_cases hub : T.nrows ≤ o ∧ vectorExpand (A.rowD k) pairs ≠ []
    · refine ⟨fun h => absurd (h 0 o rfl hub.1) hub.2, fun _ => ?_⟩
      simp only [matrixExpandLoop, hA.row_ok (show k < A.nrows by omega), Except.bind_ok',
        vectorExpand_if, setRowIf_beyond (show T.rows.length ≤ o by rw [hT.len]; exact hub.1),
        if_neg hub.2]
      rfl
    · obtain ⟨T1, s1, s2, s3, s4, s5⟩ : ∃ T1, setRowIf T o (vectorExpand (A.rowD k) pairs) = .ok T1 ∧
          T1.WF ∧ T1.nrows = T.nrows ∧ T1.ncols = T.ncols ∧
          ∀ i, T1.rowD i = if i = o then vectorExpand (A.rowD k) pairs else T.rowD i := by
        by_cases ho : o < T.nrows
        · exact setRowIf_spec hT ho (r := vectorExpand (A.rowD k) pairs) (by rw [hn]; exact hp k)
            (hnil o (List.mem_cons_self ..))
        · have he : vectorExpand (A.rowD k) pairs = [] :=
            Classical.byContradiction fun h => hub ⟨by omega, h⟩
          refine ⟨T, ?_, hT, rfl, rfl, fun i => ?_⟩
          · rw [he]; rfl
          · split
            · next h => rw [h, he]; exact hnil o (List.mem_cons_self ..)
            · rfl
      have hstep : matrixExpandLoop A pairs k (o :: os) T = matrixExpandLoop A pairs (k + 1) os T1 := by
        simp only [matrixExpandLoop, hA.row_ok (show k < A.nrows by omega), Except.bind_ok',
          vectorExpand_if, s1]
      obtain ⟨ih1, ih2⟩ := ih (k+1) T1 hnd.2 s2 (by rw [s4, hn]) (by omega) (by
          intro x hx
          have hxo : x ≠ o := by rintro rfl; exact hnd.1 hx
          rw [s5, if_neg hxo, hnil x (List.mem_cons_of_mem _ hx)])
      rw [hstep]
      constructor
      · intro h
        obtain ⟨T2, t1, t2, t3, t4, t5⟩ := ih1 (by
          intro r x hx hge
          have := h (r + 1) x hx (by rw [← s3]; exact hge)
          rw [← this]; congr 2; omega)
        refine ⟨T2, t1, t2, by rw [t3, s3], by rw [t4, s4], fun i => ?_⟩
        rw [t5, s5, List.idxOf?_cons]
        by_cases h : o = i
        · subst h
          have : os.idxOf? o = none := List.idxOf?_eq_none_iff.2 hnd.1
          simp [this]
        · have h' : ¬ i = o := fun e => h e.symm
          simp only [beq_iff_eq, h, h', if_false]
          cases os.idxOf? i with
          | none => rfl
          | some r =>
            simp only [Option.map_some, Option.getD_some]
            congr 2
            omega
      · rintro ⟨r, x, hx, hge, hne⟩
        cases r with
        | zero =>
          have e : o = x := by simpa using hx
          exact absurd ⟨by rw [e]; exact hge, hne⟩ hub
        | succ r =>
          refine ih2 ⟨r, x, by simpa using hx, by rw [s3]; exact hge, ?_⟩
          rw [show k + 1 + r = k + (r + 1) by omega]; exact hne

theorem pushAll_beyond (L : List (Entry τ)) : ∀ T : Lil τ, (∃ e ∈ L, T.rows.length ≤ e.1) →
    pushAll L T = .error .ub := by
  induction L with
  | nil => rintro T ⟨e, he, _⟩; cases he
  | cons x L ih =>
    rintro T ⟨e, he, hb⟩
    rw [pushAll, List.foldlM_cons]
    by_cases hx : x.1 < T.rows.length
    · simp only [pushAt, Lil.row_ok hx, Except.bind_ok', Lil.pokeRow, wr_ok hx]
      refine ih _ ⟨e, ?_, by simpa using hb⟩
      rcases List.mem_cons.1 he with rfl | he
      · omega
      · exact he
    · simp only [pushAt, Lil.row, rd, List.getElem?_eq_none (show T.rows.length ≤ x.1 by omega)]
      rfl

/-! ### the source of a matrix assignment -/

theorem setup_max {ix : Idx} {n m : Nat} (h : ix.below n) : ∀ i ∈ setupIndices ix m, i < max n m := by
  cases ix with
  | list l => intro i hi; have := h i hi; omega
  | all => intro i hi; have := List.mem_range.1 hi; omega

theorem assignMat_wide {C : Lil γ} {A : Lil α} {ri ci : Idx} (hA : A.WFr)
    (hr : ri.below C.nrows) (hc : ci.below C.ncols) (hrn : ri.nodup) (hcn : ci.nodup)
    (hrl : ri.len A.nrows = A.nrows) :
    ((∀ i j, C.nrows ≤ i → Spec.assignSrcMat A.nrows A.ncols ri.sel ci.sel A.get i j = none) →
      ∃ T : Lil α, assignMat C A ri ci = .ok (T.wide C.ncols) ∧ T.WFr ∧ T.nrows = C.nrows ∧
        T.ncols = max C.ncols A.ncols ∧
        ∀ i j, T.get i j = Spec.assignSrcMat A.nrows A.ncols ri.sel ci.sel A.get i j) ∧
    ((∃ i j, C.nrows ≤ i ∧ Spec.assignSrcMat A.nrows A.ncols ri.sel ci.sel A.get i j ≠ none) →
      assignMat C A ri ci = .error .ub) := by
  have hp := fun r => vectorExpand_spec (hA.rowD_ok r).sorted (setup_nodup hcn A.ncols)
    (setup_max (m := A.ncols) hc)
  have hS : ∀ i j, Spec.assignSrcMat A.nrows A.ncols ri.sel ci.sel A.get i j
      = ((setupIndices ri A.nrows).idxOf? i).bind fun r =>
          get (vectorExpand (A.rowD r) (outinMapping (setupIndices ci A.ncols))) j := by
    intro i j
    rw [Spec.assignSrcMat, ← setup_pos]
    congr 1
    funext r
    rw [(hp r).2, setup_pos]; rfl
  obtain ⟨h1, h2⟩ := matrixExpandLoop_tall hA (fun r => (hp r).1)
    (setupIndices ri A.nrows) 0 (Lil.new C.nrows (max C.ncols A.ncols)) (setup_nodup hrn _)
    (Lil.new_wf _ _) rfl (by rw [setup_length]; omega) (fun o _ => by simp)
  have heq : assignMat C A ri ci
      = (matrixExpandLoop A (outinMapping (setupIndices ci A.ncols)) 0 (setupIndices ri A.nrows)
          (Lil.new C.nrows (max C.ncols A.ncols))).map (Lil.wide C.ncols) := by
    rw [← matrixExpandLoop_wide]
    simp only [assignMat, checkIndex_ok hr, checkIndex_ok hc, Except.bind_ok', new_clear]
    rfl
  constructor
  · intro h
    obtain ⟨T, t1, t2, t3, t4, t5⟩ := h1 (by
      intro r o hro hge
      have hro' := idxOf?_of_nodup (setup_nodup hrn A.nrows) hro
      refine Row.ext (hp _).1.sorted (by simp [Sorted]) fun j => ?_
      have := h o j hge
      rw [hS, hro'] at this
      simpa using this)
    refine ⟨T, by rw [heq, t1]; rfl, t2.toWFr, t3, t4, fun i j => ?_⟩
    rw [hS, Lil.get, t5]
    cases (setupIndices ri A.nrows).idxOf? i with
    | none => simp
    | some r => simp
  · rintro ⟨i, j, hi, hne⟩
    rw [heq, h2 ?_]
    · rfl
    · rw [hS] at hne
      cases hx : (setupIndices ri A.nrows).idxOf? i with
      | none => rw [hx] at hne; exact absurd rfl hne
      | some r =>
        refine ⟨r, i, getElem?_of_idxOf? hx, hi, fun e => hne ?_⟩
        rw [hx]
        rw [Nat.zero_add] at e
        simp [e]

theorem assignMatT_wide {C : Lil γ} {A : Lil α} {ri ci : Idx} (hA : A.WFr)
    (hr : ri.below C.nrows) (hc : ci.below C.ncols) (hrn : ri.nodup) (hcn : ci.nodup)
    (hcl : ci.len A.nrows = A.nrows) :
    ((∀ i j, C.nrows ≤ i →
        Spec.assignSrcMat A.ncols A.nrows ri.sel ci.sel (Spec.Mat.tr A.get) i j = none) →
      ∃ T : Lil α, assignMatT C A ri ci = .ok (T.wide C.ncols) ∧ T.WFr ∧ T.nrows = C.nrows ∧
        T.ncols = max C.ncols A.nrows ∧
        ∀ i j, T.get i j
          = Spec.assignSrcMat A.ncols A.nrows ri.sel ci.sel (Spec.Mat.tr A.get) i j) ∧
    ((∃ i j, C.nrows ≤ i ∧
        Spec.assignSrcMat A.ncols A.nrows ri.sel ci.sel (Spec.Mat.tr A.get) i j ≠ none) →
      assignMatT C A ri ci = .error .ub) := by
  have hp := fun r => vectorExpand_spec (hA.rowD_ok r).sorted (setup_nodup hrn A.ncols)
    (setup_max (m := A.ncols) hr)
  have hcmem : ∀ p ∈ outinMapping (setupIndices ci A.nrows),
      p.1 < max C.ncols A.nrows ∧ p.2 < A.nrows := by
    rintro ⟨o, i⟩ h
    have := mem_outin.1 h
    refine ⟨setup_max hc o (List.mem_of_getElem? this), ?_⟩
    obtain ⟨hi, _⟩ := List.getElem?_eq_some_iff.1 this
    rw [setup_length] at hi
    simp only; omega
  have hmem : ∀ i j x, Spec.assignSrcMat A.ncols A.nrows ri.sel ci.sel (Spec.Mat.tr A.get) i j = some x ↔
      ∃ p ∈ outinMapping (setupIndices ci A.nrows),
        ∃ q ∈ vectorExpand (A.rowD p.2) (outinMapping (setupIndices ri A.ncols)),
          (q.1, p.1, q.2) = (i, j, x) := by
    intro i j x
    simp only [Spec.assignSrcMat, Prod.mk.injEq]
    rw [Option.bind_comm']
    constructor
    · intro h
      obtain ⟨c, hc1, hc2⟩ := Option.bind_eq_some_iff.1 h
      refine ⟨(j, c), mem_outin.2 (getElem?_of_idxOf? (by rw [setup_pos]; exact hc1)), (i, x), ?_,
        rfl, rfl, rfl⟩
      apply mem_of_get
      rw [(hp c).2, setup_pos]
      exact hc2
    · rintro ⟨⟨o, c⟩, hp1, ⟨a, y⟩, hq, rfl, rfl, rfl⟩
      have h1 := get_of_mem (hp c).1.sorted hq
      rw [(hp c).2, setup_pos] at h1
      rw [← setup_pos ci, idxOf?_of_nodup (setup_nodup hcn A.nrows) (mem_outin.1 hp1)]
      exact h1
  have heq : assignMatT C A ri ci
      = (matrixExpandT A (outinMapping (setupIndices ri A.ncols)) (outinMapping (setupIndices ci A.nrows))
          (Lil.new C.nrows (max C.ncols A.nrows))).map (Lil.wide C.ncols) := by
    rw [← matrixExpandT_wide]
    simp only [assignMatT, checkIndex_ok hr, checkIndex_ok hc, Except.bind_ok', new_clear]
    rfl
  constructor
  · intro h
    obtain ⟨T, t1, hT⟩ := foldlM_push (m := C.nrows) (n := max C.ncols A.nrows)
      (fun p : Nat × Nat => (vectorExpand (A.rowD p.2)
        (outinMapping (setupIndices ri A.ncols))).map fun q => (q.1, p.1, q.2))
      (body := fun T p => do
        let a ← A.row p.2
        pushCol p.1 (vectorExpand a (outinMapping (setupIndices ri A.ncols))) T)
      (outinMapping (setupIndices ci A.nrows))
      (by
        intro p hpm T _ _ _
        left
        rw [hA.row_ok (hcmem p hpm).2]
        exact pushCol_eq ..)
      (by
        intro p hpm e he
        obtain ⟨q, hq, rfl⟩ := List.mem_map.1 he
        refine ⟨?_, (hcmem p hpm).1⟩
        apply Classical.byContradiction
        intro hge
        have := h q.1 p.1 (by simp only at hge; omega)
        rw [(hmem q.1 p.1 q.2).2 ⟨p, hpm, q, hq, rfl⟩] at this
        cases this)
      (Pushed.new C.nrows (max C.ncols A.nrows))
      (by
        rw [List.nil_append]
        refine pairwise_flatMap'.2 ⟨?_, ?_⟩
        · intro p _
          rw [List.pairwise_map]
          exact (hp p.2).1.sorted.imp fun {a b} h e => by simp only at e; omega
        · refine (outin_sorted (setup_nodup hcn A.nrows)).imp fun {a b} hab x hx y hy _ => ?_
          obtain ⟨p, _, rfl⟩ := List.mem_map.1 hx
          obtain ⟨q, _, rfl⟩ := List.mem_map.1 hy
          exact hab)
    rw [List.nil_append] at hT
    refine ⟨T.recomputeNvals, ?_, (Lil.recomputeNvals_wf hT.wfr).toWFr, hT.nr, hT.nc, fun i j => ?_⟩
    · rw [heq, matrixExpandT, t1]; rfl
    · apply Option.ext
      intro x
      rw [hT.recompute.get, hmem]
      simp only [List.mem_flatMap, List.mem_map]
  · rintro ⟨i, j, hi, hne⟩
    rw [heq, matrixExpandT]
    obtain ⟨x, hx⟩ := Option.ne_none_iff_exists'.1 hne
    obtain ⟨p, hp1, q, hq, e⟩ := (hmem i j x).1 hx
    simp only [Prod.mk.injEq] at e
    have hall : ∀ (l : List (Nat × Nat)) (T : Lil α), (∀ p ∈ l, p.2 < A.nrows) →
        l.foldlM (fun T p => do
          let a ← A.row p.2
          pushCol p.1 (vectorExpand a (outinMapping (setupIndices ri A.ncols))) T) T
        = pushAll (l.flatMap fun p => (vectorExpand (A.rowD p.2)
            (outinMapping (setupIndices ri A.ncols))).map fun q => (q.1, p.1, q.2)) T := by
      intro l
      induction l with
      | nil => intro T _; rfl
      | cons p l ih =>
        intro T hl
        rw [List.foldlM_cons, hA.row_ok (hl p (List.mem_cons_self ..)), List.flatMap_cons, pushAll,
          List.foldlM_append]
        rw [Except.bind_ok', pushCol_eq]
        refine congrArg _ (funext fun T' => ?_)
        exact ih T' fun y hy => hl y (List.mem_cons_of_mem _ hy)
    rw [hall _ _ fun p hp => (hcmem p hp).2, pushAll_beyond _ _ ⟨(q.1, p.1, q.2), ?_, ?_⟩]
    · rfl
    · exact List.mem_flatMap.2 ⟨p, hp1, List.mem_map.2 ⟨q, hq, rfl⟩⟩
    · simp only [(Lil.new_wf (α := α) C.nrows (max C.ncols A.nrows)).len]
      show C.nrows ≤ q.1
      omega

/-! ### the masked write -/

/-- The part of a matrix in columns below `n`, as a matrix of width `n`. -/
def Lil.upTo (n : Nat) (A : Lil α) : Lil α :=
  Lil.recomputeNvals ⟨A.nrows, n, 0, A.rows.map fun r => r.upTo n⟩

theorem Lil.upTo_rowD (n : Nat) (A : Lil α) (i : Nat) : (A.upTo n).rowD i = (A.rowD i).upTo n := by
  show (((A.rows.map fun r => r.upTo n))[i]?).getD [] = (A.rows[i]?.getD []).upTo n
  rw [List.getElem?_map]
  cases A.rows[i]? <;> rfl

theorem Lil.upTo_wf {A : Lil α} (n : Nat) (hA : A.WFr) : (A.upTo n).WF := by
  refine Lil.recomputeNvals_wf ⟨?_, fun r hr => ?_⟩
  · show (A.rows.map _).length = A.nrows
    rw [List.length_map, hA.len]
  · obtain ⟨r', h', rfl⟩ := List.mem_map.1 hr
    exact Row.upTo_ok n (hA.rowOK r' h').sorted

theorem Lil.upTo_get {A : Lil α} (n : Nat) (hA : A.WFr) (i j : Nat) :
    (A.upTo n).get i j = if j < n then A.get i j else none := by
  rw [Lil.get, Lil.upTo_rowD, Row.upTo_get n (hA.rowD_ok i).sorted]
  rfl

/-- A masked matrix write does not look at the source past the width of the mask. -/
theorem writeMask_upTo (truthy : μ → Bool) (castZ : ζ → γ) {C : Lil γ} {Z : Lil ζ} (k : MaskKind)
    {M : Lil μ} (outp : Outp) (n : Nat) (hC : C.WF) (hM : M.WF) (hMr : M.nrows = C.nrows) (hMc : M.ncols = C.ncols)
    (hZ : Z.WFr) (hr : Z.nrows = C.nrows) :
    writeWithOptMask truthy castZ C (Z.wide n) (some (k, M)) outp
      = writeWithOptMask truthy castZ C (Z.upTo C.ncols) (some (k, M)) outp := by
  have hZ' := Lil.upTo_wf C.ncols hZ
  have hrow := fun i (c : Row γ) (hc : OK C.ncols c) => applyWithMask_upTo truthy castZ k outp hc
    (hZ.rowD_ok i).sorted (hMc ▸ hM.rowD_ok i)
  simp only [writeWithOptMask]
  refine forN_congr_inv (fun _ D => D.WFr ∧ D.nrows = C.nrows ∧ D.ncols = C.ncols) ⟨hC.toWFr, rfl, rfl⟩ ?_ ?_
  · rintro i D hi ⟨hD, hDr, hDc⟩
    rw [Lil.wide_row, hZ.row_ok (show i < Z.nrows by omega),
      hZ'.row_ok (show i < (Z.upTo C.ncols).nrows by show i < Z.nrows; omega), Lil.upTo_rowD,
      hM.row_ok (show i < M.nrows by omega), hD.row_ok (show i < D.nrows by omega)]
    simp only [Except.bind_ok', hMc, hrow i (D.rowD i) (hDc ▸ hD.rowD_ok i)]
  · rintro i D D' hi ⟨hD, hDr, hDc⟩ he
    rw [hZ'.row_ok (show i < (Z.upTo C.ncols).nrows by show i < Z.nrows; omega), Lil.upTo_rowD,
      hM.row_ok (show i < M.nrows by omega), hD.row_ok (show i < D.nrows by omega)] at he
    simp only [Except.bind_ok', hMc] at he
    have hok := (applyMaskRow_spec truthy castZ k outp (n := C.ncols) (hDc ▸ hD.rowD_ok i)
      (Row.upTo_ok C.ncols (hZ.rowD_ok i).sorted) (hM.rowD_ok i).sorted).1
    simp only [Lil.setRow, hD.row_ok (show i < D.nrows by omega), Except.bind_ok',
      wr_ok (show i < D.rows.length by rw [hD.len]; omega)] at he
    injection he with he
    subst he
    refine ⟨⟨by simp [hD.len], fun r hr => ?_⟩, hDr, hDc⟩
    rcases List.mem_or_eq_of_mem_set hr with h | rfl
    · exact hD.rowOK r h
    · have : Row.cast id (applyWithMask id castZ outp (D.rowD i) ((Z.rowD i).upTo C.ncols)
          (maskRow truthy k C.ncols (M.rowD i))) = applyWithMask id castZ outp (D.rowD i) ((Z.rowD i).upTo C.ncols)
          (maskRow truthy k C.ncols (M.rowD i)) := by simp [Row.cast]
      rw [this]
      show OK D.ncols _
      rw [hDc]; exact hok

/-- At a position without an old element, an assignment stores one exactly when the source
has one. -/
theorem assignAt_absent {keep : γ → ζ} {acc : Accum γ τ ζ} {sel : Bool} {t : Option τ}
    (h : sel = false → t = none) : Spec.assignAt keep acc sel none t = none ↔ t = none := by
  cases sel with
  | true => cases acc <;> cases t <;> simp [Spec.assignAt, Spec.accum]
  | false => cases acc <;> simp [Spec.assignAt, h rfl]

theorem assignSrc_unselected {n : Nat} {ix : Idx} {u : Spec.Vec α} {i : Nat}
    (h : Spec.selected ix.sel n i = false) : Spec.assignSrc n ix.sel u i = none :=
  assignSrc_none (by rw [search_setup]; exact h)

theorem assignSrcMat_unselected {m n : Nat} {ri ci : Idx} {A : Spec.Mat α} {i j : Nat}
    (h : (Spec.selected ri.sel m i && Spec.selected ci.sel n j) = false) :
    Spec.assignSrcMat m n ri.sel ci.sel A i j = none :=
  assignSrcMat_none (by rw [search_setup, search_setup]; exact h)

end GBTL

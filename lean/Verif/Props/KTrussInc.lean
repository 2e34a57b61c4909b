import Verif.Lemmas.Tuples
import Verif.Lemmas.KTrussInc
import Verif.Props.BfsBatch
/-
C53: k-trusses from incidence matrices.
-/
namespace GBTL
open Spec

/-- `E` is the incidence matrix of a list of edges: one row for each edge, with ones at
its ends. Zeros may be stored elsewhere. -/
structure Incidence (n : Nat) (es : List (Nat × Nat)) (E : Lil Int) : Prop where
  wf : E.WF
  nrows : E.nrows = es.length
  ncols : E.ncols = n
  vals : ∀ i v x, E.get i v = some x → x = 0 ∨ x = 1
  one : ∀ i v, E.get i v = some 1 ↔ ∃ e, es[i]? = some e ∧ (v = e.1 ∨ v = e.2)

variable {n : Nat} {t : ITy} {ov : Int → Int → Int} {es fs : List (Nat × Nat)} {E A R : Lil Int} {D : Lil Bool}

theorem inc_iff {i v : Nat} : inc es i v = true ↔ ∃ e, es[i]? = some e ∧ (v = e.1 ∨ v = e.2) := by
  unfold inc
  cases h : es[i]? with
  | none => simp
  | some e => simp

theorem Incidence.val (h : Incidence n es E) (i v : Nat) : Val (E.get i v) (ind (inc es i v)) := by
  have h1 := h.one i v
  rw [← inc_iff] at h1
  unfold Val
  cases hg : E.get i v with
  | none =>
    rw [hg] at h1
    cases hi : inc es i v with
    | false => rfl
    | true => exact (nomatch h1.2 hi)
  | some x =>
    rw [hg] at h1
    rcases h.vals i v x hg with rfl | rfl
    · cases hi : inc es i v with
      | false => rfl
      | true => exact (nomatch h1.2 hi)
    · rw [h1.1 rfl]; rfl

/-! ### the mask of the diagonal and the vector of ones -/

structure DiagOf (n : Nat) (D : Lil Bool) : Prop where
  wf : D.WF
  nrows : D.nrows = n
  ncols : D.ncols = n
  get : ∀ i j, i < n → D.get i j = if i = j then some true else none

theorem diagMask_spec (n : Nat) : ∃ D, diagMask n = .ok D ∧ DiagOf n D := by
  obtain ⟨D, e, h1, h2, h3, h4⟩ := forP_inv (b := fun i (D : Lil Bool) => lift (method (D.setElement i i true)))
    (fun m D => D.WF ∧ D.nrows = n ∧ D.ncols = n ∧ ∀ i j, D.get i j = if i = j ∧ i < m then some true else none)
    n (Lil.new n n) ⟨Lil.new_wf _ _, rfl, rfl, fun i j => by rw [Lil.get_new, if_neg (by omega)]⟩
    (by
      rintro m D hm ⟨h1, h2, h3, h4⟩
      obtain ⟨D', e, g1, g2, g3, g4⟩ := Lil.setElement_spec h1 (i := m) (j := m) (by omega) (by omega) true
      refine ⟨D', by rw [e, method_ok, lift_ok], g1, g2.trans h2, g3.trans h3, fun i j => ?_⟩
      rw [g4, h4]
      by_cases hij : i = m ∧ j = m
      · rw [if_pos hij, if_pos (by omega)]
      · rw [if_neg hij]
        by_cases h : i = j ∧ i < m
        · rw [if_pos h, if_pos (by omega)]
        · rw [if_neg h, if_neg (by omega)])
  exact ⟨D, e, h1, h2, h3, fun i j hi => by rw [h4]; simp [hi]⟩

/-- The vector of ones. -/
structure OnesOf (n : Nat) (u : BVec Int) : Prop where
  wf : u.WF
  size : u.size = n
  get : ∀ i, i < n → u.get i = some 1

theorem vReplace_yields {γ : Type} {w w' : BVec γ} {z : Vec γ} (y : (vReplace w).Yields z w') :
    w'.WF ∧ w'.size = w.size ∧ ∀ i, i < w.size → w'.get i = z i := by
  refine ⟨y.wf, y.size, fun i hi => ?_⟩
  rw [y.get i hi]
  simp [vReplace, VMask.allows, Spec.write, Spec.accum]

theorem vReplace_wf {γ : Type} {w : BVec γ} (hw : w.WF) : (vReplace w).WF := ⟨hw, noMaskOK⟩

theorem ones_spec (hn : n ≠ 0) :
    ∃ u w, (BVec.new n : Except Err (BVec Int)) = .ok u ∧
      assignConstV (vReplace u) id (t.conv 1) (.list (List.range n)) = .done w ∧ OnesOf n w := by
  obtain ⟨u, e, h1, h2, h3⟩ := BVec.new_spec (α := Int) hn
  obtain ⟨w, e', y⟩ := C20_assign_const_vector_partial (o := vReplace u) (keep := id) (x := t.conv 1)
    (ix := .list (List.range n)) (vReplace_wf h1)
    ⟨noMaskFits, by show (List.range n).length ≤ u.size; rw [List.length_range, h2]; exact Nat.le_refl _⟩
    (fun i hi => by show i < u.size; rw [h2]; exact List.mem_range.1 hi)
    (by show (List.range n).Pairwise (· < ·); exact List.pairwise_lt_range)
  refine ⟨u, w, e, e', y.wf, y.size.trans h2, fun i hi => ?_⟩
  have hs : Spec.selected (Idx.list (List.range n)).sel u.size i = true := by
    show ((List.range n).idxOf? i).isSome = true
    cases h : (List.range n).idxOf? i with
    | some k => rfl
    | none =>
      rw [List.idxOf?_eq_none_iff] at h
      exact absurd (List.mem_range.2 hi) h
  rw [y.get i (by show i < u.size; omega)]
  show Spec.write id (VMask.allows id none i) .replace (u.get i)
    (Spec.assignAt id (.none id) (Spec.selected (Idx.list (List.range n)).sel u.size i) (u.get i)
      (if Spec.selected (Idx.list (List.range n)).sel u.size i then some (t.conv 1) else none)) = some 1
  rw [hs, ITy.conv01 t (Or.inr rfl)]
  simp [VMask.allows, Spec.write, Spec.assignAt, Spec.accum]

/-! ### the products -/

/-- `A` has the value 1 at the adjacent pairs. -/
structure AdjOf (n : Nat) (es : List (Nat × Nat)) (A : Lil Int) : Prop where
  wf : A.WF
  nrows : A.nrows = n
  ncols : A.ncols = n
  val : ∀ u v, u < n → v < n → Val (A.get u v) (ind (adjOf es u v))

theorem gram_spec (hs : SimpleEdges n es) (hE : Incidence n es E) (hD : DiagOf n D) :
    ∃ A, mxm (offDiag (Lil.new n n) D) (arithT t ov) id (.tr E) (.plain E) = .done A ∧ AdjOf n es A := by
  obtain ⟨A, e, y⟩ := C10_mxm_ATB (o := offDiag (Lil.new n n) D) (sr := arithT t ov) (via := id) (A := E) (B := E)
    ⟨Lil.new_wf _ _, maskOKM hD.wf⟩ hE.wf hE.wf
    ⟨maskFitsM hD.nrows hD.ncols, hE.ncols.symm, hE.ncols.symm, rfl⟩
  refine ⟨A, e, y.wf, y.nrows, y.ncols, fun u v hu hv => ?_⟩
  rw [y.get u v hu hv]
  show Val (Spec.write id (MMask.allows id (some (.comp, D)) u v) .replace ((Lil.new n n : Lil Int).get u v)
    (Spec.accum (.none id) _ (osum (t.plusT ov) ((List.range E.nrows).map fun k =>
      both (t.timesT ov) (E.get k u) (E.get k v))))) _
  have hd := hD.get u v hu
  by_cases huv : u = v
  · rw [if_pos huv] at hd
    have : adjOf es u v = false := by
      cases h : adjOf es u v with
      | false => rfl
      | true => exact absurd huv (adjOf_ne hs h).1
    rw [this]
    simp [MMask.allows, Spec.write, Spec.allows, hd, Val, ind]
  · rw [if_neg huv] at hd
    have h1 := t.one_le_max
    have hc := count_edges hs huv
    have hb : ∀ k, Val (both (t.timesT ov) (E.get k u) (E.get k v)) (ind (inc es k u) * ind (inc es k v)) := by
      intro k
      have a1 := ind_le (inc es k u)
      have a2 := ind_le (inc es k v)
      have a3 := ind_le (inc es k u && inc es k v)
      rw [ind_and] at a3
      exact val_both (hE.val k u) (hE.val k v) (by omega) (by omega) (by omega)
    have hsum := osum_val (adds_plusT t ov) (n := es.length) (fun k _ => hb k) (by
      rw [hc]
      have := ind_le (adjOf es u v)
      omega)
    rw [hc] at hsum
    rw [hE.nrows]
    simpa [MMask.allows, Spec.write, Spec.allows, hd, Spec.accum] using hsum

/-- The product of an incidence matrix and an adjacency matrix. -/
theorem prod_val (hs : SimpleEdges n es) (hE : Incidence n es E) (hA : AdjOf n fs A) (hn : (n : Int) ≤ t.maxVal)
    {i v : Nat} {e : Nat × Nat} (hi : es[i]? = some e) (hv : v < n) :
    Val (Spec.mxm n (t.plusT ov) (t.timesT ov) E.get A.get i v) (ind (adjOf fs e.1 v) + ind (adjOf fs e.2 v)) := by
  have hm := List.mem_of_getElem? hi
  have hlt := hs.lt e hm
  have hne := hs.loopless e hm
  have hp := sumTo_pair hlt.1 hlt.2 hne fun w => ind (adjOf fs w v)
  rw [← hp]
  have a4 := ind_le (adjOf fs e.1 v)
  have a5 := ind_le (adjOf fs e.2 v)
  have h2 : (2 : Int) ≤ t.maxVal := by omega
  refine osum_val (adds_plusT t ov) ?_ (by rw [hp]; omega)
  intro w hw
  have a1 := hE.val i w
  rw [inc_some hi] at a1
  have a2 := ind_le (decide (w = e.1 ∨ w = e.2))
  have a3 := ind_le (adjOf fs w v)
  have a6 : ind (decide (w = e.1 ∨ w = e.2)) * ind (adjOf fs w v) ≤ 1 := by
    rw [← ind_and]; exact ind_le _
  exact val_both a1 (hA.val w v hw hv) (by omega) (by omega) (by omega)

/-- `R`: row `i` counts for each vertex with how many ends of edge `i` it is adjacent. -/
structure SidesOf (n : Nat) (es : List (Nat × Nat)) (R : Lil Int) : Prop where
  wf : R.WF
  nrows : R.nrows = es.length
  ncols : R.ncols = n
  val : ∀ i e v, es[i]? = some e → v < n → Val (R.get i v) (ind (adjOf es e.1 v) + ind (adjOf es e.2 v))

/-- `s`: the number of triangles of each edge. -/
structure SupportOf (n : Nat) (es : List (Nat × Nat)) (s : BVec Int) : Prop where
  wf : s.WF
  size : s.size = es.length
  get : ∀ i e, es[i]? = some e → s.get i = some (commonNbrs n (adjOf es) e.1 e.2 : Int)

theorem support_le (F : Nat → Nat → Bool) (a b : Nat) : commonNbrs n F a b ≤ n := by
  rw [commonNbrs_eq]
  exact wedges_le (p := F a) (q := fun k => F k b)

theorem supports_spec (hs : SimpleEdges n es) (hR : SidesOf n es R) {ones : BVec Int} (ho : OnesOf n ones)
    (hn : (n : Int) ≤ t.maxVal) (hne : es ≠ []) :
    ∃ s, supports t ov es.length R ones = .ok s ∧ SupportOf n es s := by
  have hm : es.length ≠ 0 := fun h => hne (List.eq_nil_of_length_eq_zero h)
  obtain ⟨s0, e0, h1, h2, h3⟩ := BVec.new_spec (α := Int) hm
  obtain ⟨s, e1, y⟩ := C12_mxv (o := vReplace s0) (sr := support2 t ov) (A := R) (u := ones) (vReplace_wf h1) ho.wf
    hR.wf ⟨noMaskFits, h2.trans hR.nrows.symm, ho.size.trans hR.ncols.symm⟩
  obtain ⟨y1, y2, y3⟩ := vReplace_yields y
  refine ⟨s, by rw [supports, e0, lift_ok, prog_bind_ok, e1, exec_done], y1, y2.trans h2, fun i e hi => ?_⟩
  have hmem := List.mem_of_getElem? hi
  have hlt := hs.lt e hmem
  have hne := hs.loopless e hmem
  have hil : i < es.length := (List.getElem?_eq_some_iff.1 hi).1
  have h2t : t.conv 2 = 2 := ITy.conv_id (ITy.has_nn (by omega) (by omega))
  rw [y3 i (by omega)]
  show osum (t.plusT ov) ((List.range R.ncols).map fun k => both (firstEqualsTwo t) (R.get i k) (ones.get k)) = _
  rw [hR.ncols]
  have hterm : ∀ v, v < n → Val (both (firstEqualsTwo t) (R.get i v) (ones.get v))
      (ind (adjOf es e.1 v) * ind (adjOf es v e.2)) := by
    intro v hv
    have hval := hR.val i e v hi hv
    rw [ho.get v hv, adjOf_symm v e.2]
    cases hg : R.get i v with
    | none =>
      rw [hg] at hval
      have := Val.none.1 hval
      rw [show ind (adjOf es e.1 v) = 0 by omega, Nat.zero_mul]
      rfl
    | some x =>
      have hx := hval.some hg
      show firstEqualsTwo t x 1 = _
      unfold firstEqualsTwo
      rw [h2t]
      subst hx
      cases adjOf es e.1 v <;> cases adjOf es e.2 v <;> rfl
  have hcn := commonNbrs_eq n (adjOf es) e.1 e.2
  have hle := support_le (n := n) (adjOf es) e.1 e.2
  have hsum := osum_val (adds_plusT t ov) hterm (by rw [← hcn]; omega)
  rw [← hcn] at hsum
  cases hg : osum (t.plusT ov) ((List.range n).map fun k => both (firstEqualsTwo t) (R.get i k) (ones.get k)) with
  | some x => rw [hsum.some hg]
  | none =>
    exfalso
    have hz := osum_range_none.1 hg e.2 hlt.2
    have hval := hR.val i e e.2 hi hlt.2
    rw [ho.get e.2 hlt.2] at hz
    have hadj : adjOf es e.1 e.2 = true := adjOf_iff.2 (Or.inl hmem)
    cases hr : R.get i e.2 with
    | some x => rw [hr] at hz; cases hz
    | none =>
      rw [hr, hadj] at hval
      have := Val.none.1 hval
      have h1 : ind true = 1 := rfl
      omega

theorem findEdges_spec {s : BVec Int} (hS : SupportOf n es s) (hne : es ≠ []) (test : Int → Bool) :
    ∃ x, findEdges t test es.length s = .ok x ∧ x.WF ∧ x.size = es.length ∧
      ∀ i e, es[i]? = some e →
        x.get i = if test (commonNbrs n (adjOf es) e.1 e.2) then some true else none := by
  have hm : es.length ≠ 0 := fun h => hne (List.eq_nil_of_length_eq_zero h)
  obtain ⟨x0, e0, h1, h2, h3⟩ := BVec.new_spec (α := Bool) hm
  obtain ⟨x1, e1, y⟩ := C15_apply_vector (o := vReplace x0) (f := test) (u := s) (vReplace_wf h1) hS.wf
    ⟨noMaskFits, h2.trans hS.size.symm⟩
  obtain ⟨y1, y2, y3⟩ := vReplace_yields y
  obtain ⟨x, e2, z⟩ := C15_apply_vector (o := vMasked isTrue x1 .plain id x1 .replace)
    (f := fun b => t.conv (ofBool b)) (u := x1) ⟨y1, maskOK y1⟩ y1 ⟨maskFits rfl, rfl⟩
  obtain ⟨z1, z2, z3⟩ := vMasked_replace z
  refine ⟨x, ?_, z1, z2.trans (y2.trans h2), fun i e hi => ?_⟩
  · rw [findEdges, e0, lift_ok, prog_bind_ok, e1, exec_done, prog_bind_ok, e2, exec_done]
  · have hil : i < es.length := (List.getElem?_eq_some_iff.1 hi).1
    have hx1 : x1.get i = some (test (commonNbrs n (adjOf es) e.1 e.2)) := by
      rw [y3 i (by omega), hS.get i e hi]
      rfl
    rw [z3 i (by rw [y2]; omega), hx1]
    cases test (commonNbrs n (adjOf es) e.1 e.2) with
    | false => rfl
    | true =>
      show some (isTrue (t.conv (ofBool true))) = some true
      rw [show ofBool true = 1 from rfl, ITy.conv01 t (Or.inr rfl)]
      rfl

/-- The rows with the numbers in `L`. -/
theorem rows_spec {Q : Lil Int} (hQ : Q.WF) (hr : Q.nrows = es.length) (hc : Q.ncols = n) {L : List Nat}
    (hL : ∀ i ∈ L, i < es.length) :
    ∃ Q', extractM (plainReplace (Lil.new L.length n)) (.plain Q) (.list L) .all = .done Q' ∧ Q'.WF ∧
      Q'.nrows = L.length ∧ Q'.ncols = n ∧
      ∀ r i v, L[r]? = some i → v < n → Q'.get r v = Q.get i v := by
  obtain ⟨Q', e, y⟩ := C18_extract_matrix (o := plainReplace (Lil.new L.length n)) (A := .plain Q) (ri := .list L)
    (ci := .all) ⟨Lil.new_wf _ _, noMaskOKM⟩ hQ noMaskFitsM rfl rfl
    (fun i hi => by show i < Q.nrows; rw [hr]; exact hL i hi) trivial
  refine ⟨Q', e, y.wf, y.nrows, y.ncols, fun r i v hri hv => ?_⟩
  have hrl : r < L.length := (List.getElem?_eq_some_iff.1 hri).1
  rw [y.get r v hrl hv]
  show Spec.write id (MMask.allows id (none : MMask Bool) r v) .replace _ (Spec.accum (.none id) _
    (Spec.extractMat Q.nrows Q.ncols (some L) none Q.get r v)) = _
  rw [hc]
  simp [MMask.allows, Spec.write, Spec.accum, Spec.extractMat, Spec.nth, hri, hv]

theorem rows_incidence (hE : Incidence n es E) {L : List Nat} (hL : ∀ i ∈ L, i < es.length) :
    ∃ E', extractM (plainReplace (Lil.new L.length n)) (.plain E) (.list L) .all = .done E' ∧
      Incidence n (sel es L) E' := by
  obtain ⟨E', e, h1, h2, h3, h4⟩ := rows_spec hE.wf hE.nrows hE.ncols hL
  have hlen : (sel es L).length = L.length := by rw [sel, List.length_map]
  refine ⟨E', e, h1, h2.trans hlen.symm, h3, ?_, ?_⟩
  · intro r v x hx
    have hlt := stored_lt h1 hx
    rw [h2, h3] at hlt
    have hr : L[r]? = some L[r] := List.getElem?_eq_getElem hlt.1
    rw [h4 r _ v hr hlt.2] at hx
    exact hE.vals _ _ _ hx
  · intro r v
    rw [← inc_iff]
    constructor
    · intro hx
      have hlt := stored_lt h1 hx
      rw [h2, h3] at hlt
      have hr : L[r]? = some L[r] := List.getElem?_eq_getElem hlt.1
      rw [h4 r _ v hr hlt.2] at hx
      rw [inc_sel hL hr, inc_iff]
      exact (hE.one _ _).1 hx
    · intro hi
      cases hr : L[r]? with
      | none =>
        unfold inc at hi
        rw [sel, List.getElem?_map, hr] at hi
        cases hi
      | some i =>
        rw [inc_sel hL hr, inc_iff] at hi
        have h1' := (hE.one i v).2 hi
        have hlt := stored_lt hE.wf h1'
        rw [hE.ncols] at hlt
        rw [h4 r i v hr hlt.2]
        exact h1'

theorem tuples_spec {α : Type} [Inhabited α] {v : BVec α} (hv : v.WF) :
    ∃ ts, vecTuples v = .ok ts ∧ (ts.map (·.1)).Pairwise (· < ·) ∧ ∀ i, i ∈ ts.map (·.1) ↔ v.get i ≠ none := by
  obtain ⟨ts, e, hs, hm, hl⟩ := C07_vector_tuples v hv
  refine ⟨ts, vecTuples_eq e hl, by rw [List.pairwise_map]; exact hs, fun i => ?_⟩
  rw [List.mem_map]
  constructor
  · rintro ⟨p, hp, rfl⟩
    rw [(hm p.1 p.2).1 hp]; simp
  · intro h
    obtain ⟨x, hx⟩ := Option.ne_none_iff_exists'.1 h
    exact ⟨(i, x), (hm i x).2 hx, rfl⟩

/-! ### the loop -/

/-- `x`: the edges that lack support. -/
structure LackOf (n k : Nat) (es : List (Nat × Nat)) (x : BVec Bool) : Prop where
  wf : x.WF
  size : x.size = es.length
  get : ∀ i e, es[i]? = some e →
    x.get i = if k ≤ commonNbrs n (adjOf es) e.1 e.2 + 2 then none else some true

/-- What the loop maintains. -/
structure IncInv (n k : Nat) (es0 : List (Nat × Nat)) (es : List (Nat × Nat)) (q : TrussInc) : Prop where
  inc : Incidence n es q.E
  simple : SimpleEdges n es
  sub : es.Sublist es0
  largest : ∀ F', IsTruss n k (adjOf es0) F' → ∀ i j, F' i j = true → adjOf es i j = true
  count : q.numEdges = es.length
  stopped : q.stop = true → es = []
  some : q.stop = false → es ≠ []
  sides : q.stop = false → SidesOf n es q.R
  support : q.stop = false → SupportOf n es q.s
  lack : q.stop = false → LackOf n k es q.x

/-- Thresholds in the scalar type. -/
theorem threshold {k : Nat} (hk : t.Has ((k : Int) - 2)) (hk3 : k < 2 ^ 64) :
    t.conv (sub2 k : Nat) = (k : Int) - 2 := by
  by_cases h2 : 2 ≤ k
  · have hsub : ((sub2 k : Nat) : Int) = (k : Int) - 2 := by unfold sub2; omega
    rw [hsub]
    exact ITy.conv_id hk
  · have : k = 0 ∨ k = 1 := by omega
    rcases this with rfl | rfl <;> cases t <;> revert hk <;> decide

theorem lack_spec {k : Nat} {s : BVec Int} (hS : SupportOf n es s) (hne : es ≠ []) (hk : t.Has ((k : Int) - 2))
    (hk3 : k < 2 ^ 64) :
    ∃ x, findEdges t (supportTest t (sub2 k)) es.length s = .ok x ∧ LackOf n k es x := by
  obtain ⟨x, e, h1, h2, h3⟩ := findEdges_spec (t := t) hS hne (supportTest t (sub2 k))
  refine ⟨x, e, h1, h2, fun i e hi => ?_⟩
  rw [h3 i e hi]
  unfold supportTest
  rw [threshold hk hk3]
  by_cases h : k ≤ commonNbrs n (adjOf es) e.1 e.2 + 2
  · rw [if_pos h, if_neg]
    simp only [decide_eq_true_eq]
    omega
  · rw [if_neg h, if_pos]
    simp only [decide_eq_true_eq]
    omega

theorem trussIncBody_spec {k : Nat} {es0 : List (Nat × Nat)} {q : TrussInc} {ones : BVec Int}
    (hI : IncInv n k es0 es q) (hgo : q.stop = false) (hx : 0 < q.x.nvals) (hD : DiagOf n D) (ho : OnesOf n ones)
    (hn : (n : Int) ≤ t.maxVal) (hk : t.Has ((k : Int) - 2)) (hk3 : k < 2 ^ 64) :
    ∃ q' es', trussIncBody t ov n k D ones q = .ok q' ∧ IncInv n k es0 es' q' ∧ q'.numEdges < q.numEdges := by
  have hS := hI.support hgo
  have hX := hI.lack hgo
  have hR := hI.sides hgo
  have hne := hI.some hgo
  have hs := hI.simple
  let p : Nat → Bool := fun i => decide (k ≤ commonNbrs n (adjOf es) (es.getD i (0, 0)).1 (es.getD i (0, 0)).2 + 2)
  obtain ⟨xs, e1, hM1, hM2⟩ := tuples_spec hX.wf
  have hM : ∀ i, i ∈ xs.map (·.1) ↔ i < es.length ∧ p i = false := by
    intro i
    rw [hM2]
    constructor
    · intro h
      obtain ⟨b, hb⟩ := Option.ne_none_iff_exists'.1 h
      have hi : i < es.length := by have := vec_some_lt hX.wf h; rw [hX.size] at this; exact this
      refine ⟨hi, ?_⟩
      rw [hX.get i _ (getD_some hi)] at h
      split at h
      · exact absurd rfl h
      · exact decide_eq_false (by assumption)
    · rintro ⟨hi, h⟩
      rw [hX.get i _ (getD_some hi), if_neg (of_decide_eq_false h)]
      simp
  obtain ⟨xc, e2, c1, c2, c3⟩ := findEdges_spec (t := t) hS hne (supportTestGe t (sub2 k))
  obtain ⟨xcs, e3, hL1, hL2⟩ := tuples_spec c1
  have hL : ∀ i, i ∈ xcs.map (·.1) ↔ i < es.length ∧ p i = true := by
    intro i
    rw [hL2]
    have htest : ∀ c : Nat, supportTestGe t (sub2 k) c = decide (k ≤ c + 2) := by
      intro c
      unfold supportTestGe
      rw [threshold hk hk3]
      exact decide_eq_decide.2 (by omega)
    constructor
    · intro h
      obtain ⟨b, hb⟩ := Option.ne_none_iff_exists'.1 h
      have hi : i < es.length := by have := vec_some_lt c1 h; rw [c2] at this; exact this
      refine ⟨hi, ?_⟩
      rw [c3 i _ (getD_some hi), htest] at h
      cases hp : p i with
      | true => rfl
      | false =>
        have hp : decide (k ≤ commonNbrs n (adjOf es) (es.getD i (0, 0)).1 (es.getD i (0, 0)).2 + 2) = false := hp
        rw [hp] at h
        exact absurd rfl h
    · rintro ⟨hi, h⟩
      rw [c3 i _ (getD_some hi), htest]
      have hp : decide (k ≤ commonNbrs n (adjOf es) (es.getD i (0, 0)).1 (es.getD i (0, 0)).2 + 2) = true := h
      rw [hp]
      simp
  generalize hLd : xcs.map (·.1) = L at hL hL1
  generalize hMd : xs.map (·.1) = M at hM hM1
  have hLl : xcs.length = L.length := by rw [← hLd, List.length_map]
  have hMl : xs.length = M.length := by rw [← hMd, List.length_map]
  have hLb : ∀ i ∈ L, i < es.length := fun i hi => ((hL i).1 hi).1
  have hMb : ∀ i ∈ M, i < es.length := fun i hi => ((hM i).1 hi).1
  obtain ⟨Ex, e4, hEx⟩ := rows_incidence hI.inc hMb
  obtain ⟨E', e5, hE'⟩ := rows_incidence hI.inc hLb
  have hlen : (sel es L).length = L.length := by rw [sel, List.length_map]
  have hsub : (sel es L).Sublist es := sel_sublist hL1 hLb
  have hsL : SimpleEdges n (sel es L) := hs.sublist hsub
  have hsM : SimpleEdges n (sel es M) := hs.sublist (sel_sublist hM1 hMb)
  -- the edges kept
  have hkeep : ∀ F', IsTruss n k (adjOf es0) F' → ∀ i j, F' i j = true → adjOf (sel es L) i j = true := by
    intro F' hF' i j h
    have hij := hI.largest F' hF' i j h
    have hne := (adjOf_ne hs hij).1
    obtain ⟨r, hr, h1, h2⟩ := (adjOf_inc hne).1 hij
    refine (adjOf_sel hLb hne).2 ⟨r, (hL r).2 ⟨hr, ?_⟩, h1, h2⟩
    have hsup := hF'.support i j h
    have hmono := commonNbrs_mono (n := n) (hI.largest F' hF') i j
    rw [inc_some (getD_some hr)] at h1 h2
    have h1 := of_decide_eq_true h1
    have h2 := of_decide_eq_true h2
    refine decide_eq_true ?_
    have hcomm : commonNbrs n (adjOf es) i j = commonNbrs n (adjOf es) j i := by
      rw [commonNbrs_eq, commonNbrs_eq]
      refine sumTo_congr fun k _ => ?_
      rw [adjOf_symm i k, adjOf_symm k j, Nat.mul_comm]
    rcases h1 with h1 | h1 <;> rcases h2 with h2 | h2
    · omega
    · rw [← h1, ← h2]; omega
    · rw [← h1, ← h2]; omega
    · omega
  -- fewer edges
  have hfew : L.length < es.length := by
    have hsr := sublist_range hL1 hLb
    have hle := hsr.length_le
    rw [List.length_range] at hle
    rcases Nat.lt_or_ge L.length es.length with h | h
    · exact h
    · exfalso
      have heq := hsr.eq_of_length (by rw [List.length_range]; omega)
      obtain ⟨i, b, hi, hb⟩ := nonempty_of_nvals hX.wf hx
      rw [hX.size] at hi
      have hiM := (hM2 i).2 (by rw [hb]; simp)
      rw [hMd] at hiM
      have hiL : i ∈ L := by rw [heq]; exact List.mem_range.2 hi
      have a1 := ((hM i).1 hiM).2
      have a2 := ((hL i).1 hiL).2
      rw [a1] at a2; cases a2
  have hstart : trussIncBody t ov n k D ones q = (if L.length = 0 then
      .ok { q with E := E', numEdges := L.length, stop := true }
    else do
      let R ← exec (extractM (plainReplace (Lil.new L.length n)) (.plain q.R) (.list L) .all)
      let P ← exec (mxm (offDiag (Lil.new n n) D) (arithT t ov) id (.tr Ex) (.plain Ex))
      let R ← exec (mxm (minusOut t ov R) (arithT t ov) id (.plain E') (.plain P))
      let s ← supports t ov L.length R ones
      let x ← findEdges t (supportTest t (sub2 k)) L.length s
      .ok { E := E', R := R, s := s, x := x, numEdges := L.length, stop := false } : Prog TrussInc) := by
    rw [trussIncBody, e1, lift_ok, prog_bind_ok, hI.count, e2, prog_bind_ok, e3, lift_ok, prog_bind_ok, hMl, hMd, e4,
      exec_done, prog_bind_ok]
    simp only [hLl, hLd]
    rw [e5, exec_done, prog_bind_ok]
  rw [hstart, hI.count]
  by_cases hz : L.length = 0
  · rw [if_pos hz]
    refine ⟨_, sel es L, rfl, ⟨hE', hsL, hsub.trans hI.sub, hkeep, hlen.symm, ?_, (nomatch ·), (nomatch ·),
      (nomatch ·), (nomatch ·)⟩, hfew⟩
    intro _
    exact List.eq_nil_of_length_eq_zero (by rw [hlen, hz])
  · rw [if_neg hz]
    obtain ⟨R1, e6, r1, r2, r3, r4⟩ := rows_spec hR.wf hR.nrows hR.ncols hLb
    obtain ⟨P, e7, hP⟩ := gram_spec (t := t) (ov := ov) hsM hEx hD
    obtain ⟨R2, e8, y⟩ := C09_mxm (o := minusOut t ov R1) (sr := arithT t ov) (via := id) (A := E') (B := P)
      ⟨r1, noMaskOKM⟩ hE'.wf hP.wf
      ⟨noMaskFitsM, by show R1.nrows = E'.nrows; rw [r2, hE'.nrows, hlen],
        by show R1.ncols = P.ncols; rw [r3, hP.ncols], by show E'.ncols = P.nrows; rw [hE'.ncols, hP.nrows]⟩
    have hR2 : SidesOf n (sel es L) R2 := by
      refine ⟨y.wf, y.nrows.trans (r2.trans hlen.symm), y.ncols.trans r3, fun r e v hr hv => ?_⟩
      have hrl : r < L.length := by rw [← hlen]; exact (List.getElem?_eq_some_iff.1 hr).1
      have hLr : L[r]? = some L[r] := List.getElem?_eq_getElem hrl
      have hro : es[L[r]]? = some e := by
        rw [sel, List.getElem?_map, hLr] at hr
        rw [getD_some (hLb _ (List.getElem_mem hrl))]
        exact hr
      have hold := hR.val L[r] e v hro hv
      rw [← r4 r L[r] v hLr hv] at hold
      have hprod := prod_val (t := t) (ov := ov) hsL hE' hP hn hr hv
      have s1 := adjOf_split hs hL1 hM1 hL hM e.1 v
      have s2 := adjOf_split hs hL1 hM1 hL hM e.2 v
      rw [y.get r v (by show r < R1.nrows; rw [r2]; exact hrl) (by show v < R1.ncols; rw [r3]; exact hv)]
      show Val (Spec.write id (MMask.allows id (none : MMask Bool) r v) .replace (R1.get r v)
        (Spec.accum (.some (t.minusT ov) id id) (R1.get r v)
          (Spec.mxm E'.ncols (t.plusT ov) (t.timesT ov) E'.get P.get r v))) _
      rw [hE'.ncols]
      have b1 := ind_le (adjOf es e.1 v)
      have b2 := ind_le (adjOf es e.2 v)
      have hlt := (hsL.lt e (List.mem_of_getElem? hr))
      have hne2 := hsL.loopless e (List.mem_of_getElem? hr)
      cases h1 : R1.get r v with
      | none =>
        rw [h1] at hold
        have hz0 := Val.none.1 hold
        cases h2 : Spec.mxm n (t.plusT ov) (t.timesT ov) E'.get P.get r v with
        | none =>
          show ((none : Option Int).getD 0) = _
          show (0 : Int) = _
          omega
        | some w =>
          have hw := hprod.some h2
          show w = _
          omega
      | some z =>
        have hz0 := hold.some h1
        cases h2 : Spec.mxm n (t.plusT ov) (t.timesT ov) E'.get P.get r v with
        | none =>
          rw [h2] at hprod
          have := Val.none.1 hprod
          show z = _
          omega
        | some w =>
          have hw := hprod.some h2
          show t.minusT ov z w = _
          rw [ITy.minusT_eq ov (ITy.has_nn (by omega) (by omega)) (ITy.has_nn (by omega) (by omega))
            (ITy.has_nn (by omega) (by omega))]
          omega
    have hneL : sel es L ≠ [] := fun h => hz (by rw [← hlen, h]; rfl)
    obtain ⟨s', e9, hs'⟩ := supports_spec (t := t) (ov := ov) hsL hR2 ho hn hneL
    obtain ⟨x', e10, hx'⟩ := lack_spec (t := t) hs' hneL hk hk3
    rw [hlen] at e9 e10
    refine ⟨{ E := E', R := R2, s := s', x := x', numEdges := L.length, stop := false }, sel es L, ?_,
      ⟨hE', hsL, hsub.trans hI.sub, hkeep, hlen.symm, (nomatch ·), fun _ => hneL, fun _ => hR2, fun _ => hs',
        fun _ => hx'⟩, hfew⟩
    rw [e6, exec_done, prog_bind_ok, e7, exec_done, prog_bind_ok, e8, exec_done, prog_bind_ok, e9, prog_bind_ok, e10,
      prog_bind_ok]

/-- **C53** `k_truss(E, k)`, for the incidence matrix of a graph with at least one edge
and a scalar type that holds the number of vertices and `k - 2`, terminates and returns the incidence matrix of the k-truss: the rows of the
edges of the largest subgraph each of whose edges is in at least `k - 2` of its
triangles, in their order. -/
theorem C53_k_truss {k : Nat} (hs : SimpleEdges n es) (hE : Incidence n es E) (hne : es ≠ [])
    (hn : (n : Int) ≤ t.maxVal) (hk : t.Has ((k : Int) - 2)) (hk3 : k < 2 ^ 64) :
    ∃ E' es', (∀ fuel, es.length ≤ fuel → kTruss fuel t ov E k = .ok E') ∧ es'.Sublist es ∧
      Incidence n es' E' ∧ IsKTruss n k (adjOf es) (adjOf es') := by
  have hn0 : n ≠ 0 := by
    obtain ⟨e, he⟩ := List.exists_mem_of_ne_nil _ hne
    have := hs.lt e he
    omega
  obtain ⟨D, e1, hD⟩ := diagMask_spec n
  obtain ⟨A, e2, hA⟩ := gram_spec (t := t) (ov := ov) hs hE hD
  obtain ⟨R, e3, y⟩ := C09_mxm (o := mPlain id (Lil.new es.length n)) (sr := arithT t ov) (via := id) (A := E) (B := A)
    ⟨Lil.new_wf _ _, noMaskOKM⟩ hE.wf hA.wf ⟨noMaskFitsM, hE.nrows.symm, hA.ncols.symm, hE.ncols.trans hA.nrows.symm⟩
  have hR : SidesOf n es R := by
    obtain ⟨y1, y2, y3, y4⟩ := plain_yieldsM y
    refine ⟨y1, y2, y3, fun i e v hi hv => ?_⟩
    rw [y4 i v (List.getElem?_eq_some_iff.1 hi).1 hv, Option.map_id_fun, id, hE.ncols]
    exact prod_val hs hE hA hn hi hv
  obtain ⟨u, ones, e4, e5, ho⟩ := ones_spec (t := t) hn0
  obtain ⟨s, e6, hS⟩ := supports_spec (t := t) (ov := ov) hs hR ho hn hne
  obtain ⟨x, e7, hX⟩ := lack_spec (t := t) hS hne hk hk3
  have hloop := loop_rule (c := fun q => !q.stop && decide (0 < q.x.nvals)) (b := trussIncBody t ov n k D ones)
    (fun q => ∃ es', IncInv n k es es' q) (fun q => q.numEdges) (by
      rintro q ⟨es', hI⟩ hc
      simp only [Bool.and_eq_true, Bool.not_eq_true', decide_eq_true_eq] at hc
      obtain ⟨q', es2, e, hI', hlt⟩ := trussIncBody_spec (t := t) (ov := ov) hI hc.1 hc.2 hD ho hn hk hk3
      exact ⟨q', e, ⟨es2, hI'⟩, hlt⟩)
  have hI0 : IncInv n k es es { E := E, R := R, s := s, x := x, numEdges := es.length, stop := false } :=
    ⟨hE, hs, List.Sublist.refl _, fun F' hF' => hF'.sub, rfl, (nomatch ·), fun _ => hne, fun _ => hR, fun _ => hS,
      fun _ => hX⟩
  obtain ⟨q, e8, ⟨es', hI⟩, hc⟩ := hloop es.length _ ⟨es, hI0⟩ (Nat.le_refl _)
  refine ⟨q.E, es', ?_, hI.sub, hI.inc, ⟨⟨adjOf_symm, ?_, ?_⟩, hI.largest⟩⟩
  · intro fuel hf
    have := loop_more (d := fuel - es.length) e8
    rw [show es.length + (fuel - es.length) = fuel by omega] at this
    rw [kTruss]
    simp only [hE.ncols, hE.nrows]
    rw [e1, prog_bind_ok, e2, exec_done, prog_bind_ok, e3, exec_done, prog_bind_ok, e4, lift_ok, prog_bind_ok, e5,
      exec_done, prog_bind_ok, e6, prog_bind_ok, e7, prog_bind_ok, this, prog_bind_ok]
  · intro i j h
    rw [adjOf_iff] at h ⊢
    exact h.imp (fun h => hI.sub.subset h) (fun h => hI.sub.subset h)
  · intro i j h
    cases hst : q.stop with
    | true =>
      rw [hI.stopped hst] at h
      cases h
    | false =>
      have hX := hI.lack hst
      have hz : q.x.nvals = 0 := by
        simp only [hst, Bool.not_false, Bool.true_and, decide_eq_false_iff_not] at hc
        omega
      have key : ∀ e ∈ es', k ≤ commonNbrs n (adjOf es') e.1 e.2 + 2 := by
        intro e he
        obtain ⟨r, hr, e'⟩ := List.getElem_of_mem he
        have hg := hX.get r e (List.getElem?_eq_some_iff.2 ⟨hr, e'⟩)
        rw [none_of_nvals hX.wf hz] at hg
        split at hg
        · assumption
        · cases hg
      rcases adjOf_iff.1 h with h | h
      · exact key _ h
      · have := key _ h
        have hcomm : commonNbrs n (adjOf es') i j = commonNbrs n (adjOf es') j i := by
          rw [commonNbrs_eq, commonNbrs_eq]
          refine sumTo_congr fun k _ => ?_
          rw [adjOf_symm i k, adjOf_symm k j, Nat.mul_comm]
        rw [hcomm]
        exact this

/-- Incidence matrices of concrete graphs. -/
theorem Ex.incidence_of (hw : E.WF) (hr : E.nrows = es.length) (hc : E.ncols = n) (hs : SimpleEdges n es)
    (h : ∀ i, i < E.nrows → ∀ v, v < E.ncols → (E.get i v = none ∨ E.get i v = some 0 ∨ E.get i v = some 1) ∧
      (E.get i v = some 1 ↔ inc es i v = true)) : Incidence n es E := by
  refine ⟨hw, hr, hc, fun i v x hx => ?_, fun i v => ?_⟩
  · have hlt := stored_lt hw hx
    have := (h i hlt.1 v hlt.2).1
    rw [hx] at this
    rcases this with h | h | h
    · cases h
    · exact Or.inl (Option.some.inj h)
    · exact Or.inr (Option.some.inj h)
  · rw [← inc_iff]
    constructor
    · intro hx
      have hlt := stored_lt hw hx
      exact (h i hlt.1 v hlt.2).2.1 hx
    · intro hi
      obtain ⟨e, he, hv⟩ := inc_iff.1 hi
      have hl := hs.lt e (List.mem_of_getElem? he)
      have hil := (List.getElem?_eq_some_iff.1 he).1
      exact (h i (by omega) v (by omega)).2.2 hi

theorem kTruss_more {fuel d k : Nat} {E' : Lil Int} (h : kTruss fuel t ov E k = .ok E') :
    kTruss (fuel + d) t ov E k = .ok E' := by
  unfold kTruss at h ⊢
  simp only at h ⊢
  refine prog_bind_imp h fun _ h => ?_
  refine prog_bind_imp h fun _ h => ?_
  refine prog_bind_imp h fun _ h => ?_
  refine prog_bind_imp h fun _ h => ?_
  refine prog_bind_imp h fun _ h => ?_
  refine prog_bind_imp h fun _ h => ?_
  refine prog_bind_imp h fun _ h => ?_
  revert h
  cases hl : loop _ _ fuel _ with
  | error e => intro h; cases h
  | ok q =>
    intro h
    rw [loop_more hl]
    exact h

/-- Without the hypothesis on `k - 2` the claim is false: for an unsigned scalar type and
`k = 1` (or 0) the threshold wraps round, and the result has no edges although the 1-truss
of a graph is the graph. Here: one edge. -/
theorem C53_small_k_unsigned_wrong :
    SimpleEdges 2 [(0, 1)] ∧ Incidence 2 [(0, 1)] ⟨1, 2, 2, [[(0, 1), (1, 1)]]⟩ ∧
      IsKTruss 2 1 (adjOf [(0, 1)]) (adjOf [(0, 1)]) ∧
      (∀ fuel, 1 ≤ fuel → kTruss fuel .u32 (fun _ _ => 0) ⟨1, 2, 2, [[(0, 1), (1, 1)]]⟩ 1 = .ok ⟨0, 2, 0, []⟩) := by
  have hs : SimpleEdges 2 [(0, 1)] := ⟨by decide, by decide, by decide⟩
  refine ⟨hs, Ex.incidence_of (Lil.wf_chk (by decide)) rfl rfl hs (by decide +kernel),
    ⟨⟨adjOf_symm, fun _ _ h => h, fun _ _ _ => by omega⟩, fun F' h => h.sub⟩, ?_⟩
  intro fuel hf
  obtain ⟨d, rfl⟩ := Nat.exists_eq_add_of_le hf
  exact kTruss_more (by decide +kernel)

/-- Five vertices: triangles 0 1 2 and 1 2 3 and a tail 3 4. -/
def Ex.incEdges : List (Nat × Nat) := [(0, 1), (1, 2), (2, 0), (3, 4), (1, 3), (3, 2)]

/-- Its incidence matrix, with a stored zero. -/
def Ex.incMatrix : Lil Int :=
  ⟨6, 5, 13, [[(0, 1), (1, 1)], [(1, 1), (2, 1)], [(0, 1), (2, 1)], [(3, 1), (4, 1)], [(1, 1), (3, 1), (4, 0)],
    [(2, 1), (3, 1)]]⟩

/-- The 3-truss is the graph without its tail, the 4-truss is empty (two rounds). -/
example : SimpleEdges 5 Ex.incEdges ∧ Incidence 5 Ex.incEdges Ex.incMatrix ∧ Ex.incEdges ≠ [] ∧
    ((5 : Nat) : Int) ≤ ITy.maxVal .i8 ∧ ITy.Has .i8 (((3 : Nat) : Int) - 2) ∧ ITy.Has .i8 (((0 : Nat) : Int) - 2) ∧
    kTruss 6 .i8 (fun _ _ => 0) Ex.incMatrix 3 =
      .ok ⟨5, 5, 11, [[(0, 1), (1, 1)], [(1, 1), (2, 1)], [(0, 1), (2, 1)], [(1, 1), (3, 1), (4, 0)],
        [(2, 1), (3, 1)]]⟩ ∧
    kTruss 6 .i8 (fun _ _ => 0) Ex.incMatrix 4 = .ok ⟨0, 5, 0, []⟩ := by
  have hs : SimpleEdges 5 Ex.incEdges := ⟨by decide, by decide, by decide⟩
  exact ⟨hs, Ex.incidence_of (Lil.wf_chk (by decide)) rfl rfl hs (by decide +kernel), by decide, by decide, by decide,
    by decide, by decide +kernel, by decide +kernel⟩

end GBTL

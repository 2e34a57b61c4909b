import Verif.Props.Select
import Verif.Lemmas.AssignConst
/-
C20, what `assign` of a constant leaves behind for index lists in any order and with
repetitions.
-/
namespace GBTL
open Spec (Outp MaskKind Accum leads)
open Row

variable {α β γ δ τ ζ μ : Type}

theorem leadList_get (l : List Nat) (x : τ) (i : Nat) :
    get (constRow (leadList 0 l) x) i = Spec.leadConst l x i := by
  rw [Spec.leadConst]
  cases hg : get (constRow (leadList 0 l) x) i with
  | none =>
    have : i ∉ leadList 0 l := by
      intro hi
      exact (mem_keys_iff (constRow (leadList 0 l) x) i).1 (by simpa [Row.keys, constRow] using hi) hg
    rw [mem_leadList] at this
    rw [if_neg (fun h => this ⟨Nat.zero_le _, h⟩)]
  | some y =>
    have h1 : i ∈ Row.keys (constRow (leadList 0 l) x) := (mem_keys_iff _ i).2 (by simp [hg])
    have h2 : i ∈ leadList 0 l := by simpa [Row.keys, constRow] using h1
    rw [if_pos ((mem_leadList _ _ _).1 h2).2]
    have h3 := Row.mem_of_get hg
    simp only [constRow, List.mem_map] at h3
    obtain ⟨_, _, e⟩ := h3
    cases e; rfl

theorem recs_sorted {z : Row τ} (hz : Sorted z) : ∀ b, (∀ p ∈ z, b ≤ p.1) → Row.recs b z = z := by
  induction z with
  | nil => intro b _; rfl
  | cons p z ih =>
    obtain ⟨i, y⟩ := p
    intro b hb
    obtain ⟨h1, h2⟩ := List.pairwise_cons.1 hz
    rw [Row.recs, if_pos (hb _ (List.mem_cons_self ..)), ih h2 _ (fun p hp => h1 p hp)]

theorem leadList_ok {l : List Nat} {n : Nat} (hb : ∀ i ∈ l, i < n) (x : τ) :
    Row.OK n (constRow (leadList 0 l) x) := by
  constructor
  · exact List.pairwise_map.2 (leadList_asc l 0)
  · intro p hp
    simp only [constRow, List.mem_map] at hp
    obtain ⟨i, hi, rfl⟩ := hp
    exact hb i (leads_mem ((mem_leadList _ _ _).1 hi).2)

theorem search_list (l : List Nat) (i : Nat) : searchIndices (.list l) i = decide (i ∈ l) := by
  rw [Bool.eq_iff_iff]; simp [searchIndices]

/-- **C20**, what a masked constant assignment to a vector does for any list of indices:
only the leading positions receive the constant. The other listed positions are treated as
if the constant were absent: without accumulator they lose their value, with one they keep
it. -/
theorem C20_assign_const_vector_masked {o : VOut γ τ ζ μ} {keep : γ → ζ} {x : τ} {l : List Nat}
    (ho : o.WF) (hs : ConstVShapes o (.list l)) (hb : ∀ i ∈ l, i < o.w.size) (hm : o.m ≠ none) :
    ∃ w', assignConstV o keep x (.list l) = .done w' ∧
      o.Holds (fun i => Spec.assignAt keep o.acc (decide (i ∈ l)) (o.w.get i)
        (Spec.leadConst l x i)) w' := by
  have hc := (dim_constV o (.list l)).ok hs
  obtain ⟨w', h1, h2⟩ := VOut.stencil_ok (keep := keep) (ix := l) (t := .ok (constRow (leadList 0 l) x))
    ho hs.mask hc rfl (leadList_ok hb x) (fun i h => by
      rw [search_list] at h
      rw [leadList_get, Spec.leadConst, if_neg]
      intro h'
      simp [leads_mem h'] at h)
  refine ⟨w', ?_, h2.wf, h2.size, fun i hi => ?_⟩
  · rw [← h1]
    obtain ⟨c, c1, c2, c3, -⟩ := BVec.getContents_spec ho.out
    obtain ⟨z, e1, e2⟩ : ∃ z, ewiseOrStencilOptAccum1D keep o.w (constRow l x) (.list l) o.acc = .ok z ∧
        ewiseOrStencilOptAccum1D keep o.w (constRow (leadList 0 l) x) (.list l) o.acc
          = .ok (Row.recs 0 z) := by
      cases ha : o.acc with
      | none cs =>
        refine ⟨ewiseOrStencil keep cs (.list l) c (constRow l x), by simp only [ewiseOrStencilOptAccum1D, c1, Except.bind_ok'], ?_⟩
        rw [st_recs _ _ _ _ _ _ c2.sorted 0 (fun _ _ => Nat.zero_le _)]
        simp only [ewiseOrStencilOptAccum1D, c1, Except.bind_ok']
      | some op cC cT =>
        refine ⟨ewiseOr op cC cT c (constRow l x), by simp only [ewiseOrStencilOptAccum1D, c1, Except.bind_ok'], ?_⟩
        rw [or_recs _ _ _ _ _ _ c2.sorted 0 (fun _ _ => Nat.zero_le _)]
        simp only [ewiseOrStencilOptAccum1D, c1, Except.bind_ok']
    have e3 : writeWithOptMask1D o.truthy o.castZ o.w z o.m o.outp
        = writeWithOptMask1D o.truthy o.castZ o.w (Row.recs 0 z) o.m o.outp := by
      cases hm' : o.m with
      | none => exact absurd hm' hm
      | some km =>
        obtain ⟨k, m⟩ := km
        obtain ⟨mc, m1, m2, m3, -⟩ := BVec.getContents_spec (ho.mask k m hm')
        simp only [writeWithOptMask1D, c1, m1, Except.bind_ok',
          applyWithMask_recs id o.castZ o.outp _ (maskRow_spec o.truthy k m2.sorted).1 _ _ 0
            (fun _ _ => Nat.zero_le _)]
    have e4 : assignConstVec o.w x (.list l) = .ok (constRow l x) := by
      simp only [assignConstVec, checkIndex_ok (ix := .list l) hb, Except.bind_ok']; rfl
    show run o.w _ _ = run o.w _ _
    rw [hc, e4]
    simp only [setupIndices, Except.bind_ok', e1, e2, run, e3]
  · rw [h2.get i hi, search_list, leadList_get]

/-- **C20**, what an unmasked constant assignment to a vector does for any list of indices.
Without accumulator every position holds what it should, for any list. With one, an old
value at a position that is listed twice or after a larger index is lost. The vector counts
its elements correctly exactly if no index is listed twice and, with an accumulator, every
listed position that held a value leads. -/
theorem C20_assign_const_vector_unmasked {o : VOut γ τ ζ μ} {keep : γ → ζ} {x : τ} {l : List Nat}
    (ho : o.WF) (hs : ConstVShapes o (.list l)) (hb : ∀ i ∈ l, i < o.w.size) (hm : o.m = none) :
    ∃ w', assignConstV o keep x (.list l) = .done w' ∧ w'.size = o.w.size ∧
      (∀ i, w'.get i = (Spec.constVecAt keep o.acc l x (o.w.get i) i).map o.castZ) ∧
      (w'.WF ↔ l.Nodup ∧ ∀ op cC cT, o.acc = .some op cC cT →
        ∀ i ∈ l, o.w.get i ≠ none → leads l i = true) := by
  have hc := (dim_constV o (.list l)).ok hs
  obtain ⟨c, c1, c2, c3, -⟩ := BVec.getContents_spec ho.out
  have hl : ∀ j ∈ l, searchIndices (.list l) j = true := fun j hj => by rw [search_list]; simpa using hj
  obtain ⟨z, e1, e2, e3, e4⟩ : ∃ z, ewiseOrStencilOptAccum1D keep o.w (constRow l x) (.list l) o.acc = .ok z ∧
      (∀ i, Row.last z i = Spec.constVecAt keep o.acc l x (o.w.get i) i) ∧
      ((Row.keys z).Nodup ↔ l.Nodup ∧ ∀ op cC cT, o.acc = .some op cC cT →
        ∀ i ∈ l, o.w.get i ≠ none → leads l i = true) ∧
      ∀ p ∈ z, p.1 < o.w.size := by
    have hlt : ∀ i, o.w.get i ≠ none → i < o.w.size := by
      intro i hi
      apply Classical.byContradiction
      intro h
      exact hi (ho.out.get_none (by omega))
    cases ha : o.acc with
    | none cs =>
      refine ⟨ewiseOrStencil keep cs (.list l) c (constRow l x),
        by simp only [ewiseOrStencilOptAccum1D, c1, Except.bind_ok'], fun i => ?_, ?_, fun p hp => ?_⟩
      · rw [(stencil_both _ _ _ _ _ _ c2.sorted hl i).2, c3, stAt, search_list]
        by_cases h : i ∈ l <;> simp [Spec.constVecAt, h]
      · rw [stencil_nodup _ _ _ _ _ _ c2.sorted hl]; simp
      · have : p.1 ∈ Row.keys (ewiseOrStencil keep cs (.list l) c (constRow l x)) :=
          List.mem_map_of_mem hp
        rw [mem_keys_st _ _ _ _ _ _ c2.sorted hl, c3] at this
        rcases this with h | h
        · exact hb _ h
        · exact hlt _ h.2
    | some op cC cT =>
      refine ⟨ewiseOr op cC cT c (constRow l x),
        by simp only [ewiseOrStencilOptAccum1D, c1, Except.bind_ok'], fun i => ?_, ?_, fun p hp => ?_⟩
      · rw [ewiseOr_last _ _ _ _ _ _ c2.sorted, c3]; rfl
      · rw [ewiseOr_nodup _ _ _ _ _ _ c2.sorted]
        simp only [c3]
        refine and_congr Iff.rfl ⟨fun h op' cC' cT' e => ?_, fun h => h op cC cT rfl⟩
        exact h
      · have : p.1 ∈ Row.keys (ewiseOr op cC cT c (constRow l x)) := List.mem_map_of_mem hp
        rw [mem_keys_or _ _ _ _ _ _ c2.sorted, c3] at this
        rcases this with h | h
        · exact hlt _ h
        · exact hb _ h
  obtain ⟨w', g1, g2, -, g4, g5⟩ := BVec.setContents_any ho.out.vlen o.castZ e4
  refine ⟨w', ?_, g2, fun i => by rw [g4, e2], g5.trans e3⟩
  have e5 : assignConstVec o.w x (.list l) = .ok (constRow l x) := by
    simp only [assignConstVec, checkIndex_ok (ix := .list l) hb, Except.bind_ok']; rfl
  refine run_done (z := z) ?_ ?_
  · rw [hc, e5]; exact e1
  · simp only [hm, writeWithOptMask1D]; exact g1

/-! ### matrices -/

theorem assignConstMat_any {C : Lil γ} (x : τ) {ri ci : List Nat} (hr : ∀ i ∈ ri, i < C.nrows)
    (hc : ∀ j ∈ ci, j < C.ncols) :
    ∃ T, assignConstMat C x (.list ri) (.list ci) = .ok T ∧ T.Counted ∧ T.nrows = C.nrows ∧
      ∀ i, T.rowD i = constRow (if i ∈ ri then ci else []) x := by
  obtain ⟨T, t1, t2, t3, t4, t5⟩ := constLoop_any x ci ri (Lil.new C.nrows C.ncols)
    (Lil.new_wf _ _).counted hr (fun i => Or.inl (Lil.rowD_new ..))
  refine ⟨T, ?_, t2, t3, fun i => ?_⟩
  · simp only [assignConstMat, checkIndex_ok (ix := .list ri) hr, checkIndex_ok (ix := .list ci) hc,
      Except.bind_ok']
    exact t1
  · rw [t5, Lil.rowD_new]; split <;> rfl

/-- **C20**, what a masked constant assignment to a matrix does for any lists of indices:
in the listed rows only the leading columns receive the constant. -/
theorem C20_assign_const_matrix_masked {o : MOut γ τ ζ μ} {keep : γ → ζ} {x : τ} {ri ci : List Nat}
    (ho : o.WF) (hs : ConstMShapes o (.list ri) (.list ci)) (hr : ∀ i ∈ ri, i < o.C.nrows)
    (hc : ∀ j ∈ ci, j < o.C.ncols) (hm : o.M ≠ none) :
    ∃ C', assignConstM o keep x (.list ri) (.list ci) = .done C' ∧
      o.Holds (fun i j => Spec.assignAt keep o.acc (decide (i ∈ ri) && decide (j ∈ ci)) (o.C.get i j)
        (if i ∈ ri then Spec.leadConst ci x j else none)) C' := by
  have hck := (dim_constM o (.list ri) (.list ci)).ok hs
  have hlead : ∀ j ∈ leadList 0 ci, j < o.C.ncols :=
    fun j hj => hc j (leads_mem ((mem_leadList _ _ _).1 hj).2)
  obtain ⟨T, t1, t2, t3, t5⟩ := assignConstMat_any (C := o.C) x hr hc
  obtain ⟨T', u1, u2, u3, u5⟩ := assignConstMat_any (C := o.C) x hr hlead
  obtain ⟨T'', v1, v2, v3, v4, -⟩ := assignConstMat_spec (C := o.C) x (ri := .list ri)
    (ci := .list (leadList 0 ci)) hr hlead (leadList_asc ci 0)
  rw [u1] at v1
  cases v1
  have hget : ∀ i j, T'.get i j = if i ∈ ri then Spec.leadConst ci x j else none := by
    intro i j
    rw [Lil.get, u5]
    split
    · exact leadList_get ..
    · rfl
  obtain ⟨C', h1, h2⟩ := MOut.stencil_ok (keep := keep) (ri := ri) (ci := ci) (T := .ok T')
    ho hs.mask hck rfl v2 v3 v4 (fun i j h => by
      rw [search_list, search_list] at h
      rw [hget]
      split
      · rename_i hi
        rw [Spec.leadConst, if_neg]
        intro h'
        simp [hi, leads_mem h'] at h
      · rfl)
  refine ⟨C', ?_, h2.wf, h2.nrows, h2.ncols, fun i j hi hj => ?_⟩
  · rw [← h1]
    obtain ⟨Z, z1, z2, z3, z4, z5⟩ := stencil_any keep ri ci ci o.acc x ho.out.toWFr t2 t3 t5
    obtain ⟨Z', y1, y2, y3, y4, y5⟩ := stencil_any keep ri ci (leadList 0 ci) o.acc x ho.out.toWFr u2 u3 u5
    have e3 : writeWithOptMask o.truthy o.castZ o.C Z o.M o.outp
        = writeWithOptMask o.truthy o.castZ o.C Z' o.M o.outp := by
      cases hm' : o.M with
      | none => exact absurd hm' hm
      | some km =>
        obtain ⟨k, M⟩ := km
        refine writeMask_recs o.truthy o.castZ k o.outp (ho.mask k M hm') (hs.mask k M hm').1 z2 y2 z3 y3
          fun i hi => ?_
        rw [z5, y5, if_pos hi, if_pos hi]
        cases ha : o.acc with
        | none cs =>
          simp only [constZ]
          split
          · rw [st_recs _ _ _ _ _ _ (ho.out.rowD_ok i).sorted 0 (fun _ _ => Nat.zero_le _)]
          · exact (recs_sorted (sorted_cast (ho.out.rowD_ok i).sorted) 0 (fun _ _ => Nat.zero_le _)).symm
        | some op cC cT =>
          simp only [constZ]
          rw [or_recs _ _ _ _ _ _ (ho.out.rowD_ok i).sorted 0 (fun _ _ => Nat.zero_le _)]
          split <;> rfl
    show run o.C _ _ = run o.C _ _
    rw [hck, t1]
    simp only [setupIndices, Except.bind_ok', z1, y1, run, e3]
  · rw [h2.get i j hi hj, search_list, search_list, hget]

theorem sparseCopy_any {C : Lil γ} {Z : Lil ζ} (cast : ζ → γ) (hC : C.WFr) (hZ : Z.Counted)
    (hr : Z.nrows = C.nrows) :
    ∃ C', sparseCopy cast C Z = .ok C' ∧ C'.Counted ∧ C'.nrows = C.nrows ∧ C'.ncols = C.ncols ∧
      ∀ i, C'.rowD i = if i < C.nrows then Row.cast cast (Z.rowD i) else [] := by
  refine (Lil.clear_wf hC).counted.rowLoop (fun i => Row.cast cast (Z.rowD i)) fun i C' hi _ _ hrow => ?_
  have hi' : i < C.nrows := hi
  rw [Lil.row_ok (show i < Z.rows.length by rw [hZ.len, hr]; exact hi')]
  simp only [Except.bind_ok']
  split
  · exact Or.inl rfl
  · rename_i he
    refine Or.inr ⟨by simpa using he, ?_, rfl⟩
    rw [hrow]
    simp only [Lil.rowD, Lil.clear, List.getElem?_map]
    cases C.rows[i]? <;> rfl

/-- **C20**, what an unmasked constant assignment to a matrix does for any lists of indices.
Without accumulator every position reads as it should, for any lists. With one, an old value
in a listed row and column that does not lead stays as it was. The matrix is consistent
exactly if no row is listed or the columns are strictly ascending; its element count is the
number of stored entries in any case. -/
theorem C20_assign_const_matrix_unmasked {o : MOut γ τ ζ μ} {keep : γ → ζ} {x : τ} {ri ci : List Nat}
    (ho : o.WF) (hs : ConstMShapes o (.list ri) (.list ci)) (hr : ∀ i ∈ ri, i < o.C.nrows)
    (hc : ∀ j ∈ ci, j < o.C.ncols) (hm : o.M = none) :
    ∃ C', assignConstM o keep x (.list ri) (.list ci) = .done C' ∧ C'.nrows = o.C.nrows ∧
      C'.ncols = o.C.ncols ∧ C'.nvals = (C'.rows.map List.length).sum ∧
      (∀ i j, i < o.C.nrows → C'.get i j =
        (if i ∈ ri then Spec.constRowAt keep o.acc ci x (o.C.get i j) j
          else Spec.assignAt keep o.acc false (o.C.get i j) none).map o.castZ) ∧
      (C'.WF ↔ ri = [] ∨ ci.Pairwise (· < ·)) := by
  have hck := (dim_constM o (.list ri) (.list ci)).ok hs
  obtain ⟨T, t1, t2, t3, t5⟩ := assignConstMat_any (C := o.C) x hr hc
  obtain ⟨Z, z1, z2, z3, z4, z5⟩ := stencil_any keep ri ci ci o.acc x ho.out.toWFr t2 t3 t5
  obtain ⟨C', e1, e2, e3, e4, e5⟩ := sparseCopy_any o.castZ ho.out.toWFr z2 z3
  have hrow : ∀ i, i < o.C.nrows → C'.rowD i = Row.cast o.castZ (constZ keep o.acc x ri ci ci o.C i) := by
    intro i hi
    rw [e5, if_pos hi, z5, if_pos hi]
  have hl : ∀ j ∈ ci, searchIndices (.list ci) j = true := fun j hj => by rw [search_list]; simpa using hj
  refine ⟨C', run_done (z := Z) ?_ ?_, e3, e4, e2.count, fun i j hi => ?_, ?_⟩
  · rw [hck, t1]; exact z1
  · simp only [hm, writeWithOptMask]; exact e1
  · have hC := (ho.out.rowD_ok i).sorted
    rw [Lil.get, hrow i hi, Row.get_cast]
    congr 1
    cases ha : o.acc with
    | none cs =>
      simp only [constZ]
      split
      · rw [(stencil_both _ _ _ _ _ _ hC hl j).1, stAt, search_list]
        show _ = Spec.constRowAt keep (.none cs) ci x (get (o.C.rowD i) j) j
        by_cases h : j ∈ ci <;> simp [Spec.constRowAt, h]
      · rw [Row.get_cast]; rfl
    | some op cC cT =>
      simp only [constZ]
      rw [ewiseOr_first _ _ _ _ _ _ hC]
      show Spec.constRowAt cC (.some op cC cT) _ x (o.C.get i j) j = _
      by_cases h : i ∈ ri
      · rw [if_pos h, if_pos h]; rfl
      · rw [if_neg h, if_neg h]
        cases o.C.get i j <;> simp [Spec.constRowAt, Spec.assignAt, leads_nil]
  · constructor
    · intro hw
      by_cases h : ri = []
      · exact Or.inl h
      · right
        obtain ⟨i, hi⟩ := List.exists_mem_of_ne_nil ri h
        have hok := (hw.rowD_ok i).sorted
        rw [hrow i (hr i hi)] at hok
        have hC := (ho.out.rowD_ok i).sorted
        have hsub : ci.Sublist (Row.keys (constZ keep o.acc x ri ci ci o.C i)) := by
          cases ha : o.acc with
          | none cs => simp only [constZ, if_pos hi]; exact stencil_sub _ _ _ _ _ _ hC
          | some op cC cT => simp only [constZ, if_pos hi]; exact ewiseOr_sub _ _ _ _ _ _ hC
        refine List.Pairwise.sublist hsub (List.pairwise_map.2 ?_)
        simpa [Row.cast, Row.Sorted, List.pairwise_map] using hok
    · intro h
      have hall : ∀ i, i < o.C.nrows → Row.OK o.C.ncols (constZ keep o.acc x ri ci ci o.C i) := by
        intro i _
        have hC := ho.out.rowD_ok i
        have hcr : ∀ l : List Nat, l.Pairwise (· < ·) → (∀ j ∈ l, j < o.C.ncols) →
            Row.OK o.C.ncols (constRow l x) := fun l h1 h2 =>
          ⟨List.pairwise_map.2 h1, fun p hp => by
            simp only [constRow, List.mem_map] at hp
            obtain ⟨j, hj, rfl⟩ := hp
            exact h2 j hj⟩
        have hd : i ∉ ri ∨ ci.Pairwise (· < ·) := by
          rcases h with h | h
          · left; rw [h]; simp
          · exact Or.inr h
        cases ha : o.acc with
        | none cs =>
          simp only [constZ]
          split
          · rename_i hi
            exact ewiseOrStencil_ok hC (hcr ci (hd.resolve_left (fun h => h hi)) hc)
          · exact hC.cast
        | some op cC cT =>
          simp only [constZ]
          split
          · rename_i hi
            exact ewiseOr_ok hC (hcr ci (hd.resolve_left (fun h => h hi)) hc)
          · exact ewiseOr_ok hC (hcr [] List.Pairwise.nil (by simp))
      refine ⟨⟨e2.len, fun r hr' => ?_⟩, e2.count⟩
      obtain ⟨i, hi, rfl⟩ := List.getElem_of_mem hr'
      have hi' : i < o.C.nrows := by rw [← e3, ← e2.len]; exact hi
      have := hrow i hi'
      rw [Lil.rowD_of_lt hi] at this
      rw [this, e4]
      exact (hall i hi').cast

/-- **C20**, vectors, for any list without repetitions when there is neither mask nor
accumulator. -/
theorem C20_assign_const_vector_any_order_partial {o : VOut γ τ ζ μ} {keep : γ → ζ} {x : τ} {l : List Nat}
    (ho : o.WF) (hs : ConstVShapes o (.list l)) (hb : ∀ i ∈ l, i < o.w.size) (hd : l.Nodup)
    (hm : o.m = none) {cast : τ → ζ} (ha : o.acc = .none cast) :
    ∃ w', assignConstV o keep x (.list l) = .done w' ∧
      o.Holds (fun i => Spec.assignAt keep o.acc (decide (i ∈ l)) (o.w.get i)
        (if i ∈ l then some x else none)) w' := by
  obtain ⟨w', h1, h2, h3, h4⟩ := C20_assign_const_vector_unmasked (keep := keep) (x := x) ho hs hb hm
  refine ⟨w', h1, h4.2 ⟨hd, fun op cC cT e => ?_⟩, h2, fun i _ => ?_⟩
  · rw [ha] at e; cases e
  · rw [h3, hm, ha]
    by_cases h : i ∈ l <;> simp [Spec.constVecAt, Spec.assignAt, Spec.accum, Spec.write, VMask.allows, h]

/-- A mask that lets every position be written. -/
def Ex.m4 : VMask Nat := some (.plain, ⟨4, 4, [1, 1, 1, 1], [true, true, true, true]⟩)

/-- With a mask the position 1, listed after 3, loses its value; with the accumulator it
keeps it. Without mask it becomes the constant. -/
example : (∀ i ∈ [3, 1], i < Ex.oW.w.size) ∧ ConstVShapes Ex.oW (.list [3, 1]) ∧ Ex.m4.WF ∧ Ex.m4.Fits 4 ∧
    assignConstV { Ex.oW with m := Ex.m4 } id 5 (.list [3, 1])
      = .done { size := 4, nvals := 2, vals := [0, 1, 0, 5], bitmap := [false, true, false, true] } ∧
    assignConstV { Ex.oW with m := Ex.m4, acc := .none id } id 5 (.list [3, 1])
      = .done { size := 4, nvals := 1, vals := [0, 1, 0, 5], bitmap := [false, false, false, true] } ∧
    assignConstV { Ex.oW with acc := .none id } id 5 (.list [3, 1])
      = .done { size := 4, nvals := 2, vals := [0, 5, 0, 5], bitmap := [false, true, false, true] } :=
  ⟨by decide, ⟨(by intro k M e; cases e), by decide⟩, (by intro k M e; cases e; exact ⟨rfl, rfl, rfl⟩),
    (by intro k M e; cases e; rfl), by decide +kernel, by decide +kernel, by decide +kernel⟩

example : Ex.oM.WF ∧ ConstMShapes Ex.oM (.list [1]) (.list [1, 0]) ∧
    assignConstM { Ex.oM with M := none } id 5 (.list [1]) (.list [1, 0])
      = .done { nrows := 2, ncols := 2, nvals := 4, rows := [[(0, 1), (1, 2)], [(1, 8), (0, 5)]] } ∧
    assignConstM Ex.oM id 5 (.list [1]) (.list [1, 0])
      = .done { nrows := 2, ncols := 2, nvals := 2, rows := [[(0, 1)], [(1, 8)]] } :=
  ⟨Ex.oM_wf, ⟨Ex.oM_fits, by decide, by decide⟩, by decide +kernel, by decide +kernel⟩

end GBTL

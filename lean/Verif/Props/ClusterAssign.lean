import Verif.Lemmas.Tuples
import Verif.Props.Cluster
/-
**C63** The assignment of vertices to clusters from the matrix of a clustering.
-/
namespace GBTL
open Spec

variable {α : Type} {n : Nat}

/-- What the two arrays hold for column `j` after the elements `p`. -/
def AsgOk (conv : α → Rat) (p : List (Nat × Nat × α)) (j : Nat) (b : Rat) (i : Nat) : Prop :=
  (b = -1 ∧ i = 2 ^ 64 - 1 ∧ ∀ t ∈ p, t.2.1 = j → conv t.2.2 ≤ -1) ∨
  (-1 < b ∧ (∃ t ∈ p, t.1 = i ∧ t.2.1 = j ∧ conv t.2.2 = b) ∧
    ∀ t ∈ p, t.2.1 = j → conv t.2.2 < b ∨ conv t.2.2 = b ∧ i ≤ t.1)

theorem asgFold {conv : α → Rat} : ∀ (l p : List (Nat × Nat × α)) (s : AsgSt),
    (p ++ l).Pairwise (fun x y => x.1 ≤ y.1) → (∀ t ∈ l, t.2.1 < n) → s.best.length = n → s.asg.length = n →
    (∀ j b i, s.best[j]? = some b → s.asg[j]? = some i → AsgOk conv p j b i) →
    ∃ s', l.foldlM (fun s t => asgStep s t.1 t.2.1 (conv t.2.2)) s = (.ok s' : Except Err AsgSt) ∧
      s'.best.length = n ∧ s'.asg.length = n ∧
      (∀ j b i, s'.best[j]? = some b → s'.asg[j]? = some i → AsgOk conv (p ++ l) j b i) := by
  intro l
  induction l with
  | nil => intro p s _ _ h1 h2 h3; exact ⟨s, rfl, h1, h2, by simpa using h3⟩
  | cons t l ih =>
    obtain ⟨i, j, x⟩ := t
    intro p s hp hl h1 h2 h3
    have hj : j < n := hl (i, j, x) (by simp)
    have hbj : ∃ b, s.best[j]? = some b := ⟨s.best[j], List.getElem?_eq_getElem (by omega)⟩
    obtain ⟨b, hb⟩ := hbj
    have haj : ∃ a, s.asg[j]? = some a := ⟨s.asg[j], List.getElem?_eq_getElem (by omega)⟩
    obtain ⟨a, ha⟩ := haj
    have hold := h3 j b a hb ha
    have hrow : ∀ t ∈ p, t.1 ≤ i := fun t ht => (List.pairwise_append.1 hp).2.2 t ht (i, j, x) (by simp)
    rw [List.foldlM_cons]
    have key : ∃ s1, asgStep s i j (conv x) = .ok s1 ∧ s1.best.length = n ∧ s1.asg.length = n ∧
        (∀ j' b' i', s1.best[j']? = some b' → s1.asg[j']? = some i' → AsgOk conv (p ++ [(i, j, x)]) j' b' i') := by
      have hother : ∀ j' b' i', j' ≠ j → AsgOk conv p j' b' i' → AsgOk conv (p ++ [(i, j, x)]) j' b' i' := by
        intro j' b' i' hne h
        rcases h with ⟨e1, e2, e3⟩ | ⟨e1, ⟨t, ht, e2⟩, e3⟩
        · refine .inl ⟨e1, e2, fun t ht htj => ?_⟩
          rcases List.mem_append.1 ht with h | h
          · exact e3 t h htj
          · rw [List.mem_singleton.1 h] at htj; exact absurd htj.symm hne
        · refine .inr ⟨e1, ⟨t, List.mem_append_left _ ht, e2⟩, fun t ht htj => ?_⟩
          rcases List.mem_append.1 ht with h | h
          · exact e3 t h htj
          · rw [List.mem_singleton.1 h] at htj; exact absurd htj.symm hne
      unfold asgStep
      rw [hb]
      dsimp only
      by_cases hlt : b < conv x
      · rw [if_pos hlt]
        refine ⟨_, rfl, by simpa using h1, by simpa using h2, fun j' b' i' e1 e2 => ?_⟩
        dsimp only at e1 e2
        by_cases hjj : j' = j
        · subst hjj
          rw [List.getElem?_set_self (by omega)] at e1 e2
          injection e1 with e1
          injection e2 with e2
          subst e1 e2
          have hgt : -1 < conv x := by
            rcases hold with ⟨e, -⟩ | ⟨e, -⟩ <;> grind
          refine .inr ⟨hgt, ⟨(i, j', x), by simp, rfl, rfl, rfl⟩, fun t ht htj => ?_⟩
          rcases List.mem_append.1 ht with h | h
          · rcases hold with ⟨e, -, e3⟩ | ⟨-, -, e3⟩
            · have := e3 t h htj
              exact .inl (by grind)
            · rcases e3 t h htj with h' | ⟨h', -⟩
              · exact .inl (by grind)
              · exact .inl (by grind)
          · rw [List.mem_singleton.1 h]
            exact .inr ⟨rfl, Nat.le_refl _⟩
        · rw [List.getElem?_set_ne (fun h => hjj h.symm)] at e1 e2
          exact hother j' b' i' hjj (h3 j' b' i' e1 e2)
      · rw [if_neg hlt]
        refine ⟨s, rfl, h1, h2, fun j' b' i' e1 e2 => ?_⟩
        by_cases hjj : j' = j
        · subst hjj
          rw [hb] at e1
          rw [ha] at e2
          injection e1 with e1
          injection e2 with e2
          subst e1 e2
          rcases hold with ⟨e1, e2, e3⟩ | ⟨e1, ⟨t, ht, e2⟩, e3⟩
          · refine .inl ⟨e1, e2, fun t ht htj => ?_⟩
            rcases List.mem_append.1 ht with h | h
            · exact e3 t h htj
            · rw [List.mem_singleton.1 h]
              show conv x ≤ -1
              grind
          · refine .inr ⟨e1, ⟨t, List.mem_append_left _ ht, e2⟩, fun t' ht' htj => ?_⟩
            rcases List.mem_append.1 ht' with h | h
            · exact e3 t' h htj
            · rw [List.mem_singleton.1 h]
              show conv x < b ∨ conv x = b ∧ a ≤ i
              by_cases hx : conv x = b
              · refine .inr ⟨hx, ?_⟩
                rw [← e2.1]
                exact hrow t ht
              · exact .inl (by grind)
        · exact hother j' b' i' hjj (h3 j' b' i' e1 e2)
    obtain ⟨s1, e, l1, l2, l3⟩ := key
    obtain ⟨s', e', r⟩ := ih (p ++ [(i, j, x)]) s1 (by simpa using hp) (fun t ht => hl t (List.mem_cons_of_mem _ ht)) l1 l2 l3
    refine ⟨s', ?_, by simpa using r⟩
    rw [e]
    exact e'

/-- `get_cluster_assignments` of a matrix all of whose elements are in columns below the
number of rows. -/
theorem clusterAssignments_ok [Inhabited α] {conv : α → Rat} {C : Lil α} (hC : C.WF) (hsh : ∀ i j, C.get i j ≠ none → j < C.nrows) :
    ∃ r, clusterAssignments conv C = .ok r ∧ r.length = C.nrows ∧ ∀ j, j < C.nrows →
      (∃ i x, r[j]? = some i ∧ -1 < x ∧ FirstBest (fun i j => (C.get i j).map conv) j i x) ∨
      (r[j]? = some (2 ^ 64 - 1) ∧ ∀ i x, C.get i j = some x → conv x ≤ -1) := by
  obtain ⟨hs, hm, hl⟩ := C07_matrix_tuples C hC
  obtain ⟨s', e, h1, h2, h3⟩ := asgFold (n := C.nrows) (conv := conv) C.extractTuples []
    { best := List.replicate C.nrows (-1), asg := List.replicate C.nrows (2 ^ 64 - 1) }
    (by
      refine List.Pairwise.imp ?_ hs
      intro x y h
      rcases h with h | h
      · exact Nat.le_of_lt h
      · exact Nat.le_of_eq h.1)
    (fun t ht => by
      obtain ⟨i, j, x⟩ := t
      exact hsh i j (by rw [(hm i j x).1 ht]; simp))
    (List.length_replicate ..) (List.length_replicate ..)
    (fun j b i hb hi => by
      refine .inl ⟨?_, ?_, fun t ht => by cases ht⟩
      · exact (List.eq_of_mem_replicate (List.mem_of_getElem? hb))
      · exact (List.eq_of_mem_replicate (List.mem_of_getElem? hi)))
  refine ⟨s'.asg, ?_, h2, fun j hj => ?_⟩
  · unfold clusterAssignments
    rw [matTuples_eq hl]
    simp only [bind, Except.bind]
    rw [e]
  · obtain ⟨i, hi⟩ : ∃ i, s'.asg[j]? = some i := ⟨s'.asg[j], List.getElem?_eq_getElem (by omega)⟩
    obtain ⟨b, hb⟩ : ∃ b, s'.best[j]? = some b := ⟨s'.best[j], List.getElem?_eq_getElem (by omega)⟩
    rcases h3 j b i hb hi with ⟨-, e2, e3⟩ | ⟨e1, ⟨⟨i', j', x⟩, ht, e2, e4, e5⟩, e3⟩
    · refine .inr ⟨by rw [hi, e2], fun i' x hx => ?_⟩
      exact e3 (i', j, x) (by simpa using (hm i' j x).2 hx) rfl
    · refine .inl ⟨i, b, hi, e1, ?_, fun i'' y hy => ?_⟩
      · dsimp only at e2 e4 e5
        subst e2 e4 e5
        show (C.get i' j').map conv = _
        rw [(hm i' j' x).1 (by simpa using ht)]
        rfl
      · cases hz : C.get i'' j with
        | none =>
          have hy' : (C.get i'' j).map conv = some y := hy
          rw [hz] at hy'; cases hy'
        | some z =>
          have hy' : (C.get i'' j).map conv = some y := hy
          rw [hz] at hy'
          injection hy' with hy'
          subst hy'
          exact e3 (i'', j, z) (by simpa using (hm i'' j z).2 hz) rfl

/-- **C63** `get_cluster_assignments` of a matrix with as many rows as columns, or more: the
entry of a vertex is the first row with the greatest value of its column, if this is above
-1, and the greatest index otherwise. -/
theorem C63_cluster_assignments_partial [Inhabited α] {conv : α → Rat} {C : Lil α} (hC : C.WF) (hsh : C.ncols ≤ C.nrows) :
    ∃ r, clusterAssignments conv C = .ok r ∧ r.length = C.nrows ∧ ∀ j, j < C.nrows →
      (∃ i x, r[j]? = some i ∧ -1 < x ∧ FirstBest (fun i j => (C.get i j).map conv) j i x) ∨
      (r[j]? = some (2 ^ 64 - 1) ∧ ∀ i x, C.get i j = some x → conv x ≤ -1) :=
  clusterAssignments_ok hC fun _ _ h => Nat.lt_of_lt_of_le (some_lt hC h).2 hsh

/-- **C63** The assignments of the matrix of a clustering are the clustering. -/
theorem C63_assignments_of_clustering {C : Lil Bool} {a : Vec Nat} (hC : IsClustering n C a) :
    ∃ r, clusterAssignments b2r C = .ok r ∧ r.length = n ∧ ∀ j, j < n → r[j]? = some ((a j).getD (2 ^ 64 - 1)) := by
  obtain ⟨r, e, hl, hr⟩ := C63_cluster_assignments_partial (conv := b2r) hC.sh.wf (by rw [hC.sh.nr, hC.sh.nc]; exact Nat.le_refl n)
  rw [hC.sh.nr] at hl hr
  refine ⟨r, e, hl, fun j hj => ?_⟩
  rcases hr j hj with ⟨i, x, h1, -, h2⟩ | ⟨h1, h2⟩
  · have h3 : (C.get i j).map b2r = some x := h2.stored
    have hi : i < n := by
      apply Classical.byContradiction
      intro h
      rw [hC.sh.out (fun h' => h h'.1)] at h3
      cases h3
    rw [hC.get i j hi hj] at h3
    by_cases h4 : a j = some i
    · rw [h1, h4]; rfl
    · rw [if_neg h4] at h3; cases h3
  · rw [h1]
    cases ha : a j with
    | none => rfl
    | some i =>
      have hi := hC.lt j i hj ha
      have := h2 i true (by rw [hC.get i j hi hj, if_pos ha])
      exact absurd this (by decide +kernel)

/-- A matrix of one row and two columns. -/
def asgWide : Lil Rat := { nrows := 1, ncols := 2, nvals := 1, rows := [[(1, 1)]] }

/-- **C63**, refuted for matrices with more vertices than clusters: `get_cluster_assignments`
writes beyond the end of its arrays. -/
theorem C63_cluster_assignments_disproof : asgWide.WF ∧ clusterAssignments id asgWide = .error .ub :=
  ⟨Lil.wf_chk (by decide +kernel), by rfl⟩

/-! ### the second version -/

theorem indexVec_ok (hn : 0 < n) : ∃ v w, BVec.new n = .ok w ∧
    forP n w (fun i (v : BVec Nat) => lift (method (v.setElement i i))) = .ok v ∧ Sz n v ∧
    ∀ i, i < n → v.get i = some i := by
  obtain ⟨w, e, zw, gw⟩ := newV (τ := Nat) hn
  obtain ⟨v, e', zv, gv⟩ := forP_inv (b := fun i (v : BVec Nat) => lift (method (v.setElement i i)))
    (fun k v => Sz n v ∧ ∀ i, i < k → v.get i = some i) n w ⟨zw, fun i hi => absurd hi (Nat.not_lt_zero i)⟩
    (by
      rintro k v hk ⟨zv, gv⟩
      obtain ⟨v', e, h1, h2, h3⟩ := BVec.setElement_spec zv.wf (i := k) (by rw [zv.sz]; exact hk) k
      refine ⟨v', by rw [e]; rfl, ⟨h1, h2.trans zv.sz⟩, fun i hi => ?_⟩
      rw [h3]
      by_cases h : i = k
      · rw [if_pos h, h]
      · rw [if_neg h]; exact gv i (by omega))
  exact ⟨v, w, e, e', zv, gv⟩

/-- **C63** `get_cluster_assignments_v2` of a matrix of any shape: the entry of a vertex is
the last row with an element in its column, whatever its value, and there is no entry if the
column is empty. -/
theorem C63_cluster_assignments_v2_partial {toIx : α → Nat} {C : Lil α} (hC : C.WF) (hr : 0 < C.nrows) (hc : 0 < C.ncols) :
    ∃ w, clusterAssignmentsV2 toIx C = .ok w ∧ w.WF ∧ w.size = C.ncols ∧ ∀ j, j < C.ncols →
      (∀ i, w.get j = some i → C.get i j ≠ none ∧ ∀ i', C.get i' j ≠ none → i' ≤ i) ∧
      (w.get j = none → ∀ i, C.get i j = none) := by
  obtain ⟨w, e1, z1, -⟩ := newV (τ := Nat) hc
  obtain ⟨v, w0, e2, e3, z3, g3⟩ := indexVec_ok hr
  obtain ⟨w', e4, y⟩ := C11_vxm (o := vPlain id w)
    (sr := ⟨fun x y => if x < y then y else x, fun i (_ : α) => i, fun a _ => toIx a⟩) (u := v) (A := .plain C)
    (vPlain_wf z1.wf) z3.wf hC ⟨noMaskFits, z1.sz, z3.sz⟩
  obtain ⟨z4, g4⟩ := vP_yields z1 y
  refine ⟨w', ?_, z4.wf, z4.sz, fun j hj => ?_⟩
  · unfold clusterAssignmentsV2
    rw [e1]
    simp only [lift_ok, prog_bind_ok]
    rw [e2]
    simp only [lift_ok, prog_bind_ok]
    rw [e3]
    simp only [prog_bind_ok]
    rw [e4, exec_done]
  · have hg : w'.get j = osum (fun x y => if x < y then y else x)
        ((List.range C.nrows).map fun k => both (fun i (_ : α) => i) (v.get k) (C.get k j)) := by
      rw [g4 j hj, Option.map_id, ← z3.sz]; rfl
    have hterm : ∀ k, k < C.nrows → both (fun i (_ : α) => i) (v.get k) (C.get k j) = (C.get k j).map fun _ => k := by
      intro k hk
      rw [g3 k hk]
      cases C.get k j <;> rfl
    constructor
    · intro i hi
      rw [hg] at hi
      obtain ⟨⟨k, hk, hkx⟩, hmax⟩ := osum_best (le := fun x y => y ≤ x) (fun _ => Nat.le_refl _) (fun x y z h1 h2 => Nat.le_trans h2 h1)
        (fun x y => by split <;> omega) hi
      rw [hterm k hk] at hkx
      cases hz : C.get k j with
      | none => rw [hz] at hkx; cases hkx
      | some z =>
        rw [hz] at hkx
        injection hkx with hkx
        subst hkx
        refine ⟨by rw [hz]; simp, fun i' hi' => ?_⟩
        have hlt := (some_lt hC hi').1
        refine hmax i' i' hlt ?_
        show both (fun i (_ : α) => i) (v.get i') (C.get i' j) = some i'
        rw [hterm i' hlt]
        cases hz' : C.get i' j with
        | none => exact absurd hz' hi'
        | some z' => rfl
    · intro hn i
      rw [hg] at hn
      by_cases hi : i < C.nrows
      · have := osum_range_none.1 hn i hi
        rw [hterm i hi] at this
        cases hz : C.get i j with
        | none => rfl
        | some z => rw [hz] at this; cases this
      · cases hz : C.get i j with
        | none => rfl
        | some z => exact absurd (some_lt hC (i := i) (j := j) (by rw [hz]; simp)).1 hi

/-- **C63** For the matrix of a clustering the second version gives the clustering. -/
theorem C63_assignments_of_clustering_v2 {toIx : Bool → Nat} {C : Lil Bool} {a : Vec Nat} (hn : 0 < n) (hC : IsClustering n C a) :
    ∃ w, clusterAssignmentsV2 toIx C = .ok w ∧ w.WF ∧ w.size = n ∧ ∀ j, j < n → w.get j = a j := by
  obtain ⟨w, e, h1, h2, h3⟩ := C63_cluster_assignments_v2_partial (toIx := toIx) hC.sh.wf (by rw [hC.sh.nr]; exact hn) (by rw [hC.sh.nc]; exact hn)
  rw [hC.sh.nc] at h2 h3
  refine ⟨w, e, h1, h2, fun j hj => ?_⟩
  obtain ⟨h4, h5⟩ := h3 j hj
  cases hw : w.get j with
  | some i =>
    have h6 := (h4 i hw).1
    have hi : i < n := by
      apply Classical.byContradiction
      intro h
      exact h6 (hC.sh.out fun h' => h h'.1)
    rw [hC.get i j hi hj] at h6
    by_cases h7 : a j = some i
    · exact h7.symm
    · rw [if_neg h7] at h6; exact absurd rfl h6
  | none =>
    cases ha : a j with
    | none => rfl
    | some i =>
      have := h5 hw i
      rw [hC.get i j (hC.lt j i hj ha) hj, if_pos ha] at this
      cases this

/-- Two clusters and one vertex, with the greater value in cluster 0. -/
def asgTall : Lil Rat := { nrows := 2, ncols := 1, nvals := 2, rows := [[(0, 2)], [(0, 1)]] }

/-- **C63**, refuted for the second version: the vertex is assigned to cluster 1, although
its value for cluster 0 is greater; the first version assigns it to cluster 0. -/
theorem C63_cluster_assignments_v2_disproof :
    asgTall.WF ∧ FirstBest asgTall.get 0 0 2 ∧
    (∃ w, clusterAssignmentsV2 (fun _ => 0) asgTall = .ok w ∧ w.get 0 = some 1) ∧
    ∃ r, clusterAssignments id asgTall = .ok r ∧ r[0]? = some 0 := by
  have hwf : asgTall.WF := Lil.wf_chk (by decide +kernel)
  have h01 : ∀ i y, asgTall.get i 0 = some y → i = 0 ∧ y = 2 ∨ i = 1 ∧ y = 1 := by
    intro i y h
    have hi := (some_lt hwf (i := i) (j := 0) (by rw [h]; simp)).1
    have hi : i < 2 := hi
    rcases (show i = 0 ∨ i = 1 by omega) with rfl | rfl
    · rw [show asgTall.get 0 0 = some 2 by decide +kernel] at h
      injection h with h
      exact .inl ⟨rfl, h.symm⟩
    · rw [show asgTall.get 1 0 = some 1 by decide +kernel] at h
      injection h with h
      exact .inr ⟨rfl, h.symm⟩
  refine ⟨hwf, ⟨by decide +kernel, fun i y h => ?_⟩, ⟨_, rfl, by decide +kernel⟩, ⟨_, rfl, by decide +kernel⟩⟩
  rcases h01 i y h with ⟨rfl, rfl⟩ | ⟨rfl, rfl⟩
  · exact .inr ⟨rfl, Nat.le_refl _⟩
  · exact .inl (by decide +kernel)

end GBTL

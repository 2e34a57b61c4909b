import Verif.Props.LawsEwise
/-
C74: laws of `extract` and `assign` across calls, without mask and accumulator, into any
consistent containers of the right shapes. Index arguments are lists or `AllIndices`.
-/
namespace GBTL
open Spec (Outp MaskKind Accum osum both either)

variable {α : Type} {m n k p q r s : Nat} {add mult : α → α → α} {o1 o2 o3 o4 o5 : Outp}

/-! ### Index arguments -/

theorem Idx.Picks.nth {ix : Idx} {N k : Nat} (h : ix.Picks p N) (hk : k < p) :
    Spec.nth ix.sel N k = some (ix.pick k) ∧ ix.pick k < N := by
  cases ix with
  | all =>
    have : p = N := h
    subst this
    exact ⟨by simp [Idx.sel, Spec.nth, hk, Idx.pick], hk⟩
  | list l =>
    obtain ⟨h1, h2⟩ := h
    have hl : k < l.length := h1.symm ▸ hk
    have hp : Idx.pick (.list l) k = l[k] := by simp [Idx.pick, List.getD, hl]
    refine ⟨?_, ?_⟩
    · rw [hp]
      exact List.getElem?_eq_getElem hl
    · rw [hp]
      exact h2 _ (List.getElem_mem hl)

theorem Idx.Picks.pos {ix : Idx} {N k : Nat} (h : ix.Picks p N) (hn : ix.nodup) (hk : k < p) :
    Spec.posOf ix.sel p (ix.pick k) = some k := by
  cases ix with
  | all => simp [Idx.sel, Spec.posOf, hk, Idx.pick]
  | list l =>
    have := (h.nth hk).1
    exact idxOf?_of_nodup hn this

theorem Idx.Picks.of_pos {ix : Idx} {N k i : Nat} (h : ix.Picks p N) (hk : Spec.posOf ix.sel p i = some k) :
    k < p ∧ ix.pick k = i := by
  cases ix with
  | all =>
    simp only [Idx.sel, Spec.posOf] at hk
    split at hk
    · cases hk; exact ⟨by assumption, rfl⟩
    · cases hk
  | list l =>
    have := getElem?_of_idxOf? hk
    obtain ⟨hl, he⟩ := List.getElem?_eq_some_iff.1 this
    exact ⟨h.1 ▸ hl, by simp [Idx.pick, List.getD, this]⟩

theorem Idx.Picks.len {ix : Idx} {N : Nat} (h : ix.Picks p N) : ix.len p = p := by
  cases ix with
  | all => rfl
  | list l => exact h.1

theorem Idx.Picks.below {ix : Idx} {N : Nat} (h : ix.Picks p N) : ix.below N := by
  cases ix with
  | all => trivial
  | list l => exact h.2

theorem Idx.Picks.inside {ix : Idx} {N : Nat} (h : ix.Picks p N) : ix.inside p N := by
  cases ix with
  | all => exact Nat.le_of_eq h
  | list l => exact h.2

theorem Idx.Picks.comp {ix jx : Idx} {N : Nat} (h : ix.Picks p N) (h' : jx.Picks q p) : (ix.comp jx).Picks q N := by
  cases jx with
  | all =>
    have : q = p := h'
    exact this ▸ h
  | list l =>
    refine ⟨by simp [h'.1], fun i hi => ?_⟩
    obtain ⟨a, ha, rfl⟩ := List.mem_map.1 hi
    exact (h.nth (h'.2 a ha)).2

theorem Idx.Picks.comp_pick {ix jx : Idx} {k : Nat} (h' : jx.Picks q p) (hk : k < q) :
    (ix.comp jx).pick k = ix.pick (jx.pick k) := by
  cases jx with
  | all => rfl
  | list l =>
    have hl : k < l.length := h'.1.symm ▸ hk
    simp [Idx.comp, Idx.pick, List.getD, hl]

theorem Idx.all_picks (n : Nat) : Idx.all.Picks n n := rfl

theorem into_extract' {C : Lil α} {A : Operand α} {ri ci : Idx} {outp : Outp} (hC : C.Of p q) (hA : A.Of m n)
    (hr : ri.Picks p m) (hc : ci.Picks q n) :
    ∃ X, C.into outp (.extract A ri ci) = .done X ∧ X.Con p q fun i j => A.get (ri.pick i) (ci.pick j) := by
  obtain ⟨X, e, h⟩ := into_extract (outp := outp) hC hA hr.len hc.len hr.below hc.below
  refine ⟨X, e, h.toOf, fun i j hi hj => ?_⟩
  rw [h.get i j hi hj, Spec.extractMat, (hr.nth hi).1, (hc.nth hj).1]
  rfl

theorem into_extractV' {w u : BVec α} {ix : Idx} {outp : Outp} (hw : w.Of p) (hu : u.Of n) (hi : ix.Picks p n) :
    ∃ x, w.into outp (.extract u ix) = .done x ∧ x.Con p fun i => u.get (ix.pick i) := by
  obtain ⟨X, e, h⟩ := into_extractV (outp := outp) hw hu hi.len hi.below
  refine ⟨X, e, h.toOf, fun i hi' => ?_⟩
  rw [h.get i hi', Spec.extract, (hi.nth hi').1]
  rfl

/-- What an assignment without accumulator leaves. -/
theorem into_assign {C : Lil α} {A : Operand α} {ri ci : Idx} {outp : Outp} (hC : C.Of m n) (hA : A.Of p q)
    (hr : ri.Picks p m) (hc : ci.Picks q n) (hrn : ri.nodup) (hcn : ci.nodup) :
    ∃ X, C.into outp (.assign id A ri ci) = .done X ∧ X.Of m n ∧
      (∀ i j, i < p → j < q → X.get (ri.pick i) (ci.pick j) = A.get i j) ∧
      ∀ i j, i < m → j < n → (∀ a b, a < p → b < q → ¬ (ri.pick a = i ∧ ci.pick b = j)) → X.get i j = C.get i j := by
  obtain ⟨X, e, h⟩ := C19_assign_matrix (o := ⟨C, none, fun _ => true, .none id, id, outp⟩) (μ := Unit) (keep := id)
    (ri := ri) (ci := ci) (into_wf hC) hA.wf (by intro k M e; cases e) (by rw [hA.nrows]; exact hr.len)
    (by rw [hA.ncols]; exact hc.len) (by show ri.inside A.nrows C.nrows; rw [hA.nrows, hC.nrows]; exact hr.inside)
    (by show ci.inside A.ncols C.ncols; rw [hA.ncols, hC.ncols]; exact hc.inside) hrn hcn
  have g : ∀ i j, i < m → j < n → X.get i j = Spec.assignAt id (.none id) (Spec.selected ri.sel p i && Spec.selected ci.sel q j)
      (C.get i j) (Spec.assignSrcMat p q ri.sel ci.sel A.get i j) := by
    intro i j hi hj
    rw [h.get i j (by rw [hC.nrows]; exact hi) (by rw [hC.ncols]; exact hj)]
    show Spec.write id true outp _ _ = _
    rw [hA.nrows, hA.ncols]
    simp [Spec.write]
  refine ⟨X, e, ⟨h.wf, h.nrows.trans hC.nrows, h.ncols.trans hC.ncols⟩, fun i j hi hj => ?_, fun i j hi hj hne => ?_⟩
  · rw [g _ _ (hr.nth hi).2 (hc.nth hj).2]
    simp [Spec.selected, Spec.assignSrcMat, hr.pos hrn hi, hc.pos hcn hj, Spec.assignAt, Spec.accum]
  · rw [g i j hi hj]
    have : (Spec.selected ri.sel p i && Spec.selected ci.sel q j) = false := by
      rw [Bool.and_eq_false_iff]
      cases ha : Spec.posOf ri.sel p i with
      | none => left; simp [Spec.selected, ha]
      | some a =>
        cases hb : Spec.posOf ci.sel q j with
        | none => right; simp [Spec.selected, hb]
        | some b =>
          obtain ⟨a1, a2⟩ := hr.of_pos ha
          obtain ⟨b1, b2⟩ := hc.of_pos hb
          exact absurd ⟨a2, b2⟩ (hne a b a1 b1)
    rw [this]
    simp [Spec.assignAt]

theorem into_assignV {w u : BVec α} {ix : Idx} {outp : Outp} (hw : w.Of n) (hu : u.Of p)
    (hx : ix.Picks p n) (hn : ix.nodup) :
    ∃ x, w.into outp (.assign id u ix) = .done x ∧ x.Of n ∧ (∀ i, i < p → x.get (ix.pick i) = u.get i) ∧
      ∀ i, i < n → (∀ a, a < p → ix.pick a ≠ i) → x.get i = w.get i := by
  obtain ⟨X, e, h⟩ := C19_assign_vector (o := ⟨w, none, fun _ => true, .none id, id, outp⟩) (μ := Unit) (keep := id)
    (ix := ix) (into_wfV hw) hu.wf (by intro k M e; cases e) (by rw [hu.size]; exact hx.len)
    (by show ix.inside u.size w.size; rw [hu.size, hw.size]; exact hx.inside) hn
  have g : ∀ i, i < n → X.get i = Spec.assignAt id (.none id) (Spec.selected ix.sel p i)
      (w.get i) (Spec.assignSrc p ix.sel u.get i) := by
    intro i hi
    rw [h.get i (by rw [hw.size]; exact hi)]
    show Spec.write id true outp _ _ = _
    rw [hu.size]
    simp [Spec.write]
  refine ⟨X, e, ⟨h.wf, h.size.trans hw.size⟩, fun i hi => ?_, fun i hi hne => ?_⟩
  · rw [g _ (hx.nth hi).2]
    simp [Spec.selected, Spec.assignSrc, hx.pos hn hi, Spec.assignAt, Spec.accum]
  · rw [g i hi]
    have : Spec.selected ix.sel p i = false := by
      cases ha : Spec.posOf ix.sel p i with
      | none => simp [Spec.selected, ha]
      | some a =>
        obtain ⟨a1, a2⟩ := hx.of_pos ha
        exact absurd a2 (hne a a1)
    rw [this]
    simp [Spec.assignAt]

/-! ### Round trips -/

/-- C74: extracting what was assigned gives the source back, whatever was in the output
before. -/
theorem C74_extract_of_assign {A C D : Lil α} {ri ci : Idx} (hA : A.Of p q) (hC : C.Of m n) (hD : D.Of p q)
    (hr : ri.Picks p m) (hc : ci.Picks q n) (hrn : ri.nodup) (hcn : ci.nodup) :
    ∃ X, C.into o1 (.assign id (.plain A) ri ci) = .done X ∧ D.into o2 (.extract (.plain X) ri ci) = .done A := by
  obtain ⟨X, e1, i1, g1, -⟩ := into_assign (outp := o1) hC hA.plain hr hc hrn hcn
  obtain ⟨Y, e2, i2⟩ := into_extract' (outp := o2) hD i1.plain hr hc
  have : Y = A := i2.unique hA.is fun i j hi hj => g1 i j hi hj
  exact ⟨X, e1, this ▸ e2⟩

theorem C74_vector_extract_of_assign {u w d : BVec α} {ix : Idx} (hu : u.Of p) (hw : w.Of n) (hd : d.Of p)
    (hx : ix.Picks p n) (hn : ix.nodup) :
    ∃ x y, w.into o1 (.assign id u ix) = .done x ∧ d.into o2 (.extract x ix) = .done y ∧ y.Same u := by
  obtain ⟨X, e1, i1, g1, -⟩ := into_assignV (outp := o1) hw hu hx hn
  obtain ⟨Y, e2, i2⟩ := into_extractV' (outp := o2) hd i1 hx
  exact ⟨X, Y, e1, e2, i2.same hu.is fun i hi => g1 i hi⟩

/-- C74: assigning what was extracted changes nothing. -/
theorem C74_assign_of_extract {C D : Lil α} {ri ci : Idx} (hC : C.Of m n) (hD : D.Of p q)
    (hr : ri.Picks p m) (hc : ci.Picks q n) (hrn : ri.nodup) (hcn : ci.nodup) :
    ∃ X, D.into o1 (.extract (.plain C) ri ci) = .done X ∧ C.into o2 (.assign id (.plain X) ri ci) = .done C := by
  obtain ⟨X, e1, i1⟩ := into_extract' (outp := o1) hD hC.plain hr hc
  obtain ⟨Y, e2, i2, g1, g2⟩ := into_assign (outp := o2) hC i1.toOf.plain hr hc hrn hcn
  have : Y = C := by
    refine i2.is.unique hC.is fun i j hi hj => ?_
    by_cases h : ∃ a b, a < p ∧ b < q ∧ ri.pick a = i ∧ ci.pick b = j
    · obtain ⟨a, b, ha, hb, rfl, rfl⟩ := h
      rw [g1 a b ha hb]
      exact i1.get a b ha hb
    · exact g2 i j hi hj fun a b ha hb hab => h ⟨a, b, ha, hb, hab⟩
  exact ⟨X, e1, this ▸ e2⟩

theorem C74_vector_assign_of_extract {w d : BVec α} {ix : Idx} (hw : w.Of n) (hd : d.Of p) (hx : ix.Picks p n) (hn : ix.nodup) :
    ∃ x y, d.into o1 (.extract w ix) = .done x ∧ w.into o2 (.assign id x ix) = .done y ∧ y.Same w := by
  obtain ⟨X, e1, i1⟩ := into_extractV' (outp := o1) hd hw hx
  obtain ⟨Y, e2, i2, g1, g2⟩ := into_assignV (outp := o2) hw i1.toOf hx hn
  refine ⟨X, Y, e1, e2, i2.is.same hw.is fun i hi => ?_⟩
  by_cases h : ∃ a, a < p ∧ ix.pick a = i
  · obtain ⟨a, ha, rfl⟩ := h
    rw [g1 a ha, i1.get a ha]
  · exact g2 i hi fun a ha hab => h ⟨a, ha, hab⟩

/-! ### Extracting from an extract -/

/-- C74: extracting from an extract is one extraction with the indices composed. -/
theorem C74_extract_of_extract {A : Operand α} {X Y Z : Lil α} {ri ci rj cj : Idx} (hA : A.Of m n) (h1 : X.Of p q)
    (h2 : Y.Of r s) (h3 : Z.Of r s) (hri : ri.Picks p m) (hci : ci.Picks q n) (hrj : rj.Picks r p) (hcj : cj.Picks s q) :
    ∃ x z, X.into o1 (.extract A ri ci) = .done x ∧ Y.into o2 (.extract (.plain x) rj cj) = .done z ∧
      Z.into o3 (.extract A (ri.comp rj) (ci.comp cj)) = .done z := by
  obtain ⟨x, e1, i1⟩ := into_extract' (outp := o1) h1 hA hri hci
  obtain ⟨z, e2, i2⟩ := into_extract' (outp := o2) h2 i1.toOf.plain hrj hcj
  obtain ⟨w, e3, i3⟩ := into_extract' (outp := o3) h3 hA (hri.comp hrj) (hci.comp hcj)
  have : z = w := by
    refine i2.unique i3 fun i j hi hj => ?_
    rw [Idx.Picks.comp_pick hrj hi, Idx.Picks.comp_pick hcj hj]
    exact i1.get _ _ (hrj.nth hi).2 (hcj.nth hj).2
  exact ⟨x, z, e1, e2, this ▸ e3⟩

/-- C74: permuting rows and columns and then permuting them back gives the matrix back;
more generally, any two selections of which the second undoes the first. -/
theorem C74_permute_back {A X Y : Lil α} {ri ci rj cj : Idx} (hA : A.Of m n) (h1 : X.Of p q) (h2 : Y.Of m n)
    (hri : ri.Picks p m) (hci : ci.Picks q n) (hrj : rj.Picks m p) (hcj : cj.Picks n q)
    (hr : ∀ k, k < m → ri.pick (rj.pick k) = k) (hc : ∀ k, k < n → ci.pick (cj.pick k) = k) :
    ∃ x, X.into o1 (.extract (.plain A) ri ci) = .done x ∧ Y.into o2 (.extract (.plain x) rj cj) = .done A := by
  obtain ⟨x, e1, i1⟩ := into_extract' (outp := o1) h1 hA.plain hri hci
  obtain ⟨z, e2, i2⟩ := into_extract' (outp := o2) h2 i1.toOf.plain hrj hcj
  have : z = A := by
    refine i2.unique hA.is fun i j hi hj => ?_
    refine (i1.get _ _ (hrj.nth hi).2 (hcj.nth hj).2).trans ?_
    rw [hr i hi, hc j hj]
    rfl
  exact ⟨x, e1, this ▸ e2⟩

/-- C74: extracting with `AllIndices` copies. -/
theorem C74_extract_all {A X : Lil α} (hA : A.Of m n) (h1 : X.Of m n) :
    X.into o1 (.extract (.plain A) .all .all) = .done A := by
  obtain ⟨x, e1, i1⟩ := into_extract' (outp := o1) h1 hA.plain (Idx.all_picks m) (Idx.all_picks n)
  have : x = A := i1.unique hA.is fun i j _ _ => rfl
  exact this ▸ e1

/-- C74: assigning with `AllIndices` copies. -/
theorem C74_assign_all {A X : Lil α} (hA : A.Of m n) (h1 : X.Of m n) :
    X.into o1 (.assign id (.plain A) .all .all) = .done A := by
  obtain ⟨x, e1, i1, g, -⟩ := into_assign (outp := o1) h1 hA.plain (Idx.all_picks m) (Idx.all_picks n) trivial trivial
  have : x = A := i1.is.unique hA.is fun i j hi hj => g i j hi hj
  exact this ▸ e1

/-! ### Extracting commutes with the other operations -/

/-- C74: extracting from a transposed view is transposing the extract. -/
theorem C74_extract_transposed {A X Y Z : Lil α} {ri ci : Idx} (hA : A.Of m n) (h1 : X.Of p q) (h2 : Y.Of q p) (h3 : Z.Of q p)
    (hr : ri.Picks p m) (hc : ci.Picks q n) :
    ∃ x z, X.into o1 (.extract (.plain A) ri ci) = .done x ∧ Y.into o2 (.transpose (.plain x)) = .done z ∧
      Z.into o3 (.extract (.tr A) ci ri) = .done z := by
  obtain ⟨x, e1, i1⟩ := into_extract' (outp := o1) h1 hA.plain hr hc
  obtain ⟨z, e2, i2⟩ := into_transpose (outp := o2) h2 i1.toOf.plain
  obtain ⟨w, e3, i3⟩ := into_extract' (outp := o3) h3 hA.tr hc hr
  have : z = w := i2.unique i3 fun i j hi hj => i1.get j i hj hi
  exact ⟨x, z, e1, e2, this ▸ e3⟩

/-- C74: rows `ri` and columns `ci` of `AB` are rows `ri` of `A` times columns `ci` of
`B`. -/
theorem C74_extract_of_product {A B : Operand α} {AB X L R Z : Lil α} {ri ci : Idx} (hA : A.Of m k) (hB : B.Of k n)
    (h1 : AB.Of m n) (h2 : X.Of p q) (h3 : L.Of p k) (h4 : R.Of k q) (h5 : Z.Of p q) (hr : ri.Picks p m) (hc : ci.Picks q n)
    (hcomm : A.isTr → B.isTr → ∀ a b, mult a b = mult b a) :
    ∃ ab a b z, AB.into o1 (.mxm (SR.of add mult) id A B) = .done ab ∧ X.into o2 (.extract (.plain ab) ri ci) = .done z ∧
      L.into o3 (.extract A ri .all) = .done a ∧ R.into o4 (.extract B .all ci) = .done b ∧
      Z.into o5 (.mxm (SR.of add mult) id (.plain a) (.plain b)) = .done z := by
  obtain ⟨ab, e1, i1⟩ := into_mxm (outp := o1) (add := add) h1 hA hB hcomm
  obtain ⟨z, e2, i2⟩ := into_extract' (outp := o2) h2 i1.toOf.plain hr hc
  obtain ⟨a, e3, i3⟩ := into_extract' (outp := o3) h3 hA hr (Idx.all_picks k)
  obtain ⟨b, e4, i4⟩ := into_extract' (outp := o4) h4 hB (Idx.all_picks k) hc
  obtain ⟨w, e5, i5⟩ := into_mxm (outp := o5) (add := add) (mult := mult) h5 i3.toOf.plain i4.toOf.plain
    fun x => absurd x (by simp [Operand.isTr])
  have : z = w := by
    refine i2.unique i5 fun i j hi hj => ?_
    refine (i1.get _ _ (hr.nth hi).2 (hc.nth hj).2).trans (osumN_congr fun x hx => ?_)
    show _ = both mult (a.get i x) (b.get x j)
    rw [i3.get i x hi hx, i4.get x j hx hj]
    rfl
  exact ⟨ab, a, b, z, e1, e2, e3, e4, this ▸ e5⟩

/-- C74: extracting commutes with the element-wise operations and with `apply`. -/
theorem C74_extract_of_eWise {A B : Operand α} {S X L R Z : Lil α} {ri ci : Idx} (hA : A.Of m n) (hB : B.Of m n)
    (h1 : S.Of m n) (h2 : X.Of p q) (h3 : L.Of p q) (h4 : R.Of p q) (h5 : Z.Of p q) (hr : ri.Picks p m) (hc : ci.Picks q n) :
    ∃ a b, L.into o3 (.extract A ri ci) = .done a ∧ R.into o4 (.extract B ri ci) = .done b ∧
      (∃ s z, S.into o1 (.eWiseAdd (EW.of add) A B) = .done s ∧ X.into o2 (.extract (.plain s) ri ci) = .done z ∧
        Z.into o5 (.eWiseAdd (EW.of add) (.plain a) (.plain b)) = .done z) ∧
      (∃ s z, S.into o1 (.eWiseMult (EW.of mult) A B) = .done s ∧ X.into o2 (.extract (.plain s) ri ci) = .done z ∧
        Z.into o5 (.eWiseMult (EW.of mult) (.plain a) (.plain b)) = .done z) := by
  obtain ⟨a, e3, i3⟩ := into_extract' (outp := o3) h3 hA hr hc
  obtain ⟨b, e4, i4⟩ := into_extract' (outp := o4) h4 hB hr hc
  refine ⟨a, b, e3, e4, ?_, ?_⟩
  · obtain ⟨s, e1, i1⟩ := into_eWiseAdd (outp := o1) (add := add) h1 hA hB
    obtain ⟨z, e2, i2⟩ := into_extract' (outp := o2) h2 i1.toOf.plain hr hc
    obtain ⟨w, e5, i5⟩ := into_eWiseAdd (outp := o5) (add := add) h5 i3.toOf.plain i4.toOf.plain
    have : z = w := by
      refine i2.unique i5 fun i j hi hj => ?_
      show s.get _ _ = oadd add (a.get i j) (b.get i j)
      rw [i1.get _ _ (hr.nth hi).2 (hc.nth hj).2, i3.get i j hi hj, i4.get i j hi hj]
    exact ⟨s, z, e1, e2, this ▸ e5⟩
  · obtain ⟨s, e1, i1⟩ := into_eWiseMult (outp := o1) (mult := mult) h1 hA hB
    obtain ⟨z, e2, i2⟩ := into_extract' (outp := o2) h2 i1.toOf.plain hr hc
    obtain ⟨w, e5, i5⟩ := into_eWiseMult (outp := o5) (mult := mult) h5 i3.toOf.plain i4.toOf.plain
    have : z = w := by
      refine i2.unique i5 fun i j hi hj => ?_
      show s.get _ _ = both mult (a.get i j) (b.get i j)
      rw [i1.get _ _ (hr.nth hi).2 (hc.nth hj).2, i3.get i j hi hj, i4.get i j hi hj]
    exact ⟨s, z, e1, e2, this ▸ e5⟩

theorem C74_extract_of_apply {f : α → α} {A : Operand α} {S X L Z : Lil α} {ri ci : Idx} (hA : A.Of m n)
    (h1 : S.Of m n) (h2 : X.Of p q) (h3 : L.Of p q) (h5 : Z.Of p q) (hr : ri.Picks p m) (hc : ci.Picks q n) :
    ∃ s a z, S.into o1 (.apply f A) = .done s ∧ X.into o2 (.extract (.plain s) ri ci) = .done z ∧
      L.into o3 (.extract A ri ci) = .done a ∧ Z.into o4 (.apply f (.plain a)) = .done z := by
  obtain ⟨s, e1, i1⟩ := into_apply (outp := o1) (f := f) h1 hA
  obtain ⟨z, e2, i2⟩ := into_extract' (outp := o2) h2 i1.toOf.plain hr hc
  obtain ⟨a, e3, i3⟩ := into_extract' (outp := o3) h3 hA hr hc
  obtain ⟨w, e4, i4⟩ := into_apply (outp := o4) (f := f) h5 i3.toOf.plain
  have : z = w := by
    refine i2.unique i4 fun i j hi hj => ?_
    show s.get _ _ = (a.get i j).map f
    rw [i1.get _ _ (hr.nth hi).2 (hc.nth hj).2, i3.get i j hi hj]
  exact ⟨s, a, z, e1, e2, e3, this ▸ e4⟩

/-! ### Assignments to different places -/

/-- C74: assignments to selections with no row or no column in common commute, and do
not disturb each other. -/
theorem C74_assign_disjoint {A B : Operand α} {C : Lil α} {ri ci rj cj : Idx} (hA : A.Of p q) (hB : B.Of r s) (hC : C.Of m n)
    (hri : ri.Picks p m) (hci : ci.Picks q n) (hrj : rj.Picks r m) (hcj : cj.Picks s n) (n1 : ri.nodup) (n2 : ci.nodup)
    (n3 : rj.nodup) (n4 : cj.nodup) (hd : ri.Disjoint rj p r ∨ ci.Disjoint cj q s) :
    ∃ x y z, C.into o1 (.assign id A ri ci) = .done x ∧ x.into o2 (.assign id B rj cj) = .done z ∧
      C.into o3 (.assign id B rj cj) = .done y ∧ y.into o4 (.assign id A ri ci) = .done z ∧
      (∀ i j, i < p → j < q → z.get (ri.pick i) (ci.pick j) = A.get i j) ∧
      (∀ i j, i < r → j < s → z.get (rj.pick i) (cj.pick j) = B.get i j) := by
  obtain ⟨x, e1, i1, g1, f1⟩ := into_assign (outp := o1) hC hA hri hci n1 n2
  obtain ⟨z, e2, i2, g2, f2⟩ := into_assign (outp := o2) i1 hB hrj hcj n3 n4
  obtain ⟨y, e3, i3, g3, f3⟩ := into_assign (outp := o3) hC hB hrj hcj n3 n4
  obtain ⟨w, e4, i4, g4, f4⟩ := into_assign (outp := o4) i3 hA hri hci n1 n2
  have apart : ∀ a b c d, a < p → b < q → c < r → d < s → ¬ (ri.pick a = rj.pick c ∧ ci.pick b = cj.pick d) := by
    rintro a b c d ha hb hc hd' ⟨h1, h2⟩
    rcases hd with hd | hd
    · exact hd a c ha hc h1
    · exact hd b d hb hd' h2
  have za : ∀ i j, i < p → j < q → z.get (ri.pick i) (ci.pick j) = A.get i j := by
    intro i j hi hj
    rw [f2 _ _ (hri.nth hi).2 (hci.nth hj).2 fun c d hc hd' h => apart i j c d hi hj hc hd' ⟨h.1.symm, h.2.symm⟩, g1 i j hi hj]
  have this : z = w := by
    refine i2.is.unique i4.is fun i j hi hj => ?_
    by_cases h : ∃ a b, a < p ∧ b < q ∧ ri.pick a = i ∧ ci.pick b = j
    · obtain ⟨a, b, ha, hb, rfl, rfl⟩ := h
      rw [za a b ha hb, g4 a b ha hb]
    · have h' : ∀ a b, a < p → b < q → ¬ (ri.pick a = i ∧ ci.pick b = j) := fun a b ha hb hab => h ⟨a, b, ha, hb, hab⟩
      rw [f4 i j hi hj h']
      by_cases h2 : ∃ c d, c < r ∧ d < s ∧ rj.pick c = i ∧ cj.pick d = j
      · obtain ⟨c, d, hc, hd', rfl, rfl⟩ := h2
        rw [g2 c d hc hd', g3 c d hc hd']
      · have h2' : ∀ c d, c < r → d < s → ¬ (rj.pick c = i ∧ cj.pick d = j) := fun a b ha hb hab => h2 ⟨a, b, ha, hb, hab⟩
        rw [f2 i j hi hj h2', f3 i j hi hj h2', f1 i j hi hj h']
  exact ⟨x, y, z, e1, e2, e3, this ▸ e4, za, g2⟩

/-- C74: the last of two assignments to the same place wins. -/
theorem C74_assign_overwrites {A B : Operand α} {C : Lil α} {ri ci : Idx} (hA : A.Of p q) (hB : B.Of p q) (hC : C.Of m n)
    (hri : ri.Picks p m) (hci : ci.Picks q n) (n1 : ri.nodup) (n2 : ci.nodup) :
    ∃ x z, C.into o1 (.assign id A ri ci) = .done x ∧ x.into o2 (.assign id B ri ci) = .done z ∧
      C.into o3 (.assign id B ri ci) = .done z := by
  obtain ⟨x, e1, i1, g1, f1⟩ := into_assign (outp := o1) hC hA hri hci n1 n2
  obtain ⟨z, e2, i2, g2, f2⟩ := into_assign (outp := o2) i1 hB hri hci n1 n2
  obtain ⟨y, e3, i3, g3, f3⟩ := into_assign (outp := o3) hC hB hri hci n1 n2
  have this : z = y := by
    refine i2.is.unique i3.is fun i j hi hj => ?_
    by_cases h : ∃ a b, a < p ∧ b < q ∧ ri.pick a = i ∧ ci.pick b = j
    · obtain ⟨a, b, ha, hb, rfl, rfl⟩ := h
      rw [g2 a b ha hb, g3 a b ha hb]
    · have h' : ∀ a b, a < p → b < q → ¬ (ri.pick a = i ∧ ci.pick b = j) := fun a b ha hb hab => h ⟨a, b, ha, hb, hab⟩
      rw [f2 i j hi hj h', f3 i j hi hj h', f1 i j hi hj h']
  exact ⟨x, z, e1, e2, this ▸ e3⟩

/-! ### Instances -/

open LawEx in
example : A.Of 2 2 ∧ B.Of 2 3 ∧ C.Of 3 2 ∧ (Idx.list [2, 0]).Picks 2 3 ∧ (Idx.list [1, 0]).Picks 2 2 ∧
    (Idx.list [2, 0]).nodup ∧ (Idx.list [1, 0]).nodup ∧ (∀ k, k < 2 → (Idx.list [1, 0]).pick ((Idx.list [1, 0]).pick k) = k) ∧
    (Idx.list [2, 0]).Disjoint (.list [1]) 2 1 ∧
    C.into .merge (.assign id (.plain A) (.list [2, 0]) (.list [1, 0])) = .done ⟨3, 2, 4, [[(0, 3)], [(0, 7)], [(0, 2), (1, 1)]]⟩ ∧
    A.into .merge (.extract (.plain ⟨3, 2, 4, [[(0, 3)], [(0, 7)], [(0, 2), (1, 1)]]⟩) (.list [2, 0]) (.list [1, 0])) = .done A := by
  refine ⟨hA, hB, hC, ⟨rfl, by decide⟩, ⟨rfl, by decide⟩, (by simp [Idx.nodup]), (by simp [Idx.nodup]), by decide, ?_, by decide +kernel, by decide +kernel⟩
  intro k l hk hl
  rcases Nat.lt_succ_iff_lt_or_eq.1 hk with h | h
  · have : k = 0 := by omega
    have : l = 0 := by omega
    subst k l; decide
  · have : l = 0 := by omega
    subst k l; decide

end GBTL

import Verif.Props.LawsEwise
import Verif.Props.General
/-
C72: masks, output control and accumulators can be moved into separate calls. Stated
for every operation writing a matrix or a vector, with all its arguments.
-/
namespace GBTL
open Spec (Outp MaskKind Accum both either)

variable {γ τ ζ μ : Type} {m n : Nat}

/-! ### A call acts position by position -/

theorem MCall.pointwise (c : MCall γ τ ζ) (hg : c.Good m n) (ha : c.Accepts m n) :
    ∃ G : Accum γ τ ζ → Nat → Nat → Option γ → Option ζ,
      (c.isAssign = false → ∃ T : Spec.Mat τ, ∀ acc i j x, G acc i j x = Spec.accum acc x (T i j)) ∧
      ∀ (μ : Type) (o : MOut γ τ ζ μ), o.WF → o.C.nrows = m → o.C.ncols = n → o.M.Fits m n →
        ∃ C', c.run o = .done C' ∧ C'.Con m n fun i j =>
          Spec.write o.castZ (o.M.allows o.truthy i j) o.outp (o.C.get i j) (G o.acc i j (o.C.get i j)) := by
  obtain ⟨F, hF, h⟩ := c.main m n hg
  have run : ∀ (G : Accum γ τ ζ → Nat → Nat → Option γ → Option ζ), (∀ acc C i j, F acc C i j = G acc i j (C i j)) →
      ∀ (μ : Type) (o : MOut γ τ ζ μ), o.WF → o.C.nrows = m → o.C.ncols = n → o.M.Fits m n →
        ∃ C', c.run o = .done C' ∧ C'.Con m n fun i j =>
          Spec.write o.castZ (o.M.allows o.truthy i j) o.outp (o.C.get i j) (G o.acc i j (o.C.get i j)) := by
    intro G hG μ o ho hr hc hf
    obtain ⟨C', e, hh⟩ := (h μ o ho hr hc).1 hf ha
    refine ⟨C', e, ⟨hh.wf, hh.nrows.trans hr, hh.ncols.trans hc⟩, fun i j hi hj => ?_⟩
    rw [hh.get i j (hr.symm ▸ hi) (hc.symm ▸ hj), hG]
  cases hF with
  | op T hb hT =>
    refine ⟨fun acc i j x => Spec.accum acc x (T i j), fun _ => ⟨T, fun _ _ _ _ => rfl⟩, run (fun acc i j x => Spec.accum acc x (T i j)) hT⟩
  | assign keep sel T hb hT =>
    refine ⟨fun acc i j x => Spec.assignAt keep acc (sel i j) x (T i j), fun e => ?_,
      run (fun acc i j x => Spec.assignAt keep acc (sel i j) x (T i j)) hT⟩
    rw [hb] at e; cases e

theorem VCall.pointwise (c : VCall γ τ ζ) (hg : c.Good n) (ha : c.Accepts n) :
    ∃ G : Accum γ τ ζ → Nat → Option γ → Option ζ,
      (c.isAssign = false → ∃ T : Spec.Vec τ, ∀ acc i x, G acc i x = Spec.accum acc x (T i)) ∧
      ∀ (μ : Type) (o : VOut γ τ ζ μ), o.WF → o.w.size = n → o.m.Fits n →
        ∃ w', c.run o = .done w' ∧ w'.Con n fun i =>
          Spec.write o.castZ (o.m.allows o.truthy i) o.outp (o.w.get i) (G o.acc i (o.w.get i)) := by
  obtain ⟨F, hF, h⟩ := c.main n hg
  have run : ∀ (G : Accum γ τ ζ → Nat → Option γ → Option ζ), (∀ acc w i, F acc w i = G acc i (w i)) →
      ∀ (μ : Type) (o : VOut γ τ ζ μ), o.WF → o.w.size = n → o.m.Fits n →
        ∃ w', c.run o = .done w' ∧ w'.Con n fun i =>
          Spec.write o.castZ (o.m.allows o.truthy i) o.outp (o.w.get i) (G o.acc i (o.w.get i)) := by
    intro G hG μ o ho hr hf
    obtain ⟨C', e, hh⟩ := (h μ o ho hr).1 hf ha
    refine ⟨C', e, ⟨hh.wf, hh.size.trans hr⟩, fun i hi => ?_⟩
    rw [hh.get i (hr.symm ▸ hi), hG]
  cases hF with
  | op T hb hT =>
    refine ⟨fun acc i x => Spec.accum acc x (T i), fun _ => ⟨T, fun _ _ _ => rfl⟩, run (fun acc i x => Spec.accum acc x (T i)) hT⟩
  | assign keep sel T hb hT =>
    refine ⟨fun acc i x => Spec.assignAt keep acc (sel i) x (T i), fun e => ?_,
      run (fun acc i x => Spec.assignAt keep acc (sel i) x (T i)) hT⟩
    rw [hb] at e; cases e

theorem allows_opposite (truthy : μ → Bool) (k : MaskKind) (x : Option μ) :
    Spec.allows truthy k.opposite x = !Spec.allows truthy k x := by
  cases k <;> simp [Spec.allows, MaskKind.opposite]

/-! ### A mask and its complement -/

/-- C72: an operation with a mask followed by the same operation with the complement of
the mask, both merging, is the operation without mask; for every accumulator, and in
either order (`opposite` is its own inverse). -/
theorem C72_mask_then_complement (c : MCall γ τ ζ) (k : MaskKind) (M : Lil μ) (truthy : μ → Bool) (acc : Accum γ τ ζ)
    (castZ : ζ → γ) (outp : Outp) {C : Lil γ} (hC : C.Of m n) (hM : M.Of m n) (hg : c.Good m n) (ha : c.Accepts m n) :
    ∃ X Z, c.run ⟨C, some (k, M), truthy, acc, castZ, .merge⟩ = .done X ∧
      c.run ⟨X, some (k.opposite, M), truthy, acc, castZ, .merge⟩ = .done Z ∧
      c.run ⟨C, (none : MMask μ), truthy, acc, castZ, outp⟩ = .done Z := by
  obtain ⟨G, -, h⟩ := c.pointwise hg ha
  have hw : ∀ (C : Lil γ) (hC : C.WF) k' o, (⟨C, some (k', M), truthy, acc, castZ, o⟩ : MOut γ τ ζ μ).WF :=
    fun C hC k' o => ⟨hC, by intro k M e; cases e; exact hM.wf⟩
  have hf : ∀ k', MMask.Fits (some (k', M)) m n := by intro k' k'' M' e; cases e; exact ⟨hM.nrows, hM.ncols⟩
  obtain ⟨X, e1, i1⟩ := h μ ⟨C, some (k, M), truthy, acc, castZ, .merge⟩ (hw _ hC.wf _ _) hC.nrows hC.ncols (hf _)
  obtain ⟨Z, e2, i2⟩ := h μ ⟨X, some (k.opposite, M), truthy, acc, castZ, .merge⟩ (hw _ i1.wf _ _) i1.nrows i1.ncols (hf _)
  obtain ⟨W, e3, i3⟩ := h μ ⟨C, (none : MMask μ), truthy, acc, castZ, outp⟩ ⟨hC.wf, by intro k M e; cases e⟩ hC.nrows hC.ncols
    (by intro k M e; cases e)
  have : Z = W := by
    refine i2.unique i3 fun i j hi hj => ?_
    simp only [MMask.allows, allows_opposite, i1.get i j hi hj]
    cases Spec.allows truthy k (M.get i j) <;> simp [Spec.write]
  exact ⟨X, Z, e1, e2, this ▸ e3⟩

theorem C72_vector_mask_then_complement (c : VCall γ τ ζ) (k : MaskKind) (M : BVec μ) (truthy : μ → Bool) (acc : Accum γ τ ζ)
    (castZ : ζ → γ) (outp : Outp) {w : BVec γ} (hw : w.Of n) (hM : M.Of n) (hg : c.Good n) (ha : c.Accepts n) :
    ∃ x y z, c.run ⟨w, some (k, M), truthy, acc, castZ, .merge⟩ = .done x ∧
      c.run ⟨x, some (k.opposite, M), truthy, acc, castZ, .merge⟩ = .done y ∧
      c.run ⟨w, (none : VMask μ), truthy, acc, castZ, outp⟩ = .done z ∧ y.Same z := by
  obtain ⟨G, -, h⟩ := c.pointwise hg ha
  have hwf : ∀ (w : BVec γ) (hw : w.WF) k' o, (⟨w, some (k', M), truthy, acc, castZ, o⟩ : VOut γ τ ζ μ).WF :=
    fun C hC k' o => ⟨hC, by intro k M e; cases e; exact hM.wf⟩
  have hf : ∀ k', VMask.Fits (some (k', M)) n := by intro k' k'' M' e; cases e; exact hM.size
  obtain ⟨X, e1, i1⟩ := h μ ⟨w, some (k, M), truthy, acc, castZ, .merge⟩ (hwf _ hw.wf _ _) hw.size (hf _)
  obtain ⟨Z, e2, i2⟩ := h μ ⟨X, some (k.opposite, M), truthy, acc, castZ, .merge⟩ (hwf _ i1.wf _ _) i1.size (hf _)
  obtain ⟨W, e3, i3⟩ := h μ ⟨w, (none : VMask μ), truthy, acc, castZ, outp⟩ ⟨hw.wf, by intro k M e; cases e⟩ hw.size
    (by intro k M e; cases e)
  refine ⟨X, Z, W, e1, e2, e3, i2.same i3 fun i hi => ?_⟩
  simp only [VMask.allows, allows_opposite, i1.get i hi]
  cases Spec.allows truthy k (M.get i) <;> simp [Spec.write]

/-- C72: with REPLACE, the results with a mask and with its complement have no position
in common and together are the result without mask: combining them with any operator
gives it. -/
theorem C72_mask_partition (c : MCall γ τ ζ) (k : MaskKind) (M : Lil μ) (truthy : μ → Bool) (acc : Accum γ τ ζ)
    (castZ : ζ → γ) (outp o1 : Outp) {C D : Lil γ} (op : γ → γ → γ) (hC : C.Of m n) (hD : D.Of m n) (hM : M.Of m n)
    (hg : c.Good m n) (ha : c.Accepts m n) :
    ∃ X Y Z, c.run ⟨C, some (k, M), truthy, acc, castZ, .replace⟩ = .done X ∧
      c.run ⟨C, some (k.opposite, M), truthy, acc, castZ, .replace⟩ = .done Y ∧
      D.into o1 (.eWiseAdd (EW.of op) (.plain X) (.plain Y)) = .done Z ∧
      c.run ⟨C, (none : MMask μ), truthy, acc, castZ, outp⟩ = .done Z := by
  obtain ⟨G, -, h⟩ := c.pointwise hg ha
  have hw : ∀ k' o, (⟨C, some (k', M), truthy, acc, castZ, o⟩ : MOut γ τ ζ μ).WF :=
    fun k' o => ⟨hC.wf, by intro k M e; cases e; exact hM.wf⟩
  have hf : ∀ k', MMask.Fits (some (k', M)) m n := by intro k' k'' M' e; cases e; exact ⟨hM.nrows, hM.ncols⟩
  obtain ⟨X, e1, i1⟩ := h μ ⟨C, some (k, M), truthy, acc, castZ, .replace⟩ (hw _ _) hC.nrows hC.ncols (hf _)
  obtain ⟨Y, e2, i2⟩ := h μ ⟨C, some (k.opposite, M), truthy, acc, castZ, .replace⟩ (hw _ _) hC.nrows hC.ncols (hf _)
  obtain ⟨Z, e4, i4⟩ := into_eWiseAdd (outp := o1) (add := op) hD i1.toOf.plain i2.toOf.plain
  obtain ⟨W, e3, i3⟩ := h μ ⟨C, (none : MMask μ), truthy, acc, castZ, outp⟩ ⟨hC.wf, by intro k M e; cases e⟩ hC.nrows hC.ncols
    (by intro k M e; cases e)
  have : Z = W := by
    refine i4.unique i3 fun i j hi hj => ?_
    show oadd op (X.get i j) (Y.get i j) = _
    rw [i1.get i j hi hj, i2.get i j hi hj]
    simp only [MMask.allows, allows_opposite]
    cases Spec.allows truthy k (M.get i j)
    · simp only [Spec.write, Bool.false_eq_true, if_false, Bool.not_false, if_true]
      exact none_oadd _
    · simp only [Spec.write, Bool.false_eq_true, if_false, Bool.not_true, if_true]
      exact oadd_none _
  exact ⟨X, Y, Z, e1, e2, e4, this ▸ e3⟩

/-! ### Masking afterwards -/

/-- C72: a mask only selects what is written. Running an operation without mask into the
same output and then copying the result through the mask gives what the operation gives
with the mask; for every accumulator, mask and output control. -/
theorem C72_mask_afterwards (c : MCall γ τ ζ) (M : MMask μ) (truthy : μ → Bool) (acc : Accum γ τ ζ)
    (castZ : ζ → γ) (outp o1 : Outp) {C : Lil γ} (hC : C.Of m n) (hM : M.WF) (hf : M.Fits m n)
    (hg : c.Good m n) (ha : c.Accepts m n) :
    ∃ X Z, c.run ⟨C, (none : MMask μ), truthy, acc, castZ, o1⟩ = .done X ∧
      (MCall.apply id (.plain X)).run ⟨C, M, truthy, .none id, id, outp⟩ = .done Z ∧
      c.run ⟨C, M, truthy, acc, castZ, outp⟩ = .done Z := by
  obtain ⟨G, -, h⟩ := c.pointwise hg ha
  obtain ⟨X, e1, i1⟩ := h μ ⟨C, (none : MMask μ), truthy, acc, castZ, o1⟩ ⟨hC.wf, by intro k M e; cases e⟩ hC.nrows hC.ncols
    (by intro k M e; cases e)
  obtain ⟨W, e2, i2⟩ := h μ ⟨C, M, truthy, acc, castZ, outp⟩ ⟨hC.wf, hM⟩ hC.nrows hC.ncols hf
  obtain ⟨Z, e3, i3⟩ := C15_apply_matrix (o := ⟨C, M, truthy, .none id, id, outp⟩) (f := (id : γ → γ)) (A := .plain X)
    ⟨hC.wf, hM⟩ i1.wf ⟨(by show M.Fits C.nrows C.ncols; rw [hC.nrows, hC.ncols]; exact hf), hC.ncols.trans i1.ncols.symm, hC.nrows.trans i1.nrows.symm⟩
  have : Z = W := by
    refine Lil.Con.unique (f := Z.get) ⟨⟨i3.wf, i3.nrows.trans hC.nrows, i3.ncols.trans hC.ncols⟩, fun _ _ _ _ => rfl⟩ i2 fun i j hi hj => ?_
    rw [i3.get i j (by rw [hC.nrows]; exact hi) (by rw [hC.ncols]; exact hj)]
    show Spec.write id _ outp _ (Option.map id (Option.map id (X.get i j))) = _
    rw [i1.get i j hi hj]
    generalize M.allows truthy i j = b
    cases b <;> cases outp <;> simp [MMask.allows, Spec.write]
  exact ⟨X, Z, e1, e3, this ▸ e2⟩

theorem C72_vector_mask_afterwards (c : VCall γ τ ζ) (M : VMask μ) (truthy : μ → Bool) (acc : Accum γ τ ζ)
    (castZ : ζ → γ) (outp o1 : Outp) {w : BVec γ} (hw : w.Of n) (hM : M.WF) (hf : M.Fits n)
    (hg : c.Good n) (ha : c.Accepts n) :
    ∃ x y z, c.run ⟨w, (none : VMask μ), truthy, acc, castZ, o1⟩ = .done x ∧
      (VCall.apply id x).run ⟨w, M, truthy, .none id, id, outp⟩ = .done y ∧
      c.run ⟨w, M, truthy, acc, castZ, outp⟩ = .done z ∧ y.Same z := by
  obtain ⟨G, -, h⟩ := c.pointwise hg ha
  obtain ⟨X, e1, i1⟩ := h μ ⟨w, (none : VMask μ), truthy, acc, castZ, o1⟩ ⟨hw.wf, by intro k M e; cases e⟩ hw.size
    (by intro k M e; cases e)
  obtain ⟨W, e2, i2⟩ := h μ ⟨w, M, truthy, acc, castZ, outp⟩ ⟨hw.wf, hM⟩ hw.size hf
  obtain ⟨Z, e3, i3⟩ := C15_apply_vector (o := ⟨w, M, truthy, .none id, id, outp⟩) (f := (id : γ → γ)) (u := X)
    ⟨hw.wf, hM⟩ i1.wf ⟨(by show M.Fits w.size; rw [hw.size]; exact hf), hw.size.trans i1.size.symm⟩
  refine ⟨X, Z, W, e1, e3, e2, BVec.Con.same (f := Z.get) ⟨⟨i3.wf, i3.size.trans hw.size⟩, fun _ _ => rfl⟩ i2 fun i hi => ?_⟩
  rw [i3.get i (by rw [hw.size]; exact hi)]
  show Spec.write id _ outp _ (Option.map id (Option.map id (X.get i))) = _
  rw [i1.get i hi]
  generalize M.allows truthy i = b
  cases b <;> cases outp <;> simp [VMask.allows, Spec.write]

/-! ### Accumulating afterwards -/

/-- C72: an accumulator combines the old content with the result as `eWiseAdd` does.
Computing an operation (not an assignment) into any temporary and then combining output
and temporary with the accumulator's operator gives what the operation gives with that
accumulator, through any mask. -/
theorem C72_accumulate_afterwards {α : Type} (c : MCall α α α) (f : α → α → α) (M : MMask μ) (truthy : μ → Bool)
    (outp o1 : Outp) {C D : Lil α} (hC : C.Of m n) (hD : D.Of m n) (hM : M.WF) (hf : M.Fits m n)
    (hg : c.Good m n) (ha : c.Accepts m n) (hc : c.isAssign = false) :
    ∃ X Z, D.into o1 c = .done X ∧
      (MCall.eWiseAdd (EW.of f) (.plain C) (.plain X)).run ⟨C, M, truthy, .none id, id, outp⟩ = .done Z ∧
      c.run ⟨C, M, truthy, .some f id id, id, outp⟩ = .done Z := by
  obtain ⟨G, hG, h⟩ := c.pointwise hg ha
  obtain ⟨T, hT⟩ := hG hc
  obtain ⟨X, e1, i1⟩ := h Unit ⟨D, none, fun _ => true, .none id, id, o1⟩ ⟨hD.wf, by intro k M e; cases e⟩ hD.nrows hD.ncols
    (by intro k M e; cases e)
  obtain ⟨W, e2, i2⟩ := h μ ⟨C, M, truthy, .some f id id, id, outp⟩ ⟨hC.wf, hM⟩ hC.nrows hC.ncols hf
  obtain ⟨Z, e3, i3⟩ := C13_eWiseAdd_same_type (o := ⟨C, M, truthy, .none id, id, outp⟩) (op := f) (c1 := id) (c2 := id)
    (A := .plain C) (B := .plain X) ⟨hC.wf, hM⟩ hC.wf i1.wf
    ⟨(by show M.Fits C.nrows C.ncols; rw [hC.nrows, hC.ncols]; exact hf), rfl, rfl, hC.ncols.trans i1.ncols.symm, hC.nrows.trans i1.nrows.symm⟩
  have : Z = W := by
    refine Lil.Con.unique (f := Z.get) ⟨⟨i3.wf, i3.nrows.trans hC.nrows, i3.ncols.trans hC.ncols⟩, fun _ _ _ _ => rfl⟩ i2 fun i j hi hj => ?_
    rw [i3.get i j (by rw [hC.nrows]; exact hi) (by rw [hC.ncols]; exact hj)]
    show Spec.write id (M.allows truthy i j) outp (C.get i j) (Option.map id (oadd f (C.get i j) (X.get i j))) = _
    rw [i1.get i j hi hj]
    simp only [hT]
    have : Option.map id (oadd f (C.get i j) (Spec.write id (MMask.allows (fun _ => true) (none : MMask Unit) i j) o1 (D.get i j)
        (Spec.accum (.none id) (D.get i j) (T i j)))) = Spec.accum (.some f id id) (C.get i j) (T i j) := by
      simp only [MMask.allows, Spec.write, if_true, Spec.accum, Option.map_id, id]
      cases C.get i j <;> cases T i j <;> rfl
    rw [this]
  exact ⟨X, Z, e1, e3, this ▸ e2⟩

theorem C72_vector_accumulate_afterwards {α : Type} (c : VCall α α α) (f : α → α → α) (M : VMask μ) (truthy : μ → Bool)
    (outp o1 : Outp) {w d : BVec α} (hw : w.Of n) (hd : d.Of n) (hM : M.WF) (hf : M.Fits n)
    (hg : c.Good n) (ha : c.Accepts n) (hc : c.isAssign = false) :
    ∃ x y z, d.into o1 c = .done x ∧
      (VCall.eWiseAdd (EW.of f) w x).run ⟨w, M, truthy, .none id, id, outp⟩ = .done y ∧
      c.run ⟨w, M, truthy, .some f id id, id, outp⟩ = .done z ∧ y.Same z := by
  obtain ⟨G, hG, h⟩ := c.pointwise hg ha
  obtain ⟨T, hT⟩ := hG hc
  obtain ⟨X, e1, i1⟩ := h Unit ⟨d, none, fun _ => true, .none id, id, o1⟩ ⟨hd.wf, by intro k M e; cases e⟩ hd.size
    (by intro k M e; cases e)
  obtain ⟨W, e2, i2⟩ := h μ ⟨w, M, truthy, .some f id id, id, outp⟩ ⟨hw.wf, hM⟩ hw.size hf
  obtain ⟨Z, e3, i3⟩ := C13_eWiseAdd_vector (o := ⟨w, M, truthy, .none id, id, outp⟩) (f := EW.of f) (u := w) (v := X)
    ⟨hw.wf, hM⟩ hw.wf i1.wf
    ⟨(by show M.Fits w.size; rw [hw.size]; exact hf), rfl, hw.size.trans i1.size.symm⟩
  refine ⟨X, Z, W, e1, e3, e2, BVec.Con.same (f := Z.get) ⟨⟨i3.wf, i3.size.trans hw.size⟩, fun _ _ => rfl⟩ i2 fun i hi => ?_⟩
  rw [i3.get i (by rw [hw.size]; exact hi)]
  show Spec.write id (M.allows truthy i) outp (w.get i) (Option.map id (oadd f (w.get i) (X.get i))) = _
  rw [i1.get i hi]
  simp only [hT]
  have : Option.map id (oadd f (w.get i) (Spec.write id (VMask.allows (fun _ => true) (none : VMask Unit) i) o1 (d.get i)
      (Spec.accum (.none id) (d.get i) (T i)))) = Spec.accum (.some f id id) (w.get i) (T i) := by
    simp only [VMask.allows, Spec.write, if_true, Spec.accum, Option.map_id, id]
    cases w.get i <;> cases T i <;> rfl
  rw [this]

/-! ### Doing it twice -/

/-- C72: without accumulator, repeating an operation (not an assignment) with the same
mask and output control changes nothing. -/
theorem C72_repeat (c : MCall γ τ ζ) (M : MMask μ) (truthy : μ → Bool) (cast : τ → ζ) (castZ : ζ → γ) (outp : Outp)
    {C : Lil γ} (hC : C.Of m n) (hM : M.WF) (hf : M.Fits m n) (hg : c.Good m n) (ha : c.Accepts m n) (hc : c.isAssign = false) :
    ∃ X, c.run ⟨C, M, truthy, .none cast, castZ, outp⟩ = .done X ∧ c.run ⟨X, M, truthy, .none cast, castZ, outp⟩ = .done X := by
  obtain ⟨G, hG, h⟩ := c.pointwise hg ha
  obtain ⟨T, hT⟩ := hG hc
  obtain ⟨X, e1, i1⟩ := h μ ⟨C, M, truthy, .none cast, castZ, outp⟩ ⟨hC.wf, hM⟩ hC.nrows hC.ncols hf
  obtain ⟨Y, e2, i2⟩ := h μ ⟨X, M, truthy, .none cast, castZ, outp⟩ ⟨i1.wf, hM⟩ i1.nrows i1.ncols hf
  have : Y = X := by
    refine i2.unique i1.toOf.is fun i j hi hj => ?_
    simp only [i1.get i j hi hj, hT, Spec.write, Spec.accum]
    cases M.allows truthy i j <;> cases outp <;> rfl
  exact ⟨X, e1, this ▸ e2⟩

theorem C72_vector_repeat (c : VCall γ τ ζ) (M : VMask μ) (truthy : μ → Bool) (cast : τ → ζ) (castZ : ζ → γ) (outp : Outp)
    {w : BVec γ} (hw : w.Of n) (hM : M.WF) (hf : M.Fits n) (hg : c.Good n) (ha : c.Accepts n) (hc : c.isAssign = false) :
    ∃ x y, c.run ⟨w, M, truthy, .none cast, castZ, outp⟩ = .done x ∧ c.run ⟨x, M, truthy, .none cast, castZ, outp⟩ = .done y ∧
      y.Same x := by
  obtain ⟨G, hG, h⟩ := c.pointwise hg ha
  obtain ⟨T, hT⟩ := hG hc
  obtain ⟨X, e1, i1⟩ := h μ ⟨w, M, truthy, .none cast, castZ, outp⟩ ⟨hw.wf, hM⟩ hw.size hf
  obtain ⟨Y, e2, i2⟩ := h μ ⟨X, M, truthy, .none cast, castZ, outp⟩ ⟨i1.wf, hM⟩ i1.size hf
  refine ⟨X, Y, e1, e2, i2.same i1.toOf.is fun i hi => ?_⟩
  simp only [i1.get i hi, hT, Spec.write, Spec.accum]
  cases M.allows truthy i <;> cases outp <;> rfl

/-- C72: with an idempotent, associative accumulator such as `Min`, `Max` or `LogicalOr`
as well. -/
theorem C72_repeat_accumulated {α : Type} (c : MCall α α α) {f : α → α → α} (hfa : ∀ x y z, f (f x y) z = f x (f y z))
    (hfi : ∀ x, f x x = x) (M : MMask μ) (truthy : μ → Bool) (outp : Outp)
    {C : Lil α} (hC : C.Of m n) (hM : M.WF) (hf : M.Fits m n) (hg : c.Good m n) (ha : c.Accepts m n) (hc : c.isAssign = false) :
    ∃ X, c.run ⟨C, M, truthy, .some f id id, id, outp⟩ = .done X ∧ c.run ⟨X, M, truthy, .some f id id, id, outp⟩ = .done X := by
  obtain ⟨G, hG, h⟩ := c.pointwise hg ha
  obtain ⟨T, hT⟩ := hG hc
  obtain ⟨X, e1, i1⟩ := h μ ⟨C, M, truthy, .some f id id, id, outp⟩ ⟨hC.wf, hM⟩ hC.nrows hC.ncols hf
  obtain ⟨Y, e2, i2⟩ := h μ ⟨X, M, truthy, .some f id id, id, outp⟩ ⟨i1.wf, hM⟩ i1.nrows i1.ncols hf
  have : Y = X := by
    refine i2.unique i1.toOf.is fun i j hi hj => ?_
    simp only [i1.get i j hi hj, hT, Spec.write]
    cases M.allows truthy i j
    · cases outp <;> rfl
    · simp only [if_true, Option.map_id, id]
      cases C.get i j <;> cases T i j <;> simp [Spec.accum, hfa, hfi]
  exact ⟨X, e1, this ▸ e2⟩

/-! ### Instances -/

open LawEx in
example : A.Of 2 2 ∧ (MCall.mxm sr id (.plain A) (.tr A) : MCall Nat Nat Nat).Good 2 2 ∧
    (MCall.mxm sr id (.plain A) (.tr A) : MCall Nat Nat Nat).Accepts 2 2 ∧
    (MCall.mxm sr id (.plain A) (.tr A)).run ⟨A, some (.plain, A), fun x => x ≠ 1, .some (fun x y => x + y) id id, id, .merge⟩
      = .done ⟨2, 2, 3, [[(0, 1), (1, 8)], [(1, 12)]]⟩ ∧
    (MCall.mxm sr id (.plain A) (.tr A)).run ⟨⟨2, 2, 3, [[(0, 1), (1, 8)], [(1, 12)]]⟩, some (.comp, A), fun x => x ≠ 1,
      .some (fun x y => x + y) id id, id, .merge⟩ = .done ⟨2, 2, 4, [[(0, 6), (1, 8)], [(0, 6), (1, 12)]]⟩ ∧
    (MCall.mxm sr id (.plain A) (.tr A)).run ⟨A, (none : MMask Nat), fun x => x ≠ 1, .some (fun x y => x + y) id id, id, .replace⟩
      = .done ⟨2, 2, 4, [[(0, 6), (1, 8)], [(0, 6), (1, 12)]]⟩ :=
  ⟨hA, ⟨hA.wf, hA.wf⟩, ⟨rfl, rfl, rfl⟩, by decide +kernel, by decide +kernel, by decide +kernel⟩

end GBTL

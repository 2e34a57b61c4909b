import Verif.Spec.Calls
import Verif.Props.Products
import Verif.Props.Elementwise
import Verif.Props.Select
/- One theorem about every operation. -/
namespace GBTL
open Spec (Outp MaskKind Accum)

variable {γ τ ζ μ : Type}

/-- What the content before masking is made of: an accumulation of one result for the
plain operations, and the assignment rule for assignments. -/
inductive FormM (b : Bool) (F : Accum γ τ ζ → Spec.Mat γ → Spec.Mat ζ) : Prop where
  | op (T : Spec.Mat τ) (hb : b = false) (h : ∀ acc C i j, F acc C i j = Spec.accum acc (C i j) (T i j))
  | assign (keep : γ → ζ) (sel : Nat → Nat → Bool) (T : Spec.Mat τ) (hb : b = true)
      (h : ∀ acc C i j, F acc C i j = Spec.assignAt keep acc (sel i j) (C i j) (T i j))

inductive FormV (b : Bool) (F : Accum γ τ ζ → Spec.Vec γ → Spec.Vec ζ) : Prop where
  | op (T : Spec.Vec τ) (hb : b = false) (h : ∀ acc w i, F acc w i = Spec.accum acc (w i) (T i))
  | assign (keep : γ → ζ) (sel : Nat → Bool) (T : Spec.Vec τ) (hb : b = true)
      (h : ∀ acc w i, F acc w i = Spec.assignAt keep acc (sel i) (w i) (T i))

/-- What is proved of a call for one output. -/
def MCall.Result (c : MCall γ τ ζ) (F : Accum γ τ ζ → Spec.Mat γ → Spec.Mat ζ) (m n : Nat)
    (o : MOut γ τ ζ μ) : Prop :=
  (o.M.Fits m n → c.Accepts m n → ∃ C', c.run o = .done C' ∧ o.Holds (F o.acc o.C.get) C') ∧
  (¬ (o.M.Fits m n ∧ c.Accepts m n) → ∃ e, e ≠ .ub ∧ c.run o = .threw e o.C)

def VCall.Result (c : VCall γ τ ζ) (F : Accum γ τ ζ → Spec.Vec γ → Spec.Vec ζ) (n : Nat)
    (o : VOut γ τ ζ μ) : Prop :=
  (o.m.Fits n → c.Accepts n → ∃ w', c.run o = .done w' ∧ o.Holds (F o.acc o.w.get) w') ∧
  (¬ (o.m.Fits n ∧ c.Accepts n) → ∃ e, e ≠ .ub ∧ c.run o = .threw e o.w)

theorem MCall.main (c : MCall γ τ ζ) (m n : Nat) (hg : c.Good m n) :
    ∃ F : Accum γ τ ζ → Spec.Mat γ → Spec.Mat ζ, FormM c.isAssign F ∧
      ∀ (μ : Type) (o : MOut γ τ ζ μ), o.WF → o.C.nrows = m → o.C.ncols = n → c.Result F m n o := by
  cases c with
  | mxm sr via A B =>
    obtain ⟨hA, hB⟩ := hg
    refine ⟨fun acc C i j => Spec.accum acc (C i j)
      (match A, B with
        | .tr A, .tr B => (Spec.mxm A.nrows sr.add (fun a b => sr.multSwap b a) (Spec.Mat.tr A.get)
            (Spec.Mat.tr B.get) i j).map via
        | A, B => Spec.mxm A.ncols sr.add sr.mult A.get B.get i j), .op _ rfl (fun _ _ _ _ => rfl), ?_⟩
    rintro μ o ho rfl rfl
    constructor
    · rintro hm ⟨h1, h2, h3⟩
      have hs : MxmShapes o A B := ⟨hm, h1, h2, h3⟩
      rcases A with A | A <;> rcases B with B | B
      · exact C09_mxm ho hA hB hs
      · exact C10_mxm_ABT ho hA hB hs
      · exact C10_mxm_ATB ho hA hB hs
      · exact C10_mxm_ATBT_actual ho hA hB hs
    · intro h
      exact ⟨.dimension, by simp, MOut.op_threw (by simp) ((dim_mxm o A B).err fun hs =>
        h ⟨hs.mask, hs.rows, hs.cols, hs.inner⟩)⟩
  | eWiseAdd f A B =>
    obtain ⟨hA, hB⟩ := hg
    refine ⟨fun acc C i j => Spec.accum acc (C i j)
      (match A, B with
        | .plain A, .tr B => Spec.either f.opA f.c1 f.c2A (A.get i j) ((B.get j i).map f.castBA)
        | A, B => Spec.either f.op f.c1 f.c2 (A.get i j) (B.get i j)), .op _ rfl (fun _ _ _ _ => rfl), ?_⟩
    rintro μ o ho rfl rfl
    constructor
    · rintro hm ⟨h1, h2, h3, h4⟩
      have hs : SameShape2 o A B := ⟨hm, h2, h1, h2.symm.trans h4, h1.symm.trans h3⟩
      rcases A with A | A <;> rcases B with B | B
      · exact C13_eWiseAdd_matrix_partial (f := f) ho hA hB hs (fun _ h => h.elim)
      · exact C13_eWiseAdd_ABT_actual ho hA hB hs
      · exact C13_eWiseAdd_matrix_partial (f := f) ho hA hB hs (fun h => (h trivial).elim)
      · exact C13_eWiseAdd_matrix_partial (f := f) ho hA hB hs (fun h => (h trivial).elim)
    · intro h
      exact ⟨.dimension, by simp, MOut.op_threw (by simp) ((dim_same2 o A B).err fun hs =>
        h ⟨hs.mask, hs.rows, hs.cols, hs.rows.trans hs.rows2, hs.cols.trans hs.cols2⟩)⟩
  | eWiseMult f A B =>
    obtain ⟨hA, hB⟩ := hg
    refine ⟨fun acc C i j => Spec.accum acc (C i j)
      (match A, B with
        | .plain A, .tr B => Spec.both f.opA (A.get i j) ((B.get j i).map f.castBA)
        | A, B => Spec.both f.op (A.get i j) (B.get i j)), .op _ rfl (fun _ _ _ _ => rfl), ?_⟩
    rintro μ o ho rfl rfl
    constructor
    · rintro hm ⟨h1, h2, h3, h4⟩
      have hs : SameShape2 o A B := ⟨hm, h2, h1, h2.symm.trans h4, h1.symm.trans h3⟩
      rcases A with A | A <;> rcases B with B | B
      · exact C14_eWiseMult_matrix_partial (f := f) ho hA hB hs (fun _ h => h.elim)
      · exact C14_eWiseMult_ABT_actual ho hA hB hs
      · exact C14_eWiseMult_matrix_partial (f := f) ho hA hB hs (fun h => (h trivial).elim)
      · exact C14_eWiseMult_matrix_partial (f := f) ho hA hB hs (fun h => (h trivial).elim)
    · intro h
      exact ⟨.dimension, by simp, MOut.op_threw (by simp) ((dim_same2 o A B).err fun hs =>
        h ⟨hs.mask, hs.rows, hs.cols, hs.rows.trans hs.rows2, hs.cols.trans hs.cols2⟩)⟩
  | apply f A =>
    refine ⟨fun acc C i j => Spec.accum acc (C i j) ((A.get i j).map f),
      .op _ rfl (fun _ _ _ _ => rfl), ?_⟩
    rintro μ o ho rfl rfl
    constructor
    · rintro hm ⟨h1, h2⟩
      exact C15_apply_matrix ho hg ⟨hm, h2, h1⟩
    · intro h
      exact ⟨.dimension, by simp, MOut.op_threw (by simp) ((dim_same o A).err fun hs =>
        h ⟨hs.mask, hs.rows, hs.cols⟩)⟩
  | extract A ri ci =>
    refine ⟨fun acc C i j => Spec.accum acc (C i j)
      (Spec.extractMat A.nrows A.ncols ri.sel ci.sel A.get i j), .op _ rfl (fun _ _ _ _ => rfl), ?_⟩
    rintro μ o ho rfl rfl
    constructor
    · rintro hm ⟨h1, h2, h3, h4⟩
      exact C18_extract_matrix ho hg hm h1 h2 h3 h4
    · intro h
      by_cases hs : o.M.Fits o.C.nrows o.C.ncols ∧ ri.len o.C.nrows = o.C.nrows ∧ ci.len o.C.ncols = o.C.ncols
      · exact ⟨.indexOutOfBounds, by simp, C27_extract_matrix hs.1 hs.2.1 hs.2.2
          fun hb => h ⟨hs.1, hs.2.1, hs.2.2, hb.1, hb.2⟩⟩
      · exact ⟨.dimension, by simp, MOut.op_threw (by simp)
          ((dim_select o ri ci o.C.nrows o.C.ncols).err hs)⟩
  | transpose A =>
    refine ⟨fun acc C i j => Spec.accum acc (C i j) (Spec.Mat.tr A.get i j),
      .op _ rfl (fun _ _ _ _ => rfl), ?_⟩
    rintro μ o ho rfl rfl
    constructor
    · rintro hm ⟨h1, h2⟩
      exact C21_transpose ho hg ⟨hm, h2, h1.symm⟩
    · intro h
      exact ⟨.dimension, by simp, MOut.op_threw (by simp) ((dim_transpose o A).err fun hs =>
        h ⟨hs.mask, hs.rows.symm, hs.cols⟩)⟩
  | kronecker f A B =>
    obtain ⟨hA, hB, hr, hc⟩ := hg
    refine ⟨fun acc C i j => Spec.accum acc (C i j) (Spec.kron B.nrows B.ncols f A.get B.get i j),
      .op _ rfl (fun _ _ _ _ => rfl), ?_⟩
    rintro μ o ho rfl rfl
    constructor
    · rintro hm ⟨h1, h2⟩
      exact C22_kronecker_partial ho hA hB ⟨hm, h2, h1⟩ (h1 ▸ hr) (h2 ▸ hc)
    · intro h
      refine ⟨.dimension, by simp, MOut.op_threw (by simp) ?_⟩
      refine ((dim_rows _ _).seq ((dim_cols _ _).seq ((dim_eq _ _).seq (dim_eq _ _)))).err ?_
      rintro ⟨h1, h2, h3, h4⟩
      rw [mul64, Nat.mod_eq_of_lt hc] at h3
      rw [mul64, Nat.mod_eq_of_lt hr] at h4
      exact h ⟨fits_iff.2 ⟨h1, h2⟩, h4, h3⟩
  | assign keep A ri ci =>
    obtain ⟨hA, hrn, hcn, hra, hca⟩ := hg
    refine ⟨fun acc C i j => Spec.assignAt keep acc
      (Spec.selected ri.sel A.nrows i && Spec.selected ci.sel A.ncols j) (C i j)
      (Spec.assignSrcMat A.nrows A.ncols ri.sel ci.sel A.get i j),
      .assign keep _ _ rfl (fun _ _ _ _ => rfl), ?_⟩
    rintro μ o ho rfl rfl
    constructor
    · rintro hm ⟨h1, h2, h3, h4⟩
      refine C19_assign_matrix ho hA hm h1 h2 ?_ ?_ hrn hcn
      · cases ri with
        | list l => exact h3
        | all => exact hra rfl
      · cases ci with
        | list l => exact h4
        | all => exact hca rfl
    · intro h
      by_cases hs : o.M.Fits o.C.nrows o.C.ncols ∧ ri.len A.nrows = A.nrows ∧ ci.len A.ncols = A.ncols
      · exact ⟨.indexOutOfBounds, by simp, C27_assign_matrix hs.1 hs.2.1 hs.2.2
          fun hb => h ⟨hs.1, hs.2.1, hs.2.2, hb.1, hb.2⟩⟩
      · exact ⟨.dimension, by simp, MOut.stencil_threw (by simp)
          ((dim_select o ri ci A.nrows A.ncols).err hs)⟩
  | assignConst keep x ri ci =>
    refine ⟨fun acc C i j => Spec.assignAt keep acc
      (Spec.selected ri.sel m i && Spec.selected ci.sel n j) (C i j)
      (if Spec.selected ri.sel m i && Spec.selected ci.sel n j then some x else none),
      .assign keep _ (fun i j => if Spec.selected ri.sel m i && Spec.selected ci.sel n j then some x else none)
        rfl (fun _ _ _ _ => rfl), ?_⟩
    rintro μ o ho rfl rfl
    constructor
    · rintro hm ⟨h1, h2, h3, h4⟩
      exact C20_assign_const_matrix_partial ho ⟨hm, h1, h2⟩ h3 h4 hg
    · intro h
      by_cases hs : ConstMShapes o ri ci
      · exact ⟨.indexOutOfBounds, by simp, C27_assign_const_matrix hs
          fun hb => h ⟨hs.mask, hs.rows, hs.cols, hb.1, hb.2⟩⟩
      · exact ⟨.dimension, by simp, MOut.stencil_threw (by simp) ((dim_constM o ri ci).err hs)⟩

theorem VCall.main (c : VCall γ τ ζ) (n : Nat) (hg : c.Good n) :
    ∃ F : Accum γ τ ζ → Spec.Vec γ → Spec.Vec ζ, FormV c.isAssign F ∧
      ∀ (μ : Type) (o : VOut γ τ ζ μ), o.WF → o.w.size = n → c.Result F n o := by
  cases c with
  | vxm sr u A =>
    refine ⟨fun acc w i => Spec.accum acc (w i) (Spec.vxm u.size sr.add sr.mult u.get A.get i),
      .op _ rfl (fun _ _ _ => rfl), ?_⟩
    rintro μ o ho rfl
    constructor
    · rintro hm ⟨h1, h2⟩
      exact C11_vxm ho hg.1 hg.2 ⟨hm, h1, h2⟩
    · intro h
      exact ⟨.dimension, by simp, VOut.op_threw (by simp) ((dim_vxm o u A).err fun hs =>
        h ⟨hs.mask, hs.out, hs.inner⟩)⟩
  | mxv sr A u =>
    refine ⟨fun acc w i => Spec.accum acc (w i)
      (match A with
        | .plain A => Spec.mxv A.ncols sr.add sr.mult A.get u.get i
        | .tr A => Spec.vxm u.size sr.add sr.multSwap u.get A.get i), .op _ rfl (fun _ _ _ => rfl), ?_⟩
    rintro μ o ho rfl
    constructor
    · rintro hm ⟨h1, h2⟩
      rcases A with A | A
      · exact C12_mxv ho hg.2 hg.1 ⟨hm, h1, h2⟩
      · exact C12_mxv_transposed_actual ho hg.2 hg.1 ⟨hm, h1, h2⟩
    · intro h
      exact ⟨.dimension, by simp, VOut.op_threw (by simp) ((dim_mxv o A u).err fun hs =>
        h ⟨hs.mask, hs.out, hs.inner⟩)⟩
  | eWiseAdd f u v =>
    refine ⟨fun acc w i => Spec.accum acc (w i) (Spec.either f.op f.c1 f.c2 (u.get i) (v.get i)),
      .op _ rfl (fun _ _ _ => rfl), ?_⟩
    rintro μ o ho rfl
    constructor
    · rintro hm ⟨h1, h2⟩
      exact C13_eWiseAdd_vector ho hg.1 hg.2 ⟨hm, h1, h1.symm.trans h2⟩
    · intro h
      exact ⟨.dimension, by simp, VOut.op_threw (by simp) ((dim_same2V o u v).err fun hs =>
        h ⟨hs.mask, hs.size, hs.size.trans hs.size2⟩)⟩
  | eWiseMult f u v =>
    refine ⟨fun acc w i => Spec.accum acc (w i) (Spec.both f.op (u.get i) (v.get i)),
      .op _ rfl (fun _ _ _ => rfl), ?_⟩
    rintro μ o ho rfl
    constructor
    · rintro hm ⟨h1, h2⟩
      exact C14_eWiseMult_vector ho hg.1 hg.2 ⟨hm, h1, h1.symm.trans h2⟩
    · intro h
      exact ⟨.dimension, by simp, VOut.op_threw (by simp) ((dim_same2V o u v).err fun hs =>
        h ⟨hs.mask, hs.size, hs.size.trans hs.size2⟩)⟩
  | apply f u =>
    refine ⟨fun acc w i => Spec.accum acc (w i) ((u.get i).map f), .op _ rfl (fun _ _ _ => rfl), ?_⟩
    rintro μ o ho rfl
    constructor
    · rintro hm h1
      exact C15_apply_vector ho hg ⟨hm, h1⟩
    · intro h
      exact ⟨.dimension, by simp, VOut.op_threw (by simp) ((dim_sameV o u).err fun hs =>
        h ⟨hs.mask, hs.size⟩)⟩
  | reduce r A =>
    refine ⟨fun acc w i => Spec.accum acc (w i)
      (Spec.ofold r.first r.op' ((List.range A.ncols).map (A.get i))), .op _ rfl (fun _ _ _ => rfl), ?_⟩
    rintro μ o ho rfl
    constructor
    · rintro hm h1
      exact C16_reduce_rows ho hg.1 ⟨hm, h1⟩ hg.2
    · intro h
      exact ⟨.dimension, by simp, VOut.op_threw (by simp) ((dim_reduce o A).err fun hs =>
        h ⟨hs.mask, hs.out⟩)⟩
  | extract u ix =>
    refine ⟨fun acc w i => Spec.accum acc (w i) (Spec.extract u.size ix.sel u.get i),
      .op _ rfl (fun _ _ _ => rfl), ?_⟩
    rintro μ o ho rfl
    constructor
    · rintro hm ⟨h1, h2⟩
      exact C18_extract_vector ho hg hm h1 h2
    · intro h
      by_cases hs : o.m.Fits o.w.size ∧ ix.len o.w.size = o.w.size
      · exact ⟨.indexOutOfBounds, by simp, C27_extract_vector hs.1 hs.2 fun hb => h ⟨hs.1, hs.2, hb⟩⟩
      · exact ⟨.dimension, by simp, VOut.op_threw (by simp) ((dim_extractV o ix o.w.size).err hs)⟩
  | extractCol A ri j =>
    refine ⟨fun acc w i => Spec.accum acc (w i) (Spec.extract A.nrows ri.sel (fun k => A.get k j) i),
      .op _ rfl (fun _ _ _ => rfl), ?_⟩
    rintro μ o ho rfl
    constructor
    · rintro hm ⟨h1, h2, h3⟩
      exact C18_extract_column ho hg hm h1 h3 h2
    · intro h
      by_cases hs : o.m.Fits o.w.size ∧ ri.len o.w.size = o.w.size
      · by_cases hj : j < A.ncols
        · exact ⟨.indexOutOfBounds, by simp, C27_extract_column hs.1 hs.2 hj
            fun hb => h ⟨hs.1, hs.2, hj, hb⟩⟩
        · refine ⟨.invalidIndex, by simp, VOut.op_threw (by simp) ?_⟩
          rw [(dim_size _ _).ok hs.1, (dim_len _ _).ok hs.2, indexCheck_err hj]; rfl
      · refine ⟨.dimension, by simp, VOut.op_threw (by simp) ?_⟩
        by_cases h1 : o.m.Fits o.w.size
        · rw [(dim_size _ _).ok h1, (dim_len _ _).err fun h2 => hs ⟨h1, h2⟩]; rfl
        · rw [(dim_size _ _).err h1]; rfl
  | assign keep u ix =>
    obtain ⟨hu, hn, ha⟩ := hg
    refine ⟨fun acc w i => Spec.assignAt keep acc (Spec.selected ix.sel u.size i) (w i)
        (Spec.assignSrc u.size ix.sel u.get i), .assign keep _ _ rfl (fun _ _ _ => rfl), ?_⟩
    rintro μ o ho rfl
    constructor
    · rintro hm ⟨h1, h2⟩
      refine C19_assign_vector ho hu hm h1 ?_ hn
      cases ix with
      | list l => exact h2
      | all => exact ha rfl
    · intro h
      by_cases hs : o.m.Fits o.w.size ∧ ix.len u.size = u.size
      · exact ⟨.indexOutOfBounds, by simp, C27_assign_vector hs.1 hs.2 fun hb => h ⟨hs.1, hs.2, hb⟩⟩
      · exact ⟨.dimension, by simp, VOut.stencil_threw (by simp) ((dim_extractV o ix u.size).err hs)⟩
  | assignConst keep x ix =>
    refine ⟨fun acc w i => Spec.assignAt keep acc (Spec.selected ix.sel n i) (w i)
        (if Spec.selected ix.sel n i then some x else none),
      .assign keep _ (fun i => if Spec.selected ix.sel n i then some x else none) rfl (fun _ _ _ => rfl), ?_⟩
    rintro μ o ho rfl
    constructor
    · rintro hm ⟨h1, h2⟩
      exact C20_assign_const_vector_partial ho ⟨hm, h1⟩ h2 hg
    · intro h
      by_cases hs : ConstVShapes o ix
      · exact ⟨.indexOutOfBounds, by simp, C27_assign_const_vector hs fun hb => h ⟨hs.mask, hs.len, hb⟩⟩
      · exact ⟨.dimension, by simp, VOut.stencil_threw (by simp) ((dim_constV o ix).err hs)⟩

end GBTL

import Verif.Lemmas.Frontend
/- Row and column assignment, and the checks of extract and assign. -/
namespace GBTL
open Spec (Outp MaskKind Accum both either osum)
open Row

variable {α β γ δ τ ζ μ ν σ ρ : Type}

theorem Idx.inside_below {ix : Idx} {n m : Nat} (h : ix.inside n m) : ix.below m := by
  cases ix with
  | list l => exact h
  | all => trivial

theorem Idx.inside_fits {ix : Idx} {n m : Nat} (h : ix.inside n m) : ix.fits n m := by
  cases ix with
  | list l => trivial
  | all => exact h

theorem fillVec_loop (n : Nat) (r : Row γ) : ∀ v : BVec γ, v.WF → v.size = n → OK n r →
    ∃ v', r.foldlM (fun v p => okState (v.setElement p.1 p.2)) v = .ok v' ∧ v'.WF ∧ v'.size = n ∧
      ∀ i, v'.get i = (get r i).or (v.get i) := by
  induction r with
  | nil => intro v hv hn _; exact ⟨v, rfl, hv, hn, fun i => by simp⟩
  | cons p r ih =>
    intro v hv hn hr
    obtain ⟨k, x⟩ := p
    have hk : k < v.size := by rw [hn]; exact hr.bound (k, x) (by simp)
    obtain ⟨w, w1, w2, w3, w4⟩ := BVec.setElement_spec hv hk x
    have hs := hr.sorted
    rw [sorted_cons] at hs
    have hr' : OK n r := ⟨hs.2, fun q hq => hr.bound q (by simp [hq])⟩
    obtain ⟨v', h1, h2, h3, h4⟩ := ih w w2 (w3.trans hn) hr'
    refine ⟨v', ?_, h2, h3, fun i => ?_⟩
    · simp only [List.foldlM_cons, w1, okState, Except.bind_ok']
      exact h1
    · rw [h4, w4]
      rw [get_cons]
      by_cases h : i = k
      · subst h
        rw [if_pos rfl, if_pos rfl]
        have : get r i = none := by
          apply get_none_of_forall
          intro q hq he
          have := hs.1 q hq
          omega
        rw [this]; rfl
      · rw [if_neg h, if_neg (fun e => h e.symm)]

theorem fillVec_spec [Inhabited γ] {n : Nat} (hn : n ≠ 0) {r : Row γ} (hr : OK n r) :
    ∃ v : BVec γ, fillVec n r = .ok v ∧ v.WF ∧ v.size = n ∧ ∀ i, v.get i = get r i := by
  obtain ⟨v, v1, v2, v3, v4⟩ := BVec.new_spec (α := γ) hn
  obtain ⟨v', h1, h2, h3, h4⟩ := fillVec_loop n r v v2 v3 hr
  refine ⟨v', ?_, h2, h3, fun i => ?_⟩
  · rw [fillVec, v1]; exact h1
  · rw [h4, v4]; simp

theorem assignBackend_spec {truthy : μ → Bool} {castZ : ζ → γ} {keep : γ → ζ} {acc : Accum γ α ζ}
    {w : BVec γ} {m : VMask μ} {u : BVec α} {ix : Idx} {outp : Outp} (hw : w.WF) (hu : u.WF)
    (hm : m.OK w.size) (hb : ix.below w.size) (hn : ix.nodup) (hf : ix.fits u.size w.size) :
    ∃ w', assignBackend truthy castZ keep acc w m u ix outp = .ok w' ∧ w'.WF ∧ w'.size = w.size ∧
      ∀ i, w'.get i = Spec.write castZ (m.allows truthy i) outp (w.get i)
        (Spec.assignAt keep acc (Spec.selected ix.sel u.size i) (w.get i)
          (Spec.assignSrc u.size ix.sel u.get i)) := by
  obtain ⟨t, t1, t2, t3⟩ := assignVec_spec hu hb hn hf
  obtain ⟨z, z1, z2, z3⟩ := stencil1D_spec keep (.list (setupIndices ix u.size)) acc hw t2
    (by
      intro i hi
      rw [search_setup, Spec.selected] at hi
      rw [t3, Spec.assignSrc]
      cases h : Spec.posOf ix.sel u.size i with
      | none => rfl
      | some k => simp [h] at hi)
  obtain ⟨w', g1, g2, g3, g4⟩ := writeWithOptMask1D_spec truthy castZ m outp hw z2 hm
  refine ⟨w', ?_, g2, g3, fun i => ?_⟩
  · simp only [assignBackend, t1, z1, Except.bind_ok']; exact g1
  · rw [g4, z3, search_setup, t3]

theorem vec_tuples {v : BVec γ} (hv : v.WF) :
    ∃ r : Row γ, v.extractTuples = .ok r ∧ OK v.size r ∧ ∀ i, get r i = v.get i :=
  ⟨_, BVec.extractTuples_eq hv, Row.ofFun_ok _ _, BVec.get_contents hv⟩

theorem assignSrc_none {n : Nat} {ix : Idx} {u : Spec.Vec α} {i : Nat}
    (h : searchIndices (.list (setupIndices ix n)) i = false) : Spec.assignSrc n ix.sel u i = none := by
  rw [search_setup, Spec.selected] at h
  rw [Spec.assignSrc]
  cases h' : Spec.posOf ix.sel n i with
  | none => rfl
  | some k => simp [h'] at h

theorem assignSrcMat_none {m n : Nat} {ri ci : Idx} {A : Spec.Mat α} {i j : Nat}
    (h : (searchIndices (.list (setupIndices ri m)) i && searchIndices (.list (setupIndices ci n)) j) = false) :
    Spec.assignSrcMat m n ri.sel ci.sel A i j = none := by
  rw [search_setup, search_setup, Spec.selected, Spec.selected] at h
  rw [Spec.assignSrcMat]
  cases h1 : Spec.posOf ri.sel m i with
  | none => rfl
  | some k =>
    cases h2 : Spec.posOf ci.sel n j with
    | none => rfl
    | some l => simp [h1, h2] at h

/-! ### the checks -/

/-- The checks of `extract` on vectors. -/
theorem dim_extractV (o : VOut γ τ ζ μ) (ix : Idx) (n : Nat) :
    Dim (do
      o.m.sizeCheck o.w.size
      ix.lenCheck n) (o.m.Fits o.w.size ∧ ix.len n = n) :=
  (dim_size _ _).seq (dim_len _ _)

theorem dim_select (o : MOut γ τ ζ μ) (ri ci : Idx) (m n : Nat) :
    Dim (do
      o.M.rowCheck o.C.nrows
      o.M.colCheck o.C.ncols
      ri.lenCheck m
      ci.lenCheck n) (o.M.Fits o.C.nrows o.C.ncols ∧ ri.len m = m ∧ ci.len n = n) :=
  ((dim_rows _ _).seq ((dim_cols _ _).seq ((dim_len _ _).seq (dim_len _ _)))).iff
    ⟨fun ⟨a, b, c, d⟩ => ⟨fits_iff.2 ⟨a, b⟩, c, d⟩,
      fun ⟨a, b, c⟩ => ⟨(fits_iff.1 a).1, (fits_iff.1 a).2, b, c⟩⟩

theorem dim_constV (o : VOut γ τ ζ μ) (ix : Idx) :
    Dim (do
      o.m.sizeCheck o.w.size
      ix.withinCheck o.w.size) (ConstVShapes o ix) :=
  ((dim_size _ _).seq (dim_within _ _)).iff
    ⟨fun ⟨a, b⟩ => ⟨a, by cases ix <;> simp_all [Idx.len]⟩,
      fun h => ⟨h.mask, by have := h.len; cases ix <;> simp_all [Idx.len]⟩⟩

theorem dim_constM (o : MOut γ τ ζ μ) (ri ci : Idx) :
    Dim (do
      o.M.rowCheck o.C.nrows
      o.M.colCheck o.C.ncols
      ri.withinCheck o.C.nrows
      ci.withinCheck o.C.ncols) (ConstMShapes o ri ci) :=
  ((dim_rows _ _).seq ((dim_cols _ _).seq ((dim_within _ _).seq (dim_within _ _)))).iff
    ⟨fun ⟨a, b, c, d⟩ => ⟨fits_iff.2 ⟨a, b⟩, by cases ri <;> simp_all [Idx.len],
      by cases ci <;> simp_all [Idx.len]⟩,
      fun h => ⟨(fits_iff.1 h.mask).1, (fits_iff.1 h.mask).2,
        by have := h.rows; cases ri <;> simp_all [Idx.len],
        by have := h.cols; cases ci <;> simp_all [Idx.len]⟩⟩

theorem indexCheck_ok {i n : Nat} (h : i < n) : indexCheck i n = .ok () := by simp [indexCheck, check, h]

theorem indexCheck_err {i n : Nat} (h : ¬ i < n) : indexCheck i n = .error .invalidIndex := by
  simp [indexCheck, check, h]

end GBTL

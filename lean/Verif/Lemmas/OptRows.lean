import Verif.Lemmas.Fused
import Verif.Lemmas.Frontend
/-
The rows computed by the kernels of the `optimized_sequential` backend, and the
loops that store them.
-/
namespace GBTL
open Spec (Outp MaskKind Accum both either osum)
open Row

variable {α β γ δ τ ζ μ ρ : Type}

/-! ### rows of products -/

theorem keepIf_axpy {n : Nat} {add : τ → τ → τ} {mult : α → β → τ} {x : α} (f : Nat → Bool) {t : Row τ}
    {b : Row β} (ht : OK n t) (hb : OK n b) :
    axpy add mult x (keepIf f t) (keepIf f b) = keepIf f (axpy add mult x t b) := by
  have h1 := OK.keepIf (f := f) ht
  have h2 := OK.keepIf (f := f) hb
  apply Row.ext (axpy_ok h1 h2).sorted (sorted_keepIf (axpy_ok ht hb).sorted)
  intro j
  rw [axpy_get h1.sorted h2.sorted, get_keepIf, get_keepIf, get_keepIf, axpy_get ht.sorted hb.sorted]
  cases f j <;> simp

theorem keepIf_rowProd {n : Nat} {add : τ → τ → τ} {mult : α → β → τ} (f : Nat → Bool) (a : Row α)
    {B : Nat → Row β} (hB : ∀ k, OK n (B k)) : ∀ {init : Row τ}, OK n init →
    rowProd add mult a (fun k => keepIf f (B k)) (keepIf f init) = keepIf f (rowProd add mult a B init) := by
  induction a with
  | nil => intro init _; rfl
  | cons p a ih =>
    intro init hi
    show rowProd add mult a (fun k => keepIf f (B k))
      (axpy add mult p.2 (keepIf f init) (keepIf f (B p.1))) = _
    rw [keepIf_axpy f hi (hB p.1), ih (axpy_ok hi (hB p.1))]
    rfl

theorem rowProd_foldlM {add : τ → τ → τ} {mult : α → β → τ} {B : Lil β} (hB : B.WFr)
    {step : Row τ → Nat × α → Row β → Row τ} {F : Row β → Row β} (a : Row α) :
    (∀ p ∈ a, p.1 < B.nrows) →
    (∀ t p k, p ∈ a → step t p (B.rowD k) = axpy add mult p.2 t (F (B.rowD k))) → F [] = [] → ∀ t : Row τ,
    a.foldlM (fun t p => do
      let b ← B.row p.1
      if b.isEmpty then .ok t else .ok (step t p b)) t
      = Except.ok (rowProd add mult a (fun k => F (B.rowD k)) t) := by
  induction a with
  | nil => intro _ _ _ t; rfl
  | cons p a ih =>
    intro hb hs hF t
    have hp := hb p (List.mem_cons_self ..)
    rw [List.foldlM_cons]
    simp only [hB.row_ok hp, Except.bind_ok']
    have ih' := ih (fun q hq => hb q (List.mem_cons_of_mem _ hq))
      (fun t q k hq => hs t q k (List.mem_cons_of_mem _ hq)) hF
    cases he : (B.rowD p.1).isEmpty with
    | true =>
      simp only [if_true, Except.bind_ok']
      rw [ih', rowProd, rowProd, List.foldl_cons, List.isEmpty_iff.1 he, hF, axpy]
    | false =>
      simp only [Bool.false_eq_true, if_false, Except.bind_ok']
      rw [ih', hs t p p.1 (List.mem_cons_self ..)]; rfl

theorem abRow_eq {add : τ → τ → τ} {mult : α → β → τ} {B : Lil β} (hB : B.WFr) {a : Row α}
    (ha : OK B.nrows a) : abRow add mult B a = .ok (rowProd add mult a B.rowD []) :=
  rowProd_foldlM hB (step := fun t p b => axpy add mult p.2 t b) (F := id) a ha.bound
    (fun _ _ _ _ => rfl) rfl []

theorem abMaskedRow_eq {sf compl : Bool} {truthy : μ → Bool} {add : τ → τ → τ} {mult : α → β → τ}
    {B : Lil β} (hB : B.WFr) {a : Row α} (ha : OK B.nrows a) {m : Row μ} (hm : Sorted m) :
    abMaskedRow sf compl truthy add mult m B a
      = .ok (keepIf (lets sf compl truthy m) (rowProd add mult a B.rowD [])) := by
  have := rowProd_foldlM hB (step := fun t p b => maskedAxpy sf compl truthy add mult p.2 t m b)
    (F := keepIf (lets sf compl truthy m)) a ha.bound
    (fun t p k _ => maskedAxpy_eq (hB.rowD_ok k).sorted hm) rfl []
  rw [← keepIf_rowProd _ a hB.rowD_ok OK.nil]
  exact this

theorem abMaskRow_eq {sf : Bool} {truthy : μ → Bool} {add : τ → τ → τ} {mult : α → β → τ}
    {B : Lil β} (hB : B.WFr) {a : Row α} (ha : OK B.nrows a) {m : Row μ} (hm : Sorted m) :
    abMaskRow sf truthy add mult m B a
      = .ok (keepIf (lets sf false truthy m) (rowProd add mult a B.rowD [])) := by
  rw [abMaskRow]
  split
  · next h =>
    rw [List.isEmpty_iff.1 h, keepIf_false]
    intro p _
    rw [lets_nil]
  · exact abMaskedRow_eq hB ha hm

theorem dot_empty {add : τ → τ → τ} {mult : α → β → τ} {a : Row α} {b : Row β} (h : b = []) :
    dot add mult a b = none := by subst h; simp [dot]

/-- One row of `A*B'`. -/
def dotRow (add : τ → τ → τ) (mult : α → β → τ) (a : Row α) (B : Lil β) : Row τ :=
  ofFun B.nrows fun j => dot add mult a (B.rowD j)

theorem dotRow_nil (add : τ → τ → τ) (mult : α → β → τ) (B : Lil β) : dotRow add mult [] B = [] := by
  simp [dotRow, dot, ofFun]

theorem abtRow_eq {add : τ → τ → τ} {mult : α → β → τ} {B : Lil β} (hB : B.WFr) (a : Row α) :
    abtRow add mult a B = .ok (dotRow add mult a B) := by
  rw [abtRow, forN_congr (g := fun j t => if (B.rowD j).isEmpty then Except.ok t
        else .ok (emplaceIf1D t j (dot add mult a (B.rowD j)))) (fun j t hj => by
          rw [hB.row_ok hj]; rfl)]
  obtain ⟨t, e, rfl⟩ := dotLoop_rows (n := B.nrows) (fun j => dot add mult a (B.rowD j))
    (fun j => (B.rowD j).isEmpty) (by intro j hj; exact dot_empty (List.isEmpty_iff.1 hj))
  exact e

theorem keepIf_append (f : Nat → Bool) (r s : Row α) : keepIf f (r ++ s) = keepIf f r ++ keepIf f s := by
  simp [keepIf]

theorem abtMaskedRow_eq {sf compl : Bool} {truthy : μ → Bool} {add : τ → τ → τ} {mult : α → β → τ}
    {B : Lil β} (hB : B.WFr) (a : Row α) {m : Row μ} (hm : Sorted m) :
    abtMaskedRow sf compl truthy add mult m a B
      = .ok (keepIf (lets sf compl truthy m) (dotRow add mult a B)) := by
  let d := fun j => dot add mult a (B.rowD j)
  obtain ⟨s, e, h1, _⟩ := forN_inv (n := B.nrows) (s := (([], m) : Row τ × Row μ))
    (body := fun j s => do
      let b ← B.row j
      if b.isEmpty then Except.ok s else .ok (abtStep sf compl truthy add mult a j b s))
    (fun j s => s.1 = keepIf (lets sf compl truthy m) (ofFun j d) ∧ Sorted s.2 ∧
      ∀ k, j ≤ k → lets sf compl truthy s.2 k = lets sf compl truthy m k)
    ⟨rfl, hm, fun _ _ => rfl⟩ (by
      rintro j ⟨t, m'⟩ hj ⟨h1, h2, h3⟩
      simp only at h1 h2 h3
      simp only [hB.row_ok hj, Except.bind_ok']
      split
      · next he =>
        refine ⟨_, rfl, ?_, h2, fun k hk => h3 k (by omega)⟩
        have : d j = none := dot_empty (List.isEmpty_iff.1 he)
        simp only [h1, ofFun_succ, this, List.append_nil]
      · refine ⟨_, rfl, ?_, ?_, ?_⟩
        · simp only [abtStep, maskCheck_fst h2, h3 j (Nat.le_refl _), h1, ofFun_succ, keepIf_append]
          have hdj : dot add mult a (B.rowD j) = d j := rfl
          rw [hdj]
          cases hl : lets sf compl truthy m j <;> cases hd : d j <;>
            simp [emplaceIf1D, keepIf, hl]
        · exact sorted_dropBelow h2
        · intro k hk
          show lets sf compl truthy (dropBelow j m') k = _
          rw [lets_dropBelow h2 (by omega), h3 k (by omega)])
  rw [abtMaskedRow, e]
  simp only [Except.bind_ok']
  rw [h1]; rfl

theorem abtMaskRow_eq {sf : Bool} {truthy : μ → Bool} {add : τ → τ → τ} {mult : α → β → τ}
    {B : Lil β} (hB : B.WFr) (a : Row α) {m : Row μ} (hm : Sorted m) :
    abtMaskRow sf truthy add mult m a B
      = .ok (keepIf (lets sf false truthy m) (dotRow add mult a B)) := by
  rw [abtMaskRow]
  split
  · exact abtMaskedRow_eq hB a hm
  · next h =>
    have : a = [] ∨ m = [] := by
      cases a <;> cases m <;> simp_all
    rcases this with rfl | rfl
    · rw [dotRow_nil]; rfl
    · rw [keepIf_false]; intro p _; rw [lets_nil]

theorem abtCompRow_eq {sf : Bool} {truthy : μ → Bool} {add : τ → τ → τ} {mult : α → β → τ}
    {B : Lil β} (hB : B.WFr) (a : Row α) {m : Row μ} (hm : Sorted m) :
    abtCompRow sf truthy add mult m a B
      = .ok (keepIf (lets sf true truthy m) (dotRow add mult a B)) := by
  rw [abtCompRow]
  split
  · exact abtMaskedRow_eq hB a hm
  · next h =>
    have : a = [] := by cases a <;> simp_all
    subst this
    rw [dotRow_nil]; rfl

/-! ### storing a row -/

/-- `C'` has the shape of `C`, is consistent and holds `g`. -/
structure Lil.Is (C : Lil γ) (g : Nat → Nat → Option γ) (C' : Lil γ) : Prop where
  wf : C'.WF
  nrows : C'.nrows = C.nrows
  ncols : C'.ncols = C.ncols
  get : ∀ i j, i < C.nrows → j < C.ncols → C'.get i j = g i j

theorem Lil.Is.congr {C : Lil γ} {g h : Nat → Nat → Option γ} {C' : Lil γ} (H : C.Is g C')
    (e : ∀ i j, i < C.nrows → j < C.ncols → g i j = h i j) : C.Is h C' :=
  ⟨H.wf, H.nrows, H.ncols, fun i j hi hj => by rw [H.get i j hi hj, e i j hi hj]⟩

theorem Lil.Is.base {C D : Lil γ} {g : Nat → Nat → Option γ} {C' : Lil γ} (H : D.Is g C')
    (hr : D.nrows = C.nrows) (hc : D.ncols = C.ncols) : C.Is g C' :=
  ⟨H.wf, by rw [H.nrows, hr], by rw [H.ncols, hc], fun i j hi hj => H.get i j (by omega) (by omega)⟩

theorem Lil.Is.self {C : Lil γ} (h : C.WF) : C.Is C.get C := ⟨h, rfl, rfl, fun _ _ _ _ => rfl⟩

theorem Lil.Is.clear {C : Lil γ} (h : C.WF) : C.Is (fun _ _ => none) C.clear :=
  ⟨Lil.clear_wf h.toWFr, rfl, rfl, fun i j _ _ => by rw [Lil.get, Lil.rowD_clear, get_nil]⟩

/-- The rows of a result. -/
theorem Lil.Is.row_eq {C : Lil γ} {g : Nat → Nat → Option γ} {C' : Lil γ} (H : C.Is g C') {i : Nat}
    (hi : i < C.nrows) {r : Row γ} (hr : OK C.ncols r) (h : ∀ j, j < C.ncols → Row.get r j = g i j) :
    C'.rowD i = r := by
  have h1 := H.wf.rowD_ok i
  rw [H.ncols] at h1
  apply Row.ext h1.sorted hr.sorted
  intro j
  by_cases hj : j < C.ncols
  · rw [h j hj]; exact H.get i j hi hj
  · rw [h1.get_none (by omega), hr.get_none (by omega)]

theorem Lil.rowLoop_is {C : Lil γ} (hC : C.WF) (g : Nat → Nat → Option γ)
    {body : Nat → Lil γ → Except Err (Lil γ)}
    (hbody : ∀ i C', i < C.nrows → C'.WF → C'.nrows = C.nrows → C'.ncols = C.ncols →
      C'.rowD i = C.rowD i →
      (∃ r, body i C' = C'.setRow i id r ∧ OK C.ncols r ∧ ∀ j, j < C.ncols → Row.get r j = g i j) ∨
        ((∀ j, j < C.ncols → C.get i j = g i j) ∧ body i C' = .ok C')) :
    ∃ C', forN C.nrows C body = .ok C' ∧ C.Is g C' := by
  obtain ⟨Z', h1, h2, h3, h4, h5⟩ := forN_inv (body := body)
    (fun i Z' => Z'.WF ∧ Z'.nrows = C.nrows ∧ Z'.ncols = C.ncols ∧
      ∀ k, Z'.rowD k = if k < i then ofFun C.ncols (g k) else C.rowD k) (n := C.nrows) (s := C)
    ⟨hC, rfl, rfl, fun k => by simp⟩ (by
      rintro i Z' hi ⟨hw, hr, hc, hrow⟩
      have hself : Z'.rowD i = C.rowD i := by rw [hrow, if_neg (Nat.lt_irrefl _)]
      rcases hbody i Z' hi hw hr hc hself with ⟨r, e, hok, hg⟩ | ⟨hg, e⟩
      · obtain ⟨B, e', hB, hBr, hBc, hBw, hBrow⟩ :=
          setRow_spec (c := id) (i := i) hw.toWFr (by omega) (by rw [hc]; exact hok)
        refine ⟨B, by rw [e, e'], hBw hw, by omega, by omega, ?_⟩
        intro k
        rw [hBrow, hrow, Row.cast_id]
        by_cases hk : k = i
        · subst hk; rw [if_pos rfl, if_pos (by omega), eq_ofFun hok hg]
        · rw [if_neg hk]
          by_cases hk2 : k < i
          · rw [if_pos hk2, if_pos (by omega)]
          · rw [if_neg hk2, if_neg (by omega)]
      · refine ⟨Z', e, hw, hr, hc, ?_⟩
        intro k
        by_cases hk : k = i
        · subst hk; rw [hself, if_pos (by omega)]
          exact eq_ofFun (hC.rowD_ok k) hg
        · rw [hrow]
          by_cases hk2 : k < i
          · rw [if_pos hk2, if_pos (by omega)]
          · rw [if_neg hk2, if_neg (by omega)])
  refine ⟨Z', h1, h2, h3, h4, ?_⟩
  intro i j hi hj
  rw [Lil.get, h5, if_pos hi, get_ofFun, if_pos hj]

/-- When does a kernel overwrite row `i` without merging? -/
def Direct (compl : Bool) (outp : Outp) (m : Row μ) (d : Bool) : Prop :=
  d = (outp == .replace) ∨ (compl = true ∧ d = (outp == .replace || m.isEmpty))

theorem storeT_row {sf compl : Bool} {truthy : μ → Bool} {cast : ρ → γ} {d : Bool} {outp : Outp}
    {m : Row μ} {t : Row ρ} {C : Lil γ} {i : Nat} (hC : C.WF) (hi : i < C.nrows) (hm : Sorted m)
    (ht : OK C.ncols t) (hl : ∀ p ∈ t, lets sf compl truthy m p.1 = true) (hd : Direct compl outp m d) :
    ∃ r, storeT sf compl truthy cast d i m t C = C.setRow i id r ∧ OK C.ncols r ∧
      ∀ j, Row.get r j = Spec.write cast (lets sf compl truthy m j) outp (C.get i j) (Row.get t j) := by
  have hnone : ∀ j, lets sf compl truthy m j = false → Row.get t j = none := by
    intro j hj
    cases h : Row.get t j with
    | none => rfl
    | some x =>
      have := hl _ (mem_of_get h)
      rw [hj] at this; simp at this
  rw [storeT]
  cases d with
  | true =>
    refine ⟨Row.cast cast t, by rw [if_pos rfl, Lil.setRow_cast], ht.cast, fun j => ?_⟩
    rw [get_cast]; unfold Spec.write
    cases hj : lets sf compl truthy m j with
    | true => rfl
    | false =>
      rw [hnone j hj]
      rcases hd with hd | ⟨hc, hd⟩
      · cases outp with
        | merge => simp at hd
        | replace => rfl
      · cases outp with
        | replace => rfl
        | merge =>
          have : m = [] := by
            have : (Outp.merge == Outp.replace) = false := rfl
            rw [this, Bool.false_or] at hd
            exact List.isEmpty_iff.1 hd.symm
          rw [this, lets_nil, hc] at hj
          simp at hj
  | false =>
    obtain ⟨h1, h2⟩ := maskedMerge_spec (sf := sf) (compl := compl) (truthy := truthy) (cast := cast)
      (m := m) (c := C.rowD i) ht hm (hC.rowD_ok i) hl
    refine ⟨_, by simp only [Bool.false_eq_true, if_false, hC.row_ok hi, Except.bind_ok'], h1, fun j => ?_⟩
    rw [h2]; unfold mergeAt Spec.write
    have ho : outp = .merge := by
      rcases hd with hd | ⟨_, hd⟩ <;> cases outp <;> simp_all <;> rfl
    subst ho
    cases hj : lets sf compl truthy m j with
    | true => cases Row.get t j <;> rfl
    | false => rw [hnone j hj]; rfl

theorem storeZ_row {sf compl : Bool} {truthy : μ → Bool} {castZ : ζ → γ} {acc : AccOp γ τ ζ} {d : Bool}
    {outp : Outp} {m : Row μ} {t : Row τ} {C : Lil γ} {i : Nat} (hC : C.WF) (hi : i < C.nrows)
    (hm : Sorted m) (ht : OK C.ncols t) (hl : ∀ p ∈ t, lets sf compl truthy m p.1 = true)
    (hd : Direct compl outp m d) :
    ∃ r, storeZ sf compl truthy castZ acc d i m t C = C.setRow i id r ∧ OK C.ncols r ∧
      ∀ j, Row.get r j = Spec.write castZ (lets sf compl truthy m j) outp (C.get i j)
        (Spec.accum (.some acc.op acc.cC acc.cT) (C.get i j) (Row.get t j)) := by
  have hc := hC.rowD_ok i
  have hk := OK.keepIf (f := lets sf compl truthy m) hc
  have hz : OK C.ncols (ewiseOr acc.op acc.cC acc.cT (keepIf (lets sf compl truthy m) (C.rowD i)) t) :=
    ewiseOr_ok hk ht
  obtain ⟨r, e, h1, h2⟩ := storeT_row (sf := sf) (compl := compl) (truthy := truthy) (cast := castZ)
    (outp := outp) hC hi hm hz (by
      intro p hp
      rcases ewiseOr_keys _ _ p hp with ⟨q, hq, e⟩ | ⟨q, hq, e⟩
      · rw [← e]; exact (mem_keepIf.1 hq).2
      · rw [← e]; exact hl q hq) hd
  refine ⟨r, ?_, h1, fun j => ?_⟩
  · simp only [storeZ, hC.row_ok hi, Except.bind_ok',
      maskedAccum_eq m (C.rowD i) t hm hc.sorted ht.sorted hl, e]
  · rw [h2, (ewiseOr_spec _ _ hk.sorted ht.sorted).2, get_keepIf]
    simp only [Spec.write]
    cases hj : lets sf compl truthy m j with
    | false => rfl
    | true =>
      simp only [if_true]
      show _ = Option.map castZ (Spec.accum _ (Row.get (C.rowD i) j) _)
      cases Row.get (C.rowD i) j <;> cases Row.get t j <;> rfl

theorem mergeRow_row {op : γ → ρ → γ} {cast : ρ → γ} {t : Row ρ} {C : Lil γ} {i : Nat} (hC : C.WF)
    (hi : i < C.nrows) (ht : OK C.ncols t) :
    (∃ r, C.mergeRow i op cast t = C.setRow i id r ∧ OK C.ncols r ∧
      ∀ j, Row.get r j = Spec.accum (.some op id cast) (C.get i j) (Row.get t j)) ∨
    ((∀ j, C.get i j = Spec.accum (.some op id cast) (C.get i j) (Row.get t j)) ∧
      C.mergeRow i op cast t = .ok C) := by
  rw [Lil.mergeRow]
  cases he : t.isEmpty with
  | true =>
    refine Or.inr ⟨fun j => ?_, rfl⟩
    rw [List.isEmpty_iff.1 he, get_nil]
    cases C.get i j <;> rfl
  | false =>
    left
    simp only [Bool.false_eq_true, if_false, hC.row_ok hi, Except.bind_ok']
    split
    · next hn =>
      refine ⟨_, Lil.setRow_cast _ _ _ _, ht.cast, fun j => ?_⟩
      rw [get_cast]
      have : C.get i j = none := by rw [Lil.get, List.isEmpty_iff.1 hn]; rfl
      rw [this]
      cases Row.get t j <;> rfl
    · rw [mergeLoop_eq]
      refine ⟨_, rfl, ewiseOr_ok (hC.rowD_ok i) ht, fun j => ?_⟩
      rw [(ewiseOr_spec _ _ (hC.rowD_ok i).sorted ht.sorted).2]
      show _ = Spec.accum _ (Row.get (C.rowD i) j) _
      cases Row.get (C.rowD i) j <;> cases Row.get t j <;> rfl

/-! ### loops that store rows -/

theorem loopT {sf compl : Bool} {truthy : μ → Bool} {cast : ρ → γ} {outp : Outp} {C : Lil γ} (hC : C.WF)
    {M : Nat → Row μ} {T : Nat → Row ρ} {d : Nat → Bool} (hM : ∀ i, Sorted (M i))
    (hT : ∀ i, i < C.nrows → OK C.ncols (T i))
    (hl : ∀ i, i < C.nrows → ∀ p ∈ T i, lets sf compl truthy (M i) p.1 = true)
    (hd : ∀ i, Direct compl outp (M i) (d i)) {body : Nat → Lil γ → Except Err (Lil γ)}
    (hbody : ∀ i C', i < C.nrows → C'.WF → C'.nrows = C.nrows → C'.rowD i = C.rowD i →
      body i C' = storeT sf compl truthy cast (d i) i (M i) (T i) C') :
    ∃ C', forN C.nrows C body = .ok C' ∧ C.Is (fun i j =>
      Spec.write cast (lets sf compl truthy (M i) j) outp (C.get i j) (Row.get (T i) j)) C' := by
  refine Lil.rowLoop_is hC _ fun i C' hi hw hr hc hrow => Or.inl ?_
  obtain ⟨r, e, h1, h2⟩ := storeT_row (cast := cast) (outp := outp) hw (by rw [hr]; exact hi) (hM i)
    (by rw [hc]; exact hT i hi) (hl i hi) (hd i)
  refine ⟨r, by rw [hbody i C' hi hw hr hrow, e], by rw [← hc]; exact h1, fun j _ => ?_⟩
  rw [h2, Lil.get, hrow]; rfl

theorem loopZ {sf compl : Bool} {truthy : μ → Bool} {castZ : ζ → γ} {acc : AccOp γ τ ζ} {outp : Outp}
    {C : Lil γ} (hC : C.WF)
    {M : Nat → Row μ} {T : Nat → Row τ} {d : Nat → Bool} (hM : ∀ i, Sorted (M i))
    (hT : ∀ i, i < C.nrows → OK C.ncols (T i))
    (hl : ∀ i, i < C.nrows → ∀ p ∈ T i, lets sf compl truthy (M i) p.1 = true)
    (hd : ∀ i, Direct compl outp (M i) (d i)) {body : Nat → Lil γ → Except Err (Lil γ)}
    (hbody : ∀ i C', i < C.nrows → C'.WF → C'.nrows = C.nrows → C'.rowD i = C.rowD i →
      body i C' = storeZ sf compl truthy castZ acc (d i) i (M i) (T i) C') :
    ∃ C', forN C.nrows C body = .ok C' ∧ C.Is (fun i j =>
      Spec.write castZ (lets sf compl truthy (M i) j) outp (C.get i j)
        (Spec.accum (.some acc.op acc.cC acc.cT) (C.get i j) (Row.get (T i) j))) C' := by
  refine Lil.rowLoop_is hC _ fun i C' hi hw hr hc hrow => Or.inl ?_
  obtain ⟨r, e, h1, h2⟩ := storeZ_row (castZ := castZ) (acc := acc) (outp := outp) hw
    (by rw [hr]; exact hi) (hM i) (by rw [hc]; exact hT i hi) (hl i hi) (hd i)
  refine ⟨r, by rw [hbody i C' hi hw hr hrow, e], by rw [← hc]; exact h1, fun j _ => ?_⟩
  rw [h2, Lil.get, hrow]; rfl

theorem loopSet {cast : ρ → γ} {C : Lil γ} (hC : C.WF) {T : Nat → Row ρ}
    (hT : ∀ i, i < C.nrows → OK C.ncols (T i)) {body : Nat → Lil γ → Except Err (Lil γ)}
    (hbody : ∀ i C', i < C.nrows → C'.WF → C'.nrows = C.nrows → C'.rowD i = C.rowD i →
      body i C' = C'.setRow i cast (T i) ∨ (T i = [] ∧ C.rowD i = [] ∧ body i C' = .ok C')) :
    ∃ C', forN C.nrows C body = .ok C' ∧ C.Is (fun i j => (Row.get (T i) j).map cast) C' := by
  refine Lil.rowLoop_is hC _ fun i C' hi hw hr hc hrow => ?_
  rcases hbody i C' hi hw hr hrow with e | ⟨h1, h2, e⟩
  · exact Or.inl ⟨_, by rw [e, Lil.setRow_cast], (hT i hi).cast, fun j _ => get_cast _ _ _⟩
  · refine Or.inr ⟨fun j _ => ?_, e⟩
    rw [Lil.get, h1, h2]; rfl

theorem loopMerge {op : γ → ρ → γ} {cast : ρ → γ} {C : Lil γ} (hC : C.WF) {T : Nat → Row ρ}
    (hT : ∀ i, i < C.nrows → OK C.ncols (T i)) {body : Nat → Lil γ → Except Err (Lil γ)}
    (hbody : ∀ i C', i < C.nrows → C'.WF → C'.nrows = C.nrows → C'.rowD i = C.rowD i →
      body i C' = C'.mergeRow i op cast (T i) ∨ (T i = [] ∧ body i C' = .ok C')) :
    ∃ C', forN C.nrows C body = .ok C' ∧
      C.Is (fun i j => Spec.accum (.some op id cast) (C.get i j) (Row.get (T i) j)) C' := by
  refine Lil.rowLoop_is hC _ fun i C' hi hw hr hc hrow => ?_
  have hg : ∀ j, C'.get i j = C.get i j := fun j => by rw [Lil.get, hrow]; rfl
  rcases hbody i C' hi hw hr hrow with e | ⟨h1, e⟩
  · rcases mergeRow_row (op := op) (cast := cast) hw (by rw [hr]; exact hi)
      (by rw [hc]; exact hT i hi) with ⟨r, e', h1, h2⟩ | ⟨h1, e'⟩
    · exact Or.inl ⟨r, by rw [e, e'], by rw [← hc]; exact h1, fun j _ => by rw [h2, hg]⟩
    · refine Or.inr ⟨fun j _ => ?_, by rw [e, e']⟩
      have := h1 j
      rwa [hg] at this
  · refine Or.inr ⟨fun j _ => ?_, e⟩
    rw [h1, get_nil]
    cases C.get i j <;> rfl

theorem swapFrom_is {C tmp : Lil γ} (hC : C.WF) {g : Nat → Nat → Option γ} (h : C.Is g tmp) :
    ∃ C', C.swapFrom tmp = .ok C' ∧ C.Is g C' := by
  have hl : tmp.rows.length = C.rows.length := by rw [h.wf.len, hC.len, h.nrows]
  refine ⟨{ C with rows := tmp.rows, nvals := tmp.nvals }, ?_, ?_⟩
  · rw [Lil.swapFrom, if_neg (by omega), ← hl, List.take_length]
  · refine ⟨⟨⟨?_, ?_⟩, h.wf.count⟩, rfl, rfl, fun i j hi hj => h.get i j hi hj⟩
    · exact hl.trans hC.len
    · intro r hr
      have := h.wf.rowOK r hr
      rwa [h.ncols] at this

end GBTL

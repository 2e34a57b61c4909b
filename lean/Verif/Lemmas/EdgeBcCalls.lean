import Verif.Model.EdgeBetweenness
import Verif.Lemmas.EdgeBetweenness
import Verif.Lemmas.BetweennessV
import Verif.Props.Utils
/-
What the calls of `edge_betweenness_centrality` compute.
-/
namespace GBTL
open Spec

variable {α β τ γ μ : Type} {n : Nat}

theorem addVR_ok {w u v : BVec τ} {f : EW τ τ τ} (hw : Sz n w) (hu : Sz n u) (hv : Sz n v) :
    ∃ w', exec (eWiseAddV (vReplace w) f u v) = .ok w' ∧ Sz n w' ∧
      ∀ i, i < n → w'.get i = either f.op f.c1 f.c2 (u.get i) (v.get i) := by
  obtain ⟨w', e, y⟩ := C13_eWiseAdd_vector (o := vReplace w) (f := f) (u := u) (v := v) (vReplace_wf hw.wf) hu.wf hv.wf
    ⟨noMaskFits, hw.sz.trans hu.sz.symm, hu.sz.trans hv.sz.symm⟩
  obtain ⟨y1, y2, y3⟩ := vReplace_yields y
  exact ⟨w', by rw [e, exec_done], ⟨y1, y2.trans hw.sz⟩, fun i hi => y3 i (by rw [hw.sz]; exact hi)⟩

theorem addVG_ok {w : BVec γ} {u : BVec α} {v : BVec β} {f : EW α β γ} (hw : Sz n w) (hu : Sz n u) (hv : Sz n v) :
    ∃ w', exec (eWiseAddV (vPlain id w) f u v) = .ok w' ∧ Sz n w' ∧
      ∀ i, i < n → w'.get i = either f.op f.c1 f.c2 (u.get i) (v.get i) := by
  obtain ⟨w', e, y⟩ := C13_eWiseAdd_vector (o := vPlain id w) (f := f) (u := u) (v := v) (vPlain_wf hw.wf) hu.wf hv.wf
    ⟨vPlain_fits _, hw.sz.trans hu.sz.symm, hu.sz.trans hv.sz.symm⟩
  obtain ⟨h1, h2⟩ := vP_yields hw y
  exact ⟨w', by rw [e, exec_done], h1, fun i hi => by rw [h2 i hi]; simp⟩

/-- A masked product into an empty vector. -/
theorem multVE_ok {w u v : BVec τ} {S : BVec Bool} {f : EW τ τ τ} (hw : Sz n w) (he : ∀ i, w.get i = none) (hS : Sz n S)
    (hu : Sz n u) (hv : Sz n v) :
    ∃ w', exec (eWiseMultV (vMasked id w .plain id S .merge) f u v) = .ok w' ∧ Sz n w' ∧
      ∀ i, i < n → w'.get i = if (S.get i).any id = true then both f.op (u.get i) (v.get i) else none := by
  obtain ⟨w', e, y⟩ := C14_eWiseMult_vector (o := vMasked id w .plain id S .merge) (f := f) (u := u) (v := v)
    ⟨hw.wf, maskOK hS.wf⟩ hu.wf hv.wf
    ⟨maskFits (hS.sz.trans hw.sz.symm), hw.sz.trans hu.sz.symm, hu.sz.trans hv.sz.symm⟩
  refine ⟨w', by rw [e, exec_done], ⟨y.wf, y.size.trans hw.sz⟩, fun i hi => ?_⟩
  rw [y.get i (by show i < w.size; rw [hw.sz]; exact hi)]
  cases hg : S.get i with
  | none => simp [vMasked, VMask.allows, Spec.write, Spec.accum, Spec.allows, hg, he]
  | some b => cases b <;> simp [vMasked, VMask.allows, Spec.write, Spec.accum, Spec.allows, hg, he]

theorem applyVM_ok {w : BVec γ} {u : BVec α} {S : BVec Bool} {f : α → γ} (hw : Sz n w) (hS : Sz n S) (hu : Sz n u) :
    ∃ w', exec (applyV (vMasked id w .plain id S .replace) f u) = .ok w' ∧ Sz n w' ∧
      ∀ i, i < n → w'.get i = if (S.get i).any id = true then (u.get i).map f else none := by
  obtain ⟨w', e, y⟩ := C15_apply_vector (o := vMasked id w .plain id S .replace) (f := f) (u := u) (vM_wf hw hS) hu.wf
    ⟨vM_fits hw hS, hw.sz.trans hu.sz.symm⟩
  obtain ⟨h1, h2⟩ := vM_yields hw y
  refine ⟨w', by rw [e, exec_done], h1, fun i hi => ?_⟩
  rw [h2 i hi]
  cases hg : S.get i <;> simp [Spec.allows] <;> rfl

theorem diagV_ok [Inhabited τ] {v : BVec τ} (hv : Sz n v) :
    ∃ D, diag id v = .ok D ∧ Sh n n D ∧ ∀ i j, D.get i j = if i = j then v.get i else none := by
  obtain ⟨D, e, h1, h2, h3, h4⟩ := C41_diag id v hv.wf
  exact ⟨D, e, ⟨h1, h2.trans hv.sz, h3.trans hv.sz⟩, fun i j => by rw [h4]; simp⟩

theorem mxmP_ok {C : Lil γ} {A : Lil α} {B : Lil β} {sr : SR α β γ} {via : γ → γ} (hC : Sh n n C) (hA : Sh n n A)
    (hB : Sh n n B) :
    ∃ C', exec (mxm (mPlain id C) sr via (.plain A) (.plain B)) = .ok C' ∧ Sh n n C' ∧
      ∀ i j, i < n → j < n → C'.get i j =
        osum sr.add ((List.range n).map fun k => both sr.mult (A.get i k) (B.get k j)) := by
  obtain ⟨C', e, y⟩ := C09_mxm (o := mWhole id C .merge) (sr := sr) (via := via) (A := A) (B := B) (mWhole_wf hC.wf) hA.wf hB.wf
    ⟨noMaskFitsM, hC.nr.trans hA.nr.symm, hC.nc.trans hB.nc.symm, hA.nc.trans hB.nr.symm⟩
  obtain ⟨h1, h2⟩ := whole_yields hC y
  refine ⟨C', by rw [show mPlain id C = mWhole id C .merge from rfl, e, exec_done], h1, fun i j hi hj => ?_⟩
  rw [h2 i j hi hj, hA.nc]
  simp
  rfl

theorem addM_ok {C A B : Lil τ} {add : τ → τ → τ} (hC : Sh n n C) (hA : Sh n n A) (hB : Sh n n B) :
    ∃ C', exec (eWiseAddM (mPlain id C) ⟨add, id, id, id, add, id⟩ (.plain A) (.plain B)) = .ok C' ∧ Sh n n C' ∧
      ∀ i j, i < n → j < n → C'.get i j = either add id id (A.get i j) (B.get i j) := by
  obtain ⟨C', e, y⟩ := C13_eWiseAdd_same_type (o := mWhole id C .merge) (op := add) (c1 := id) (c2 := id) (A := .plain A)
    (B := .plain B) (mWhole_wf hC.wf) hA.wf hB.wf
    ⟨noMaskFitsM, hC.nc.trans hA.nc.symm, hC.nr.trans hA.nr.symm, hA.nc.trans hB.nc.symm, hA.nr.trans hB.nr.symm⟩
  obtain ⟨h1, h2⟩ := whole_yields hC y
  refine ⟨C', by rw [show mPlain id C = mWhole id C .merge from rfl, e, exec_done], h1, fun i j hi hj => ?_⟩
  rw [h2 i j hi hj]
  simp
  rfl

theorem ofold_osum_id (f : τ → τ → τ) (l : List (Option τ)) : ofold id (fun t y => f t (id y)) l = osum f l := by
  unfold ofold osum
  congr 1
  funext a x
  cases a <;> cases x <;> rfl

theorem rowSum_ok {w : BVec τ} {A : Lil τ} {add : τ → τ → τ} (hw : Sz n w) (hA : Sh n n A) :
    ∃ w', exec (reduceMV (vPlain id w) (.of add id) (.plain A)) = .ok w' ∧ Sz n w' ∧
      ∀ i, i < n → w'.get i = osum add ((List.range n).map (A.get i)) := by
  obtain ⟨w', e, y⟩ := C16_reduce_rows_op (o := vPlain id w) (f := add) (c := id) (A := .plain A) (vPlain_wf hw.wf) hA.wf
    ⟨vPlain_fits _, hw.sz.trans hA.nr.symm⟩
  obtain ⟨h1, h2⟩ := vP_yields hw y
  refine ⟨w', by rw [e, exec_done], h1, fun i hi => ?_⟩
  rw [h2 i hi, ofold_osum_id, Option.map_id, id]
  show osum add ((List.range A.ncols).map (A.get i)) = _
  rw [hA.nc]

/-- A sum with one term. -/
theorem osum_single {add : τ → τ → τ} {m i : Nat} {f : Nat → Option τ} (hi : i < m) (h : ∀ j, j < m → j ≠ i → f j = none) :
    osum add ((List.range m).map f) = f i := by
  induction m with
  | zero => omega
  | succ m ih =>
    rw [List.range_succ, List.map_append, List.map_cons, List.map_nil, osum_append]
    by_cases him : i = m
    · subst him
      rw [osum_range_none.2 (fun k hk => h k (by omega) (by omega))]
    · rw [ih (by omega) (fun j hj => h j (by omega)), h m (by omega) (fun e => him e.symm)]
      cases f i <;> rfl

/-! ### numbers that are stored unless zero -/

/-- The number, if it is not zero. -/
def optN (num : Nat → τ) (c : Nat) : Option τ := if c = 0 then none else some (num c)

theorem optN_pos {num : Nat → τ} {c : Nat} (h : 0 < c) : optN num c = some (num c) := if_neg (by omega)

theorem optN_zero {num : Nat → τ} : optN num 0 = none := rfl

theorem either_optN {add : τ → τ → τ} {truthy : τ → Bool} {num : Nat → τ} {M : Nat} (hc : Counts add truthy num M)
    {a b : Nat} (h : a + b ≤ M) : either add id id (optN num a) (optN num b) = optN num (a + b) := by
  rcases Nat.eq_zero_or_pos a with ha | ha
  · subst ha
    rw [Nat.zero_add]
    cases hb : optN num b <;> rfl
  · rcases Nat.eq_zero_or_pos b with hb | hb
    · subst hb
      rw [optN_pos ha]; exact (optN_pos ha).symm
    · rw [optN_pos ha, optN_pos hb, optN_pos (by omega), ← hc.add a b h]; rfl

theorem osum_optN {add : τ → τ → τ} {truthy : τ → Bool} {num : Nat → τ} {M m : Nat} (hc : Counts add truthy num M)
    {f : Nat → Option τ} {g : Nat → Nat} (hf : ∀ k, k < m → f k = optN num (g k)) (h : sumTo m g ≤ M) :
    osum add ((List.range m).map f) = optN num (sumTo m g) := by
  induction m with
  | zero => rfl
  | succ m ih =>
    rw [sumTo] at h ⊢
    rw [List.range_succ, List.map_append, List.map_cons, List.map_nil, osum_append,
      ih (fun k hk => hf k (by omega)) (by omega), hf m (by omega), ← either_optN hc h]
    cases optN num (sumTo m g) <;> cases optN num (g m) <;> rfl

end GBTL

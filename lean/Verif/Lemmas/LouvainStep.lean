import Verif.Lemmas.Louvain
/-
Louvain clustering: the move of one vertex.
-/
namespace GBTL
open Spec

variable {n : Nat} {W : Mat Rat}

/-- What is computed before the loop. -/
structure LvCtx (n : Nat) (W : Mat Rat) (A : Lil Rat) (k : BVec Rat) (m : Rat) (mask : BVec Bool) : Prop where
  shA : Sh n n A
  getA : ∀ i j, i < n → j < n → A.get i j = either (· + ·) id id (W i j) (W j i)
  szk : Sz n k
  kv : ∀ i, i < n → (k.get i).getD 0 = outWeight n W i
  kn : ∀ i, i < n → (k.get i ≠ none ↔ HasOut n W i)
  hm : m = allWeight n W / 2
  szm : Sz n mask
  all : ∀ i, i < n → mask.get i = some true

theorem colV_ok {w : BVec Rat} {A : Lil Rat} {i : Nat} (hw : Sz n w) (hA : Sh n n A) (hi : i < n) :
    ∃ w', exec (extractC (vPlain id w) (.plain A) .all i) = .ok w' ∧ Sz n w' ∧ ∀ v, v < n → w'.get v = A.get v i := by
  obtain ⟨w', e, y⟩ := C18_extract_column (o := vPlain id w) (A := .plain A) (ri := .all) (j := i)
    (vPlain_wf hw.wf) hA.wf (vPlain_fits _) rfl trivial (by show i < A.ncols; rw [hA.nc]; exact hi)
  obtain ⟨h1, h2⟩ := vP_yields hw y
  refine ⟨w', by rw [e, exec_done], h1, fun v hv => ?_⟩
  rw [h2 v hv, Option.map_id, id]
  show Spec.extract A.nrows Option.none (fun k => A.get k i) v = _
  rw [hA.nr]
  simp [Spec.extract, Spec.nth, hv]

theorem accApply_ok {w u : BVec Rat} {f : Rat → Rat} (hw : Sz n w) (hu : Sz n u) :
    ∃ w', exec (applyV { w := w, m := (none : VMask Bool), truthy := id, acc := .some (· + ·) id id, castZ := id, outp := .merge } f u)
        = .ok w' ∧ Sz n w' ∧ ∀ i, i < n → w'.get i = either (· + ·) id id (w.get i) ((u.get i).map f) := by
  obtain ⟨w', e, y⟩ := C15_apply_vector
    (o := { w := w, m := (none : VMask Bool), truthy := id, acc := .some (· + ·) id id, castZ := id, outp := .merge })
    (f := f) (u := u) ⟨hw.wf, noMaskOK⟩ hu.wf ⟨noMaskFits, hw.sz.trans hu.sz.symm⟩
  refine ⟨w', by rw [e, exec_done], ⟨y.wf, y.size.trans hw.sz⟩, fun i hi => ?_⟩
  rw [y.get i (by show i < w.size; rw [hw.sz]; exact hi)]
  simp only [VMask.allows, Spec.write, Spec.accum, if_true]
  cases w.get i <;> cases u.get i <;> rfl

theorem either_getD (a b : Option Rat) : (either (· + ·) id id a b).getD 0 = a.getD 0 + b.getD 0 := by
  cases a <;> cases b <;> simp [either, Rat.zero_add, Rat.add_zero]

theorem either_ne (a b : Option Rat) : either (· + ·) id id a b ≠ none ↔ a ≠ none ∨ b ≠ none := by
  cases a <;> cases b <;> simp [either]

theorem lvWeights_ok {A : Lil Rat} {k : BVec Rat} {m : Rat} {mask : BVec Bool} (h : LvCtx n W A k m mask) (masked : Bool)
    {i : Nat} (hi : i < n) (hk : k.get i ≠ none) {v : BVec Rat} (hv : Sz n v) :
    ∃ v', lvWeights masked A k m i v = .ok v' ∧ Sz n v' ∧
      (∀ j, j < n → (v'.get j).getD 0 = pairSum n W i j) ∧
      (∀ j, j < n → (v'.get j ≠ none ↔ HasOut n W j ∨ W i j ≠ none ∨ W j i ≠ none)) := by
  have h1 : ∃ v1, exec (extractC (vPlain id v) (if masked then .tr A else .plain A) .all i) = .ok v1 ∧
      Sz n v1 ∧ (∀ j, j < n → (v1.get j).getD 0 = (W i j).getD 0 + (W j i).getD 0) ∧
      (∀ j, j < n → (v1.get j ≠ none ↔ W i j ≠ none ∨ W j i ≠ none)) := by
    cases masked with
    | true =>
      obtain ⟨v1, e, z, g⟩ := rowV_ok (cz := id) hv h.shA hi
      refine ⟨v1, by rw [if_pos rfl]; exact e, z, fun j hj => ?_, fun j hj => ?_⟩
      · rw [g j hj, h.getA i j hi hj, Option.map_id, id, either_getD]
      · rw [g j hj, h.getA i j hi hj, Option.map_id, id, either_ne]
    | false =>
      obtain ⟨v1, e, z, g⟩ := colV_ok hv h.shA hi
      refine ⟨v1, by rw [if_neg (by decide)]; exact e, z, fun j hj => ?_, fun j hj => ?_⟩
      · rw [g j hj, h.getA j i hj hi, either_getD, Rat.add_comm]
      · rw [g j hj, h.getA j i hj hi, either_ne]
        exact Or.comm
  obtain ⟨v1, e1, z1, g1, n1⟩ := h1
  obtain ⟨x, hx⟩ := Option.ne_none_iff_exists'.1 hk
  have e2 := BVec.extractElement_spec h.szk.wf (by rw [h.szk.sz]; exact hi) hx
  have hxo : x = outWeight n W i := by
    have := h.kv i hi
    rw [hx] at this
    exact this
  obtain ⟨v2, e3, z3, g3⟩ := accApply_ok (f := fun y => y * (-x / m)) z1 h.szk
  refine ⟨v2, ?_, z3, fun j hj => ?_, fun j hj => ?_⟩
  · unfold lvWeights
    rw [e1, prog_bind_ok, e2, lift_ok, prog_bind_ok, e3]
  · rw [g3 j hj, either_getD, g1 j hj]
    have hkj : ((k.get j).map fun y => y * (-x / m)).getD 0 = outWeight n W j * (-x / m) := by
      rw [← h.kv j hj]
      cases k.get j with
      | none => simp [Rat.zero_mul]
      | some y => rfl
    rw [hkj, h.hm, hxo]
    unfold pairSum pairWeight
    have : ∀ a b p q M : Rat, a + b + q * (-p / (M / 2)) = a - p * q / M + (b - q * p / M) := by
      intro a b p q M
      rw [Rat.div_def, Rat.div_def, Rat.div_def, Rat.div_def]
      have h2 : (M * (2 : Rat)⁻¹)⁻¹ = M⁻¹ * 2 := by
        by_cases hM : M = 0
        · subst hM; decide +kernel
        · grind
      rw [h2]
      grind
    exact this _ _ _ _ _
  · rw [g3 j hj, either_ne, n1 j hj]
    have : ((k.get j).map fun y => y * (-x / m)) ≠ none ↔ HasOut n W j := by
      rw [← h.kn j hj]
      cases k.get j <;> simp
    rw [this]
    exact Or.comm

/-- `S` is the matrix of the clustering `a`: row `i` has a true element in the column of the
cluster of `i`, and no other element. -/
structure LvRows (n : Nat) (S : Lil Bool) (a : Nat → Nat) : Prop where
  sh : Sh n n S
  get : ∀ i c, i < n → c < n → S.get i c = if c = a i then some true else none
  lt : ∀ i, i < n → a i < n

/-- The matrix without row `i`. -/
structure LvRowsBut (n i : Nat) (S : Lil Bool) (a : Nat → Nat) : Prop where
  sh : Sh n n S
  get : ∀ j c, j < n → c < n → S.get j c = if j ≠ i ∧ a j = c then some true else none

theorem lvClear_ok {S : Lil Bool} {a : Nat → Nat} {mask : BVec Bool} {i : Nat} (hS : LvRows n S a) (hm : Sz n mask)
    (hall : ∀ i, i < n → mask.get i = some true) (hi : i < n) :
    ∃ Mask S', lvSetRow (Lil.new n n) mask i = .ok Mask ∧ exec (applyM (mMasked S .comp id Mask) id (.plain S)) = .ok S' ∧
      LvRowsBut n i S' a := by
  obtain ⟨M, e1, z1, g1⟩ := setRow_ok (C := Lil.new n n) (by omega) (Sh.new n n) hm hi
  obtain ⟨S', e2, y⟩ := C15_apply_matrix (o := mMasked S .comp id M) (f := id) (A := .plain S)
    ⟨hS.sh.wf, maskOKM z1.wf⟩ hS.sh.wf
    ⟨maskFitsM (z1.nr.trans hS.sh.nr.symm) (z1.nc.trans hS.sh.nc.symm), rfl, rfl⟩
  obtain ⟨z2, g2⟩ := masked_yields hS.sh y
  refine ⟨M, S', e1, by rw [e2, exec_done], z2, fun j c hj hc => ?_⟩
  rw [g2 j c hj hc, g1 j c hj hc, Option.map_id, id]
  show (if _ then S.get j c else none) = _
  rw [hS.get j c hj hc]
  by_cases hji : j = i
  · simp [hji, Spec.allows, hall c hc]
  · simp [hji, Spec.allows, Lil.get_new, eq_comm]

theorem lvTerm_ne {v : Option Rat} {S : Option Bool} : both (fun x s => x * b2r s) v S ≠ none ↔ v ≠ none ∧ S ≠ none := by
  cases v <;> cases S <;> simp [both]

theorem lvProd_ok {S : Lil Bool} {a : Nat → Nat} {i : Nat} {v : BVec Rat} (hS : LvRowsBut n i S a)
    (hv : ∀ j, j < n → (v.get j).getD 0 = pairSum n W i j) {c : Nat} (hc : c < n) :
    osum (· + ·) ((List.range n).map fun j => both (fun x s => x * b2r s) (v.get j) (S.get j c)) =
      (open Classical in if ∃ j, j < n ∧ j ≠ i ∧ v.get j ≠ none ∧ a j = c then some (gain n W a i c) else none) := by
  classical
  by_cases h : ∃ j, j < n ∧ j ≠ i ∧ v.get j ≠ none ∧ a j = c
  · rw [if_pos h, osum_ratS, sumOf_eq]
    · unfold gain
      refine congrArg some (rsum_congr fun j hj => ?_)
      rw [hS.get j c hj hc, ← hv j hj]
      by_cases hjc : j ≠ i ∧ a j = c
      · rw [if_pos hjc, if_pos hjc]
        cases v.get j <;> simp [both, b2r, Rat.mul_one]
      · rw [if_neg hjc, if_neg hjc]
        cases v.get j <;> simp [both]
    · obtain ⟨j, hj, h1, h2, h3⟩ := h
      refine ⟨j, hj, lvTerm_ne.2 ⟨h2, ?_⟩⟩
      rw [hS.get j c hj hc, if_pos ⟨h1, h3⟩]
      simp
  · rw [if_neg h]
    refine osum_range_none.2 fun j hj => ?_
    refine Classical.byContradiction fun hne => h ?_
    obtain ⟨h1, h2⟩ := lvTerm_ne.1 hne
    rw [hS.get j c hj hc] at h2
    by_cases hjc : j ≠ i ∧ a j = c
    · exact ⟨j, hj, hjc.1, h1, hjc.2⟩
    · rw [if_neg hjc] at h2; exact absurd rfl h2

theorem vxmP_ok {γ : Type} {α : Type} {w : BVec γ} {u : BVec γ} {A : Lil α} {sr : SR γ α γ} (hw : Sz n w) (hu : Sz n u) (hA : Sh n n A) :
    ∃ w', exec (vxm (vPlain id w) sr u (.plain A)) = .ok w' ∧ Sz n w' ∧
      ∀ v, v < n → w'.get v = osum sr.add ((List.range n).map fun i => both sr.mult (u.get i) (A.get i v)) := by
  obtain ⟨w', e, y⟩ := C11_vxm (o := vPlain id w) (sr := sr) (u := u) (A := .plain A)
    (vPlain_wf hw.wf) hu.wf hA.wf ⟨vPlain_fits _, hw.sz.trans hA.nc.symm, hu.sz.trans hA.nr.symm⟩
  obtain ⟨h1, h2⟩ := vP_yields hw y
  refine ⟨w', by rw [e, exec_done], h1, fun v hv => ?_⟩
  rw [h2 v hv, Option.map_id, id, hu.sz]
  rfl

theorem vxmM_ok {w : BVec Rat} {u : BVec Rat} {M : BVec Bool} {A : Lil Bool} {sr : SR Rat Bool Rat} (hw : Sz n w) (hM : Sz n M)
    (hu : Sz n u) (hA : Sh n n A) :
    ∃ w', exec (vxm (vMasked id w .plain id M .replace) sr u (.plain A)) = .ok w' ∧ Sz n w' ∧
      ∀ v, v < n → w'.get v = if (M.get v).any id = true then
        osum sr.add ((List.range n).map fun i => both sr.mult (u.get i) (A.get i v)) else none := by
  obtain ⟨w', e, y⟩ := C11_vxm (o := vMasked id w .plain id M .replace) (sr := sr) (u := u) (A := .plain A)
    (vM_wf hw hM) hu.wf hA.wf ⟨vM_fits hw hM, hw.sz.trans hA.nc.symm, hu.sz.trans hA.nr.symm⟩
  obtain ⟨h1, h2⟩ := vM_yields hw y
  refine ⟨w', by rw [e, exec_done], h1, fun v hv => ?_⟩
  rw [h2 v hv, hu.sz]
  rfl

theorem osum_or {m : Nat} (f : Nat → Option Bool) :
    osum (· || ·) ((List.range m).map f) = some true ↔ ∃ j, j < m ∧ f j = some true := by
  induction m with
  | zero => constructor
            · intro h; cases h
            · rintro ⟨j, hj, _⟩; omega
  | succ m ih =>
    rw [List.range_succ, List.map_append, List.map_cons, List.map_nil, osum_append]
    constructor
    · intro h
      by_cases hl : osum (· || ·) ((List.range m).map f) = some true
      · obtain ⟨j, hj, e⟩ := ih.1 hl
        exact ⟨j, by omega, e⟩
      · refine ⟨m, by omega, ?_⟩
        generalize osum (· || ·) ((List.range m).map f) = x at h hl
        cases hf : f m with
        | none => simp [hf] at h; cases x <;> simp_all
        | some b => cases b <;> cases x <;> simp_all [osum]
    · rintro ⟨j, hj, e⟩
      rcases Nat.lt_or_ge j m with h | h
      · rw [ih.2 ⟨j, h, e⟩]
        cases f m <;> simp
      · rw [show m = j by omega, e]
        generalize osum (· || ·) ((List.range j).map f) = x
        cases x <;> simp

theorem lvScores_ok {A : Lil Rat} {k : BVec Rat} {m : Rat} {mask : BVec Bool} (h : LvCtx n W A k m mask) (masked : Bool)
    {i : Nat} (hi : i < n) {S : Lil Bool} {a : Nat → Nat} {v q : BVec Rat} {qm : BVec Bool}
    (hS : LvRowsBut n i S a) (hv : Sz n v) (hq : Sz n q) (hqm : Sz n qm)
    (hv1 : ∀ j, j < n → (v.get j).getD 0 = pairSum n W i j)
    (hv2 : ∀ j, j < n → (v.get j ≠ none ↔ HasOut n W j ∨ W i j ≠ none ∨ W j i ≠ none)) :
    ∃ mq, lvScores masked A S i v qm q = .ok mq ∧ Sz n mq.1 ∧ Sz n mq.2 ∧
      ∀ c, c < n → (Considered masked n W a i c → mq.2.get c = some (gain n W a i c)) ∧
        (¬ Considered masked n W a i c → mq.2.get c = none) := by
  classical
  cases masked with
  | false =>
    obtain ⟨q', e, z, g⟩ := vxmP_ok (sr := (⟨(· + ·), fun x s => x * b2r s, fun s x => b2r s * x⟩ : SR Rat Bool Rat)) hq hv hS.sh
    refine ⟨(qm, q'), ?_, hqm, z, fun c hc => ?_⟩
    · unfold lvScores
      rw [if_neg (by decide), e, prog_bind_ok]
    · dsimp only at g ⊢
      rw [g c hc, lvProd_ok hS hv1 hc]
      have : (∃ j, j < n ∧ j ≠ i ∧ v.get j ≠ none ∧ a j = c) ↔ Considered false n W a i c := by
        unfold Considered Eligible
        constructor
        · rintro ⟨j, hj, h1, h2, h3⟩; exact ⟨j, hj, h1, (hv2 j hj).1 h2, h3⟩
        · rintro ⟨j, hj, h1, h2, h3⟩; exact ⟨j, hj, h1, (hv2 j hj).2 h2, h3⟩
      exact ⟨fun hcd => if_pos (this.2 hcd), fun hcd => if_neg (fun h => hcd (this.1 h))⟩
  | true =>
    obtain ⟨m1, e1, z1, g1⟩ := rowV_ok (cz := fun x : Rat => x != 0) hqm h.shA hi
    obtain ⟨m2, e2, z2, g2⟩ := vxmP_ok (sr := (⟨(· || ·), (· && ·), (· && ·)⟩ : SR Bool Bool Bool)) z1 z1 hS.sh
    obtain ⟨q', e3, z3, g3⟩ := vxmM_ok (sr := (⟨(· + ·), fun x s => x * b2r s, fun s x => b2r s * x⟩ : SR Rat Bool Rat)) hq z2 hv hS.sh
    refine ⟨(m2, q'), ?_, z2, z3, fun c hc => ?_⟩
    · unfold lvScores
      rw [if_pos rfl, e1, prog_bind_ok, e2, prog_bind_ok, e3, prog_bind_ok]
    · dsimp only at g2 g3 ⊢
      have hm2 : (m2.get c).any id = true ↔ Considered true n W a i c := by
        rw [show (m2.get c).any id = true ↔ m2.get c = some true by cases m2.get c <;> simp, g2 c hc, osum_or]
        unfold Considered Eligible
        have hterm : ∀ j, j < n → (both (· && ·) (m1.get j) (S.get j c) = some true ↔
            j ≠ i ∧ (W i j).getD 0 + (W j i).getD 0 ≠ 0 ∧ a j = c) := by
          intro j hj
          rw [g1 j hj, h.getA i j hi hj, hS.get j c hj hc, ← either_getD]
          by_cases hjc : j ≠ i ∧ a j = c
          · rw [if_pos hjc]
            cases either (· + ·) id id (W i j) (W j i) with
            | none => simp [both]
            | some x => simp [both, hjc.1, hjc.2]
          · rw [if_neg hjc]
            constructor
            · intro hb
              cases either (· + ·) id id (W i j) (W j i) <;> simp [both] at hb
            · rintro ⟨h1, -, h3⟩; exact absurd ⟨h1, h3⟩ hjc
        constructor
        · rintro ⟨j, hj, hb⟩; exact ⟨j, hj, (hterm j hj).1 hb⟩
        · rintro ⟨j, hj, hb⟩; exact ⟨j, hj, (hterm j hj).2 hb⟩
      rw [g3 c hc]
      refine ⟨fun hcd => ?_, fun hcd => if_neg (fun h => hcd (hm2.1 h))⟩
      rw [if_pos (hm2.2 hcd), lvProd_ok hS hv1 hc]
      refine if_pos ?_
      obtain ⟨j, hj, h1, h2, h3⟩ := hcd
      refine ⟨j, hj, h1, (hv2 j hj).2 (.inr ?_), h3⟩
      unfold Eligible at h2
      dsimp only at h2
      refine (either_ne _ _).1 fun hn => h2 ?_
      rw [← either_getD, hn]
      rfl

/-- The clusters for which the modularity is greatest. -/
def Best (masked : Bool) (n : Nat) (W : Mat Rat) (a : Nat → Nat) (i c : Nat) : Prop :=
  Considered masked n W a i c ∧
    ∀ c', Considered masked n W a i c' → modularity n W (moveTo a i c') ≤ modularity n W (moveTo a i c)

theorem _root_.Spec.Considered.lt {masked : Bool} {a : Nat → Nat} {i c : Nat} (h : Considered masked n W a i c)
    (ha : ∀ i, i < n → a i < n) : c < n := by
  obtain ⟨j, hj, -, -, rfl⟩ := h
  exact ha j hj

/-- The state of the loop for the clustering `a`. -/
structure LvInv (n : Nat) (a : Nat → Nat) (s : LvSt) : Prop where
  rows : LvRows n s.S a
  row : Sz n s.row
  v : Sz n s.v
  qm : Sz n s.qm
  q : Sz n s.q
  t : Sz n s.t

theorem LvSt.fresh_ok {masked : Bool} {a : Nat → Nat} {s : LvSt} (hn : 0 < n) (h : LvInv n a s) :
    ∃ s', s.fresh masked n = .ok s' ∧ LvInv n a s' ∧ s'.changed = s.changed ∧ s'.draws = s.draws := by
  cases masked with
  | true => exact ⟨s, rfl, h, rfl, rfl⟩
  | false =>
    obtain ⟨v, e1, z1, -⟩ := newV (τ := Rat) hn
    obtain ⟨t, e2, z2, -⟩ := newV (τ := Bool) hn
    refine ⟨{ s with v := v, q := v, t := t }, ?_, ⟨h.rows, h.row, z1, h.qm, z1, z2⟩, rfl, rfl⟩
    unfold LvSt.fresh
    rw [if_neg (by decide), e1, lift_ok, prog_bind_ok, prog_bind_ok, e2, lift_ok, prog_bind_ok]

/-- The move of a vertex, up to the breaking of ties. -/
theorem lvVertex_ok {A : Lil Rat} {k : BVec Rat} {m : Rat} {mask : BVec Bool} (h : LvCtx n W A k m mask) (masked : Bool)
    {rnd : Nat → Rat} {fuel : Nat} {i : Nat} (hi : i < n) {a : Nat → Nat} {s : LvSt} (hs : LvInv n a s) (ho : HasOut n W i)
    (hpos : 0 < allWeight n W) :
    ∃ t0, IsSet n t0 (Best masked n W a i) ∧
      (∀ e, lvTies rnd n fuel { t := t0, draws := s.draws } = .error e → lvVertex masked rnd fuel n A k m mask i s = .error e) ∧
      (∀ r c, lvTies rnd n fuel { t := t0, draws := s.draws } = .ok r → c < n → (IsSet n r.t fun c' => c' = c) →
        ∃ s', lvVertex masked rnd fuel n A k m mask i s = .ok s' ∧ LvInv n (moveTo a i c) s' ∧
          (s'.changed = true ↔ s.changed = true ∨ c ≠ a i)) := by
  have hn : 0 < n := by omega
  have hki : k.get i ≠ none := (h.kn i hi).2 ho
  have e0 : k.hasElement i = .ok true := by
    rw [BVec.hasElement_spec h.szk.wf (by rw [h.szk.sz]; exact hi)]
    cases hk : k.get i with
    | none => exact absurd hk hki
    | some x => rfl
  obtain ⟨row, e1, z1, g1⟩ := rowV_ok (cz := id) hs.row hs.rows.sh hi
  obtain ⟨Mask, S1, e2, e3, hS1⟩ := lvClear_ok hs.rows h.szm h.all hi
  obtain ⟨v, e4, z4, g4, n4⟩ := lvWeights_ok h masked hi hki hs.v
  obtain ⟨mq, e5, z5, z6, g5⟩ := lvScores_ok h masked hi hS1 z4 hs.q hs.qm g4 n4
  obtain ⟨kappa, t0, e6, e7, hset⟩ := lvBest_ok hs.t z6
  have hset' : IsSet n t0 (Best masked n W a i) := by
    refine hset.congr fun c hc => ?_
    constructor
    · rintro ⟨x, hx, hmax⟩
      have hcd : Considered masked n W a i c := Classical.byContradiction fun hcd => by
        rw [(g5 c hc).2 hcd] at hx; cases hx
      refine ⟨hcd, fun c' hcd' => ?_⟩
      have hc' := hcd'.lt hs.rows.lt
      rw [modularity_le_iff hi hpos]
      have h1 := (g5 c hc).1 hcd
      rw [hx] at h1
      injection h1 with h1
      have h2 := hmax c' hc' _ ((g5 c' hc').1 hcd')
      rw [h1] at h2
      exact h2
    · rintro ⟨hcd, hb⟩
      refine ⟨_, (g5 c hc).1 hcd, fun c' hc' y hy => ?_⟩
      have hcd' : Considered masked n W a i c' := Classical.byContradiction fun hcd' => by
        rw [(g5 c' hc').2 hcd'] at hy; cases hy
      rw [(g5 c' hc').1 hcd'] at hy
      injection hy with hy
      rw [← hy, ← modularity_le_iff hi hpos]
      exact hb c' hcd'
  refine ⟨t0, hset', fun e he => ?_, fun r c he hc hr => ?_⟩
  · unfold lvVertex
    rw [e0, lift_ok, prog_bind_ok, if_pos rfl, e1, prog_bind_ok, e2, prog_bind_ok, e3, prog_bind_ok, e4, prog_bind_ok, e5,
      prog_bind_ok, e6, prog_bind_ok, e7, prog_bind_ok, he]
    rfl
  · obtain ⟨S2, e8, z8, g8⟩ := setRow_ok hn hS1.sh hr.sz hi
    obtain ⟨same, e9, h9⟩ := C06_vector_eq r.t row hr.sz.wf z1.wf
    refine ⟨{ S := S2, row := row, v := v, qm := mq.1, q := mq.2, t := r.t, draws := r.draws, changed := s.changed || !same }, ?_,
      ⟨⟨z8, fun j d hj hd => ?_, fun j hj => ?_⟩, z1, z4, z5, z6, hr.sz⟩, ?_⟩
    · unfold lvVertex
      rw [e0, lift_ok, prog_bind_ok, if_pos rfl, e1, prog_bind_ok, e2, prog_bind_ok, e3, prog_bind_ok, e4, prog_bind_ok, e5,
        prog_bind_ok, e6, prog_bind_ok, e7, prog_bind_ok, he, prog_bind_ok]
      unfold lvSetRow
      rw [e8, prog_bind_ok, e9, lift_ok, prog_bind_ok]
    · dsimp only
      rw [g8 j d hj hd]
      by_cases hji : j = i
      · rw [if_pos hji]
        simp only [moveTo, if_pos hji]
        by_cases hdc : d = c
        · rw [if_pos hdc, hr.yes d hd hdc]
        · rw [if_neg hdc, hr.no d hd hdc]
      · rw [if_neg hji, hS1.get j d hj hd]
        simp [moveTo, hji, eq_comm]
    · simp only [moveTo]
      split
      · exact hc
      · exact hs.rows.lt j hj
    · dsimp only
      have hsame : same = true ↔ c = a i := by
        rw [h9]
        constructor
        · rintro ⟨-, hg⟩
          have h1 := hg c
          rw [hr.yes c hc rfl, g1 c hc, hs.rows.get i c hi hc] at h1
          by_cases hca : c = a i
          · exact hca
          · rw [if_neg hca] at h1; cases h1
        · rintro rfl
          refine ⟨hr.sz.sz.trans z1.sz.symm, fun d => ?_⟩
          by_cases hd : d < n
          · rw [g1 d hd, hs.rows.get i d hi hd, Option.map_id, id]
            by_cases hda : d = a i
            · rw [if_pos hda, hr.yes d hd hda]
            · rw [if_neg hda, hr.no d hd hda]
          · rw [hr.sz.out hd, z1.out hd]
      cases same <;> cases hch : s.changed <;> simp_all

end GBTL

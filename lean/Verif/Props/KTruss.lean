import Verif.Model.KTruss
import Verif.Props.Triangle
/-
C39: k-trusses.
-/
namespace GBTL
open Spec

theorem commonNbrs_eq (n : Nat) (F : Nat → Nat → Bool) (i j : Nat) :
    commonNbrs n F i j = sumTo n fun k => ind (F i k) * ind (F k j) := by
  unfold commonNbrs
  rw [← List.countP_eq_length_filter]
  induction n with
  | zero => rfl
  | succ n ih =>
    rw [List.range_succ, List.countP_append, ih, sumTo, List.countP_singleton, ← ind_and]
    rfl

/-- The number of common neighbours grows with the graph. -/
theorem commonNbrs_mono {n : Nat} {F G : Nat → Nat → Bool} (h : ∀ i j, F i j = true → G i j = true) (i j : Nat) :
    commonNbrs n F i j ≤ commonNbrs n G i j := by
  rw [commonNbrs_eq, commonNbrs_eq]
  refine sumTo_mono fun k _ => ?_
  rw [← ind_and, ← ind_and]
  cases h1 : F i k <;> cases h2 : F k j
  · exact Nat.zero_le _
  · exact Nat.zero_le _
  · exact Nat.zero_le _
  · rw [h _ _ h1, h _ _ h2]; exact Nat.le_refl _

/-- A matrix whose elements are among those of another and as many has the same
elements. -/
theorem same_of_nvals {α β : Type} {A : Lil α} {B : Lil β} (hA : A.WF) (hB : B.WF) (hr : A.nrows = B.nrows)
    (hc : A.ncols = B.ncols) (h : ∀ i j, (A.get i j).isSome → (B.get i j).isSome) :
    A.nvals ≤ B.nvals ∧ (A.nvals = B.nvals → ∀ i j, (B.get i j).isSome → (A.get i j).isSome) := by
  have key : ∀ m, ((List.range m).map fun i => Vec.count A.ncols (A.get i)).sum ≤
      ((List.range m).map fun i => Vec.count A.ncols (B.get i)).sum ∧
      (((List.range m).map fun i => Vec.count A.ncols (A.get i)).sum =
      ((List.range m).map fun i => Vec.count A.ncols (B.get i)).sum →
        ∀ i, i < m → Vec.count A.ncols (A.get i) = Vec.count A.ncols (B.get i)) := by
    intro m
    induction m with
    | zero => exact ⟨Nat.le_refl _, fun _ i hi => by omega⟩
    | succ m ih =>
      have hm : Vec.count A.ncols (A.get m) ≤ Vec.count A.ncols (B.get m) := count_mono fun j _ => h m j
      simp only [List.range_succ, List.map_append, List.sum_append, List.map_cons, List.map_nil, List.sum_cons,
        List.sum_nil]
      refine ⟨by omega, ?_⟩
      intro he i hi
      rcases Nat.lt_or_ge i m with h' | h'
      · exact ih.2 (by omega) i h'
      · have : i = m := by omega
        subst this; omega
  have hA' := hA.nvals_eq
  have hB' := hB.nvals_eq
  rw [← hr, ← hc] at hB'
  unfold Mat.count at hA' hB'
  rw [hA', hB']
  refine ⟨(key A.nrows).1, ?_⟩
  intro he i j hb
  have hlt := some_lt hB (i := i) (j := j) (by intro h'; rw [h'] at hb; cases hb)
  rw [← hr, ← hc] at hlt
  have hi := (key A.nrows).2 he i hlt.1
  cases hg : A.get i j with
  | some x => rfl
  | none =>
    have := count_lt (fun j _ => h i j) hlt.2 hg hb
    omega

/-- The edges kept by one round. -/
def trim (n k : Nat) (F : Nat → Nat → Bool) (i j : Nat) : Bool := F i j && decide (k ≤ commonNbrs n F i j + 2)

variable {n : Nat} {t : ITy} {ov : Int → Int → Int}

theorem ITy.max_le_u64 (t : ITy) : t.maxVal ≤ ITy.maxVal .u64 := by cases t <;> decide

/-- Without triangles on it an edge gets no support, if no zero is stored. -/
theorem commonNbrs_pos {F : Nat → Nat → Bool} {A : Lil Int} {i j : Nat} {y : Int} (hF : ∀ i j, F i j = F j i)
    (hA : Is01 n F A) (hz : ∀ i j, A.get i j ≠ some 0)
    (h : Spec.mxm A.nrows (arithT t ov).add (arithT t ov).mult (Spec.Mat.tr A.get) A.get i j = some y) :
    0 < commonNbrs n F i j := by
  apply Nat.pos_of_ne_zero
  intro h0
  have hnone : Spec.mxm A.nrows (arithT t ov).add (arithT t ov).mult (Spec.Mat.tr A.get) A.get i j = none := by
    refine osum_none _ _ _ ?_
    intro k hk
    have hk := List.mem_range.1 hk
    rw [hA.nrows] at hk
    have hone : ∀ i j x, A.get i j = some x → F i j = true := by
      intro i j x hx
      rcases hA.vals i j x hx with rfl | rfl
      · exact absurd hx (hz i j)
      · exact (hA.one i j).1 hx
    show both (t.timesT ov) (A.get k i) (A.get k j) = none
    cases h1 : A.get k i with
    | none => rfl
    | some a =>
      cases h2 : A.get k j with
      | none => rfl
      | some b =>
        have := List.filter_eq_nil_iff.1 (List.length_eq_zero_iff.1 h0) k (List.mem_range.2 hk)
        rw [hF i k, hone k i a h1, hone k j b h2] at this
        exact absurd rfl this
  rw [hnone] at h; cases h

/-- `k_truss2` with the argument `k` keeps the edges in at least `e - 2` triangles. A
support of zero is stored only if zeros are, and `z` says that it is treated right. -/
structure Keeps (t : ITy) (n k e : Nat) (z : Prop) : Prop where
  three : 3 ≤ e
  test : ∀ m : Nat, m ≤ n → z ∨ 0 < m → supportMinTest t (sub2 k) m = decide (e ≤ m + 2)

/-- One round of `k_truss2`. -/
theorem trussBody_spec {k e : Nat} {z : Prop} {F : Nat → Nat → Bool} {s : TrussSt} (hF : ∀ i j, F i j = F j i)
    (hA : Is01 n F s.A) (m1 : s.mask.WF) (m2 : s.mask.nrows = n) (m3 : s.mask.ncols = n)
    (u1 : s.support.WF) (u2 : s.support.nrows = n) (u3 : s.support.ncols = n)
    (hn : (n : Int) ≤ t.maxVal) (hk : Keeps t n k e z) (hz : z ∨ ∀ i j, s.A.get i j ≠ some 0) :
    ∃ s', trussBody t ov k s = .ok s' ∧ Is01 n (trim n e F) s'.A ∧ s'.mask.WF ∧ s'.mask.nrows = n ∧
      s'.mask.ncols = n ∧ s'.support.WF ∧ s'.support.nrows = n ∧ s'.support.ncols = n ∧
      s'.numEdges = s.newNumEdges ∧ s'.newNumEdges = s'.A.nvals ∧
      ∀ i j x, s'.A.get i j = some x → s.A.get i j = some x := by
  have hmax := t.max_le_u64
  have he3 := hk.three
  obtain ⟨S, e1, y1⟩ := C10_mxm_ATB (o := supportOut s) (sr := arithT t ov) (via := id) (A := s.A) (B := s.A)
    ⟨u1, fun _ _ h => by cases h; exact hA.wf⟩ hA.wf hA.wf
    ⟨fun _ _ h => by cases h; exact ⟨by show s.A.nrows = s.support.nrows; rw [hA.nrows, u2],
        by show s.A.ncols = s.support.ncols; rw [hA.ncols, u3]⟩,
      by show s.support.nrows = s.A.ncols; rw [u2, hA.ncols], by show s.support.ncols = s.A.ncols; rw [u3, hA.ncols],
      rfl⟩
  have S2 : S.nrows = n := y1.nrows.trans u2
  have S3 : S.ncols = n := y1.ncols.trans u3
  have hT : ∀ i j, Val (Spec.mxm s.A.nrows (arithT t ov).add (arithT t ov).mult (Spec.Mat.tr s.A.get) s.A.get i j)
      (commonNbrs n F i j) := by
    intro i j
    rw [commonNbrs_eq]
    show Val (osum (t.plusT ov) ((List.range s.A.nrows).map fun k => both (t.timesT ov) (s.A.get k i) (s.A.get k j))) _
    rw [hA.nrows]
    refine val_mxm t ov (fun k => ?_) (fun k => hA.val k j) hn
    rw [hF i k]; exact hA.val k i
  have hcn : ∀ i j, commonNbrs n F i j ≤ n := by
    intro i j
    rw [commonNbrs_eq]
    exact wedges_le (p := F i) (q := fun k => F k j)
  -- the stored supports
  have hS : ∀ i j, i < n → j < n → (∀ x, S.get i j = some x →
        x = commonNbrs n F i j ∧ F i j = true ∧ (z ∨ 0 < commonNbrs n F i j)) ∧
      (F i j = true → 0 < commonNbrs n F i j → S.get i j = some (commonNbrs n F i j : Int)) := by
    intro i j hi hj
    have hget := y1.get i j (by show i < s.support.nrows; omega) (by show j < s.support.ncols; omega)
    have hT := hT i j
    rw [hget]
    have hval := hA.one i j
    cases hg : s.A.get i j with
    | none =>
      have hFf : F i j = false := by
        cases hp : F i j with
        | false => rfl
        | true => rw [hval.2 hp] at hg; cases hg
      simp [supportOut, MMask.allows, Spec.write, Spec.allows, hg, hFf]
    | some x =>
      rcases hA.vals i j x hg with rfl | rfl
      · have hFf : F i j = false := by
          cases hp : F i j with
          | false => rfl
          | true => rw [hval.2 hp] at hg; cases hg
        simp [supportOut, MMask.allows, Spec.write, Spec.allows, hg, hFf, isTrue]
      · have hFt : F i j = true := hval.1 hg
        have hc : ITy.conv .u64 (commonNbrs n F i j : Int) = commonNbrs n F i j := by
          refine ITy.conv_id (ITy.has_nn (by omega) ?_)
          have := hcn i j
          omega
        simp only [supportOut, MMask.allows, Spec.write, Spec.allows, hg, isTrue, Option.any, Spec.accum,
          Option.map_id]
        rw [if_pos (by decide)]
        cases ho : Spec.mxm s.A.nrows (arithT t ov).add (arithT t ov).mult (Spec.Mat.tr s.A.get) s.A.get i j with
        | none =>
          rw [ho] at hT
          have := Val.none.1 hT
          exact ⟨(by intro x h; cases h), (by intro _ h; omega)⟩
        | some y =>
          rw [ho] at hT
          have hy : y = commonNbrs n F i j := hT
          subst hy
          refine ⟨?_, fun _ _ => ?_⟩
          · intro x h
            have h : some (ITy.conv .u64 (commonNbrs n F i j : Int)) = some x := h
            rw [hc] at h; cases h
            exact ⟨rfl, hFt, hz.imp_right fun hz => commonNbrs_pos hF hA hz ho⟩
          · show some (ITy.conv .u64 (commonNbrs n F i j : Int)) = _
            rw [hc]
  obtain ⟨M, e2, y2⟩ := C15_apply_matrix (o := maskOut s.mask) (f := supportMinTest t (sub2 k)) (A := .plain S)
    ⟨m1, noMaskOKM⟩ y1.wf ⟨noMaskFitsM, by show s.mask.ncols = S.ncols; omega, by show s.mask.nrows = S.nrows; omega⟩
  have M2 : M.nrows = n := y2.nrows.trans m2
  have M3 : M.ncols = n := y2.ncols.trans m3
  have hM : ∀ i j, i < n → j < n → (M.get i j = some true ↔ trim n e F i j = true) := by
    intro i j hi hj
    have hget := y2.get i j (by show i < s.mask.nrows; omega) (by show j < s.mask.ncols; omega)
    have hget : M.get i j = (S.get i j).map (supportMinTest t (sub2 k)) := by
      rw [hget]
      simp [maskOut, MMask.allows, Spec.write, Spec.accum, Operand.get]
    rw [hget]
    have hb := hcn i j
    constructor
    · intro h
      cases hs : S.get i j with
      | none => rw [hs] at h; cases h
      | some x =>
        rw [hs] at h
        obtain ⟨rfl, h2, h3⟩ := (hS i j hi hj).1 x hs
        have h : some (supportMinTest t (sub2 k) (commonNbrs n F i j : Int)) = some true := h
        rw [hk.test _ hb h3] at h
        replace h := Option.some.inj h
        rw [trim, h2, h]; rfl
    · intro h
      rw [trim, Bool.and_eq_true] at h
      have h2 := of_decide_eq_true h.2
      rw [(hS i j hi hj).2 h.1 (by omega)]
      show some (supportMinTest t (sub2 k) (commonNbrs n F i j : Int)) = some true
      rw [hk.test _ hb (Or.inr (by omega)), h.2]
  obtain ⟨A', e3, y3⟩ := C15_apply_matrix (o := keepEdges s.A M) (f := id) (A := .plain s.A)
    ⟨hA.wf, fun _ _ h => by cases h; exact y2.wf⟩ hA.wf
    ⟨fun _ _ h => by cases h; exact ⟨by show M.nrows = s.A.nrows; rw [M2, hA.nrows],
      by show M.ncols = s.A.ncols; rw [M3, hA.ncols]⟩, rfl, rfl⟩
  have hA' : ∀ i j, i < n → j < n → A'.get i j = if trim n e F i j then s.A.get i j else none := by
    intro i j hi hj
    have hget := y3.get i j (by show i < s.A.nrows; rw [hA.nrows]; exact hi) (by show j < s.A.ncols; rw [hA.ncols]; exact hj)
    rw [hget]
    have hm := hM i j hi hj
    cases hg : M.get i j with
    | none =>
      rw [hg] at hm
      have : ¬ trim n e F i j = true := fun h => by cases hm.2 h
      simp [keepEdges, MMask.allows, Spec.write, Spec.allows, hg, this]
    | some b =>
      rw [hg] at hm
      cases b with
      | true =>
        have : trim n e F i j = true := hm.1 rfl
        simp [keepEdges, MMask.allows, Spec.write, Spec.allows, Spec.accum, hg, this, Operand.get]
      | false =>
        have : ¬ trim n e F i j = true := fun h => by cases hm.2 h
        simp [keepEdges, MMask.allows, Spec.write, Spec.allows, hg, this]
  have a2 : A'.nrows = n := y3.nrows.trans hA.nrows
  have a3 : A'.ncols = n := y3.ncols.trans hA.ncols
  have hlt : ∀ i j x, A'.get i j = some x → i < n ∧ j < n := by
    intro i j x hx
    have := some_lt y3.wf (i := i) (j := j) (by rw [hx]; simp)
    rw [a2, a3] at this; exact this
  have hfrom : ∀ i j x, A'.get i j = some x → s.A.get i j = some x := by
    intro i j x hx
    obtain ⟨hi, hj⟩ := hlt i j x hx
    rw [hA' i j hi hj] at hx
    split at hx
    · exact hx
    · cases hx
  refine ⟨⟨A', M, S, s.newNumEdges, A'.nvals⟩, ?_, ?_, y2.wf, M2, M3, y1.wf, S2, S3, rfl, rfl, hfrom⟩
  · rw [trussBody, e1, exec_done, prog_bind_ok, e2, exec_done, prog_bind_ok, e3, exec_done, prog_bind_ok]
  · refine ⟨y3.wf, a2, a3, fun i j x hx => hA.vals i j x (hfrom i j x hx), ?_⟩
    intro i j
    constructor
    · intro hx
      obtain ⟨hi, hj⟩ := hlt i j 1 hx
      have hx : A'.get i j = some 1 := hx
      rw [hA' i j hi hj] at hx
      split at hx
      · assumption
      · cases hx
    · intro h
      have hF1 : F i j = true := by rw [trim, Bool.and_eq_true] at h; exact h.1
      have h1 := (hA.one i j).2 hF1
      have := some_lt hA.wf (i := i) (j := j) (by rw [h1]; simp)
      rw [hA.nrows, hA.ncols] at this
      show A'.get i j = some 1
      rw [hA' i j this.1 this.2, if_pos h, h1]

theorem trim_symm {k : Nat} {F : Nat → Nat → Bool} (hF : ∀ i j, F i j = F j i) (i j : Nat) :
    trim n k F i j = trim n k F j i := by
  have : commonNbrs n F i j = commonNbrs n F j i := by
    rw [commonNbrs_eq, commonNbrs_eq]
    refine sumTo_congr fun k _ => ?_
    rw [hF i k, hF k j, Nat.mul_comm]
  rw [trim, trim, hF i j, this]

theorem trim_sub {k : Nat} {F : Nat → Nat → Bool} {i j : Nat} (h : trim n k F i j = true) : F i j = true := by
  rw [trim, Bool.and_eq_true] at h; exact h.1

/-- What holds after each round. -/
structure TrussInv (n e : Nat) (z : Prop) (E : Nat → Nat → Bool) (s : TrussSt) : Prop where
  m1 : s.mask.WF
  m2 : s.mask.nrows = n
  m3 : s.mask.ncols = n
  u1 : s.support.WF
  u2 : s.support.nrows = n
  u3 : s.support.ncols = n
  le : s.newNumEdges ≤ s.numEdges
  zeros : z ∨ ∀ i j, s.A.get i j ≠ some 0
  graph : ∃ F, Is01 n F s.A ∧ (∀ i j, F i j = F j i) ∧ (∀ i j, F i j = true → E i j = true) ∧
    (∀ F', IsTruss n e E F' → ∀ i j, F' i j = true → F i j = true) ∧ s.newNumEdges = s.A.nvals ∧
    (s.newNumEdges = s.numEdges → ∀ i j, F i j = true → e ≤ commonNbrs n F i j + 2)

theorem TrussInv.next {k e : Nat} {z : Prop} {E F : Nat → Nat → Bool} {s : TrussSt} (hF : ∀ i j, F i j = F j i)
    (hA : Is01 n F s.A) (m1 : s.mask.WF) (m2 : s.mask.nrows = n) (m3 : s.mask.ncols = n)
    (u1 : s.support.WF) (u2 : s.support.nrows = n) (u3 : s.support.ncols = n)
    (hE : ∀ i j, F i j = true → E i j = true)
    (hl : ∀ F', IsTruss n e E F' → ∀ i j, F' i j = true → F i j = true) (he : s.newNumEdges = s.A.nvals)
    (hn : (n : Int) ≤ t.maxVal) (hk : Keeps t n k e z) (hz : z ∨ ∀ i j, s.A.get i j ≠ some 0) :
    ∃ s', trussBody t ov k s = .ok s' ∧ TrussInv n e z E s' ∧ s'.numEdges = s.newNumEdges := by
  obtain ⟨s', e', a1, a2, a3, a4, a5, a6, a7, a8, a9, a10⟩ := trussBody_spec (ov := ov) hF hA m1 m2 m3 u1 u2 u3 hn hk hz
  have hcount := same_of_nvals a1.wf hA.wf (by rw [a1.nrows, hA.nrows]) (by rw [a1.ncols, hA.ncols]) (by
    intro i j h
    obtain ⟨x, hx⟩ := Option.isSome_iff_exists.1 h
    rw [a10 i j x hx]; rfl)
  refine ⟨s', e', ⟨a2, a3, a4, a5, a6, a7, by rw [a8, a9, he]; exact hcount.1,
    hz.imp_right fun hz i j h => hz i j (a10 i j 0 h), trim n e F, a1, trim_symm hF,
    fun i j h => hE i j (trim_sub h), ?_, a9, ?_⟩, a8⟩
  · intro F' hF' i j h
    rw [trim, Bool.and_eq_true]
    refine ⟨hl F' hF' i j h, decide_eq_true ?_⟩
    have h1 := hF'.support i j h
    have h2 := commonNbrs_mono (n := n) (hl F' hF') i j
    omega
  · intro heq
    rw [a8, a9, he] at heq
    have hsame := hcount.2 heq
    have : trim n e F = F := by
      funext i j
      cases hf : F i j with
      | false => rw [trim, hf]; rfl
      | true =>
        have h1 := (hA.one i j).2 hf
        obtain ⟨x, hx⟩ := Option.isSome_iff_exists.1 (hsame i j (by rw [h1]; rfl))
        have h2 := a10 i j x hx
        rw [h1] at h2; cases h2
        exact (a1.one i j).1 hx
    rw [this]
    intro i j hf
    rw [← this, trim, Bool.and_eq_true] at hf
    exact of_decide_eq_true hf.2

theorem truss_of_keeps {k e : Nat} {z : Prop} {E : Nat → Nat → Bool} {A : Lil Int} (hu : Undirected E)
    (hA : Is01 n E A) (hn : (n : Int) ≤ t.maxVal) (hk : Keeps t n k e z) (hz : z ∨ ∀ i j, A.get i j ≠ some 0) :
    ∃ R F, (∀ fuel, A.nvals + 1 ≤ fuel → kTruss2 t ov fuel A k = .ok R) ∧ Is01 n F R ∧ IsKTruss n e E F := by
  obtain ⟨s, e', hI, h0⟩ := TrussInv.next (ov := ov) (E := E)
    (s := ⟨A, Lil.new A.ncols A.ncols, Lil.new A.ncols A.ncols, 0, A.nvals⟩) hu.symm hA
    (Lil.new_wf _ _) hA.ncols hA.ncols (Lil.new_wf _ _) hA.ncols hA.ncols (fun _ _ h => h)
    (fun F' hF' => hF'.sub) rfl hn hk hz
  have h0 : s.numEdges = A.nvals := h0
  have hloop := loop_rule (c := fun s => s.newNumEdges != s.numEdges) (b := trussBody t ov k) (TrussInv n e z E)
    (fun s => if s.newNumEdges = s.numEdges then 0 else s.newNumEdges + 1) (by
      intro s hI hc
      obtain ⟨F, f1, f2, f3, f4, f5, -⟩ := hI.graph
      obtain ⟨s', e, hI', h'⟩ := TrussInv.next (ov := ov) f2 f1 hI.m1 hI.m2 hI.m3 hI.u1 hI.u2 hI.u3 f3 f4 f5 hn hk
        hI.zeros
      refine ⟨s', e, hI', ?_⟩
      have hne : ¬ s.newNumEdges = s.numEdges := by simpa using hc
      have := hI'.le
      simp only [if_neg hne]
      split <;> omega)
  obtain ⟨r, e2, hr, hc⟩ := hloop (A.nvals + 1) s hI (by
    have := hI.le
    show (if s.newNumEdges = s.numEdges then 0 else s.newNumEdges + 1) ≤ _
    split <;> omega)
  obtain ⟨F, f1, f2, f3, f4, f5, f6⟩ := hr.graph
  refine ⟨r.A, F, ?_, f1, ⟨⟨f2, f3, f6 (by simpa using hc)⟩, f4⟩⟩
  intro fuel hf
  have := loop_more (d := fuel - (A.nvals + 1)) e2
  rw [show A.nvals + 1 + (fuel - (A.nvals + 1)) = fuel by omega] at this
  rw [kTruss2, e', prog_bind_ok, this, prog_bind_ok]

/-- **C39**, proved part (k ≥ 3). On the adjacency matrix (stored values 0 and 1) of an
undirected graph without loops, `k_truss2` terminates and returns the adjacency matrix
of the k-truss: the largest subgraph each of whose edges is in at least k - 2 of its
triangles. Missing: k = 2, see `C39_k2_wrong`; `C39_every_k` says what is returned for
any `k`. -/
theorem C39_k_truss2_partial {k : Nat} {E : Nat → Nat → Bool} {A : Lil Int} (hu : Undirected E) (hA : Is01 n E A)
    (hn : (n : Int) ≤ t.maxVal) (hk : 3 ≤ k) (hk2 : ((k - 2 : Nat) : Int) ≤ t.maxVal) (hk3 : k < 2 ^ 64) :
    ∃ R F, (∀ fuel, A.nvals + 1 ≤ fuel → kTruss2 t ov fuel A k = .ok R) ∧ Is01 n F R ∧ IsKTruss n k E F := by
  refine truss_of_keeps hu hA hn (z := True) ⟨hk, ?_⟩ (Or.inl trivial)
  intro m hm _
  have hsub : sub2 k = k - 2 := by unfold sub2; omega
  unfold supportMinTest
  rw [hsub, ITy.conv_id (t := t) (ITy.has_nn (by omega) (by omega : (m : Int) ≤ t.maxVal)),
    ITy.conv_id (t := t) (ITy.has_nn (by omega) hk2)]
  by_cases h : k ≤ m + 2
  · have : ¬ ((m : Int) < (k - 2 : Nat)) := by omega
    simp [h, this]
  · have : ((m : Int) < (k - 2 : Nat)) := by omega
    simp [h, this]

/-- What `k_truss2` returns for any `k`, on an adjacency matrix without stored zeros: the
truss in which every edge is in at least `k - 2` triangles, where `k - 2` is computed
modulo 2^64 and converted to the scalar type; in at least one if that is not positive. -/
theorem C39_every_k {k : Nat} {E : Nat → Nat → Bool} {A : Lil Int} (hu : Undirected E) (hA : Is01 n E A)
    (hz : ∀ i j, A.get i j ≠ some 0) (hn : (n : Int) ≤ t.maxVal) :
    ∃ R F, (∀ fuel, A.nvals + 1 ≤ fuel → kTruss2 t ov fuel A k = .ok R) ∧ Is01 n F R ∧
      IsKTruss n ((max 1 (t.conv (((k : Int) - 2) % 2 ^ 64))).toNat + 2) E F := by
  refine truss_of_keeps hu hA hn (z := False) ⟨by omega, ?_⟩ (Or.inr hz)
  intro m hm h0
  have h0 : 0 < m := h0.resolve_left id
  have hsub : ((sub2 k : Nat) : Int) = ((k : Int) - 2) % 2 ^ 64 := by unfold sub2; omega
  unfold supportMinTest
  rw [hsub, ITy.conv_id (t := t) (ITy.has_nn (by omega) (by omega : (m : Int) ≤ t.maxVal))]
  generalize t.conv (((k : Int) - 2) % 2 ^ 64) = c
  by_cases h : (m : Int) < c
  · have : ¬ ((max 1 c).toNat + 2 ≤ m + 2) := by omega
    simp [h]; omega
  · have : (max 1 c).toNat + 2 ≤ m + 2 := by omega
    simp [h]; omega

/-- So with k = 2 the result is the 3-truss, for every scalar type. -/
theorem C39_k2_is_3 {E : Nat → Nat → Bool} {A : Lil Int} (hu : Undirected E) (hA : Is01 n E A)
    (hz : ∀ i j, A.get i j ≠ some 0) (hn : (n : Int) ≤ t.maxVal) :
    ∃ R F, (∀ fuel, A.nvals + 1 ≤ fuel → kTruss2 t ov fuel A 2 = .ok R) ∧ Is01 n F R ∧ IsKTruss n 3 E F := by
  have := C39_every_k (t := t) (ov := ov) (k := 2) hu hA hz hn
  rwa [show (max 1 (t.conv ((((2 : Nat) : Int) - 2) % 2 ^ 64))).toNat + 2 = 3 by cases t <;> decide] at this

/-- **C39 is false for k = 2**: the 2-truss of a graph is the graph itself (no edge has
to be in a triangle), but `k_truss2` removes the edges that are in no triangle. The
graph: two vertices and the edge between them. -/
theorem C39_k2_wrong :
    ∃ (A R : Lil Int) (E : Nat → Nat → Bool), Undirected E ∧ Is01 2 E A ∧ IsKTruss 2 2 E E ∧ E 0 1 = true ∧
      (∀ fuel, 3 ≤ fuel → kTruss2 .i32 (fun _ _ => 0) fuel A 2 = .ok R) ∧ R.get 0 1 = none := by
  have hE : ∀ i j, (decide (i = 0 ∧ j = 1 ∨ i = 1 ∧ j = 0)) = decide (j = 0 ∧ i = 1 ∨ j = 1 ∧ i = 0) := by
    intro i j
    rw [decide_eq_decide]; omega
  refine ⟨⟨2, 2, 2, [[(1, 1)], [(0, 1)]]⟩, ⟨2, 2, 0, [[], []]⟩, fun i j => decide (i = 0 ∧ j = 1 ∨ i = 1 ∧ j = 0),
    ⟨hE, ?_⟩, ?_, ⟨⟨hE, fun _ _ h => h, fun _ _ _ => by omega⟩, fun F' h => h.sub⟩, rfl, ?_, rfl⟩
  · intro i
    exact decide_eq_false (by omega)
  · exact Ex.is01_of (A := ⟨2, 2, 2, [[(1, 1)], [(0, 1)]]⟩) (P := fun i j => decide (i = 0 ∧ j = 1 ∨ i = 1 ∧ j = 0))
      (Lil.wf_chk (by decide)) rfl (by decide) (fun i j h => by
      have h := of_decide_eq_true h
      have : (2 : Nat) = 2 := rfl
      show i < 2 ∧ j < 2
      omega) (by decide +kernel)
  · intro fuel hf
    have e : trussBody .i32 (fun _ _ => 0) 2 ⟨⟨2, 2, 2, [[(1, 1)], [(0, 1)]]⟩, Lil.new 2 2, Lil.new 2 2, 0, 2⟩ =
      .ok ⟨⟨2, 2, 0, [[], []]⟩, ⟨2, 2, 0, [[], []]⟩, ⟨2, 2, 0, [[], []]⟩, 2, 0⟩ := by decide +kernel
    have e2 : loop (fun s => s.newNumEdges != s.numEdges) (trussBody .i32 (fun _ _ => 0) 2) 3
      ⟨⟨2, 2, 0, [[], []]⟩, ⟨2, 2, 0, [[], []]⟩, ⟨2, 2, 0, [[], []]⟩, 2, 0⟩ =
      .ok ⟨⟨2, 2, 0, [[], []]⟩, ⟨2, 2, 0, [[], []]⟩, ⟨2, 2, 0, [[], []]⟩, 0, 0⟩ := by decide +kernel
    have := loop_more (d := fuel - 3) e2
    rw [show 3 + (fuel - 3) = fuel by omega] at this
    rw [kTruss2]
    rw [show trussBody .i32 (fun _ _ => 0) 2 ⟨⟨2, 2, 2, [[(1, 1)], [(0, 1)]]⟩, Lil.new 2 2, Lil.new 2 2, 0, 2⟩ = _ from e]
    rw [prog_bind_ok, this, prog_bind_ok]

/-- Four vertices, edges 01, 02, 12, 13, 23, with a stored zero: the hypotheses hold for
k = 3 (all edges stay, the zero goes) and k = 4 (nothing stays, in two rounds). -/
example : Undirected Ex.tadj ∧ Is01 4 Ex.tadj Ex.tg ∧ ((4 : Nat) : Int) ≤ ITy.maxVal .i32 ∧
    kTruss2 .i32 (fun _ _ => 0) 13 Ex.tg 3 =
      .ok ⟨4, 4, 10, [[(1, 1), (2, 1)], [(0, 1), (2, 1), (3, 1)], [(0, 1), (1, 1), (3, 1)], [(1, 1), (2, 1)]]⟩ ∧
    kTruss2 .i32 (fun _ _ => 0) 13 Ex.tg 4 = .ok ⟨4, 4, 0, [[], [], [], []]⟩ :=
  ⟨Ex.tadj_undirected, Ex.tg_is, by decide, by decide +kernel, by decide +kernel⟩

/-- A triangle and an edge to a fourth vertex. -/
def Ex.kite (i j : Nat) : Bool :=
  decide ((i < 3 ∧ j < 3 ∧ i ≠ j) ∨ (i = 2 ∧ j = 3) ∨ (i = 3 ∧ j = 2))

def Ex.kiteG : Lil Int :=
  ⟨4, 4, 8, [[(1, 1), (2, 1)], [(0, 1), (2, 1)], [(0, 1), (1, 1), (3, 1)], [(2, 1)]]⟩

/-- With k = 2, with k = 1 on `int32_t` (-1 as `int32_t`) and with k = 258 on `int8_t`
(256 is 0 there) the triangle is left, with k = 1 on `uint64_t` nothing is. -/
example : Undirected Ex.kite ∧ Is01 4 Ex.kite Ex.kiteG ∧ (∀ i j, Ex.kiteG.get i j ≠ some 0) ∧
    kTruss2 .i32 (fun _ _ => 0) 9 Ex.kiteG 2 = .ok ⟨4, 4, 6, [[(1, 1), (2, 1)], [(0, 1), (2, 1)], [(0, 1), (1, 1)], []]⟩ ∧
    kTruss2 .i32 (fun _ _ => 0) 9 Ex.kiteG 1 = .ok ⟨4, 4, 6, [[(1, 1), (2, 1)], [(0, 1), (2, 1)], [(0, 1), (1, 1)], []]⟩ ∧
    kTruss2 .i8 (fun _ _ => 0) 9 Ex.kiteG 258 = .ok ⟨4, 4, 6, [[(1, 1), (2, 1)], [(0, 1), (2, 1)], [(0, 1), (1, 1)], []]⟩ ∧
    kTruss2 .u64 (fun _ _ => 0) 9 Ex.kiteG 1 = .ok ⟨4, 4, 0, [[], [], [], []]⟩ := by
  refine ⟨⟨?_, ?_⟩, ?_, ?_, by decide +kernel, by decide +kernel, by decide +kernel, by decide +kernel⟩
  · intro i j
    unfold Ex.kite
    rw [decide_eq_decide]; omega
  · intro i
    exact decide_eq_false (by omega)
  · exact Ex.is01_of (A := Ex.kiteG) (P := Ex.kite) (Lil.wf_chk (by decide)) rfl (by decide) (fun i j h => by
      have h := of_decide_eq_true h
      show i < 4 ∧ j < 4
      omega) (by decide +kernel)
  · intro i j h
    have := Ex.get_chk (A := Ex.kiteG) (Lil.wf_chk (by decide)) (P := fun w => w ≠ 0) (by decide) h
    exact this rfl

end GBTL

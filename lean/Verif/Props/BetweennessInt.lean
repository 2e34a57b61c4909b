import Verif.Lemmas.BetweennessInt
import Verif.Props.BetweennessApp
/-
**C58**, what `vertex_betweenness_centrality` returns with an integer scalar type.
-/
namespace GBTL
open Spec

theorem countsT {t : ITy} {ov : Int → Int → Int} (h2 : 2 ≤ t.maxVal) :
    Counts (BcOps.int t ov).add (BcOps.int t ov).truthy numI t.maxVal.toNat := by
  refine ⟨?_, ?_⟩
  · intro a b h
    show t.plusT ov _ _ = _
    rw [numI, numI, adds_plusT t ov _ _ (by omega) (by omega) (by omega)]
    unfold numI; omega
  · intro a h _
    show (numI a != 0) = true
    unfold numI
    simp; omega

theorem timesT_unit {t : ITy} {ov : Int → Int → Int} {a : Int} (h0 : 0 ≤ a) (h : a ≤ t.maxVal) (h2 : 2 ≤ t.maxVal) :
    t.timesT ov a 1 = a := by
  rw [ITy.timesT_eq ov (ITy.has_nn h0 h) (ITy.has_nn (by omega) (by omega)) (by rw [Int.mul_one]; exact ITy.has_nn h0 h),
    Int.mul_one]

theorem vbcToStd_int {n : Nat} {w : BVec Int} (hw : w.WF) (hn : w.size = n) {f : Nat → Int}
    (h : ∀ v, v < n → w.get v = some (f v)) : vbcToStd 0 n w = .ok ((List.range n).map f) := by
  obtain ⟨l, e, hl⟩ := forP_inv (b := fun k (l : List Int) => do
    let b ← lift (w.hasElement k)
    if b then do
      let x ← lift (w.extractElement k)
      .ok (l.set k x)
    else .ok l)
    (fun k l => l = (List.range n).map (fun v => if v < k then f v else 0)) n (List.replicate n 0)
    (by
      refine List.ext_getElem (by simp) ?_
      intro i h1 h2
      simp)
    (by
      rintro k l hk rfl
      refine ⟨_, ?_, rfl⟩
      simp only [BVec.hasElement_spec hw (show k < w.size by rw [hn]; exact hk), h k hk, Option.isSome_some, lift_ok,
        prog_bind_ok, if_true, BVec.extractElement_spec hw (show k < w.size by rw [hn]; exact hk) (h k hk)]
      congr 1
      refine List.ext_getElem (by simp) ?_
      intro i h1 h2
      simp only [List.getElem_set, List.getElem_map, List.getElem_range]
      by_cases hi : k = i
      · subst hi; rw [if_pos rfl, if_pos (by omega)]
      · rw [if_neg hi]
        by_cases hik : i < k
        · rw [if_pos hik, if_pos (by omega)]
        · rw [if_neg hik, if_neg (by omega)])
  unfold vbcToStd
  rw [e, hl]
  congr 1
  refine List.map_congr_left ?_
  intro v hv
  rw [if_pos (List.mem_range.1 hv)]

section
variable {t : ITy} {ov : Int → Int → Int} {A : Lil Int} {n s : Nat}

/-- The state before round `k`. -/
structure VbcOKI (n : Nat) (E : Nat → Nat → Bool) (s k : Nat) (q : VbcSt Int) : Prop where
  fsz : Sz n q.f
  psz : Sz n q.p
  front : Front n E numI s (k + 1) q.f.get
  nsp : Nsp n E numI s k q.p.get
  sig : ∀ i X, q.S[i]? = some X → Sz n X ∧ Marks n E s (i + 1) (fun v => (X.get v).any id)
  len : q.S.length = k

theorem vbcI_round (hA : Sh n n A) (hn : 0 < n) (h1 : ∀ u v a, A.get u v = some a → a = 1) (hs : s < n)
    (h2 : 2 ≤ t.maxVal) (hM : (totalPaths n (edges A) s : Int) ≤ t.maxVal) {k : Nat}
    {q : VbcSt Int} (hq : VbcOKI n (edges A) s k q) :
    ∃ q', vbcBody (.int t ov) A n q = .ok q' ∧ VbcOKI n (edges A) s (k + 1) q' := by
  have hE := edges_in hA
  obtain ⟨S0, e0, z0, -⟩ := newV (τ := Bool) hn
  obtain ⟨S, e1, z1, g1⟩ := applyVP_ok (f := (BcOps.int t ov).truthy) z0 hq.fsz
  obtain ⟨p, e2, z2, g2⟩ := addV_ok (f := ⟨(BcOps.int t ov).add, id, id, id, (BcOps.int t ov).add, id⟩) hq.psz hq.psz hq.fsz
  have hp : Nsp n (edges A) numI s (k + 1) p.get := by
    refine Nsp.next (countsT (ov := ov) h2) (by omega) hq.nsp hq.front ?_
    intro v
    by_cases hv : v < n
    · exact g2 v hv
    · rw [z2.out hv, hq.psz.out hv, hq.fsz.out hv]; rfl
  obtain ⟨f, e3, z3, g3⟩ := stepV_ok (truthy := (BcOps.int t ov).truthy)
    (sr := ⟨(BcOps.int t ov).add, (BcOps.int t ov).times, (BcOps.int t ov).times⟩) hq.fsz z2 hq.fsz hA
  refine ⟨{ f := f, p := p, S := q.S ++ [S] }, ?_, z3, z2, ?_, hp, ?_, by simp [hq.len]⟩
  · unfold vbcBody
    rw [e0]
    simp only [lift_ok, prog_bind_ok]
    rw [e1]
    simp only [prog_bind_ok]
    rw [e2]
    simp only [prog_bind_ok]
    rw [e3]
    rfl
  · refine Front.next hE hs (countsT (ov := ov) h2) (by omega) (by omega) hp hq.front
      (pr := fun u v => both (BcOps.int t ov).times (q.f.get u) (A.get u v)) ?_ ?_ ?_
    · intro u v a hu ha
      show both _ _ _ = _
      rw [hu]
      cases hg : A.get u v with
      | none => simp [edges, hg, both]
      | some x =>
        simp only [edges, hg, Option.isSome_some, if_true, both]
        rw [h1 u v x hg]
        show some (t.timesT ov (numI a) 1) = _
        rw [timesT_unit (by unfold numI; omega) (by unfold numI; omega) h2]
    · intro u v hu
      show both _ _ _ = _
      rw [hu]; rfl
    · intro v
      by_cases hv : v < n
      · exact g3 v hv
      · show f.get v = _
        rw [z3.out hv]
        split
        · rfl
        · symm
          rw [osum_range_none]
          intro u _
          rw [hA.out (fun h => hv h.2)]
          cases q.f.get u <;> rfl
  · intro i X hX
    rcases Nat.lt_trichotomy i q.S.length with hi | hi | hi
    · rw [List.getElem?_append_left hi] at hX
      exact hq.sig i X hX
    · subst hi
      rw [List.getElem?_append_right (Nat.le_refl _)] at hX
      simp at hX
      subst hX
      rw [hq.len]
      refine ⟨z1, Front.marks hE hs (countsT (ov := ov) h2) (by omega) hq.front ?_⟩
      intro v
      by_cases hv : v < n
      · rw [g1 v hv]; cases q.f.get v <;> rfl
      · rw [z1.out hv, hq.fsz.out hv]; rfl
    · rw [List.getElem?_append_right (by omega), List.getElem?_eq_none (by simp; omega)] at hX
      cases hX

/-- One step backwards. -/
theorem vbcI_back (hA : Sh n n A) (h1 : ∀ u v a, A.get u v = some a → a = 1) (hs : s < n)
    (hnM : (n : Int) ≤ t.maxVal) (hM : (totalPaths n (edges A) s : Int) ≤ t.maxVal) {k i : Nat}
    {q : VbcSt Int} (hq : VbcOKI n (edges A) s k q) (hi1 : 1 ≤ i) (hi : i < k) {inv : BVec Int} (zi : Sz n inv)
    (gi : ∀ v, v < n → inv.get v = (q.p.get v).map fun x => Int.tdiv 1 x) {u w : BVec Int} (zu : Sz n u) (zw : Sz n w)
    (hb : BackAtI n (edges A) s (i + 1) u.get) :
    ∃ r, vbcBackBody (.int t ov) A q.S inv q.p i (u, w) = .ok r ∧ Sz n r.1 ∧ Sz n r.2 ∧ BackAtI n (edges A) s i r.1.get := by
  have hE := edges_in hA
  have hl := hq.len
  have g1 : q.S[i]? = some (q.S[i]'(by omega)) := List.getElem?_eq_getElem _
  have g0 : q.S[i - 1]? = some (q.S[i - 1]'(by omega)) := List.getElem?_eq_getElem _
  obtain ⟨s1, k1⟩ := hq.sig _ _ g1
  obtain ⟨s0, k0⟩ := hq.sig _ _ g0
  revert s1 k1 s0 k0 g1 g0
  generalize q.S[i]'(by omega) = S1
  generalize q.S[i - 1]'(by omega) = S0
  intro g1 g0 s1 k1 s0 k0
  rw [show i - 1 + 1 = i by omega] at k0
  obtain ⟨w1, e1, z1, d1⟩ := multVM_ok (f := ⟨(BcOps.int t ov).times, id, id, id, (BcOps.int t ov).times, id⟩) zw s1 zi zu
  obtain ⟨w2, e2, z2, d2⟩ := backV_ok (sr := ⟨(BcOps.int t ov).add, (BcOps.int t ov).times, (BcOps.int t ov).times⟩) z1 s0 z1 hA
  obtain ⟨u', e3, z3, d3⟩ := accV_ok (add := (BcOps.int t ov).add) (f := ⟨(BcOps.int t ov).times, id, id, id, (BcOps.int t ov).times, id⟩) zu z2 hq.psz
  refine ⟨(u', w2), ?_, z3, z2, ?_⟩
  · unfold vbcBackBody sigmaAt
    rw [g1, g0]
    simp only [prog_bind_ok]
    rw [e1]
    simp only [prog_bind_ok]
    rw [e2]
    simp only [prog_bind_ok]
    rw [e3]
    rfl
  · have hnum : ∀ v d, v ≠ s → d ≤ k → hops n (edges A) s v = some d → q.p.get v = some (numI (spc n (edges A) s v)) :=
      fun v d hv hd h => hq.nsp.at_ v d hv h hd
    have hpos : ∀ v (S : BVec Bool) (j : Nat), j ≤ k →
        Marks n (edges A) s j (fun v => (S.get v).any id) → (S.get v).any id = true → ∃ x, q.p.get v = some x := by
      intro v S j hj hM hS
      by_cases hv : v = s
      · subst hv
        rcases hq.nsp.src with e | ⟨-, e⟩
        · exact ⟨_, e⟩
        · exact ⟨_, e⟩
      · exact ⟨_, hnum v j hv hj ((hM.iff v hv).1 hS)⟩
    refine BackAtI.next (t := t) (ov := ov) hE hs hnM hM hi1 k1 k0 (U := u.get) (W1 := w1.get) (W2 := w2.get) (σ := fun v => (q.p.get v).getD 0) ?_ hb ?_ ?_ ?_
    · intro v d hv hd hh
      show (q.p.get v).getD 0 = _
      rw [hnum v d hv (by omega) hh]; rfl
    · intro v hv
      show w1.get v = _
      rw [d1 v hv]
      split
      · rename_i hS
        obtain ⟨x, hx⟩ := hpos v S1 _ (by omega) k1 hS
        rw [gi v hv, hx]
        cases u.get v <;> rfl
      · rfl
    · intro v hv
      show w2.get v = _
      rw [d2 v hv]
      split
      · congr 1
        refine List.map_congr_left ?_
        intro w _
        show both _ (A.get v w) (w1.get w) = _
        cases hg : A.get v w with
        | none => simp [edges, hg, both]
        | some x =>
          simp only [edges, hg, Option.isSome_some, if_true]
          cases w1.get w with
          | none => rfl
          | some y =>
            show some (t.timesT ov x y) = some (t.timesT ov 1 y)
            rw [h1 v w x hg]
      · rfl
    · intro v hv
      show u'.get v = _
      rw [d3 v hv]
      cases hw2 : w2.get v with
      | none => cases u.get v <;> rfl
      | some w =>
        have hS : (S0.get v).any id = true := by
          have := d2 v hv
          rw [hw2] at this
          by_cases h : (S0.get v).any id = true
          · exact h
          · rw [if_neg h] at this; cases this
        obtain ⟨x, hx⟩ := hpos v S0 _ (by omega) k0 hS
        rw [hx]
        cases u.get v <;> rfl

/-- One source. -/
theorem vbcSourceI_ok (hA : Sh n n A) (h1 : ∀ u v a, A.get u v = some a → a = 1) (hs : s < n)
    (h2 : 2 ≤ t.maxVal) (hnM : (n : Int) ≤ t.maxVal) (hM : (totalPaths n (edges A) s : Int) ≤ t.maxVal) {fuel : Nat} (hf : n ≤ fuel) :
    ∃ u, vbcSource fuel (.int t ov) A n s = .ok u ∧ Sz n u ∧
      ∀ v, v < n → u.get v = some (numI (1 + uniqueDependency n (edges A) s v)) := by
  have hE := edges_in hA
  have hn : 0 < n := by omega
  obtain ⟨t0, et, zt, gt⟩ := newV (τ := Int) hn
  obtain ⟨f, e1, zf, gf⟩ : ∃ w', exec (extractC (vReplace t0) (.tr A) .all s) = .ok w' ∧ Sz n w' ∧
      ∀ v, v < n → w'.get v = A.get s v := by
    obtain ⟨w', e, y⟩ := C18_extract_column (o := vReplace t0) (A := .tr A) (ri := .all) (j := s)
      (vReplace_wf zt.wf) hA.wf noMaskFits rfl trivial (by show s < A.nrows; rw [hA.nr]; exact hs)
    obtain ⟨y1, y2, y3⟩ := vReplace_yields y
    refine ⟨w', by rw [e, exec_done], ⟨y1, y2.trans zt.sz⟩, ?_⟩
    intro v hv
    rw [y3 v (by rw [zt.sz]; exact hv)]
    show Spec.extract A.ncols none (fun k => A.get s k) v = _
    rw [hA.nc]
    simp [Spec.extract, Spec.nth, hv]
  obtain ⟨p, e2, zp, gp⟩ := setV_ok zt hs (BcOps.int t ov).one
  have h0 : VbcOKI n (edges A) s 0 { f := f, p := p, S := [] } := by
    refine ⟨zf, zp, Front.first hE hs ?_, Nsp.init hE hs ?_ ?_, nofun, rfl⟩
    · intro v
      by_cases hv : v < n
      · show f.get v = _
        rw [gf v hv]
        cases hg : A.get s v with
        | none => simp [edges, hg]
        | some x => simp [edges, hg, h1 s v x hg]; rfl
      · show f.get v = _
        rw [zf.out hv, edges, hA.out (fun h => hv h.2)]; rfl
    · show p.get s = _
      rw [gp, if_pos rfl]; rfl
    · intro v hv
      show p.get v = _
      rw [gp, if_neg hv, gt]
  obtain ⟨k, q, e3, hq, hc⟩ := loop_count (VbcOKI n (edges A) s) n
    (c := fun q : VbcSt Int => decide (0 < q.f.nvals)) (b := vbcBody (.int t ov) A n)
    (by
      intro k q hq hc
      obtain ⟨v, -, hv⟩ := hq.fsz.some (of_decide_eq_true hc)
      exact ⟨hq.front.le hs hv, vbcI_round hA hn h1 hs h2 hM hq⟩) fuel 0 _ h0 (by omega)
  have hlast : ∀ v, hops n (edges A) s v ≠ some (k + 1) := by
    intro v hv
    have hnone := hq.fsz.none (of_decide_eq_false hc)
    by_cases hvs : v = s
    · subst hvs
      rw [hops_self hE hs] at hv
      cases hv
    · have := hq.front.at_ v hvs hv
      rw [hnone] at this; cases this
  obtain ⟨inv, e4, zi, gi⟩ := applyVP_ok (f := (BcOps.int t ov).inv) zt hq.psz
  obtain ⟨u0, e5, zu, gu⟩ := onesV_ok (x := (BcOps.int t ov).one) zt
  obtain ⟨⟨u, w⟩, e6, zr, -, hb⟩ := forP_inv
    (b := fun j r => vbcBackBody (.int t ov) A q.S inv q.p (q.S.length - 1 - j) r)
    (fun j r => Sz n r.1 ∧ Sz n r.2 ∧ BackAtI n (edges A) s (q.S.length - j) r.1.get)
    (q.S.length - 1) (u0, t0)
    ⟨zu, zt, by rw [hq.len]; exact BackAtI.start hE hs hlast gu⟩
    (by
      rintro j ⟨u, w⟩ hj ⟨zu, zw, hb⟩
      have hl := hq.len
      rw [show q.S.length - j = q.S.length - 1 - j + 1 by omega] at hb
      obtain ⟨r, e, r1, r2, r3⟩ := vbcI_back hA h1 hs hnM hM hq (i := q.S.length - 1 - j) (by omega) (by omega) zi gi zu zw hb
      exact ⟨r, e, r1, r2, by rw [show q.S.length - (j + 1) = q.S.length - 1 - j by omega]; exact r3⟩)
  refine ⟨u, ?_, zr, ?_⟩
  · unfold vbcSource
    rw [et]
    simp only [lift_ok, prog_bind_ok]
    rw [e1]
    simp only [prog_bind_ok]
    rw [e2]
    simp only [lift_ok, prog_bind_ok]
    rw [e3]
    simp only [prog_bind_ok]
    rw [e4]
    simp only [prog_bind_ok]
    rw [e5]
    simp only [prog_bind_ok]
    rw [e6]
    rfl
  · intro v hv
    exact hb.final hE hs (by omega) hv

end

theorem sumTo_bound {m c : Nat} {f : Nat → Nat} (h : ∀ i, i < m → f i ≤ c) : sumTo m f ≤ m * c := by
  induction m with
  | zero => rw [Nat.zero_mul]; exact Nat.le_refl _
  | succ m ih =>
    rw [sumTo, Nat.succ_mul]
    exact Nat.add_le_add (ih fun i hi => h i (by omega)) (h m (by omega))

/-- **C58**, what `vertex_betweenness_centrality` returns on a graph with an integer scalar type
(when no sum leaves the type): the inverse of the number of paths truncates to 0 unless there is
just one, so instead of the betweenness centrality a vertex gets the number of pairs of other
vertices whose only shortest path visits it. -/
theorem C58_vertex_betweenness_int_actual {t : ITy} {ov : Int → Int → Int} {A : Lil Int} (hA : A.WF)
    (hsq : A.nrows = A.ncols) (hn : 0 < A.nrows) (h1 : ∀ u v a, A.get u v = some a → a = 1)
    (h2 : 2 ≤ t.maxVal) (hnM : (A.nrows * A.nrows : Nat) ≤ t.maxVal)
    (hM : ∀ s, s < A.nrows → (pathCount A.nrows (edges A) s : Int) ≤ t.maxVal) {fuel : Nat} (hf : A.nrows ≤ fuel) :
    vbc fuel (.int t ov) A = .ok ((List.range A.nrows).map fun v =>
      (((List.range A.nrows).map fun s => uniqueDependency A.nrows (edges A) s v).sum : Int)) := by
  have hS : Sh A.nrows A.nrows A := ⟨hA, rfl, hsq.symm⟩
  have hnn : A.nrows ≤ A.nrows * A.nrows := Nat.le_mul_of_pos_left _ hn
  have hb : ∀ i, i ≤ A.nrows → ∀ v, v < A.nrows →
      sumTo i (fun s => 1 + uniqueDependency A.nrows (edges A) s v) ≤ A.nrows * A.nrows := by
    intro i hi v hv
    refine Nat.le_trans (sumTo_bound (c := A.nrows) fun s _ => ?_) (Nat.mul_le_mul_right _ hi)
    have := uq_lt (E := edges A) (s := s) hv
    omega
  obtain ⟨t0, et, zt, gt⟩ := newV (τ := Int) hn
  obtain ⟨b, e1, zb, gb⟩ := forP_inv
    (b := fun i b => (do
      let u ← vbcSource fuel (.int t ov) A A.nrows i
      exec (eWiseAddV (vPlain id b) ⟨(BcOps.int t ov).add, id, id, id, (BcOps.int t ov).add, id⟩ b u) : Prog (BVec Int)))
    (fun i b => Sz A.nrows b ∧ ∀ v, v < A.nrows → b.get v = if i = 0 then none else
      some (numI (sumTo i fun s => 1 + uniqueDependency A.nrows (edges A) s v)))
    A.nrows t0 ⟨zt, fun v _ => by rw [gt, if_pos rfl]⟩
    (by
      rintro i b hi ⟨zb, gb⟩
      obtain ⟨u, e, zu, gu⟩ := vbcSourceI_ok (t := t) (ov := ov) hS h1 hi h2 (by omega)
        (by rw [← pathCount_eq]; exact hM i hi) hf
      obtain ⟨b', e', zb', gb'⟩ := addV_ok (f := ⟨(BcOps.int t ov).add, id, id, id, (BcOps.int t ov).add, id⟩) zb zb zu
      refine ⟨b', ?_, zb', ?_⟩
      · show (do
          let u ← vbcSource fuel (.int t ov) A A.nrows i
          exec (eWiseAddV (vPlain id b) ⟨(BcOps.int t ov).add, id, id, id, (BcOps.int t ov).add, id⟩ b u) : Prog (BVec Int)) = _
        rw [e]
        exact e'
      · intro v hv
        have hle := hb (i + 1) hi v hv
        rw [gb' v hv, gb v hv, gu v hv, if_neg (show ¬ i + 1 = 0 by omega)]
        split
        · rename_i h0
          subst h0
          show some (numI _) = some (numI _)
          rw [sumTo, sumTo, Nat.zero_add]
        · show some (t.plusT ov _ _) = _
          rw [sumTo] at hle ⊢
          congr 1
          exact (countsT (ov := ov) h2).add _ _ (by omega))
  obtain ⟨c, e2, zc, gc⟩ := onesV_ok (x := (BcOps.int t ov).ofNat A.nrows) zt
  obtain ⟨r, e3, y⟩ := C13_eWiseAdd_vector (o := vReplace b) (f := ⟨(BcOps.int t ov).minus, id, id, id, (BcOps.int t ov).minus, id⟩) (u := b) (v := c)
    (vReplace_wf zb.wf) zb.wf zc.wf ⟨noMaskFits, rfl, zb.sz.trans zc.sz.symm⟩
  obtain ⟨y1, y2, y3⟩ := vReplace_yields y
  unfold vbc
  rw [if_neg (fun h => h hsq)]
  simp only
  rw [et]
  simp only [lift_ok, prog_bind_ok]
  rw [e1]
  simp only [prog_bind_ok]
  rw [e2]
  simp only [prog_bind_ok]
  rw [e3]
  simp only [exec_done, prog_bind_ok]
  show vbcToStd 0 A.nrows r = _
  refine vbcToStd_int y1 (y2.trans zb.sz) ?_
  intro v hv
  rw [y3 v (by rw [zb.sz]; exact hv), gb v hv, gc v hv, if_neg (by omega)]
  show some (t.minusT ov _ (t.conv _)) = _
  have hle := hb _ (Nat.le_refl _) v hv
  have hs : sumTo A.nrows (fun s => 1 + uniqueDependency A.nrows (edges A) s v) =
      A.nrows + ((List.range A.nrows).map fun s => uniqueDependency A.nrows (edges A) s v).sum := by
    rw [sumTo_add, sumTo_eq]
    congr 1
    generalize A.nrows = m
    induction m with
    | zero => rfl
    | succ m ih => rw [sumTo, ih]
  have hn' : t.Has (A.nrows : Int) := ITy.has_nn (by omega) (by omega)
  rw [ITy.conv_id hn', ITy.minusT_eq ov (ITy.has_nn (by unfold numI; omega) (by unfold numI; omega)) hn'
    (ITy.has_nn (by unfold numI; omega) (by unfold numI; omega))]
  unfold numI
  congr 1
  omega

/-- The graph of the counterexample. -/
example : Ex56.A.WF ∧ Ex56.A.nrows = Ex56.A.ncols ∧ 0 < Ex56.A.nrows ∧
    (∀ u v a, Ex56.A.get u v = some a → a = 1) ∧ (2 : Int) ≤ ITy.i8.maxVal ∧
    ((Ex56.A.nrows * Ex56.A.nrows : Nat) : Int) ≤ ITy.i8.maxVal ∧
    (∀ s, s < Ex56.A.nrows → (pathCount Ex56.A.nrows (edges Ex56.A) s : Int) ≤ ITy.i8.maxVal) ∧
    (List.range 7).map (fun v => ((List.range 7).map fun s => uniqueDependency 7 (edges Ex56.A) s v).sum) = [0, 0, 0, 2, 0, 0, 0] ∧
    vbc 7 (.int .i8 Ex56.ov) Ex56.A = .ok [0, 0, 0, 2, 0, 0, 0] :=
  ⟨Lil.wf_chk (by decide +kernel), by decide +kernel, by decide +kernel,
    fun u v a h => (Ex56.stored_ones (by decide +kernel) (Lil.wf_chk (by decide +kernel)) u v a h).1,
    by decide, by decide +kernel, by decide +kernel, by decide +kernel, by decide +kernel⟩

end GBTL

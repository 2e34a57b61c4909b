import Verif.Lemmas.BetweennessV
import Verif.Props.Betweenness
/-
**C57**: the other versions of vertex betweenness centrality.
-/
namespace GBTL
open Spec

variable {α : Type}

/-! ### `vertex_betweenness_centrality` -/

/-- Numbers of paths in a floating-point type. -/
def numR (a : Nat) : Rat := (a : Rat)

theorem countsR (M : Nat) : Counts BcOps.rat.add BcOps.rat.truthy numR M := by
  refine ⟨?_, ?_⟩
  · intro a b _
    show (a : Rat) + (b : Rat) = ((a + b : Nat) : Rat)
    rw [Rat.natCast_add]
  · intro a h _
    show ((a : Rat) != 0) = true
    simp; omega

section
variable {A : Lil Rat} {n s : Nat}

/-- The state before round `k`. -/
structure VbcOK (n : Nat) (E : Nat → Nat → Bool) (s k : Nat) (q : VbcSt Rat) : Prop where
  fsz : Sz n q.f
  psz : Sz n q.p
  front : Front n E numR s (k + 1) q.f.get
  nsp : Nsp n E numR s k q.p.get
  sig : ∀ i X, q.S[i]? = some X → Sz n X ∧ Marks n E s (i + 1) (fun v => (X.get v).any id)
  len : q.S.length = k

theorem vbc_round (hA : Sh n n A) (hn : 0 < n) (h1 : ∀ u v a, A.get u v = some a → a = 1) (hs : s < n) {k : Nat}
    {q : VbcSt Rat} (hq : VbcOK n (edges A) s k q) :
    ∃ q', vbcBody .rat A n q = .ok q' ∧ VbcOK n (edges A) s (k + 1) q' := by
  have hE := edges_in hA
  obtain ⟨S0, e0, z0, -⟩ := newV (τ := Bool) hn
  obtain ⟨S, e1, z1, g1⟩ := applyVP_ok (f := BcOps.rat.truthy) z0 hq.fsz
  obtain ⟨p, e2, z2, g2⟩ := addV_ok (f := ⟨BcOps.rat.add, id, id, id, BcOps.rat.add, id⟩) hq.psz hq.psz hq.fsz
  have hp : Nsp n (edges A) numR s (k + 1) p.get := by
    refine Nsp.next (countsR 2) (by decide) hq.nsp hq.front ?_
    intro v
    by_cases hv : v < n
    · exact g2 v hv
    · rw [z2.out hv, hq.psz.out hv, hq.fsz.out hv]; rfl
  obtain ⟨f, e3, z3, g3⟩ := stepV_ok (truthy := BcOps.rat.truthy)
    (sr := ⟨BcOps.rat.add, BcOps.rat.times, BcOps.rat.times⟩) hq.fsz z2 hq.fsz hA
  refine ⟨{ f := f, p := p, S := q.S ++ [S] }, ?_, z3, z2, ?_, hp, ?_, by simp [hq.len]⟩
  · unfold vbcBody
    rw [e0]
    simp only [lift_ok, prog_bind_ok]
    rw [e1]
    simp only [prog_bind_ok]
    rw [e2]
    simp only [prog_bind_ok]
    rw [e3]
    rfl
  · refine Front.next hE hs (countsR (totalPaths n (edges A) s + 2)) (Nat.le_add_right _ _) (by omega) hp hq.front
      (pr := fun u v => both BcOps.rat.times (q.f.get u) (A.get u v)) ?_ ?_ ?_
    · intro u v a hu _
      show both _ _ _ = _
      rw [hu]
      cases hg : A.get u v with
      | none => simp [edges, hg, both]
      | some x =>
        simp only [edges, hg, Option.isSome_some, if_true, both]
        rw [h1 u v x hg]
        show some (numR a * 1) = _
        rw [Rat.mul_one]
    · intro u v hu
      show both _ _ _ = _
      rw [hu]; rfl
    · intro v
      by_cases hv : v < n
      · exact g3 v hv
      · show f.get v = _
        rw [z3.out hv]
        split
        · rfl
        · symm
          rw [osum_range_none]
          intro u _
          rw [hA.out (fun h => hv h.2)]
          cases q.f.get u <;> rfl
  · intro i X hX
    rcases Nat.lt_trichotomy i q.S.length with hi | hi | hi
    · rw [List.getElem?_append_left hi] at hX
      exact hq.sig i X hX
    · subst hi
      rw [List.getElem?_append_right (Nat.le_refl _)] at hX
      simp at hX
      subst hX
      rw [hq.len]
      refine ⟨z1, Front.marks hE hs (countsR (totalPaths n (edges A) s)) (Nat.le_refl _) hq.front ?_⟩
      intro v
      by_cases hv : v < n
      · rw [g1 v hv]; cases q.f.get v <;> rfl
      · rw [z1.out hv, hq.fsz.out hv]; rfl
    · rw [List.getElem?_append_right (by omega), List.getElem?_eq_none (by simp; omega)] at hX
      cases hX

/-- One step backwards. -/
theorem vbc_back (hA : Sh n n A) (h1 : ∀ u v a, A.get u v = some a → a = 1) (hs : s < n) {k i : Nat}
    {q : VbcSt Rat} (hq : VbcOK n (edges A) s k q) (hi1 : 1 ≤ i) (hi : i < k) {inv : BVec Rat} (zi : Sz n inv)
    (gi : ∀ v, v < n → inv.get v = (q.p.get v).map fun x => 1 / x) {u w : BVec Rat} (zu : Sz n u) (zw : Sz n w)
    (hb : BackAt n (edges A) s (i + 1) u.get) :
    ∃ r, vbcBackBody .rat A q.S inv q.p i (u, w) = .ok r ∧ Sz n r.1 ∧ Sz n r.2 ∧ BackAt n (edges A) s i r.1.get := by
  have hE := edges_in hA
  have hl := hq.len
  have g1 : q.S[i]? = some (q.S[i]'(by omega)) := List.getElem?_eq_getElem _
  have g0 : q.S[i - 1]? = some (q.S[i - 1]'(by omega)) := List.getElem?_eq_getElem _
  obtain ⟨s1, k1⟩ := hq.sig _ _ g1
  obtain ⟨s0, k0⟩ := hq.sig _ _ g0
  revert s1 k1 s0 k0 g1 g0
  generalize q.S[i]'(by omega) = S1
  generalize q.S[i - 1]'(by omega) = S0
  intro g1 g0 s1 k1 s0 k0
  rw [show i - 1 + 1 = i by omega] at k0
  obtain ⟨w1, e1, z1, d1⟩ := multVM_ok (f := ⟨BcOps.rat.times, id, id, id, BcOps.rat.times, id⟩) zw s1 zi zu
  obtain ⟨w2, e2, z2, d2⟩ := backV_ok (sr := ⟨BcOps.rat.add, BcOps.rat.times, BcOps.rat.times⟩) z1 s0 z1 hA
  obtain ⟨u', e3, z3, d3⟩ := accV_ok (add := BcOps.rat.add) (f := ⟨BcOps.rat.times, id, id, id, BcOps.rat.times, id⟩) zu z2 hq.psz
  refine ⟨(u', w2), ?_, z3, z2, ?_⟩
  · unfold vbcBackBody sigmaAt
    rw [g1, g0]
    simp only [prog_bind_ok]
    rw [e1]
    simp only [prog_bind_ok]
    rw [e2]
    simp only [prog_bind_ok]
    rw [e3]
    rfl
  · have hnum : ∀ v d, v ≠ s → d ≤ k → hops n (edges A) s v = some d → q.p.get v = some (numR (spc n (edges A) s v)) :=
      fun v d hv hd h => hq.nsp.at_ v d hv h hd
    have hpos : ∀ v (S : BVec Bool) (j : Nat), j ≤ k →
        Marks n (edges A) s j (fun v => (S.get v).any id) → (S.get v).any id = true → ∃ x, q.p.get v = some x := by
      intro v S j hj hM hS
      by_cases hv : v = s
      · subst hv
        rcases hq.nsp.src with e | ⟨-, e⟩
        · exact ⟨_, e⟩
        · exact ⟨_, e⟩
      · exact ⟨_, hnum v j hv hj ((hM.iff v hv).1 hS)⟩
    refine BackAt.next hE hs hi1 k1 k0 (U := u.get) (W1 := w1.get) (W2 := w2.get) (σ := fun v => (q.p.get v).getD 0) ?_ hb ?_ ?_ ?_
    · intro v d hv hd hh
      show (q.p.get v).getD 0 = _
      rw [hnum v d hv (by omega) hh]; rfl
    · intro v hv
      show w1.get v = _
      rw [d1 v hv]
      split
      · rename_i hS
        obtain ⟨x, hx⟩ := hpos v S1 _ (by omega) k1 hS
        rw [gi v hv, hx]
        cases u.get v <;> rfl
      · rfl
    · intro v hv
      show w2.get v = _
      rw [d2 v hv]
      split
      · congr 1
        refine List.map_congr_left ?_
        intro w _
        show both _ (A.get v w) (w1.get w) = _
        cases hg : A.get v w with
        | none => simp [edges, hg, both]
        | some x =>
          simp only [edges, hg, Option.isSome_some, if_true]
          cases w1.get w with
          | none => rfl
          | some y =>
            show some (x * y) = some y
            rw [h1 v w x hg, Rat.one_mul]
      · rfl
    · intro v hv
      show u'.get v = _
      rw [d3 v hv]
      cases hw2 : w2.get v with
      | none => cases u.get v <;> rfl
      | some w =>
        have hS : (S0.get v).any id = true := by
          have := d2 v hv
          rw [hw2] at this
          by_cases h : (S0.get v).any id = true
          · exact h
          · rw [if_neg h] at this; cases this
        obtain ⟨x, hx⟩ := hpos v S0 _ (by omega) k0 hS
        rw [hx]
        cases u.get v <;> rfl

/-- One source. -/
theorem vbcSource_ok (hA : Sh n n A) (h1 : ∀ u v a, A.get u v = some a → a = 1) (hs : s < n) {fuel : Nat} (hf : n ≤ fuel) :
    ∃ u, vbcSource fuel .rat A n s = .ok u ∧ Sz n u ∧
      ∀ v, v < n → u.get v = some (1 + dependency n (edges A) s v) := by
  have hE := edges_in hA
  have hn : 0 < n := by omega
  obtain ⟨t, et, zt, gt⟩ := newV (τ := Rat) hn
  obtain ⟨f, e1, zf, gf⟩ : ∃ w', exec (extractC (vReplace t) (.tr A) .all s) = .ok w' ∧ Sz n w' ∧
      ∀ v, v < n → w'.get v = A.get s v := by
    obtain ⟨w', e, y⟩ := C18_extract_column (o := vReplace t) (A := .tr A) (ri := .all) (j := s)
      (vReplace_wf zt.wf) hA.wf noMaskFits rfl trivial (by show s < A.nrows; rw [hA.nr]; exact hs)
    obtain ⟨y1, y2, y3⟩ := vReplace_yields y
    refine ⟨w', by rw [e, exec_done], ⟨y1, y2.trans zt.sz⟩, ?_⟩
    intro v hv
    rw [y3 v (by rw [zt.sz]; exact hv)]
    show Spec.extract A.ncols none (fun k => A.get s k) v = _
    rw [hA.nc]
    simp [Spec.extract, Spec.nth, hv]
  obtain ⟨p, e2, zp, gp⟩ := setV_ok zt hs BcOps.rat.one
  have h0 : VbcOK n (edges A) s 0 { f := f, p := p, S := [] } := by
    refine ⟨zf, zp, Front.first hE hs ?_, Nsp.init hE hs ?_ ?_, nofun, rfl⟩
    · intro v
      by_cases hv : v < n
      · show f.get v = _
        rw [gf v hv]
        cases hg : A.get s v with
        | none => simp [edges, hg]
        | some x => simp [edges, hg, h1 s v x hg]; rfl
      · show f.get v = _
        rw [zf.out hv, edges, hA.out (fun h => hv h.2)]; rfl
    · show p.get s = _
      rw [gp, if_pos rfl]; rfl
    · intro v hv
      show p.get v = _
      rw [gp, if_neg hv, gt]
  obtain ⟨k, q, e3, hq, hc⟩ := loop_count (VbcOK n (edges A) s) n
    (c := fun q : VbcSt Rat => decide (0 < q.f.nvals)) (b := vbcBody .rat A n)
    (by
      intro k q hq hc
      obtain ⟨v, -, hv⟩ := hq.fsz.some (of_decide_eq_true hc)
      exact ⟨hq.front.le hs hv, vbc_round hA hn h1 hs hq⟩) fuel 0 _ h0 (by omega)
  have hlast : ∀ v, hops n (edges A) s v ≠ some (k + 1) := by
    intro v hv
    have hnone := hq.fsz.none (of_decide_eq_false hc)
    by_cases hvs : v = s
    · subst hvs
      rw [hops_self hE hs] at hv
      cases hv
    · have := hq.front.at_ v hvs hv
      rw [hnone] at this; cases this
  obtain ⟨inv, e4, zi, gi⟩ := applyVP_ok (f := BcOps.rat.inv) zt hq.psz
  obtain ⟨u0, e5, zu, gu⟩ := onesV_ok (x := BcOps.rat.one) zt
  obtain ⟨⟨u, w⟩, e6, zr, -, hb⟩ := forP_inv
    (b := fun j r => vbcBackBody .rat A q.S inv q.p (q.S.length - 1 - j) r)
    (fun j r => Sz n r.1 ∧ Sz n r.2 ∧ BackAt n (edges A) s (q.S.length - j) r.1.get)
    (q.S.length - 1) (u0, t)
    ⟨zu, zt, by rw [hq.len]; exact BackAt.start hE hs hlast gu⟩
    (by
      rintro j ⟨u, w⟩ hj ⟨zu, zw, hb⟩
      have hl := hq.len
      rw [show q.S.length - j = q.S.length - 1 - j + 1 by omega] at hb
      obtain ⟨r, e, r1, r2, r3⟩ := vbc_back hA h1 hs hq (i := q.S.length - 1 - j) (by omega) (by omega) zi gi zu zw hb
      exact ⟨r, e, r1, r2, by rw [show q.S.length - (j + 1) = q.S.length - 1 - j by omega]; exact r3⟩)
  refine ⟨u, ?_, zr, ?_⟩
  · unfold vbcSource
    rw [et]
    simp only [lift_ok, prog_bind_ok]
    rw [e1]
    simp only [prog_bind_ok]
    rw [e2]
    simp only [lift_ok, prog_bind_ok]
    rw [e3]
    simp only [prog_bind_ok]
    rw [e4]
    simp only [prog_bind_ok]
    rw [e5]
    simp only [prog_bind_ok]
    rw [e6]
    rfl
  · intro v hv
    exact hb.final hE hs (by omega) hv

end

/-- **C57**, `vertex_betweenness_centrality` with a floating-point scalar type. -/
theorem C57_vertex_betweenness {A : Lil Rat} (hA : A.WF) (hsq : A.nrows = A.ncols) (hn : 0 < A.nrows)
    (h1 : ∀ u v a, A.get u v = some a → a = 1) {fuel : Nat} (hf : A.nrows ≤ fuel) :
    vbc fuel .rat A = .ok ((List.range A.nrows).map (betweenness A.nrows (edges A) (List.range A.nrows))) := by
  have hS : Sh A.nrows A.nrows A := ⟨hA, rfl, hsq.symm⟩
  obtain ⟨t, et, zt, gt⟩ := newV (τ := Rat) hn
  obtain ⟨b, e1, zb, gb⟩ := forP_inv
    (b := fun i b => (do
      let u ← vbcSource fuel .rat A A.nrows i
      exec (eWiseAddV (vPlain id b) ⟨BcOps.rat.add, id, id, id, BcOps.rat.add, id⟩ b u) : Prog (BVec Rat)))
    (fun i b => Sz A.nrows b ∧ ∀ v, v < A.nrows → b.get v = if i = 0 then none else
      some (rsum i fun s => 1 + dependency A.nrows (edges A) s v))
    A.nrows t ⟨zt, fun v _ => by rw [gt, if_pos rfl]⟩
    (by
      rintro i b hi ⟨zb, gb⟩
      obtain ⟨u, e, zu, gu⟩ := vbcSource_ok hS h1 hi hf
      obtain ⟨b', e', zb', gb'⟩ := addV_ok (f := ⟨BcOps.rat.add, id, id, id, BcOps.rat.add, id⟩) zb zb zu
      refine ⟨b', ?_, zb', ?_⟩
      · show (do
          let u ← vbcSource fuel .rat A A.nrows i
          exec (eWiseAddV (vPlain id b) ⟨BcOps.rat.add, id, id, id, BcOps.rat.add, id⟩ b u) : Prog (BVec Rat)) = _
        rw [e]
        exact e'
      · intro v hv
        rw [gb' v hv, gb v hv, gu v hv, if_neg (show ¬ i + 1 = 0 by omega), rsum]
        split
        · rename_i h0
          subst h0
          show some _ = some _
          rw [rsum, Rat.zero_add]; rfl
        · rfl)
  obtain ⟨c, e2, zc, gc⟩ := onesV_ok (x := BcOps.rat.ofNat A.nrows) zt
  obtain ⟨r, e3, y⟩ := C13_eWiseAdd_vector (o := vReplace b) (f := ⟨BcOps.rat.minus, id, id, id, BcOps.rat.minus, id⟩) (u := b) (v := c)
    (vReplace_wf zb.wf) zb.wf zc.wf ⟨noMaskFits, rfl, zb.sz.trans zc.sz.symm⟩
  obtain ⟨y1, y2, y3⟩ := vReplace_yields y
  unfold vbc
  rw [if_neg (fun h => h hsq)]
  simp only
  rw [et]
  simp only [lift_ok, prog_bind_ok]
  rw [e1]
  simp only [prog_bind_ok]
  rw [e2]
  simp only [prog_bind_ok]
  rw [e3]
  simp only [exec_done, prog_bind_ok]
  show bcToStd A.nrows r = _
  refine bcToStd_ok y1 (y2.trans zb.sz) ?_
  intro v hv
  rw [y3 v (by rw [zb.sz]; exact hv), gb v hv, gc v hv, if_neg (by omega)]
  show some (_ - (A.nrows : Rat)) = _
  have := sum_dep A.nrows (edges A) (List.range A.nrows) v
  rw [List.length_range] at this
  rw [← rsum_congr (f := fun j => 1 + dependency A.nrows (edges A) ((List.range A.nrows).getD j 0) v)
    (fun j hj => by rw [range_getD hj]), this]
  congr 1
  grind

/-- **C57**: a graph that is not square. -/
theorem C57_vertex_betweenness_dimension {T : Type} [Inhabited T] {A : Lil T} (h : A.nrows ≠ A.ncols) (fuel : Nat) (o : BcOps T) :
    vbc fuel o A = .error (.err .dimension) := by
  unfold vbc
  rw [if_pos h]

/-! ### `vertex_betweenness_centrality_batch_old` -/

section
variable {gI : α → Int} {gF : α → Rat} {A : Lil α} {s : List Nat} {ov : Int → Int → Int}

/-- The state before round `k`. -/
structure OldOK (n m : Nat) (E : Nat → Nat → Bool) (src : Nat → Nat) (k : Nat) (q : BcOldSt) : Prop where
  front : FrontM true n m E src (k + 1) q.F
  nsp : NspM true n m E src k q.P
  sig : ∀ i X, q.S[i]? = some X → FrontM true n m E src (i + 1) X
  len : q.S.length = k

/-- The order of the operands of the sum of the counts does not matter. -/
theorem count_swap {n : Nat} {E : Nat → Nat → Bool} {s k : Nat} {P F : Nat → Option Int}
    (hP : Nsp n E numI s k P) (hF : Front n E numI s (k + 1) F) (v : Nat) :
    either (ITy.i32.plusT ov) id id (F v) (P v) = either (ITy.i32.plusT ov) id id (P v) (F v) := by
  cases hf : F v with
  | none => cases P v <;> rfl
  | some x =>
    cases hp : P v with
    | none => rfl
    | some y =>
      by_cases hv : v = s
      · subst hv
        rcases hF.src with e | ⟨hk, e⟩
        · rw [hf] at e; cases e
        · rcases hP.src with e' | ⟨hk', -⟩
          · rw [hf] at e; rw [hp] at e'; cases e; cases e'; rfl
          · omega
      · exfalso
        by_cases h : hops n E s v = some (k + 1)
        · have := hP.off v hv (fun j hj e => by rw [h] at e; cases e; omega)
          rw [hp] at this; cases this
        · have := hF.off v hv h
          rw [hf] at this; cases this

theorem old_round (h : BcArgs gI gF A s) {k : Nat} {q : BcOldSt}
    (hq : OldOK A.ncols s.length (edges A) (s.getD · 0) k q) :
    ∃ q', bcOldBody ov gI A q = .ok q' ∧ OldOK A.ncols s.length (edges A) (s.getD · 0) (k + 1) q' := by
  have hP := hq.nsp.sh
  have hF := hq.front.sh
  obtain ⟨P, e, y⟩ := C13_eWiseAdd_same_type (o := mWhole id q.P .merge) (op := ITy.i32.plusT ov) (c1 := id) (c2 := id)
    (A := .plain q.F) (B := .plain q.P)
    (mWhole_wf hP.wf) hF.wf hP.wf ⟨noMaskFitsM, hP.nc.trans hF.nc.symm, hP.nr.trans hF.nr.symm,
      hF.nc.trans hP.nc.symm, hF.nr.trans hP.nr.symm⟩
  obtain ⟨p1, p2⟩ := whole_yields hP y
  have hP' : NspM true A.ncols s.length (edges A) (s.getD · 0) (k + 1) P := by
    refine ⟨p1, ?_⟩
    intro j hj
    refine Nsp.next (counts32 ov) (by decide) (hq.nsp.row j hj) (hq.front.row j hj) ?_
    intro v
    rw [← count_swap (hq.nsp.row j hj) (hq.front.row j hj)]
    by_cases hv : v < A.ncols
    · show P.get j v = _
      rw [p2 j v hj hv, Option.map_id, id]; rfl
    · have hn : ¬ (j < s.length ∧ v < A.ncols) := fun h => hv h.2
      rw [ShV.out (t := true) p1 hn, hP.out hn, hF.out hn]; rfl
  obtain ⟨F, e3, f1⟩ := front_round h.sh (fun u v a ha => (h.ones u v a ha).1) h.src h.tot (frontStepFA (ov := ov) h.sh)
    hq.front hP'
  refine ⟨{ F := F, P := P, S := q.S ++ [q.F] }, ?_, f1, hP', ?_, by simp [hq.len]⟩
  · unfold bcOldBody
    rw [e]
    simp only [exec_done, prog_bind_ok]
    rw [e3]
    rfl
  · intro i X hX
    rcases Nat.lt_trichotomy i q.S.length with hi | hi | hi
    · rw [List.getElem?_append_left hi] at hX
      exact hq.sig i X hX
    · subst hi
      rw [List.getElem?_append_right (Nat.le_refl _)] at hX
      simp at hX
      subst hX
      rw [hq.len]
      exact hq.front
    · rw [List.getElem?_append_right (by omega), List.getElem?_eq_none (by simp; omega)] at hX
      cases hX

/-- One step backwards. -/
theorem old_back (h : BcArgs gI gF A s) {k i : Nat} {q : BcOldSt}
    (hq : OldOK A.ncols s.length (edges A) (s.getD · 0) k q) (hi1 : 1 ≤ i) (hi : i < k) {U W : Lil Rat}
    (hU : Sh s.length A.ncols U) (hW : Sh s.length A.ncols W)
    (hb : ∀ j, j < s.length → BackAt A.ncols (edges A) (s.getD j 0) (i + 1) (U.get j)) :
    ∃ r, bcOldBackBody gF A q.S q.P i (U, W) = .ok r ∧ Sh s.length A.ncols r.1 ∧ Sh s.length A.ncols r.2 ∧
      ∀ j, j < s.length → BackAt A.ncols (edges A) (s.getD j 0) i (r.1.get j) := by
  have hl := hq.len
  have g1 : q.S[i]? = some (q.S[i]'(by omega)) := List.getElem?_eq_getElem _
  have g0 : q.S[i - 1]? = some (q.S[i - 1]'(by omega)) := List.getElem?_eq_getElem _
  have k1 := hq.sig _ _ g1
  have k0 := hq.sig _ _ g0
  revert k1 k0 g1 g0
  generalize q.S[i]'(by omega) = S1
  generalize q.S[i - 1]'(by omega) = S0
  intro g1 g0 k1 k0
  rw [show i - 1 + 1 = i by omega] at k0
  have s1 : Sh s.length A.ncols S1 := k1.sh
  have s0 : Sh s.length A.ncols S0 := k0.sh
  have hP : Sh s.length A.ncols q.P := hq.nsp.sh
  obtain ⟨W1, e1, y1⟩ := C14_eWiseMult_matrix_partial (o := mMasked W .plain nonzero S1)
    (f := ⟨fun u p => u / ((p : Int) : Rat), id, fun p : Int => (p : Rat), fun p : Int => (p : Rat), (· / ·), id⟩)
    (A := .plain U) (B := .plain q.P)
    ⟨hW.wf, maskOKM s1.wf⟩ hU.wf hP.wf ⟨maskFitsM (s1.nr.trans hW.nr.symm) (s1.nc.trans hW.nc.symm),
      hW.nc.trans hU.nc.symm, hW.nr.trans hU.nr.symm, hU.nc.trans hP.nc.symm, hU.nr.trans hP.nr.symm⟩ (fun _ h => h.elim)
  obtain ⟨w1, d1⟩ := masked_yields hW y1
  obtain ⟨W2, e2, y2⟩ := C10_mxm_ABT (o := mWhole id W1 .replace) (sr := flowWA gF) (via := id) (A := W1) (B := A)
    (mWhole_wf w1.wf) w1.wf h.wf ⟨noMaskFitsM, rfl, w1.nc.trans h.square.symm, w1.nc⟩
  obtain ⟨w2, d2⟩ := whole_yields w1 y2
  obtain ⟨W3, e3, y3⟩ := C14_eWiseMult_matrix_partial (o := mMasked W2 .plain nonzero S0)
    (f := ⟨fun w p => w * ((p : Int) : Rat), id, fun p : Int => (p : Rat), fun p : Int => (p : Rat), (· * ·), id⟩)
    (A := .plain W2) (B := .plain q.P)
    ⟨w2.wf, maskOKM s0.wf⟩ w2.wf hP.wf ⟨maskFitsM (s0.nr.trans w2.nr.symm) (s0.nc.trans w2.nc.symm),
      rfl, rfl, w2.nc.trans hP.nc.symm, w2.nr.trans hP.nr.symm⟩ (fun _ h => h.elim)
  obtain ⟨w3, d3⟩ := masked_yields w2 y3
  obtain ⟨U', e4, y4⟩ := C13_eWiseAdd_same_type (o := mWhole id U .replace) (op := fun x y : Rat => x + y) (c1 := id) (c2 := id)
    (A := .plain U) (B := .plain W3)
    (mWhole_wf hU.wf) hU.wf w3.wf ⟨noMaskFitsM, rfl, rfl, hU.nc.trans w3.nc.symm, hU.nr.trans w3.nr.symm⟩
  obtain ⟨u1, d4⟩ := whole_yields hU y4
  refine ⟨(U', W3), ?_, u1, w3, ?_⟩
  · unfold bcOldBackBody sigmaAt
    rw [g1, g0]
    simp only [prog_bind_ok]
    rw [e1]
    simp only [exec_done, prog_bind_ok]
    rw [e2]
    simp only [exec_done, prog_bind_ok]
    rw [e3]
    simp only [exec_done, prog_bind_ok]
    rw [e4]
    rfl
  · intro j hj
    have hE := edges_in h.sh
    have hs := h.src j hj
    have hM1 : Marks A.ncols (edges A) (s.getD j 0) (i + 1) (fun v => (S1.get j v).any nonzero) :=
      Front.marks hE hs (counts32 (fun _ _ => 0)) (h.tot j hj) (k1.row j hj) (fun v => rfl)
    have hM0 : Marks A.ncols (edges A) (s.getD j 0) i (fun v => (S0.get j v).any nonzero) :=
      Front.marks hE hs (counts32 (fun _ _ => 0)) (h.tot j hj) (k0.row j hj) (fun v => rfl)
    have hnum : ∀ v d, v ≠ s.getD j 0 → d ≤ k → hops A.ncols (edges A) (s.getD j 0) v = some d →
        q.P.get j v = some (numI (spc A.ncols (edges A) (s.getD j 0) v)) :=
      fun v d hv hd h => (hq.nsp.row j hj).at_ v d hv h hd
    have hpos : ∀ v (S : Lil Int) (d : Nat), d ≤ k →
        Marks A.ncols (edges A) (s.getD j 0) d (fun v => (S.get j v).any nonzero) → (S.get j v).any nonzero = true →
        ∃ x, q.P.get j v = some x := by
      intro v S d hd hM hS
      by_cases hv : v = s.getD j 0
      · subst hv
        rcases (hq.nsp.row j hj).src with e | ⟨-, e⟩
        · exact ⟨_, e⟩
        · exact ⟨_, e⟩
      · exact ⟨_, hnum v d hv hd ((hM.iff v hv).1 hS)⟩
    have hal : ∀ S : Lil Int, ∀ v, Spec.allows nonzero .plain (S.get j v) = (S.get j v).any nonzero := by
      intro S v; cases S.get j v <;> rfl
    refine BackAt.next hE hs hi1 hM1 hM0 (U := U.get j) (W1 := W1.get j)
      (W2 := fun v => if (S0.get j v).any nonzero = true then W2.get j v else none)
      (σ := fun v => (((q.P.get j v).getD 0 : Int) : Rat)) ?_ (hb j hj) ?_ ?_ ?_
    · intro v d hv hd hh
      show (((q.P.get j v).getD 0 : Int) : Rat) = _
      rw [hnum v d hv (by omega) hh]
      simp [numI, Rat.intCast_natCast]
    · intro v hv
      show W1.get j v = _
      rw [d1 j v hj hv, hal]
      split
      · rename_i hS
        obtain ⟨x, hx⟩ := hpos v S1 _ (by omega) hM1 hS
        show both _ (U.get j v) (q.P.get j v) = _
        rw [hx]
        cases U.get j v with
        | none => rfl
        | some u =>
          show some (u / (x : Rat)) = some (1 / (x : Rat) * u)
          congr 1
          grind
      · rfl
    · intro v hv
      show (if _ then W2.get j v else none) = _
      rw [d2 j v hj hv, Option.map_id, id]
      split
      · rw [w1.nc]
        show osum (· + ·) ((List.range A.ncols).map fun w => both _ (W1.get j w) (A.get v w)) = _
        congr 1
        refine List.map_congr_left ?_
        intro w _
        cases hg : A.get v w with
        | none =>
          simp only [edges, hg, Option.isSome_none, Bool.false_eq_true, if_false]
          cases W1.get j w <;> rfl
        | some x =>
          simp only [edges, hg, Option.isSome_some, if_true]
          cases W1.get j w with
          | none => rfl
          | some y =>
            show some (y * gF x) = some y
            rw [(h.ones v w x hg).2, Rat.mul_one]
      · rfl
    · intro v hv
      show U'.get j v = _
      rw [d4 j v hj hv, Option.map_id, id]
      show either _ id id (U.get j v) (W3.get j v) = _
      rw [d3 j v hj hv, hal]
      show either _ id id (U.get j v) (if _ then both _ (W2.get j v) (q.P.get j v) else none) = _
      split
      · rename_i hS
        obtain ⟨x, hx⟩ := hpos v S0 _ (by omega) hM0 hS
        rw [hx]
        cases U.get j v <;> cases W2.get j v <;> rfl
      · cases U.get j v <;> rfl

/-- **C57**, `vertex_betweenness_centrality_batch_old`. -/
theorem C57_betweenness_batch_old (h : BcArgs gI gF A s) {fuel : Nat} (hf : A.ncols ≤ fuel) :
    bcOld fuel ov gI gF A s = .ok ((List.range A.ncols).map (betweenness A.ncols (edges A) s)) := by
  obtain ⟨F, e0, f1⟩ := firstRows h
  obtain ⟨B, e1, b2⟩ := startRows h
  obtain ⟨k, q, e2, hq, hc⟩ := loop_count (OldOK A.ncols s.length (edges A) (s.getD · 0)) A.ncols
    (c := fun q : BcOldSt => decide (0 < q.F.nvals)) (b := bcOldBody ov gI A)
    (by
      intro k q hq hc
      exact ⟨hq.front.le h.src (of_decide_eq_true hc), old_round h hq⟩) fuel 0
    { F := F, P := B, S := [] } ⟨f1, b2, nofun, rfl⟩ (by omega)
  have hlast : ∀ j v, j < s.length → hops A.ncols (edges A) (s.getD j 0) v ≠ some (k + 1) :=
    fun j v hj => hq.front.empty (edges_in h.sh) h.src (of_decide_eq_false hc) hj
  obtain ⟨U, e4, u1, u2⟩ := bcOnes_ok (r := s.length) (c := A.ncols) (o := .merge)
  obtain ⟨r, e5, r1, -, r3⟩ := forP_inv
    (b := fun j r => bcOldBackBody gF A q.S q.P (q.S.length - 1 - j) r)
    (fun i r => Sh s.length A.ncols r.1 ∧ Sh s.length A.ncols r.2 ∧
      ∀ j, j < s.length → BackAt A.ncols (edges A) (s.getD j 0) (q.S.length - i) (r.1.get j))
    (q.S.length - 1) (U, (Lil.new s.length A.ncols : Lil Rat))
    ⟨u1, Sh.new _ _, fun j hj => by
      rw [hq.len]; exact BackAt.start (edges_in h.sh) (h.src j hj) (fun v => hlast j v hj) (fun v hv => u2 j v hj hv)⟩
    (by
      rintro i ⟨U, W⟩ hi ⟨hU, hW, hb⟩
      have hl := hq.len
      rw [show q.S.length - i = q.S.length - 1 - i + 1 by omega] at hb
      obtain ⟨r, e, r1, r2, r3⟩ := old_back h hq (i := q.S.length - 1 - i) (by omega) (by omega) hU hW hb
      exact ⟨r, e, r1, r2, by rw [show q.S.length - (i + 1) = q.S.length - 1 - i by omega]; exact r3⟩)
  obtain ⟨w, e6, w1, w2, w3⟩ := bcSum_ok (B := .tr r.1) h.npos h.pos r1.wf r1.nc r1.nr
    (g := fun v j => 1 + dependency A.ncols (edges A) (s.getD j 0) v)
    (fun v j hv hj => (r3 j hj).final (edges_in h.sh) (h.src j hj) (by omega) hv)
  unfold bcOld
  simp only
  rw [if_neg (by have := h.pos; omega), if_neg (fun hn => hn h.square), e1]
  simp only [prog_bind_ok]
  rw [e0]
  simp only [prog_bind_ok]
  rw [e2]
  simp only [prog_bind_ok]
  rw [e4]
  simp only [prog_bind_ok]
  rw [e5]
  simp only [prog_bind_ok]
  rw [e6]
  simp only [prog_bind_ok]
  exact result_eq w1 w2 w3

/-- **C57**, errors of `vertex_betweenness_centrality_batch_old`. -/
theorem C57_batch_old_dimension (hbad : s = [] ∨ A.nrows ≠ A.ncols) (fuel : Nat) :
    bcOld fuel ov gI gF A s = .error (.err .dimension) := by
  unfold bcOld
  simp only
  by_cases h0 : s.length = 0
  · simp [h0]
  · rcases hbad with rfl | hbad
    · exact absurd rfl h0
    · simp [h0, hbad]

end

end GBTL

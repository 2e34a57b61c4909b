import Verif.Props.BetweennessV
import Verif.Lemmas.BetweennessWeighted
import Verif.Props.Shapes
/-
**C58**: the betweenness centrality programs of the appendix, `BC_appendixB4` and
`BC_update_appendixB5`, and `vertex_betweenness_centrality` with integer scalars.
-/
namespace GBTL
open Spec

variable {α : Type}

/-! ### `BC_appendixB4` -/

section
variable {gI : α → Int} {gF : α → Rat} {A : Lil α} {n s : Nat} {ov : Int → Int → Int}

/-- The state after `k` rounds. -/
structure B4OK (n : Nat) (E : Nat → Nat → Bool) (s k : Nat) (q : B4St) : Prop where
  qsz : Sz n q.q
  psz : Sz n q.p
  ssh : Sh n n q.S
  front : Front n E numI s (k + 1) q.q.get
  nsp : Nsp n E numI s k q.p.get
  sig : ∀ i, i < k → Front n E numI s (i + 1) (q.S.get i)
  len : q.d = k

theorem b4Step_ok (hA : Sh n n A) (h1 : ∀ u v a, A.get u v = some a → gI a = 1) (hs : s < n)
    (ht : totalPaths n (edges A) s ≤ 2 ^ 31 - 1) {k : Nat} {q p : BVec Int} (hq : Sz n q) (hp : Sz n p)
    (hF : Front n (edges A) numI s k q.get) (hP : Nsp n (edges A) numI s k p.get) :
    ∃ q', b4Step ov gI A q p = .ok q' ∧ Sz n q' ∧ Front n (edges A) numI s (k + 1) q'.get := by
  obtain ⟨f, e3, z3, g3⟩ := stepV_ok (truthy := nonzero) (sr := pathsFA ov gI) hq hp hq hA
  refine ⟨f, e3, z3, ?_⟩
  refine Front.next (edges_in hA) hs (counts32 ov) ht (by decide) hP hF
    (pr := fun u v => both (fun f a => ITy.i32.timesT ov f (gI a)) (q.get u) (A.get u v)) ?_ ?_ ?_
  · intro u v a hu ha
    rw [hu]
    cases hg : A.get u v with
    | none => simp [edges, hg, both]
    | some x =>
      simp only [edges, hg, Option.isSome_some, if_true, both]
      rw [(timesT_one (ov := ov) (a := numI a) (b := gI x) (by unfold numI; omega) (by unfold numI; omega) (h1 u v x hg)).1]
  · intro u v hu
    rw [hu]; rfl
  · intro v
    by_cases hv : v < n
    · exact g3 v hv
    · rw [z3.out hv]
      split
      · rfl
      · symm
        rw [osum_range_none]
        intro u _
        rw [hA.out (fun h => hv h.2)]
        cases q.get u <;> rfl

theorem b4_round (hA : Sh n n A) (h1 : ∀ u v a, A.get u v = some a → gI a = 1) (hs : s < n)
    (ht : totalPaths n (edges A) s ≤ 2 ^ 31 - 1) {k : Nat} (hk : k < n) {q : B4St} (hq : B4OK n (edges A) s k q) :
    ∃ q', b4Body ov gI A q = .ok q' ∧ B4OK n (edges A) s (k + 1) q' := by
  obtain ⟨S, e1, s1, s2⟩ := setRow_ok (d := q.d) (by omega) hq.ssh hq.qsz (by rw [hq.len]; exact hk)
  obtain ⟨p, e2, z2, g2⟩ := addV_ok (f := ⟨ITy.i32.plusT ov, id, id, id, ITy.i32.plusT ov, id⟩) hq.psz hq.psz hq.qsz
  have hp : Nsp n (edges A) numI s (k + 1) p.get := by
    refine Nsp.next (counts32 ov) (by decide) hq.nsp hq.front ?_
    intro v
    by_cases hv : v < n
    · exact g2 v hv
    · rw [z2.out hv, hq.psz.out hv, hq.qsz.out hv]; rfl
  obtain ⟨f, e3, z3, h3⟩ := b4Step_ok (ov := ov) hA h1 hs ht hq.qsz z2 hq.front hp
  refine ⟨{ S := S, q := f, p := p, d := q.d + 1 }, ?_, z3, z2, s1, h3, hp, ?_, by simp [hq.len]⟩
  · unfold b4Body
    rw [e1]
    simp only [prog_bind_ok]
    rw [e2]
    simp only [prog_bind_ok]
    rw [e3]
    rfl
  · intro i hi
    have hrow : S.get i = if i = k then q.q.get else q.S.get i := by
      funext v
      by_cases hv : v < n
      · rw [s2 i v (by omega) hv, hq.len]; split <;> rfl
      · rw [s1.out (fun h => hv h.2)]
        split
        · rw [hq.qsz.out hv]
        · rw [hq.ssh.out (fun h => hv h.2)]
    rw [show B4St.S { S := S, q := f, p := p, d := q.d + 1 } = S from rfl, hrow]
    by_cases hik : i = k
    · subst hik; rw [if_pos rfl]; exact hq.front
    · rw [if_neg hik]; exact hq.sig i (by omega)

/-- One step backwards. -/
theorem b4_back {ω : Nat → Rat} (hA : Sh n n A) (h1 : ∀ u v a, A.get u v = some a → gF a = 1) (hs : s < n)
    (ht : totalPaths n (edges A) s ≤ 2 ^ 31 - 1) {k i : Nat} (hkn : k ≤ n) {q : B4St}
    (hq : B4OK n (edges A) s k q) (hi1 : 1 ≤ i) (hi : i < k) {b : B4Back} (zd : Sz n b.delta) (z1 : Sz n b.t1)
    (z2 : Sz n b.t2) (z3 : Sz n b.t3) (z4 : Sz n b.t4)
    (hb : BackAtW n (edges A) ω s (i + 1) (fun v => some (1 + (b.delta.get v).getD 0))) :
    ∃ r, b4BackBody gF A q.S i b = .ok r ∧ Sz n r.delta ∧ Sz n r.t1 ∧ Sz n r.t2 ∧ Sz n r.t3 ∧ Sz n r.t4 ∧
      BackAtW n (edges A) ω s i (fun v => some (1 + (r.delta.get v).getD 0)) := by
  have hE := edges_in hA
  obtain ⟨a1, e1, y1, g1⟩ := onesV_ok (x := (1 : Rat)) z1
  obtain ⟨a2, e2, y2, g2⟩ := addV_ok (f := ⟨fun x y : Rat => x + y, id, id, id, fun x y : Rat => x + y, id⟩) y1 y1 zd
  obtain ⟨a3, e3, y3, g3⟩ := rowV_ok (cz := fun x : Int => (x : Rat)) (i := i) z2 hq.ssh (by omega)
  obtain ⟨a4, e4, y4, g4⟩ := multV_ok (f := ⟨fun x y : Rat => x / y, id, id, id, fun x y : Rat => x / y, id⟩) y3 y2 y3
  obtain ⟨a5, e5, y5, g5⟩ := backVP_ok (sr := flowAW gF) z3 y4 hA
  obtain ⟨a6, e6, y6, g6⟩ := rowV_ok (cz := fun x : Int => (x : Rat)) (i := i - 1) z4 hq.ssh (by omega)
  obtain ⟨a7, e7, y7, g7⟩ := multV_ok (f := ⟨fun x y : Rat => x * y, id, id, id, fun x y : Rat => x * y, id⟩) y6 y6 y5
  obtain ⟨a8, e8, y8, g8⟩ := addV_ok (f := ⟨fun x y : Rat => x + y, id, id, id, fun x y : Rat => x + y, id⟩) zd zd y7
  refine ⟨{ delta := a8, t1 := a2, t2 := a4, t3 := a5, t4 := a7 }, ?_, y8, y2, y4, y5, y7, ?_⟩
  · unfold b4BackBody
    rw [e1]
    simp only [prog_bind_ok]
    rw [e2]
    simp only [prog_bind_ok]
    rw [e3]
    simp only [prog_bind_ok]
    rw [e4]
    simp only [prog_bind_ok]
    rw [e5]
    simp only [prog_bind_ok]
    rw [e6]
    simp only [prog_bind_ok]
    rw [e7]
    simp only [prog_bind_ok]
    rw [e8]
    rfl
  · have k1 := hq.sig i hi
    have k0 := hq.sig (i - 1) (by omega)
    rw [show i - 1 + 1 = i by omega] at k0
    have hM1 : Marks n (edges A) s (i + 1) (fun v => (q.S.get i v).any nonzero) :=
      Front.marks hE hs (counts32 (fun _ _ => 0)) ht k1 (fun v => rfl)
    have hM0 : Marks n (edges A) s i (fun v => (q.S.get (i - 1) v).any nonzero) :=
      Front.marks hE hs (counts32 (fun _ _ => 0)) ht k0 (fun v => rfl)
    -- the stored values of the rows
    have hval : ∀ j F v x, Front n (edges A) numI s (j + 1) F → F v = some x →
        x = numI (if v = s then 1 else spc n (edges A) s v) ∧ (F v).any nonzero = true := by
      intro j F v x hF hx
      have key : x = numI (if v = s then 1 else spc n (edges A) s v) ∧ 0 < (if v = s then 1 else spc n (edges A) s v) := by
        by_cases hv : v = s
        · subst hv
          rcases hF.src with e | ⟨-, e⟩
          · rw [hx] at e; cases e
          · rw [hx] at e; cases e; simp
        · by_cases hd : hops n (edges A) s v = some (j + 1)
          · have := hF.at_ v hv hd
            rw [hx] at this; cases this
            rw [if_neg hv]
            exact ⟨rfl, spc_pos hE hs hd⟩
          · have := hF.off v hv hd
            rw [hx] at this; cases this
      refine ⟨key.1, ?_⟩
      rw [hx, key.1]
      show nonzero _ = true
      unfold nonzero numI
      simp; omega
    refine BackAtW.next hE hs hi1 hM1 hM0 (U := fun v => some (1 + (b.delta.get v).getD 0)) (W1 := a4.get)
      (W2 := fun v => if (q.S.get (i - 1) v).any nonzero = true then a5.get v else none)
      (σ := fun v => ((if v = s then 1 else spc n (edges A) s v : Nat) : Rat)) ?_ hb ?_ ?_ ?_
    · intro v d hv _ _
      show ((if v = s then 1 else _ : Nat) : Rat) = _
      rw [if_neg hv]
    · intro v hv
      show a4.get v = _
      rw [g4 v hv, g2 v hv, g1 v hv, g3 v hv]
      cases hx : q.S.get i v with
      | none =>
        simp only [Option.any_none, Bool.false_eq_true, if_false]
        cases b.delta.get v <;> rfl
      | some x =>
        obtain ⟨hx1, hx2⟩ := hval i _ v x k1 hx
        rw [hx] at hx2
        rw [if_pos hx2]
        have hxr : (x : Rat) = ((if v = s then 1 else spc n (edges A) s v : Nat) : Rat) := by
          rw [hx1]; simp [numI, Rat.intCast_natCast]
        cases b.delta.get v with
        | none =>
          show some ((1 : Rat) / (x : Rat)) = some (1 / _ * (1 + 0))
          rw [hxr, Rat.add_zero, Rat.mul_one]
        | some y =>
          show some ((1 + y) / (x : Rat)) = some (1 / _ * (1 + y))
          rw [hxr]
          congr 1
          grind
    · intro v hv
      show (if _ then a5.get v else none) = _
      rw [g5 v hv]
      split
      · show osum (· + ·) ((List.range n).map fun w => both _ (A.get v w) (a4.get w)) = _
        congr 1
        refine List.map_congr_left ?_
        intro w _
        cases hg : A.get v w with
        | none => simp [edges, hg, both]
        | some x =>
          simp only [edges, hg, Option.isSome_some, if_true]
          cases a4.get w with
          | none => rfl
          | some y =>
            show some (gF x * y) = some y
            rw [h1 v w x hg, Rat.one_mul]
      · rfl
    · intro v hv
      show some (1 + (a8.get v).getD 0) = _
      rw [g8 v hv, g7 v hv, g6 v hv]
      cases hx : q.S.get (i - 1) v with
      | none =>
        simp only [Option.any_none, Bool.false_eq_true, if_false]
        cases b.delta.get v <;> rfl
      | some x =>
        obtain ⟨hx1, hx2⟩ := hval (i - 1) _ v x (by rw [show i - 1 + 1 = i by omega]; exact k0) hx
        rw [hx] at hx2
        rw [if_pos hx2]
        have hxr : (x : Rat) = ((if v = s then 1 else spc n (edges A) s v : Nat) : Rat) := by
          rw [hx1]; simp [numI, Rat.intCast_natCast]
        cases hw : a5.get v with
        | none => cases b.delta.get v <;> rfl
        | some w =>
          cases b.delta.get v with
          | none =>
            show some (1 + (x : Rat) * w) = some (1 + 0 + w * _)
            rw [hxr]; congr 1; grind
          | some y =>
            show some (1 + (y + (x : Rat) * w)) = some (1 + y + w * _)
            rw [hxr]; congr 1; grind

/-- **C58**, what `BC_appendixB4` does with a `delta` that need not be empty: the dependencies
on the source are added to it, but a path to the target `t` counts one plus `delta t` times. -/
theorem C58_appendixB4_actual (h : BcArgs gI gF A [s]) {delta : BVec Rat} (hd : delta.WF) (hds : delta.size = A.nrows)
    {fuel : Nat} (hf : A.nrows ≤ fuel) :
    ∃ w, bcB4 fuel ov gI gF delta A s = .ok w ∧ w.WF ∧ w.size = A.nrows ∧
      ∀ v, v < A.nrows → (w.get v).getD 0 = (delta.get v).getD 0 +
        weightedDependency A.nrows (edges A) (fun t => 1 + (delta.get t).getD 0) s v := by
  have hA : Sh A.nrows A.nrows A := ⟨h.wf, rfl, h.square.symm⟩
  have hs : s < A.nrows := h.sources s (by simp)
  have ht : totalPaths A.nrows (edges A) s ≤ 2 ^ 31 - 1 := by rw [← pathCount_eq]; exact h.paths s (by simp)
  have h1 : ∀ u v a, A.get u v = some a → gI a = 1 := fun u v a ha => (h.ones u v a ha).1
  have h2 : ∀ u v a, A.get u v = some a → gF a = 1 := fun u v a ha => (h.ones u v a ha).2
  have hE := edges_in hA
  have hn : 0 < A.nrows := by omega
  generalize hN : A.nrows = n at *
  obtain ⟨t0, et0, zt0, gt0⟩ := newV (τ := Int) hn
  obtain ⟨p, e1, zp, gp⟩ := setV_ok zt0 hs (1 : Int)
  have i1 : p.get s = some (numI 1) := by rw [gp, if_pos rfl]; rfl
  have i2 : ∀ v, v ≠ s → p.get v = none := fun v hv => by rw [gp, if_neg hv, gt0]
  obtain ⟨q, e2, zq, hq⟩ := b4Step_ok (ov := ov) hA h1 hs ht zp zp (Front.init hE hs i1 i2) (Nsp.init hE hs i1 i2)
  obtain ⟨q1, e3, hq1⟩ := b4_round (ov := ov) hA h1 hs ht hn (q := { S := Lil.new n n, q := q, p := p, d := 0 })
    ⟨zq, zp, Sh.new _ _, hq, Nsp.init hE hs i1 i2, fun i hi => absurd hi (by omega), rfl⟩
  obtain ⟨k, q2, e4, ⟨hq2, hkn⟩, hc⟩ := loop_count (fun k q => B4OK n (edges A) s k q ∧ k ≤ n) n
    (c := fun q : B4St => decide (0 < q.q.nvals)) (b := b4Body ov gI A)
    (by
      rintro k q ⟨hq, hkn⟩ hc
      obtain ⟨v, -, hv⟩ := hq.qsz.some (of_decide_eq_true hc)
      have hle := hq.front.le hs hv
      obtain ⟨q', e, hq'⟩ := b4_round (ov := ov) hA h1 hs ht (by omega) hq
      exact ⟨hle, q', e, hq', hle⟩) fuel 1 q1 ⟨hq1, by omega⟩ (by omega)
  have hlast : ∀ v, hops n (edges A) s v ≠ some (k + 1) := by
    intro v hv
    have hnone := hq2.qsz.none (of_decide_eq_false hc)
    by_cases hvs : v = s
    · subst hvs
      rw [hops_self hE hs] at hv
      cases hv
    · have := hq2.front.at_ v hvs hv
      rw [hnone] at this; cases this
  obtain ⟨t, et, zt, -⟩ := newV (τ := Rat) hn
  have hl := hq2.len
  obtain ⟨b, e5, zr, -, -, -, -, hb⟩ := forP_inv
    (b := fun j b => b4BackBody gF A q2.S (q2.d - 1 - j) b)
    (fun j b => Sz n b.delta ∧ Sz n b.t1 ∧ Sz n b.t2 ∧ Sz n b.t3 ∧ Sz n b.t4 ∧
      BackAtW n (edges A) (fun t => 1 + (delta.get t).getD 0) s (q2.d - j) (fun v => some (1 + (b.delta.get v).getD 0)))
    (q2.d - 1) { delta := delta, t1 := t, t2 := t, t3 := t, t4 := t }
    ⟨⟨hd, hds⟩, zt, zt, zt, zt, by
      rw [hl]
      exact BackAtW.start hE hs hlast (fun v _ => rfl)⟩
    (by
      rintro j b hj ⟨zd, z1, z2, z3, z4, hb⟩
      rw [show q2.d - j = q2.d - 1 - j + 1 by omega] at hb
      obtain ⟨r, e, r1, r2, r3, r4, r5, r6⟩ := b4_back hA h2 hs ht hkn hq2 (i := q2.d - 1 - j) (by omega) (by omega)
        zd z1 z2 z3 z4 hb
      exact ⟨r, e, r1, r2, r3, r4, r5, by rw [show q2.d - (j + 1) = q2.d - 1 - j by omega]; exact r6⟩)
  refine ⟨b.delta, ?_, zr.wf, zr.sz, ?_⟩
  · unfold bcB4
    simp only
    rw [hN, et0]
    simp only [lift_ok, prog_bind_ok]
    rw [e1]
    simp only [lift_ok, prog_bind_ok]
    rw [e2]
    simp only [prog_bind_ok]
    rw [e3]
    simp only [prog_bind_ok]
    rw [e4]
    simp only [prog_bind_ok]
    rw [et]
    simp only [lift_ok, prog_bind_ok]
    rw [e5]
    rfl
  · intro v hv
    have := hb.final hE hs (by omega) hv
    simp only [Option.some.injEq] at this
    grind

/-- **C58**, `BC_appendixB4` with an empty `delta`: the dependencies on the source. -/
theorem C58_appendixB4_partial (h : BcArgs gI gF A [s]) {delta : BVec Rat} (hd : delta.WF) (hds : delta.size = A.nrows)
    (hempty : ∀ v, delta.get v = none) {fuel : Nat} (hf : A.nrows ≤ fuel) :
    ∃ w, bcB4 fuel ov gI gF delta A s = .ok w ∧ w.WF ∧ w.size = A.nrows ∧
      ∀ v, v < A.nrows → (w.get v).getD 0 = dependency A.nrows (edges A) s v := by
  obtain ⟨w, e, hw, hz, hv⟩ := C58_appendixB4_actual (ov := ov) h hd hds hf
  refine ⟨w, e, hw, hz, fun v hvn => ?_⟩
  rw [hv v hvn, hempty v, Option.getD_none, Rat.zero_add]
  unfold weightedDependency dependency
  split
  · rfl
  · congr 1
    refine List.map_congr_left fun t _ => ?_
    split
    · rfl
    · show (1 + (delta.get t).getD 0) * _ = _
      rw [hempty t, Option.getD_none, Rat.add_zero, Rat.one_mul]

end

/-! ### `BC_update_appendixB5` -/

section
variable {gI : α → Int} {gF : α → Rat} {A : Lil α} {s : List Nat} {ov : Int → Int → Int}

/-- The first frontier: the neighbours of the sources, without the sources themselves. -/
theorem firstB5 (h : BcArgs gI gF A s) {P : Lil Int} (hP : Sh A.ncols s.length P)
    (hN : NspM false A.ncols s.length (edges A) (s.getD · 0) 0 P) :
    ∃ F, exec (extractM
        { C := (Lil.new A.ncols s.length : Lil Int), M := some (.comp, P), truthy := nonzero, acc := .none id, castZ := gI
          outp := .replace } (.tr A) .all (.list s)) = .ok F ∧
      FrontM false A.ncols s.length (edges A) (s.getD · 0) 1 F ∧
      ∀ j, j < s.length → F.get (s.getD j 0) j = none := by
  obtain ⟨F, e, y⟩ := C18_extract_matrix
    (o := { C := (Lil.new A.ncols s.length : Lil Int), M := some (.comp, P), truthy := nonzero, acc := .none id, castZ := gI
            outp := .replace }) (A := .tr A)
    (ri := .all) (ci := .list s) ⟨Lil.new_wf _ _, maskOKM hP.wf⟩ h.wf (maskFitsM hP.nr hP.nc) rfl rfl trivial h.sources
  have hs : Sh A.ncols s.length F := ⟨y.wf, y.nrows, y.ncols⟩
  have hg : ∀ v j, v < A.ncols → j < s.length → F.get v j =
      if (P.get v j).any nonzero = true then none else (A.get (s.getD j 0) v).map gI := by
    intro v j hv hj
    rw [y.get v j hv hj]
    have hx : Spec.extractMat (Operand.tr A).nrows (Operand.tr A).ncols Idx.all.sel (Idx.list s).sel (Operand.tr A).get v j =
        A.get (s.getD j 0) v := by
      show Spec.extractMat A.ncols A.nrows none (some s) (fun i j => A.get j i) v j = _
      simp [Spec.extractMat, Spec.nth, List.getElem?_eq_getElem hj, hv]
    rw [hx]
    cases hp : P.get v j with
    | none => simp [MMask.allows, Spec.allows, hp, Spec.write, Spec.accum]
    | some x => cases hn : nonzero x <;> simp [MMask.allows, Spec.allows, hp, hn, Spec.write, Spec.accum]
  have hsrc : ∀ j, j < s.length → F.get (s.getD j 0) j = none := by
    intro j hj
    rw [hg _ j (h.src j hj) hj]
    rcases (hN.row j hj).src with e | ⟨hk, -⟩
    · rw [show P.get (s.getD j 0) j = some (numI 1) from e]; rfl
    · omega
  refine ⟨F, by rw [e, exec_done], ⟨hs, ?_⟩, hsrc⟩
  intro j hj
  have hfirst := Front.first (num := numI) (edges_in h.sh) (h.src j hj)
    (F := fun v => if edges A (s.getD j 0) v = true then some (numI 1) else none) (fun v => rfl)
  have hne : ∀ v, v ≠ s.getD j 0 →
      vw false F j v = if edges A (s.getD j 0) v = true then some (numI 1) else none := by
    intro v hv
    rw [← nbr_val h]
    show F.get v j = _
    by_cases hvn : v < A.ncols
    · rw [hg v j hvn hj]
      have : P.get v j = none := (hN.row j hj).off v hv (fun k hk e => by
        have : k = 0 := by omega
        subst this
        exact hv (hops_zero (edges_in h.sh) (h.src j hj) e))
      rw [this]; rfl
    · rw [hs.out (fun h => hvn h.1), h.sh.out (fun h => hvn h.2)]; rfl
  refine ⟨?_, ?_, .inl (hsrc j hj), nofun⟩
  · intro v hv hd
    rw [hne v hv]; exact hfirst.at_ v hv hd
  · intro v hv hd
    rw [hne v hv]; exact hfirst.off v hv hd

/-- The last step: `delta` becomes the sum. -/
theorem sumInto_ok {n m : Nat} (hm : 0 < m) {delta : BVec Rat} (hd : Sz n delta) {B : Lil Rat} (hB : Sh n m B)
    {g : Nat → Nat → Rat} (hg : ∀ v j, v < n → j < m → B.get v j = some (g v j)) :
    ∃ d w, exec (assignConstV (vPlain id delta) id (-1 * (m : Rat)) .all) = .ok d ∧
      exec (reduceMV { w := d, m := (none : VMask Bool), truthy := id, acc := .some (· + ·) id id, castZ := id, outp := .merge }
        (.of (· + ·) id) (.plain B)) = .ok w ∧ Sz n w ∧
      ∀ v, v < n → w.get v = some (-1 * (m : Rat) + rsum m (g v)) := by
  obtain ⟨d, e1, z1, g1⟩ := onesV_ok (x := -1 * (m : Rat)) hd
  obtain ⟨w2, e3, y3⟩ := C16_reduce_rows_op
    (o := { w := d, m := (none : VMask Bool), truthy := id, acc := .some (· + ·) id id, castZ := id, outp := .merge })
    (f := fun x y : Rat => x + y) (c := id) (A := .plain B) ⟨z1.wf, noMaskOK⟩ hB.wf ⟨noMaskFits, z1.sz.trans hB.nr.symm⟩
  refine ⟨d, w2, e1, by rw [e3, exec_done], ⟨y3.wf, y3.size.trans z1.sz⟩, ?_⟩
  intro v hv
  rw [y3.get v (by show v < d.size; rw [z1.sz]; exact hv)]
  simp only [VMask.allows, Spec.write, Spec.accum, if_true]
  have h2 : (Operand.plain B).ncols = m := hB.nc
  rw [g1 v hv, h2, ofold_rat (h := (Operand.plain B).get v) hm (fun j hj => hg v j hv hj)]
  simp

/-- The sources have no edges but loops. -/
def Isolated (A : Lil α) (s : List Nat) : Prop := ∀ x ∈ s, ∀ v, edges A x v = true → v = x

/-- **C58**, `BC_update_appendixB5` where it works: as many sources as vertices, or no
edge to follow. -/
theorem C58_appendixB5_partial (h : BcArgs gI gF A s) (hok : s.length = A.ncols ∨ Isolated A s)
    {delta : BVec Rat} (hd : delta.WF) (hds : delta.size = A.nrows) {fuel : Nat} (hf : A.ncols ≤ fuel) :
    ∃ w, bcB5 fuel ov gI gF delta A s = .ok w ∧ w.WF ∧ w.size = A.ncols ∧
      ∀ v, v < A.ncols → w.get v = some (betweenness A.ncols (edges A) s v) := by
  obtain ⟨P, e1, -, b2⟩ := startCols h
  obtain ⟨F, e0, f1, fs⟩ := firstB5 h b2.sh b2
  have hsearch : ∃ q, loop (fun q => decide (0 < q.F.nvals)) (b5Body ov gI A A.ncols s.length) fuel
      { F := F, P := P, S := [] } = .ok q ∧ BfsEnd false A.ncols s.length (edges A) (s.getD · 0) q := by
    rcases hok with hok | hok
    · refine alt_search (body := b5Body ov gI A A.ncols s.length) h
        (by
          intro k q hq
          obtain ⟨S, P, F, g1, g2, g3, g4⟩ := alt_round (ov := ov) h (frontStepAF h.sh) hq
          refine ⟨_, ?_, g4⟩
          simp only [Bool.false_eq_true, if_false] at g1
          rw [hok] at g1
          unfold b5Body
          rw [hok, g1]
          simp only [prog_bind_ok]
          rw [g2]
          simp only [prog_bind_ok]
          rw [g3]
          rfl)
        (q := { F := F, P := P, S := [] }) ⟨f1, b2, nofun, rfl⟩ hf
    · have hempty : ¬ 0 < F.nvals := by
        intro hz
        obtain ⟨j, v, hj, hv, hne⟩ := nval_some f1.sh hz
        by_cases hvs : v = s.getD j 0
        · subst hvs; exact hne (fs j hj)
        · refine hne ((f1.row j hj).off v hvs ?_)
          intro hd
          obtain ⟨u, d1, d2⟩ := hops_pred (edges_in h.sh) (h.src j hj) hd
          have := hops_zero (edges_in h.sh) (h.src j hj) d1
          subst this
          exact hvs (hok _ (BcArgs.src_mem hj) v d2)
      refine ⟨{ F := F, P := P, S := [] }, ?_, nofun, b2, ?_⟩
      · cases fuel <;> simp [loop, hempty]
      · intro j v hj
        exact f1.empty (edges_in h.sh) h.src hempty hj
  obtain ⟨q, e2, hq⟩ := hsearch
  obtain ⟨I, e3, i1, i2⟩ := bcInv_ok (o := .merge) hq.nsp.sh
  obtain ⟨U, e4, u1, u2⟩ := bcOnes_ok (r := A.ncols) (c := s.length) (o := .merge)
  obtain ⟨r, e5, r1, r2⟩ := backG_ok (t := false) (scale := fun W S U => bcScale W S U I) (U := U)
    (W := Lil.new A.ncols s.length)
    h.sh (fun u v a ha => (h.ones u v a ha).2) h.src
    (backStepAW h.sh) hq i2
    (by
      intro W S U hW hS hU
      obtain ⟨W1, e1, w1, w2⟩ := bcScale_ok hW hS hU i1
      refine ⟨W1, e1, w1, ?_⟩
      intro j v hj hv
      show W1.get v j = _
      rw [w2 v j hv hj]
      show (if (S.get v j).any id = true then both (fun x y : Rat => x * y) (U.get v j) (I.get v j) else none) =
        if (S.get v j).any id = true then both (fun x y : Rat => x * y) (I.get v j) (U.get v j) else none
      split
      · cases U.get v j with
        | none => cases I.get v j <;> rfl
        | some x =>
          cases I.get v j with
          | none => rfl
          | some y => show some (x * y) = some (y * x); rw [Rat.mul_comm]
      · rfl)
    u1 (fun j v hj hv => u2 v j hv hj) (Sh.new _ _)
  obtain ⟨d, w, e6, e7, z, g⟩ := sumInto_ok h.pos (delta := delta) ⟨hd, hds.trans h.square⟩ (B := r.1) r1
    (g := fun v j => 1 + dependency A.ncols (edges A) (s.getD j 0) v) (fun v j hv hj => r2 j v hj hv)
  refine ⟨w, ?_, z.wf, z.sz, ?_⟩
  · unfold bcB5
    simp only
    rw [h.square, e1]
    simp only [prog_bind_ok]
    rw [e0]
    simp only [prog_bind_ok]
    rw [e2]
    simp only [prog_bind_ok]
    simp only [Bool.false_eq_true, if_false] at e3
    rw [e3]
    simp only [prog_bind_ok]
    rw [e4]
    simp only [prog_bind_ok]
    rw [show (fun j r => b5BackBody gF A q.S I q.P (q.S.length - 1 - j) r) = fun j p =>
      backBodyG (fun W S U => bcScale W S U I)
        (fun W S => exec (mxm (mMasked W .plain id S) (flowAW gF) id (.plain A) (.plain W)))
        q.S q.P (q.S.length - 1 - j) p from rfl, e5]
    simp only [prog_bind_ok]
    rw [e6]
    simp only [prog_bind_ok]
    exact e7
  · intro v hv
    rw [g v hv, sum_dep]
    congr 1
    grind

/-- **C58**: in all other cases `BC_update_appendixB5` throws `DimensionException`. -/
theorem C58_appendixB5_throws (h : BcArgs gI gF A s) (hne : s.length ≠ A.ncols) (hedge : ¬ Isolated A s)
    (delta : BVec Rat) {fuel : Nat} (hf : 1 ≤ fuel) :
    bcB5 fuel ov gI gF delta A s = .error (.err .dimension) := by
  obtain ⟨P, e1, -, b2⟩ := startCols h
  obtain ⟨F, e0, f1, fs⟩ := firstB5 h b2.sh b2
  have hpos : 0 < F.nvals := by
    refine Classical.byContradiction fun hz => hedge ?_
    intro x hx v hv
    obtain ⟨j, hj, rfl⟩ : ∃ j, j < s.length ∧ s.getD j 0 = x := by
      obtain ⟨j, hj, e⟩ := List.getElem_of_mem hx
      exact ⟨j, hj, by rw [List.getD_eq_getElem?_getD, List.getElem?_eq_getElem hj]; exact e⟩
    obtain ⟨d, d1, d2⟩ := hops_edge (edges_in h.sh) (h.src j hj) (hops_self (edges_in h.sh) (h.src j hj)) hv
    have hd1 := f1.empty (edges_in h.sh) h.src hz hj (v := v)
    have : d = 0 := by
      have : d ≠ 1 := fun e => hd1 (e ▸ d2)
      omega
    subst this
    exact hops_zero (edges_in h.sh) (h.src j hj) d2
  obtain ⟨f, rfl⟩ : ∃ f, fuel = f + 1 := ⟨fuel - 1, by omega⟩
  have hsig : bcSigma s.length A.ncols F = .error (.err .dimension) := by
    have := (C26_apply_matrix (o := mWhole id (Lil.new s.length A.ncols) .merge) (f := nonzero) (A := .plain F)
      (mWhole_wf (Lil.new_wf _ _)) f1.sh.wf).1 (fun hsh => hne (hsh.rows.trans f1.sh.nr))
    unfold bcSigma
    rw [this]; rfl
  unfold bcB5
  simp only
  rw [h.square, e1]
  simp only [prog_bind_ok]
  rw [e0]
  simp only [prog_bind_ok]
  have : loop (fun q => decide (0 < q.F.nvals)) (b5Body ov gI A A.ncols s.length) (f + 1)
      { F := F, P := P, S := [] } = .error (.err .dimension) := by
    show (if decide (0 < F.nvals) = true then (do let s ← b5Body ov gI A A.ncols s.length _; loop _ _ f s) else _) = _
    rw [if_pos (decide_eq_true hpos)]
    have : b5Body ov gI A A.ncols s.length { F := F, P := P, S := [] } = .error (.err .dimension) := by
      unfold b5Body
      rw [hsig]; rfl
    rw [this]; rfl
  rw [this]; rfl

end

/-! ### Concrete cases -/

namespace Ex58
open Ex56 (graph ov)

/-- The diamond with a tail, as floating-point numbers. -/
def R : Lil Rat :=
  (Lil.new 7 7 : Lil Rat).build (fun _ y => y)
    ([(0, 1), (0, 2), (1, 3), (2, 3), (3, 4), (1, 1), (5, 6)].map fun e => (e.1, e.2, 1)) |>.2

/-- A path of four vertices. -/
def Q : Lil Int := graph 4 [(0, 1), (1, 2), (2, 3)]

/-- No `delta` yet. -/
def empty (n : Nat) : BVec Rat := { size := n, nvals := 0, vals := List.replicate n 0, bitmap := List.replicate n false }

theorem empty_wf : (empty 7).WF ∧ (empty 4).WF := by
  refine ⟨⟨?_, ?_, ?_⟩, ⟨?_, ?_, ?_⟩⟩ <;> decide +kernel

theorem empty_get (n v : Nat) : (empty n).get v = none := by
  unfold empty BVec.get
  by_cases h : v < n <;> simp [h]

theorem argsA : BcArgs id (fun a : Int => (a : Rat)) Ex56.A [0] where
  wf := Lil.wf_chk (by decide +kernel)
  square := by decide +kernel
  ones := Ex56.stored_ones (by decide +kernel) (Lil.wf_chk (by decide +kernel))
  some_source := by decide
  sources := by decide +kernel
  paths := by decide +kernel

theorem argsQ : BcArgs id (fun a : Int => (a : Rat)) Q [0, 3, 1, 2] where
  wf := Lil.wf_chk (by decide +kernel)
  square := by decide +kernel
  ones := Ex56.stored_ones (by decide +kernel) (Lil.wf_chk (by decide +kernel))
  some_source := by decide
  sources := by decide +kernel
  paths := by decide +kernel

theorem argsQ0 : BcArgs id (fun a : Int => (a : Rat)) Q [0] where
  wf := Lil.wf_chk (by decide +kernel)
  square := by decide +kernel
  ones := Ex56.stored_ones (by decide +kernel) (Lil.wf_chk (by decide +kernel))
  some_source := by decide
  sources := by decide +kernel
  paths := by decide +kernel

/-- The elements of a result. -/
def elems (r : Prog (BVec Rat)) : Option (List (Option Rat)) :=
  match r with
  | .ok w => some ((List.range w.size).map w.get)
  | .error _ => none

end Ex58

open Ex58 in
example : BcArgs id (fun a : Int => (a : Rat)) Ex56.A [0] ∧ (empty 7).WF ∧ (∀ v, (empty 7).get v = none) ∧
    elems (bcB4 7 Ex56.ov id (fun a : Int => (a : Rat)) (empty 7) Ex56.A 0) =
      some [none, some 1, some 1, some 1, none, none, none] :=
  ⟨argsA, empty_wf.1, empty_get 7, by decide +kernel⟩

/-- A `delta` that is not empty. -/
def Ex58.some21 : BVec Rat := ⟨4, 2, [0, 2, 1, 0], [false, true, true, false]⟩

open Ex58 in
example : BcArgs id (fun a : Int => (a : Rat)) Q [0] ∧ some21.WF ∧ some21.size = Q.nrows ∧
    (List.range 4).map (fun v => (some21.get v).getD 0 +
      weightedDependency 4 (edges Q) (fun t => 1 + (some21.get t).getD 0) 0 v) = [0, 5, 2, 0] ∧
    elems (bcB4 4 Ex56.ov id (fun a : Int => (a : Rat)) some21 Q 0) = some [none, some 5, some 2, none] :=
  ⟨argsQ0, ⟨rfl, rfl, rfl⟩, by decide +kernel, by decide +kernel, by decide +kernel⟩

open Ex58 in
example : BcArgs id (fun a : Int => (a : Rat)) Q [0, 3, 1, 2] ∧ [0, 3, 1, 2].length = Q.ncols ∧
    elems (bcB5 4 Ex56.ov id (fun a : Int => (a : Rat)) (empty 4) Q [0, 3, 1, 2]) =
      some [some 0, some 2, some 2, some 0] :=
  ⟨argsQ, by decide +kernel, by decide +kernel⟩

/-- **C58**, `BC_update_appendixB5` with one source: it throws, on a path of four
vertices. -/
theorem C58_appendixB5_disproof :
    BcArgs id (fun a : Int => (a : Rat)) Ex58.Q [0] ∧
    bcB5 4 Ex56.ov id (fun a : Int => (a : Rat)) (Ex58.empty 4) Ex58.Q [0] = .error (.err .dimension) := by
  refine ⟨Ex58.argsQ0, C58_appendixB5_throws Ex58.argsQ0 (by decide +kernel) ?_ _ (by decide)⟩
  intro h
  exact absurd (h 0 (by simp) 1 (by decide +kernel)) (by decide)

/-- **C58**, `BC_appendixB4` on a `delta` that already holds the contribution of a
source: the second call does not add the same contribution again. -/
theorem C58_appendixB4_disproof :
    BcArgs id (fun a : Int => (a : Rat)) Ex58.Q [0] ∧
    Ex58.elems (bcB4 4 Ex56.ov id (fun a : Int => (a : Rat)) (Ex58.empty 4) Ex58.Q 0) = some [none, some 2, some 1, none] ∧
    Ex58.elems (do
      let w ← bcB4 4 Ex56.ov id (fun a : Int => (a : Rat)) (Ex58.empty 4) Ex58.Q 0
      bcB4 4 Ex56.ov id (fun a : Int => (a : Rat)) w Ex58.Q 0) = some [none, some 5, some 2, none] ∧
    (List.range 4).map (betweenness 4 (edges Ex58.Q) [0, 0]) = [0, 4, 2, 0] := by
  refine ⟨Ex58.argsQ0, ?_, ?_, ?_⟩ <;> decide +kernel

/-- **C58**, `vertex_betweenness_centrality` on a graph of `int32_t`: the inverse of 2 is 0,
so the vertices on one of two shortest paths get nothing. On the same graph with
floating-point scalars the result is right. -/
theorem C58_vertex_betweenness_int_disproof :
    vbc 7 (.int .i32 Ex56.ov) Ex56.A = .ok [0, 0, 0, 2, 0, 0, 0] ∧
    vbc 7 .rat Ex58.R = .ok [0, 1, 1, 3, 0, 0, 0] ∧
    (List.range 7).map (betweenness 7 (edges Ex56.A) (List.range 7)) = [0, 1, 1, 3, 0, 0, 0] := by
  refine ⟨?_, ?_, ?_⟩ <;> decide +kernel

example : Ex58.R.WF ∧ Ex58.R.nrows = Ex58.R.ncols ∧ 0 < Ex58.R.nrows ∧
    (∀ u, u < Ex58.R.nrows → ∀ v, v < Ex58.R.ncols → ∀ a ∈ Ex58.R.get u v, a = 1) :=
  ⟨Lil.wf_chk (by decide +kernel), by decide +kernel, by decide +kernel, by decide +kernel⟩

example : BcArgs id (fun a : Int => (a : Rat)) Ex56.A [0, 2, 0] ∧
    bcOld 7 Ex56.ov id (fun a : Int => (a : Rat)) Ex56.A [0, 2, 0] = .ok [0, 2, 2, 3, 0, 0, 0] :=
  ⟨Ex56.args, by decide +kernel⟩

end GBTL

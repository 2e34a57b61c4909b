import Verif.Spec.PageRank
import Verif.Model.PageRank
import Verif.Props.Normalize
/-
What the calls of `page_rank` compute.
-/
namespace GBTL
open Spec

variable {α : Type} {n : Nat}

theorem foldl_vals (n : Nat) (v : Vec Rat) (a : Rat) : ((Vec.vals n v).map id).foldl (· + ·) a = a + sumOf n v := by
  rw [sumOf_eq, List.map_id]
  induction n with
  | zero => show a = a + 0; rw [Rat.add_zero]
  | succ n ih =>
    rw [Vec.vals, List.range_succ, List.filterMap_append, List.foldl_append, ← Vec.vals, ih, rsum]
    cases h : v n with
    | none => simp [h, Rat.add_zero]
    | some x => simp [h]; grind

/-- The sum of the elements of a vector. -/
theorem sumV_ok {u : BVec Rat} {x : Rat} (hu : Sz n u) :
    exec (reduceVS id (.none id) (.of (· + ·) id) 0 x u) = .ok (sumOf n u.get) := by
  obtain ⟨v, e, h⟩ := C17_reduce_vector (castZ := (id : Rat → Rat)) (acc := .none (id : Rat → Rat)) (f := (· + ·)) (e := 0) (c := id) (val := x)
    (u := u) Rat.zero_add hu.wf
  rw [e, exec_done]
  rw [foldl_vals, Rat.zero_add, hu.sz] at h
  simp [Spec.accum] at h
  rw [h]

theorem applyMP_ok {C : Lil Rat} {A : Lil α} {f : α → Rat} (hC : Sh n n C) (hA : Sh n n A) :
    ∃ C', exec (applyM (mPlain id C) f (.plain A)) = .ok C' ∧ Sh n n C' ∧
      ∀ i j, i < n → j < n → C'.get i j = (A.get i j).map f := by
  obtain ⟨C', e, y⟩ := C15_apply_matrix (o := mWhole id C .merge) (f := f) (A := .plain A) (mWhole_wf hC.wf) hA.wf
    ⟨noMaskFitsM, hC.nc.trans hA.nc.symm, hC.nr.trans hA.nr.symm⟩
  obtain ⟨h1, h2⟩ := whole_yields hC y
  refine ⟨C', by rw [show mPlain id C = mWhole id C .merge from rfl, e, exec_done], h1, fun i j hi hj => ?_⟩
  rw [h2 i j hi hj, Option.map_id, id]
  rfl

/-- `new_rank` after the product of `rank` and `m` and the addition of `tele`. -/
def prNext (n : Nat) (m : Mat Rat) (tele : Rat) (rank new : Vec Rat) (v : Nat) : Option Rat :=
  (match osum (· + ·) ((List.range n).map fun u => both (· * ·) (rank u) (m u v)) with
    | some x => some x
    | none => new v).map (· + tele)

/-- The squared difference at a vertex. -/
def prSq (rank new : Vec Rat) (v : Nat) : Option Rat :=
  (either (· - ·) id id (rank v) (new v)).map fun x : Rat => x * x

theorem prBody_ok {m : Lil Rat} {tele threshold : Rat} {q : PrSt} (hm : Sh n n m) (h1 : Sz n q.rank) (h2 : Sz n q.new)
    (h3 : Sz n q.delta) :
    ∃ q', prBody m tele threshold n q = .ok q' ∧ Sz n q'.rank ∧ q'.new = q'.rank ∧ Sz n q'.delta ∧
      (∀ v, v < n → q'.rank.get v = prNext n m.get tele q.rank.get q.new.get v) ∧
      q'.stop = decide (sumOf n (prSq q.rank.get q'.rank.get) / (n : Rat) < threshold) := by
  obtain ⟨nr, e1, y1⟩ := C11_vxm
    (o := { w := q.new, m := (none : VMask Bool), truthy := id, acc := .some (fun _ y => y) id id, castZ := id, outp := .merge })
    (sr := (⟨(· + ·), (· * ·), (· * ·)⟩ : SR Rat Rat Rat)) (u := q.rank) (A := .plain m) ⟨h2.wf, noMaskOK⟩ h1.wf hm.wf
    ⟨noMaskFits, h2.sz.trans hm.nc.symm, h1.sz.trans hm.nr.symm⟩
  have z1 : Sz n nr := ⟨y1.wf, y1.size.trans h2.sz⟩
  have g1 : ∀ v, v < n → nr.get v = match osum (· + ·) ((List.range n).map fun u => both (· * ·) (q.rank.get u) (m.get u v)) with
      | some x => some x
      | none => q.new.get v := by
    intro v hv
    rw [y1.get v (by show v < q.new.size; rw [h2.sz]; exact hv)]
    simp only [VMask.allows, Spec.write, if_true, Option.map_id, id, h1.sz]
    rw [show Spec.vxm n (· + ·) (· * ·) q.rank.get (Operand.plain m).get v =
      osum (· + ·) ((List.range n).map fun u => both (· * ·) (q.rank.get u) (m.get u v)) from rfl]
    cases osum (· + ·) ((List.range n).map fun u => both (· * ·) (q.rank.get u) (m.get u v)) <;>
      cases q.new.get v <;> rfl
  obtain ⟨nr2, e2, z2, g2⟩ := applyVP_ok (f := fun x => x + tele) z1 z1
  obtain ⟨dl, e3, z3, g3⟩ := addV_ok (f := ⟨(· - ·), id, id, id, (· - ·), id⟩) h3 h1 z2
  obtain ⟨dl2, e4, z4, g4⟩ := multV_ok (f := ⟨(· * ·), id, id, id, (· * ·), id⟩) z3 z3 z3
  refine ⟨{ rank := nr2, new := nr2, delta := dl2, stop := decide (sumOf n dl2.get / (n : Rat) < threshold) }, ?_, z2, rfl, z4, ?_, ?_⟩
  · unfold prBody
    rw [e1]
    simp only [exec_done, prog_bind_ok]
    rw [e2]
    simp only [prog_bind_ok]
    rw [e3]
    simp only [prog_bind_ok]
    rw [e4]
    simp only [prog_bind_ok]
    rw [sumV_ok z4]
    rfl
  · intro v hv
    show nr2.get v = _
    rw [g2 v hv, g1 v hv, prNext]
  · show decide (sumOf n dl2.get / (n : Rat) < threshold) = decide (sumOf n (prSq q.rank.get nr2.get) / (n : Rat) < threshold)
    rw [show sumOf n dl2.get = sumOf n (prSq q.rank.get nr2.get) by
      rw [sumOf_eq, sumOf_eq]
      refine rsum_congr fun v hv => ?_
      rw [g4 v hv, g3 v hv, prSq]
      cases either (· - ·) id id (q.rank.get v) (nr2.get v) <;> rfl]

theorem prFill_ok {tele : Rat} {q : PrSt} (h1 : Sz n q.rank) (h2 : Sz n q.new) :
    ∃ r, prFill tele q = .ok r ∧ Sz n r ∧
      ∀ v, v < n → r.get v = match q.rank.get v with
        | some x => if x = 0 then some (0 + tele) else some x
        | none => some tele := by
  obtain ⟨nr, e1, z1, g1⟩ := onesV_ok (x := tele) h2
  obtain ⟨r, e, y⟩ := C13_eWiseAdd_vector
    (o := { w := q.rank, m := some (.comp, q.rank), truthy := fun x => x != 0, acc := .none id, castZ := id, outp := .merge })
    (f := (⟨(· + ·), id, id, id, (· + ·), id⟩ : EW Rat Rat Rat)) (u := q.rank) (v := nr) ⟨h1.wf, maskOK h1.wf⟩ h1.wf z1.wf
    ⟨maskFits rfl, rfl, h1.sz.trans z1.sz.symm⟩
  refine ⟨r, ?_, ⟨y.wf, y.size.trans h1.sz⟩, fun v hv => ?_⟩
  · unfold prFill
    rw [e1]
    simp only [prog_bind_ok]
    rw [e, exec_done]
  · rw [y.get v (by show v < q.rank.size; rw [h1.sz]; exact hv)]
    simp only [VMask.allows, Spec.allows, Spec.accum]
    rw [g1 v hv]
    cases q.rank.get v with
    | none => rfl
    | some x =>
      by_cases hx : x = 0
      · subst hx; rfl
      · simp [Spec.write, hx]

/-- The scaled matrix, and the state in which the loop starts. -/
theorem prStart {conv : α → Rat} {G : Lil α} {rank : BVec Rat} {d : Rat} (hn : 0 < n) (hG : Sh n n G) (hr : Sz n rank) :
    ∃ m q, Sh n n m ∧ Sz n q.rank ∧ Sz n q.new ∧ Sz n q.delta ∧ q.stop = false ∧
      (∀ u v, m.get u v = ((G.get u v).map conv).map fun x => x / sumOf n (fun k => (G.get u k).map conv) * d) ∧
      (∀ v, v < n → q.rank.get v = some (1 / (n : Rat))) ∧ (∀ v, q.new.get v = none) ∧
      ∀ size threshold maxIters, pageRank conv size G rank d threshold maxIters = (do
        let q ← forP maxIters q fun _ q => if q.stop then .ok q else prBody m ((1 - d) / size) threshold n q
        prFill ((1 - d) / size) q) := by
  obtain ⟨m1, e1, z1, g1⟩ := applyMP_ok (f := conv) (Sh.new n n) hG
  obtain ⟨m2, e2, z2, g2⟩ := normalizeRows_rat z1 hn
  obtain ⟨m3, e3, z3, g3⟩ := applyMP_ok (f := fun x => x * d) z2 z2
  obtain ⟨r1, e4, z4, g4⟩ := onesV_ok (x := 1 / (n : Rat)) hr
  obtain ⟨w, e5, z5, g5⟩ := newV (τ := Rat) hn
  refine ⟨m3, { rank := r1, new := w, delta := w, stop := false }, z3, z4, z5, z5, rfl, ?_, g4, g5, ?_⟩
  · intro u v
    by_cases huv : u < n ∧ v < n
    · rw [g3 u v huv.1 huv.2, g2, rowsNormalized, g1 u v huv.1 huv.2]
      have : sumOf n (m1.get u) = sumOf n (fun k => (G.get u k).map conv) := by
        rw [sumOf_eq, sumOf_eq]
        exact rsum_congr fun k hk => by rw [g1 u k huv.1 hk]
      rw [this]
      cases (G.get u v).map conv <;> rfl
    · rw [z3.out huv, hG.out huv]; rfl
  · intro size threshold maxIters
    unfold pageRank
    rw [if_neg (by rw [hG.nr, hG.nc, hr.sz]; simp), hG.nr]
    dsimp only
    rw [e1]
    simp only [prog_bind_ok]
    rw [e2]
    simp only [prog_bind_ok]
    rw [e3]
    simp only [prog_bind_ok]
    rw [e4]
    simp only [prog_bind_ok]
    rw [e5]
    rfl

end GBTL

import Verif.Lemmas.FordFulk
import Verif.Props.MaxFlow
import Verif.Props.Triangle
/-
C52: what `maxflow_ford_fulk` returns.
-/
namespace GBTL
open Spec

variable {t : ITy} {ov : Int → Int → Int} {C : Lil Int} {n s k : Nat} {K : Int} {f : Nat → Nat → Int}

/-! ### the setting -/

/-- The network: capacities not negative, and a type other than `bool` that holds their
sum. -/
structure FNet (t : ITy) (C : Lil Int) (n : Nat) (K : Int) : Prop where
  wf : C.WF
  rows : C.nrows = n
  cols : C.ncols = n
  nonneg : ∀ x y, 0 ≤ val2 C x y
  sum : totalCapacity n (val2 C) = K
  big : K ≤ t.maxVal
  notBool : t ≠ .bool

theorem FNet.row_nonneg (N : FNet t C n K) (x : Nat) : 0 ≤ total n (val2 C x) :=
  total_nonneg fun y _ => N.nonneg x y

theorem FNet.row_le (N : FNet t C n K) {x : Nat} (hx : x < n) : total n (val2 C x) ≤ K := by
  rw [← N.sum]
  exact le_total hx (f := fun x => total n fun y => val2 C x y) (fun y _ => N.row_nonneg y)

theorem FNet.col_le (N : FNet t C n K) {x : Nat} (hx : x < n) : total n (fun y => val2 C y x) ≤ K := by
  rw [← N.sum]
  exact total_mono fun y _ => le_total hx (f := val2 C y) fun z _ => N.nonneg y z

theorem FNet.cap_le (N : FNet t C n K) {x y : Nat} (hx : x < n) (hy : y < n) : val2 C x y ≤ K :=
  Int.le_trans (le_total hy (f := val2 C x) fun z _ => N.nonneg x z) (N.row_le hx)

theorem FNet.cap2_le (N : FNet t C n K) {x y : Nat} (hx : x < n) (hy : y < n) (hxy : x ≠ y) :
    val2 C x y + val2 C y x ≤ K := by
  have h1 := le_total2 hx hy hxy (f := fun x => total n fun y => val2 C x y) (fun y _ => N.row_nonneg y)
  have h2 := le_total hy (f := val2 C x) fun z _ => N.nonneg x z
  have h3 := le_total hx (f := val2 C y) fun z _ => N.nonneg y z
  have h4 : total n (fun x => total n fun y => val2 C x y) = K := N.sum
  rw [h4] at h1
  have h5 : total n (fun z => val2 C x z) = total n (val2 C x) := rfl
  have h6 : total n (fun z => val2 C y z) = total n (val2 C y) := rfl
  omega

/-- A signed type holds what is between `-K` and `K`. -/
theorem FNet.fit (N : FNet t C n K) {x : Int} (h1 : -K ≤ x) (h2 : x ≤ K) : t.Fit x := by
  intro hs
  have := N.big
  have h3 : t.minVal ≤ - t.maxVal := by cases t <;> first | decide | cases hs
  exact ⟨by omega, by omega⟩

/-- Every type holds what is between `0` and `K`. -/
theorem FNet.has (N : FNet t C n K) {x : Int} (h1 : 0 ≤ x) (h2 : x ≤ K) : t.Has x :=
  ITy.has_nn h1 (Int.le_trans h2 N.big)

theorem NetFlow.range (N : FNet t C n K) (h : NetFlow n s k (val2 C) f) {x y : Nat} (hx : x < n) (hy : y < n) :
    -K ≤ f x y ∧ f x y ≤ K := by
  have := h.cap x y hx hy
  have := h.cap y x hy hx
  have := h.anti x y hx hy
  have := N.cap_le hx hy
  have := N.cap_le hy hx
  omega

theorem NetFlow.left (N : FNet t C n K) (h : NetFlow n s k (val2 C) f) {x y : Nat} (hx : x < n) (hy : y < n) :
    0 ≤ val2 C x y - f x y ∧ val2 C x y - f x y ≤ K := by
  have h1 := h.cap x y hx hy
  have h2 := h.cap y x hy hx
  have h3 := h.anti x y hx hy
  by_cases hxy : x = y
  · subst hxy
    have := N.cap_le hx hx
    omega
  · have := N.cap2_le hx hy hxy
    omega

/-! ### one augmentation -/

theorem stored_lt {α : Type} {A : Lil α} (hA : A.WF) {i j : Nat} {x : α} (h : A.get i j = some x) :
    i < A.nrows ∧ j < A.ncols := some_lt hA (by rw [h]; simp)

/-- What the matrices of the loop hold: the net flow `f` and the capacities left. -/
structure FlowSt (t : ITy) (C : Lil Int) (n s k : Nat) (f : Nat → Nat → Int) (F R : Lil Int) : Prop where
  wfF : F.WF
  rowsF : F.nrows = n
  colsF : F.ncols = n
  wfR : R.WF
  rowsR : R.nrows = n
  colsR : R.ncols = n
  rep : ∀ x y, x < n → y < n → Rep t (F.get x y) (f x y)
  net : NetFlow n s k (val2 C) f
  left : ∀ x y, x < n → y < n → (∀ v, R.get x y = some v → v = val2 C x y - f x y) ∧
    (R.get x y = none → val2 C x y - f x y = 0)

/-- The minimum of what a matrix stores. -/
theorem reduce_min {G : Lil Int} (hG : G.WF) (hh : ∀ u v x, G.get u v = some x → t.Has x)
    {u0 v0 : Nat} {x0 : Int} (h0 : G.get u0 v0 = some x0) :
    ∃ m, reduceMS id (.none id : Accum Int Int Int) (redMin t) (Mon.min.identity t) 0 (.plain G) = .done m ∧
      (∃ u v, G.get u v = some m) ∧ ∀ u v x, G.get u v = some x → m ≤ x := by
  obtain ⟨m, e, hm1, hm2, hm3⟩ := reduceMat_inv (f := t.minT) (e := t.maxVal) hG
    (fun i x => t.Has x ∧ (∀ u v y, u < i → G.get u v = some y → x ≤ y) ∧
      (x = t.maxVal ∨ ∃ u v, G.get u v = some x))
    ⟨by cases t <;> decide, fun u v y hu => by omega, Or.inl rfl⟩
    (by
      rintro i x hi ⟨a1, a2, a3⟩ ho
      refine ⟨a1, ?_, a3⟩
      intro u v y hu hy
      by_cases e : u < i
      · exact a2 u v y e hy
      · have : u = i := by omega
        subst this
        rw [osum_range_none.1 ho v (stored_lt hG hy).2] at hy; cases hy)
    (by
      rintro i x y hi ⟨a1, a2, a3⟩ ho
      obtain ⟨⟨l, hl, b2⟩, b3⟩ := osum_minT (fun l x _ hx => hh i l x hx) ho
      have b1 := hh i l y b2
      rw [ITy.minT_eq a1 b1]
      refine ⟨ITy.has_min2 a1 b1, ?_, ?_⟩
      · intro u v z hu hz
        by_cases e : u < i
        · have := a2 u v z e hz
          omega
        · have : u = i := by omega
          subst this
          have := b3 v z (stored_lt hG hz).2 hz
          omega
      · rcases Int.le_total x y with hxy | hxy
        · rw [show min x y = x by omega]
          exact a3
        · rw [show min x y = y by omega]
          exact Or.inr ⟨i, l, b2⟩)
  have hlt := stored_lt hG h0
  refine ⟨m, ?_, ?_, ?_⟩
  · unfold reduceMS
    show run 0 (reduceMat t.minT t.minT t.minT id t.maxVal G) _ = _
    rw [e]
    rfl
  · rcases hm3 with h | h
    · have h1 := hm2 u0 v0 x0 hlt.1 h0
      have h2 := (hh u0 v0 x0 h0).2
      exact ⟨u0, v0, by rw [h0]; congr 1; omega⟩
    · exact h
  · intro u v x hx
    exact hm2 u v x (stored_lt hG hx).1 hx

theorem total_mul (n : Nat) (a : Int) (f : Nat → Int) : total n (fun i => a * f i) = a * total n f := by
  induction n with
  | zero => simp
  | succ n ih => rw [total_succ, total_succ, ih, Int.mul_add]

/-- The flow after `g` units have been sent along the path. -/
def augment (f : Nat → Nat → Int) (M : Lil Bool) (g : Int) (x y : Nat) : Int :=
  f x y + g * (stored M x y - stored M y x)

theorem augment_total (hM : PathFrom E n s k s 0 M) {g : Int} {x : Nat} (hx : x < n) :
    total n (augment f M g x) = total n (f x) + g * (delta x s - delta x k) := by
  have h1 : total n (augment f M g x) = total n (f x) + total n (fun y => g * (stored M x y - stored M y x)) :=
    total_add n (f x) _
  rw [h1, total_mul, hM.net x hx]

theorem PathFrom.one_way (hM : PathFrom E n s k s 0 M) {x y : Nat} {b : Bool} (h : M.get x y = some b) :
    M.get y x = none := by
  cases h' : M.get y x with
  | none => rfl
  | some b' =>
    obtain ⟨-, -, j, -, h1, h2⟩ := hM.edge x y b h
    obtain ⟨-, -, i, -, h3, h4⟩ := hM.edge y x b' h'
    have := h1.unique h4
    have := h2.unique h3
    omega

theorem augment_net (h : NetFlow n s k (val2 C) f) (hM : PathFrom E n s k s 0 M) {g : Int} (hg : 0 ≤ g)
    (hle : ∀ x y b, M.get x y = some b → g ≤ val2 C x y - f x y) :
    NetFlow n s k (val2 C) (augment f M g) := by
  refine ⟨?_, ?_, ?_⟩
  · intro x y hx hy
    have h1 := h.anti x y hx hy
    have h2 : g * (stored M x y - stored M y x) = -(g * (stored M y x - stored M x y)) := by
      rw [← Int.mul_neg]; congr 1; omega
    unfold augment
    omega
  · intro x y hx hy
    have h1 := h.cap x y hx hy
    unfold augment
    cases hb : M.get x y with
    | some b =>
      have h2 := hle x y b hb
      have e1 : stored M x y = 1 := by simp [stored, hb]
      have e2 : stored M y x = 0 := by simp [stored, hM.one_way hb]
      rw [e1, e2]
      omega
    | none =>
      have e1 : stored M x y = 0 := by simp [stored, hb]
      rw [e1]
      have e2 : stored M y x = 0 ∨ stored M y x = 1 := by
        unfold stored; split <;> simp
      rcases e2 with e2 | e2 <;> rw [e2] <;> omega
  · intro x hx h1 h2
    have h3 := h.cons x hx h1 h2
    have h4 := augment_total (f := f) hM (g := g) hx
    have e1 : delta x s = 0 := by simp [delta, h1]
    have e2 : delta x k = 0 := by simp [delta, h2]
    rw [e1, e2] at h4
    have h5 : total n (fun y => f x y) = total n (f x) := rfl
    have h6 : total n (fun y => augment f M g x y) = total n (augment f M g x) := rfl
    rw [h6, h4]
    omega

/-- The loop body sends the smallest capacity left on the path along the path. -/
theorem ffBody_spec (N : FNet t C n K) (hs : s < n) (hsk : s ≠ k) {q : FFSt} (S : FlowSt t C n s k f q.F q.R)
    (hM : PathFrom (Edge q.R.get) n s k s 0 q.M) :
    ∃ q' g, ffBody t ov C q = .ok q' ∧ q'.M = q.M ∧ q'.count = q.count ∧ q'.go = q.go ∧
      FlowSt t C n s k (augment f q.M g) q'.F q'.R ∧ 0 ≤ g ∧
      ((∀ x y v, q.R.get x y = some v → v ≠ 0) → 0 < g) ∧
      (∀ x y v, q'.R.get x y = some v → v ≠ 0) := by
  have hn : n ≠ 0 := by omega
  have hone : t.conv (ofBool true) = 1 := t.conv01 (.inr rfl)
  have hhas1 : t.Has 1 := ITy.has_nn (by omega) t.one_le_max
  have hlt : ∀ x y b, q.M.get x y = some b → x < n ∧ y < n := by
    intro x y b hb
    have := stored_lt hM.wf hb
    rw [hM.rows, hM.cols] at this
    exact this
  -- the path is not empty
  have hne : ∃ x y b, q.M.get x y = some b := by
    refine Classical.byContradiction fun hno => ?_
    have h1 := hM.net s hs
    have h2 : ∀ x y, stored q.M x y = 0 := by
      intro x y
      unfold stored
      cases hb : q.M.get x y with
      | none => rfl
      | some b => exact absurd ⟨x, y, b, hb⟩ hno
    rw [total_const_zero (fun y _ => by rw [h2, h2]; rfl)] at h1
    simp [delta, hsk] at h1
  have hedge : ∀ x y b, q.M.get x y = some b → b = true ∧ q.R.get x y = some (val2 C x y - f x y) := by
    intro x y b hb
    obtain ⟨h1, h2, -⟩ := hM.edge x y b hb
    obtain ⟨v, hv⟩ := Option.isSome_iff_exists.1 h2
    obtain ⟨hx, hy⟩ := hlt x y b hb
    refine ⟨h1, ?_⟩
    rw [hv, (S.left x y hx hy).1 v hv]
  -- gamma
  obtain ⟨G, e1, y1⟩ := C14_eWiseMult_matrix_partial (o := mPlain id (Lil.new n n : Lil Int)) (f := ewTimesBT t ov)
    (A := .plain q.M) (B := .plain q.R) ⟨Lil.new_wf _ _, noMaskOKM⟩ hM.wf S.wfR
    ⟨noMaskFitsM, hM.cols.symm, hM.rows.symm, hM.cols.trans S.colsR.symm, hM.rows.trans S.rowsR.symm⟩
    (fun _ h => by cases h)
  obtain ⟨g1, g2, g3, g4⟩ := plain_yieldsM y1
  have hG : ∀ x y, x < n → y < n → G.get x y = (q.M.get x y).map fun _ => val2 C x y - f x y := by
    intro x y hx hy
    rw [g4 x y hx hy]
    show (both _ (q.M.get x y) (q.R.get x y)).map id = _
    cases hb : q.M.get x y with
    | none => rfl
    | some b =>
      obtain ⟨rfl, hv⟩ := hedge x y b hb
      rw [hv]
      obtain ⟨l1, l2⟩ := S.net.left N hx hy
      show some (t.timesT ov (t.conv (ofBool true)) _) = some _
      rw [hone, ITy.timesT_eq ov hhas1 (N.has l1 l2) (by rw [Int.one_mul]; exact N.has l1 l2), Int.one_mul]
  have hG' : ∀ x y v, G.get x y = some v → x < n ∧ y < n ∧ ∃ b, q.M.get x y = some b ∧ v = val2 C x y - f x y := by
    intro x y v hv
    obtain ⟨hx, hy⟩ : x < n ∧ y < n := by
      have := stored_lt g1 hv
      rw [g2, g3] at this
      exact this
    rw [hG x y hx hy] at hv
    cases hb : q.M.get x y with
    | none => rw [hb] at hv; cases hv
    | some b =>
      rw [hb] at hv
      exact ⟨hx, hy, b, rfl, by cases hv; rfl⟩
  obtain ⟨x0, y0, b0, hb0⟩ := hne
  obtain ⟨hx0, hy0⟩ := hlt x0 y0 b0 hb0
  obtain ⟨g, e2, ⟨xg, yg, hg⟩, hgle⟩ := reduce_min (t := t) g1 (by
      intro x y v hv
      obtain ⟨hx, hy, b, -, rfl⟩ := hG' x y v hv
      obtain ⟨l1, l2⟩ := S.net.left N hx hy
      exact N.has l1 l2) (u0 := x0) (v0 := y0) (x0 := val2 C x0 y0 - f x0 y0) (by rw [hG x0 y0 hx0 hy0, hb0]; rfl)
  obtain ⟨hxg, hyg, bg, hbg, hgv⟩ := hG' xg yg g hg
  have hg0 : 0 ≤ g ∧ g ≤ K := by rw [hgv]; exact S.net.left N hxg hyg
  have hle : ∀ x y b, q.M.get x y = some b → g ≤ val2 C x y - f x y := by
    intro x y b hb
    obtain ⟨hx, hy⟩ := hlt x y b hb
    exact hgle x y _ (by rw [hG x y hx hy, hb]; rfl)
  have hnet := augment_net S.net hM hg0.1 hle
  -- gamma * M
  obtain ⟨GM, e3, y3⟩ := C15_apply_matrix (o := mPlain id (Lil.new n n : Lil Int))
    (f := fun b => t.timesT ov (t.conv (ofBool b)) g) (A := .plain q.M) ⟨Lil.new_wf _ _, noMaskOKM⟩ hM.wf
    ⟨noMaskFitsM, hM.cols.symm, hM.rows.symm⟩
  obtain ⟨a1, a2, a3, a4⟩ := plain_yieldsM y3
  have hGM : ∀ x y, x < n → y < n → GM.get x y = (q.M.get x y).map fun _ => g := by
    intro x y hx hy
    rw [a4 x y hx hy]
    show ((q.M.get x y).map _).map id = _
    cases hb : q.M.get x y with
    | none => rfl
    | some b =>
      obtain ⟨rfl, -⟩ := hedge x y b hb
      show some (t.timesT ov (t.conv (ofBool true)) g) = some g
      rw [hone, ITy.timesT_eq ov hhas1 (N.has hg0.1 hg0.2) (by rw [Int.one_mul]; exact N.has hg0.1 hg0.2),
        Int.one_mul]
  have hK : g ≤ K := hg0.2
  -- minus the transpose
  obtain ⟨GM', e4, y4⟩ := C15_apply_matrix (o := plusOutM t ov GM) (f := t.negT ov) (A := .tr GM)
    ⟨a1, noMaskOKM⟩ a1 ⟨noMaskFitsM, a3.trans a2.symm, a2.trans a3.symm⟩
  have hGM' : ∀ x y, x < n → y < n → Rep t (GM'.get x y) (g * (stored q.M x y - stored q.M y x)) := by
    intro x y hx hy
    have hxn : x < GM.nrows := by rw [a2]; exact hx
    have hyn : y < GM.ncols := by rw [a3]; exact hy
    have hrep : ∀ x y, x < n → y < n → Rep t (GM.get x y) (g * stored q.M x y) := by
      intro x y hx hy
      rw [hGM x y hx hy]
      unfold stored
      cases hb : q.M.get x y with
      | none => exact ⟨fun z hz => by simp at hz, fun _ => by simp⟩
      | some b =>
        refine ⟨fun z hz => ?_, fun h => by simp at h⟩
        simp only [Option.map_some, Option.some.injEq] at hz
        simp only [Option.isSome_some, if_true, Int.mul_one]
        rw [← hz, ITy.conv_id (N.has hg0.1 hg0.2)]
    have hst : ∀ x y, stored q.M x y = 0 ∨ stored q.M x y = 1 := by
      intro x y; unfold stored; split <;> simp
    have hb : ∀ x y, 0 ≤ g * stored q.M x y ∧ g * stored q.M x y ≤ K := by
      intro x y
      rcases hst x y with h | h <;> rw [h] <;> omega
    have h1 := (hrep y x hy hx).neg (ov := ov) N.notBool (N.fit (by have := hb y x; omega) (hb y x).2)
      (N.fit (by have := hb y x; omega) (by have := hb y x; omega))
    have h2 := (hrep x y hx hy).either (ov := ov) N.notBool h1 (N.fit (by have := hb x y; omega) (hb x y).2)
      (N.fit (by have := hb y x; omega) (by have := hb y x; omega))
      (N.fit (by have := hb y x; have := hb x y; omega) (by have := hb y x; have := hb x y; omega))
    have h3 : GM'.get x y = Spec.either (t.plusT ov) id id (GM.get x y) ((GM.get y x).map (t.negT ov)) := by
      rw [y4.get x y hxn hyn]
      simp only [plusOutM, MMask.allows, Spec.write, Spec.accum, if_true, Option.map_id_fun, id]
      show _ = Spec.either (t.plusT ov) id id (GM.get x y) ((Mat.tr GM.get x y).map (t.negT ov))
      rfl
    rw [h3]
    have h4 : g * (stored q.M x y - stored q.M y x) = g * stored q.M x y + -(g * stored q.M y x) := by
      rw [Int.mul_sub]; omega
    rw [h4]
    exact h2
  -- F
  obtain ⟨F, e5, y5⟩ := C13_eWiseAdd_same_type (o := plainReplace q.F) (op := t.plusT ov) (c1 := id) (c2 := id)
    (A := .plain q.F) (B := .plain GM') ⟨S.wfF, noMaskOKM⟩ S.wfF y4.wf
    ⟨noMaskFitsM, rfl, rfl, S.colsF.trans (y4.ncols.trans a3).symm, S.rowsF.trans (y4.nrows.trans a2).symm⟩
  have F2 : F.nrows = n := y5.nrows.trans S.rowsF
  have F3 : F.ncols = n := y5.ncols.trans S.colsF
  have hF : ∀ x y, x < n → y < n → Rep t (F.get x y) (augment f q.M g x y) := by
    intro x y hx hy
    have h1 : F.get x y = Spec.either (t.plusT ov) id id (q.F.get x y) (GM'.get x y) := by
      rw [y5.get x y (by show x < q.F.nrows; rw [S.rowsF]; exact hx) (by show y < q.F.ncols; rw [S.colsF]; exact hy)]
      simp only [plainReplace, MMask.allows, Spec.write, Spec.accum, if_true, Option.map_id_fun, id]
      rfl
    rw [h1]
    obtain ⟨r1, r2⟩ := S.net.range N hx hy
    obtain ⟨r3, r4⟩ := hnet.range N hx hy
    refine (S.rep x y hx hy).either N.notBool (hGM' x y hx hy) (N.fit r1 r2) ?_ (N.fit r3 r4)
    have hst : ∀ x y, stored q.M x y = 0 ∨ stored q.M x y = 1 := by
      intro x y; unfold stored; split <;> simp
    rcases hst x y with h | h <;> rcases hst y x with h' | h' <;> rw [h, h'] <;> exact N.fit (by omega) (by omega)
  -- the capacities left
  obtain ⟨mF, e6, y6⟩ := C15_apply_matrix (o := mPlain id (Lil.new n n : Lil Int)) (f := t.negT ov) (A := .plain F)
    ⟨Lil.new_wf _ _, noMaskOKM⟩ y5.wf ⟨noMaskFitsM, F3.symm, F2.symm⟩
  obtain ⟨b1, b2, b3, b4⟩ := plain_yieldsM y6
  obtain ⟨R, e7, y7⟩ := C13_eWiseAdd_same_type (o := plainReplace q.R) (op := t.plusT ov) (c1 := id) (c2 := id)
    (A := .plain C) (B := .plain mF) ⟨S.wfR, noMaskOKM⟩ N.wf b1
    ⟨noMaskFitsM, S.colsR.trans N.cols.symm, S.rowsR.trans N.rows.symm, N.cols.trans b3.symm, N.rows.trans b2.symm⟩
  have R2 : R.nrows = n := y7.nrows.trans S.rowsR
  have R3 : R.ncols = n := y7.ncols.trans S.colsR
  have hR : ∀ x y, x < n → y < n → Rep t (R.get x y) (val2 C x y - augment f q.M g x y) := by
    intro x y hx hy
    have h1 : R.get x y = Spec.either (t.plusT ov) id id (C.get x y) ((F.get x y).map (t.negT ov)) := by
      rw [y7.get x y (by show x < q.R.nrows; rw [S.rowsR]; exact hx) (by show y < q.R.ncols; rw [S.colsR]; exact hy)]
      simp only [plainReplace, MMask.allows, Spec.write, Spec.accum, if_true, Option.map_id_fun, id]
      show Spec.either (t.plusT ov) id id (C.get x y) (mF.get x y) = _
      rw [b4 x y hx hy, Option.map_id_fun, id]
      rfl
    rw [h1]
    obtain ⟨r3, r4⟩ := hnet.range N hx hy
    obtain ⟨l1, l2⟩ := hnet.left N hx hy
    have hc0 := N.nonneg x y
    have hcK := N.cap_le hx hy
    have hCrep : Rep t (C.get x y) (val2 C x y) := by
      refine ⟨fun z hz => ?_, fun h => by simp [val2, h]⟩
      have : val2 C x y = z := by simp [val2, hz]
      rw [this, ITy.conv_id (N.has (by omega) (by omega))]
    have := hCrep.either (ov := ov) N.notBool
      ((hF x y hx hy).neg (ov := ov) N.notBool (N.fit r3 r4) (N.fit (by omega) (by omega)))
      (N.fit (by omega) hcK) (N.fit (by omega) (by omega)) (N.fit (by omega) (by omega))
    rw [Int.sub_eq_add_neg]
    exact this
  -- clear the zeros
  obtain ⟨R', e8, y8⟩ := C15_apply_matrix (o := selfOut R) (f := id) (A := .plain R)
    ⟨y7.wf, by intro k' v' e; cases e; exact y7.wf⟩ y7.wf
    ⟨by intro k' v' e; cases e; exact ⟨rfl, rfl⟩, rfl, rfl⟩
  have hR' : ∀ x y, x < n → y < n → R'.get x y = if (R.get x y).any isTrue then R.get x y else none := by
    intro x y hx hy
    rw [y8.get x y (by show x < R.nrows; rw [R2]; exact hx) (by show y < R.ncols; rw [R3]; exact hy)]
    simp only [selfOut, MMask.allows, Spec.write, Spec.accum, Spec.allows, Option.map_id_fun, id]
    rfl
  have hconv : ∀ x y, x < n → y < n → t.conv (val2 C x y - augment f q.M g x y) = val2 C x y - augment f q.M g x y := by
    intro x y hx hy
    obtain ⟨l1, l2⟩ := hnet.left N hx hy
    exact ITy.conv_id (N.has l1 l2)
  refine ⟨{ q with F := F, R := R' }, g, ?_, rfl, rfl, rfl, ?_, hg0.1, ?_, ?_⟩
  · unfold ffBody
    simp only [N.rows, e1, e2, e3, e4, e6, e8, exec_done, prog_bind_ok, ewPlusT, e5, e7]
  · refine ⟨y5.wf, F2, F3, y8.wf, y8.nrows.trans R2, y8.ncols.trans R3, hF, hnet, ?_⟩
    intro x y hx hy
    have h1 := hR x y hx hy
    have h2 := hR' x y hx hy
    have h3 := hconv x y hx hy
    constructor
    · intro v hv
      have hv : R'.get x y = some v := hv
      rw [h2] at hv
      split at hv
      · rw [h1.1 v hv, h3]
      · cases hv
    · intro hv
      have hv : R'.get x y = none := hv
      rw [h2] at hv
      split at hv
      · exact h1.2 hv
      · rename_i hz
        cases hr : R.get x y with
        | none => exact h1.2 hr
        | some v =>
          have := h1.1 v hr
          rw [hr] at hz
          simp [isTrue] at hz
          rw [← h3, ← this, hz]
  · intro hpos
    have h1 := (hedge xg yg bg hbg).2
    have h2 := hpos xg yg _ h1
    have h3 := hg0.1
    omega
  · intro x y v hv
    have hv : R'.get x y = some v := hv
    obtain ⟨hx, hy⟩ : x < n ∧ y < n := by
      have := stored_lt y8.wf hv
      rw [y8.nrows.trans R2, y8.ncols.trans R3] at this
      exact this
    rw [hR' x y hx hy] at hv
    split at hv
    · rename_i hz
      rw [hv] at hz
      simpa [isTrue] using hz
    · cases hv

/-! ### the loop -/

theorem _root_.Spec.Reachable.mono {E E' : Nat → Nat → Prop} {S : Nat → Prop} (h : ∀ u v, E u v → E' u v) {v : Nat}
    (hr : Reachable E S v) : Reachable E' S v := by
  obtain ⟨j, hj⟩ := hr
  refine ⟨j, ?_⟩
  induction j generalizing v with
  | zero => exact hj
  | succ j ih =>
    obtain ⟨u, h1, h2⟩ := hj
    exact ⟨u, ih h1, h u v h2⟩

/-- Between two augmentations. `z` is 0 if no stored capacity is zero and else 1; after
`a` augmentations the flow's value is at least `a - z`. -/
structure Between (t : ITy) (C : Lil Int) (n s k : Nat) (z a : Nat) (f : Nat → Nat → Int) (F R : Lil Int) : Prop where
  st : FlowSt t C n s k f F R
  low : (a : Int) ≤ total n (f s) + z
  nonneg : 0 ≤ total n (f s)
  zle : z ≤ 1
  pos : 1 ≤ a ∨ z = 0 → ∀ x y v, R.get x y = some v → v ≠ 0

/-- After the condition of the loop has been evaluated. -/
structure LoopInv (t : ITy) (C : Lil Int) (n s k z : Nat) (f : Nat → Nat → Int) (q : FFSt) : Prop where
  wfM : q.M.WF
  rowsM : q.M.nrows = n
  colsM : q.M.ncols = n
  cases : (q.go = true ∧ (∃ a, q.count = a + 1 ∧ a < C.nvals ∧ Between t C n s k z a f q.F q.R) ∧
      PathFrom (Edge q.R.get) n s k s 0 q.M) ∨
    (q.go = false ∧ FlowSt t C n s k f q.F q.R ∧ 0 ≤ total n (f s) ∧
      (¬ Reachable (Edge q.R.get) (· = s) k ∨ (C.nvals : Int) ≤ total n (f s) + z))

theorem ffCond_spec (hs : s < n) (hk : k < n) {ramp : BVec Nat} (r1 : ramp.WF) (r2 : ramp.size = n)
    (r3 : ∀ i, i < n → ramp.get i = some i) {q : FFSt} {z : Nat} (B : Between t C n s k z q.count f q.F q.R)
    (m1 : q.M.WF) (m2 : q.M.nrows = n) (m3 : q.M.ncols = n) {fuel : Nat} (hf : n ≤ fuel) :
    ∃ q', ffCond fuel C s k ramp q = .ok q' ∧ LoopInv t C n s k z f q' ∧
      (q'.go = true → q'.count = q.count + 1) := by
  rcases maxflowBfs_spec B.st.wfR B.st.rowsR B.st.colsR hs hk r1 r2 r3 m1 m2 m3 hf with ⟨e, hno⟩ | ⟨M', e, hP⟩
  · refine ⟨{ q with M := q.M, go := false }, ?_, ⟨m1, m2, m3, .inr ⟨rfl, B.st, B.nonneg, .inl hno⟩⟩, ?_⟩
    · unfold ffCond
      rw [e]
      rfl
    · intro h; cases h
  · refine ⟨{ q with M := M', count := q.count + 1, go := decide (q.count < C.nvals) }, ?_,
      ⟨hP.wf, hP.rows, hP.cols, ?_⟩, fun _ => rfl⟩
    · unfold ffCond
      rw [e]
      rfl
    · by_cases h : q.count < C.nvals
      · exact .inl ⟨decide_eq_true h, ⟨q.count, rfl, h, B⟩, hP⟩
      · refine .inr ⟨decide_eq_false h, B.st, B.nonneg, .inr ?_⟩
        have := B.low
        omega

/-! ### the result -/

theorem osum_rep (ht : t ≠ .bool) {o : Nat → Option Int} {g : Nat → Int} {n : Nat} (h1 : ∀ i, i < n → Rep t (o i) (g i))
    (h2 : ∀ i, i < n → t.Fit (g i)) (h3 : ∀ m, m ≤ n → t.Fit (total m g)) :
    ∀ m, m ≤ n → Rep t (osum (t.plusT ov) ((List.range m).map o)) (total m g) := by
  intro m
  induction m with
  | zero => intro _; exact ⟨fun x hx => by simp [osum] at hx, fun _ => rfl⟩
  | succ m ih =>
    intro hm
    have e : osum (t.plusT ov) ((List.range (m + 1)).map o) =
        Spec.either (t.plusT ov) id id (osum (t.plusT ov) ((List.range m).map o)) (o m) := by
      rw [List.range_succ, List.map_append, List.map_cons, List.map_nil, osum_append]
      cases osum (t.plusT ov) ((List.range m).map o) <;> cases o m <;> rfl
    rw [e, total_succ]
    have h4 := h3 (m + 1) hm
    rw [total_succ] at h4
    exact (ih (by omega)).either ht (h1 m (by omega)) (h3 m (by omega)) (h2 m (by omega)) h4

/-- What enters the sink is what leaves the source. -/
theorem NetFlow.sink {c : Nat → Nat → Int} (h : NetFlow n s k c f) (hs : s < n) (hk : k < n) (hsk : s ≠ k) :
    total n (fun y => f y k) = total n (f s) := by
  have h0 := total_antisymm h.anti
  have h1 := total_upd (n := n) (k := s) hs (f := fun x => total n fun y => f x y)
    (g := fun x => if x = s then 0 else total n fun y => f x y) (fun i _ hi => by simp [hi])
  have h2 := total_upd (n := n) (k := k) hk (f := fun _ => 0)
    (g := fun x => if x = s then 0 else total n fun y => f x y) (by
      intro i hi hik
      by_cases his : i = s
      · simp [his]
      · simp only [his, if_false]; exact h.cons i hi his hik)
  rw [total_const_zero (fun _ _ => rfl)] at h2
  simp only [if_true, if_neg (Ne.symm hsk)] at h1 h2
  have h3 : total n (fun y => f y k) = - total n (fun y => f k y) := by
    rw [← total_neg]
    exact total_congr fun y hy => h.anti y k hy hk
  have h4 : total n (fun y => f s y) = total n (f s) := rfl
  omega

/-- The flow into the sink. -/
theorem ff_result (N : FNet t C n K) (hs : s < n) (hk : k < n) (hsk : s ≠ k) {F R : Lil Int}
    (S : FlowSt t C n s k f F R) (h0 : 0 ≤ total n (f s)) :
    (do let w ← lift (BVec.new n)
        let w ← exec (extractC (vPlain id w) (.plain F) .all k)
        reduceInto (redPlus t ov) (Mon.plus.identity t) 0 w : Prog Int) = .ok (total n (f s)) := by
  obtain ⟨w, ew, hw, hsz, -⟩ := BVec.new_spec (α := Int) (n := n) (by omega)
  obtain ⟨w', e, y⟩ := C18_extract_column (o := vPlain id w) (A := .plain F) (ri := .all) (j := k)
    (vPlain_wf hw) S.wfF (vPlain_fits _) rfl (by trivial) (by show k < F.ncols; rw [S.colsF]; exact hk)
  obtain ⟨y1, y2, y3⟩ := plain_yields y
  have hg : ∀ i, i < n → w'.get i = F.get i k := by
    intro i hi
    rw [y3 i (by omega)]
    simp [Spec.extract, Spec.nth, Idx.sel, Operand.nrows, hi, Operand.get, S.rowsF]
  have hK : total n (f s) ≤ K := Int.le_trans (total_mono fun y hy => S.net.cap s y hs hy) (N.row_le hs)
  have hrep := osum_rep (ov := ov) N.notBool (o := w'.get) (g := fun i => f i k) (n := n)
    (fun i hi => by rw [hg i hi]; exact S.rep i k hi hk)
    (fun i hi => N.fit (S.net.range N hi hk).1 (S.net.range N hi hk).2)
    (by
      intro m hm
      have u1 : total m (fun y => f y k) ≤ total m (fun y => val2 C y k) :=
        total_mono fun y hy => S.net.cap y k (by omega) hk
      have u2 := total_prefix_le hm (f := fun y => val2 C y k) fun y _ => N.nonneg y k
      have u3 := N.col_le hk
      have l1 : total m (fun y => - val2 C k y) ≤ total m (fun y => f y k) := total_mono fun y hy => by
        have a1 := S.net.cap k y hk (by omega)
        have a2 := S.net.anti k y hk (by omega)
        omega
      rw [total_neg] at l1
      have l2 := total_prefix_le hm (f := val2 C k) fun y _ => N.nonneg k y
      have l3 := N.row_le hk
      have l4 : total m (fun y => val2 C k y) = total m (val2 C k) := rfl
      exact N.fit (by omega) (by omega)) n (Nat.le_refl _)
  have hred := reduceInto_eq (f := t.plusT ov) (e := Mon.plus.identity t) (val := 0) y1
  rw [ew]
  simp only [lift_ok, prog_bind_ok, e, exec_done]
  unfold redPlus
  rw [hred, show w'.size = n from y2.trans hsz]
  have hid : Mon.plus.identity t = 0 := t.conv_zero
  rw [hid, hrep.getD, S.net.sink hs hk hsk, ITy.conv_id (N.has h0 hK)]

theorem ramp_spec {n : Nat} (hn : n ≠ 0) : ∃ r0 r : BVec Nat, BVec.new n = .ok r0 ∧
    r0.build (fun _ y => y) ((List.range n).map fun i => (i, i)) = (.ok (), r) ∧ r.WF ∧ r.size = n ∧
      ∀ i, i < n → r.get i = some i := by
  obtain ⟨r0, e0, h1, h2, h3⟩ := BVec.new_spec (α := Nat) hn
  obtain ⟨r, e, a, b, -, c⟩ := C03_vector_build_partial r0 (fun _ y => y) ((List.range n).map fun i => (i, i)) (by
    intro x hx
    obtain ⟨i, hi, rfl⟩ := List.mem_map.1 hx
    rw [h2]
    exact List.mem_range.1 hi)
  have hmap : ((List.range n).map fun i => (i, i)).map Prod.fst = List.range n := by
    rw [List.map_map]
    exact List.map_id _
  refine ⟨r0, r, e0, e, (c (by rw [hmap]; exact List.nodup_range)).1, a.trans h2, ?_⟩
  intro i hi
  rw [b i]
  have hf : ∀ m, i < m → (((List.range m).map fun j => (j, j)).filter fun x => x.1 = i) = [(i, i)] := by
    intro m
    induction m with
    | zero => intro h; omega
    | succ m ih =>
      intro h
      rw [List.range_succ, List.map_append, List.filter_append]
      by_cases him : i = m
      · subst him
        have : (((List.range i).map fun j => (j, j)).filter fun x => decide (x.1 = i)) = [] := by
          rw [List.filter_eq_nil_iff]
          intro x hx
          obtain ⟨j, hj, rfl⟩ := List.mem_map.1 hx
          have := List.mem_range.1 hj
          simp; omega
        rw [this]
        simp
      · rw [ih (by omega)]
        simp [Ne.symm him]
  unfold combined
  rw [hf n hi]
  rfl

/-- The full statement of C52: `maxflow_ford_fulk` returns the value of a maximum flow. -/
def C52_statement : Prop :=
  ∀ (t : ITy) (ov : Int → Int → Int) (C : Lil Int) (s k : Nat), C.WF → C.nrows = C.ncols → s < C.nrows →
    k < C.nrows → s ≠ k → (∀ u v x, C.get u v = some x → 0 ≤ x) → t ≠ .bool →
    totalCapacity C.nrows (capacityOf C.get) ≤ t.maxVal →
    ∀ fuel, C.nrows + C.nvals ≤ fuel →
    ∃ m, maxflowFordFulk fuel t ov C s k = .ok m ∧ IsMaxFlow C.nrows s k (capacityOf C.get) m

/-- **C52**, partial: `maxflow_ford_fulk(graph, source, sink)` terminates and returns the
value of a flow from the source to the sink, for every square matrix of capacities that
are not negative and every source and sink that differ, provided the scalar type, which
may be unsigned, is not `bool` and holds the sum of all capacities. It is the value of a
maximum flow unless it is at least the number of stored capacities (minus one, if a
stored capacity is zero). Missing: the other networks, for which `C52_disproof` shows
that it can be less. The bound on `fuel` says that no loop makes more iterations than
that. -/
theorem C52_ford_fulk_partial (ov : Int → Int → Int) (hC : C.WF) (hsq : C.nrows = C.ncols) (hs : s < C.nrows)
    (hk : k < C.nrows) (hsk : s ≠ k) (hc : ∀ u v x, C.get u v = some x → 0 ≤ x) (ht : t ≠ .bool)
    (hK : totalCapacity C.nrows (capacityOf C.get) ≤ t.maxVal) {fuel : Nat} (hf : C.nrows + C.nvals ≤ fuel) :
    ∃ m, maxflowFordFulk fuel t ov C s k = .ok m ∧
      (∃ g, IsFlow C.nrows s k (capacityOf C.get) g ∧ flowValue C.nrows s g = m) ∧
      (IsMaxFlow C.nrows s k (capacityOf C.get) m ∨ (C.nvals : Int) ≤ m + 1) ∧
      ((∀ u v x, C.get u v = some x → x ≠ 0) →
        IsMaxFlow C.nrows s k (capacityOf C.get) m ∨ (C.nvals : Int) ≤ m) := by
  classical
  obtain ⟨n, hn⟩ : ∃ n, n = C.nrows := ⟨_, rfl⟩
  rw [← hn] at hs hk hK hf ⊢
  have hval : ∀ x y, 0 ≤ val2 C x y := by
    intro x y
    unfold val2
    cases hx : C.get x y with
    | none => exact Int.le_refl _
    | some z => exact hc x y z hx
  have N : FNet t C n (totalCapacity n (val2 C)) := ⟨hC, hn.symm, by omega, hval, rfl, hK, ht⟩
  obtain ⟨r0, r, e1, e2, r1, r2, r3⟩ := ramp_spec (n := n) (by omega)
  obtain ⟨z, hz⟩ : ∃ z, z = if ∀ u v x, C.get u v = some x → x ≠ 0 then 0 else 1 := ⟨_, rfl⟩
  have hzero : total n (fun _ => (0 : Int)) = 0 := total_const_zero fun _ _ => rfl
  have B0 : Between t C n s k z 0 (fun _ _ => 0) (Lil.new n n) C := by
    refine ⟨⟨Lil.new_wf _ _, rfl, rfl, hC, hn.symm, N.cols, ?_, ⟨?_, ?_, ?_⟩, ?_⟩, ?_, ?_, ?_, ?_⟩
    · intro x y _ _
      rw [Lil.get_new]
      exact ⟨fun v hv => (nomatch hv), fun _ => rfl⟩
    · intro x y _ _; rfl
    · intro x y _ _; exact hval x y
    · intro x _ _ _; exact hzero
    · intro x y _ _
      unfold val2
      exact ⟨fun v hv => by rw [hv]; simp, fun h => by rw [h]; rfl⟩
    · show ((0 : Nat) : Int) ≤ total n (fun _ => (0 : Int)) + z
      rw [hzero]; omega
    · show 0 ≤ total n (fun _ => (0 : Int))
      rw [hzero]; exact Int.le_refl _
    · rw [hz]; split <;> omega
    · rintro (h | h)
      · omega
      · rw [hz] at h
        split at h
        · rename_i h'; exact h'
        · omega
  obtain ⟨q, e3, L0, g0⟩ := ffCond_spec (C := C) (f := fun _ _ => 0) hs hk r1 r2 r3
    (q := { M := Lil.new n n, F := Lil.new n n, R := C, count := 0, go := false }) B0 (Lil.new_wf _ _) rfl rfl
    (fuel := fuel) (by omega)
  obtain ⟨q', e4, ⟨f, L⟩, hgo⟩ := loop_rule (c := fun q : FFSt => q.go)
    (b := fun q => do let q ← ffBody t ov C q; ffCond fuel C s k r q)
    (fun q => ∃ f, LoopInv t C n s k z f q) (fun q => if q.go then C.nvals + 1 - q.count else 0) (by
      rintro q ⟨f, L⟩ hgo
      rcases L.cases with ⟨-, ⟨a, ha, hlt, B⟩, hP⟩ | ⟨h, -⟩
      · obtain ⟨p, g, p1, p2, p3, p4, p5, p6, p7, p8⟩ := ffBody_spec (ov := ov) N hs hsk B.st hP
        have htot := augment_total (f := f) hP (g := g) hs
        have d1 : delta s s = 1 := by simp [delta]
        have d2 : delta s k = 0 := by simp [delta, hsk]
        rw [d1, d2] at htot
        have B' : Between t C n s k z p.count (augment f q.M g) p.F p.R := by
          refine ⟨p5, ?_, ?_, B.zle, fun _ => p8⟩
          · rw [p3, ha, htot]
            have h1 := B.low
            have h2 := B.nonneg
            by_cases h : 1 ≤ a ∨ z = 0
            · have := p7 (B.pos h)
              omega
            · omega
          · rw [htot]
            have := B.nonneg
            omega
        obtain ⟨p', c1, c2, c3⟩ := ffCond_spec hs hk r1 r2 r3 B' (by rw [p2]; exact L.wfM)
          (by rw [p2]; exact L.rowsM) (by rw [p2]; exact L.colsM) (fuel := fuel) (by omega)
        refine ⟨p', ?_, ⟨_, c2⟩, ?_⟩
        · show (do let q ← ffBody t ov C q; ffCond fuel C s k r q : Prog FFSt) = _
          rw [p1]
          exact c1
        · rw [if_pos hgo]
          by_cases hp : p'.go = true
          · rw [if_pos hp, c3 hp, p3]
            omega
          · rw [if_neg hp]
            omega
      · rw [h] at hgo; cases hgo) fuel q ⟨_, L0⟩ (by
      split
      · rename_i h
        have := g0 h
        show C.nvals + 1 - q.count ≤ fuel
        omega
      · omega)
  rcases L.cases with ⟨h, -⟩ | ⟨-, S, h0, hend⟩
  · rw [h] at hgo; cases hgo
  have hmax : IsMaxFlow n s k (capacityOf C.get) (total n (f s)) ∨ (C.nvals : Int) ≤ total n (f s) + z := by
    rcases hend with hno | hend
    · left
      refine S.net.maximal (fun x y _ _ => hval x y) hs ?_
      intro hr
      refine hno (hr.mono ?_)
      rintro x y ⟨hx, hy, hlt⟩
      unfold Edge
      cases hR : q'.R.get x y with
      | some v => rfl
      | none =>
        have := (S.left x y hx hy).2 hR
        omega
    · exact .inr hend
  refine ⟨total n (f s), ?_, ?_, ?_, ?_⟩
  · have hres := ff_result (ov := ov) N hs hk hsk S h0
    unfold maxflowFordFulk
    simp only
    rw [← hn, e1]
    simp only [lift_ok, prog_bind_ok, e2, method_ok, e3]
    rw [e4]
    exact hres
  · obtain ⟨a1, a2⟩ := S.net.flow fun x y _ _ => hval x y
    rw [if_pos hs] at a2
    exact ⟨_, a1, a2⟩
  · refine hmax.imp id fun h => ?_
    have := B0.zle
    omega
  · intro hnz
    refine hmax.imp id fun h => ?_
    rw [hz, if_pos hnz] at h
    omega

/-- **C52**, partial: when no stored capacity is zero and the capacities of the edges out
of the source sum up to at most the number of stored capacities, as when every capacity
is one, `maxflow_ford_fulk` returns the value of a maximum flow. -/
theorem C52_ford_fulk_small_partial (ov : Int → Int → Int) (hC : C.WF) (hsq : C.nrows = C.ncols) (hs : s < C.nrows)
    (hk : k < C.nrows) (hsk : s ≠ k) (hc : ∀ u v x, C.get u v = some x → 0 < x) (ht : t ≠ .bool)
    (hK : totalCapacity C.nrows (capacityOf C.get) ≤ t.maxVal)
    (hout : total C.nrows (capacityOf C.get s) ≤ C.nvals) {fuel : Nat} (hf : C.nrows + C.nvals ≤ fuel) :
    ∃ m, maxflowFordFulk fuel t ov C s k = .ok m ∧ IsMaxFlow C.nrows s k (capacityOf C.get) m := by
  obtain ⟨m, e, hex, -, hor⟩ := C52_ford_fulk_partial (t := t) ov hC hsq hs hk hsk
    (fun u v x hx => Int.le_of_lt (hc u v x hx)) ht hK hf
  refine ⟨m, e, ?_⟩
  rcases hor (fun u v x hx => by have := hc u v x hx; omega) with h | h
  · exact h
  · refine ⟨hex, ?_⟩
    intro g hg
    refine Int.le_trans ?_ h
    refine Int.le_trans ?_ hout
    rw [← net_value]
    exact total_mono fun y hy => hg.net.cap s y hs hy

namespace Ex

/-- A network with 25 edges in which 27 augmentations are needed. -/
def ffNet : Lil Int :=
  ((Lil.new 11 11 : Lil Int).build (fun _ y => y) [(0, 1, 4), (0, 2, 6), (0, 6, 33), (1, 3, 1), (1, 4, 1),
    (1, 5, 1), (1, 7, 5), (2, 3, 2), (2, 4, 2), (2, 5, 1), (2, 7, 7), (3, 5, 8), (3, 10, 4), (4, 9, 7),
    (4, 10, 8), (5, 9, 14), (5, 10, 7), (6, 3, 3), (6, 4, 13), (6, 5, 8), (6, 8, 11), (7, 10, 32), (8, 1, 5),
    (8, 2, 14), (9, 7, 18)]).2

theorem ffNet_wf : ffNet.WF := Lil.wf_chk (by decide +kernel)

theorem ffNet_result : maxflowFordFulk 36 .i32 (fun _ _ => 0) ffNet 0 10 = .ok 41 := by decide +kernel

/-- A flow of value 43 in it. -/
def ffFlow : Lil Int :=
  ((Lil.new 11 11 : Lil Int).build (fun _ y => y) [(0, 1, 4), (0, 2, 6), (0, 6, 33), (1, 3, 1), (1, 4, 1), (1, 5, 1), (1, 7, 5), (2, 3, 2), (2, 4, 1), (2, 5, 1), (2, 7, 7), (3, 5, 2), (3, 10, 4), (4, 9, 7), (4, 10, 8), (5, 9, 5), (5, 10, 7), (6, 3, 3), (6, 4, 13), (6, 5, 8), (6, 8, 9), (7, 10, 24), (8, 1, 4), (8, 2, 5), (9, 7, 12)]).2

theorem ffNet_rows : ffNet.nrows = 11 ∧ ffNet.ncols = 11 ∧ ffNet.nvals = 25 := by decide +kernel

theorem ffNet_pos {u v : Nat} {x : Int} (h : ffNet.get u v = some x) : 0 < x :=
  of_decide_eq_true (Ex.get_chk ffNet_wf (P := fun x => decide (0 < x)) (by decide +kernel) h)

theorem ffFlow_isFlow : IsFlow 11 0 10 (capacityOf ffNet.get) (capacityOf ffFlow.get) := by
  refine ⟨?_, ?_, ?_⟩
  · have : ∀ u, u < 11 → ∀ v, v < 11 → 0 ≤ capacityOf ffFlow.get u v := by decide +kernel
    exact fun u v hu hv => this u hu v hv
  · have : ∀ u, u < 11 → ∀ v, v < 11 → capacityOf ffFlow.get u v ≤ capacityOf ffNet.get u v := by decide +kernel
    exact fun u v hu hv => this u hu v hv
  · decide +kernel

end Ex

/-- **C52** fails: on the network `Ex.ffNet` the result is 41, and there is a flow of
value 43. The loop makes at most as many augmentations as there are edges. -/
theorem C52_disproof : ¬ C52_statement := by
  intro h
  obtain ⟨h1, h2, h3⟩ := Ex.ffNet_rows
  obtain ⟨m, e, -, hm⟩ := h .i32 (fun _ _ => 0) Ex.ffNet 0 10 Ex.ffNet_wf (h1.trans h2.symm) (by rw [h1]; decide)
    (by rw [h1]; decide) (by decide) (fun u v x hx => Int.le_of_lt (Ex.ffNet_pos hx)) (by decide)
    (by decide +kernel) 36 (by rw [h1, h3]; decide)
  rw [Ex.ffNet_result] at e
  cases e
  rw [h1] at hm
  have := hm _ Ex.ffFlow_isFlow
  revert this
  decide +kernel

namespace Ex

example : ∃ m, maxflowFordFulk 36 .u8 (fun _ _ => 0) ffNet 0 10 = .ok m ∧
    (∃ g, IsFlow 11 0 10 (capacityOf ffNet.get) g ∧ flowValue 11 0 g = m) := by
  have h := C52_ford_fulk_partial (t := .u8) (fun _ _ => 0) (C := ffNet) (s := 0) (k := 10) ffNet_wf
    (ffNet_rows.1.trans ffNet_rows.2.1.symm) (by rw [ffNet_rows.1]; decide) (by rw [ffNet_rows.1]; decide) (by decide)
    (fun u v x hx => Int.le_of_lt (ffNet_pos hx)) (by decide) (by decide +kernel) (fuel := 36)
    (by rw [ffNet_rows.1, ffNet_rows.2.2]; decide)
  rw [ffNet_rows.1] at h
  obtain ⟨m, e, hg, -⟩ := h
  exact ⟨m, e, hg⟩

/-- Edges of capacity one; the maximum flow is 2, and the second augmentation goes
against the first. -/
def ffUnit : Lil Int :=
  ((Lil.new 4 4 : Lil Int).build (fun _ y => y) [(0, 1, 1), (0, 2, 1), (1, 2, 1), (1, 3, 1), (2, 3, 1)]).2

example : ∃ m, maxflowFordFulk 9 .i8 (fun _ _ => 0) ffUnit 0 3 = .ok m ∧
    IsMaxFlow ffUnit.nrows 0 3 (capacityOf ffUnit.get) m :=
  C52_ford_fulk_small_partial (t := .i8) (fun _ _ => 0) (Lil.wf_chk (by decide +kernel)) (by decide +kernel)
    (by decide +kernel) (by decide +kernel) (by decide)
    (fun _ _ _ h => Ex.get_chk (Lil.wf_chk (by decide +kernel)) (P := fun x => decide (0 < x)) (by decide +kernel) h |> of_decide_eq_true)
    (by decide) (by decide +kernel) (by decide +kernel) (by decide +kernel)

example : maxflowFordFulk 9 .i8 (fun _ _ => 0) ffUnit 0 3 = .ok 2 := by decide +kernel
example : maxflowFordFulk 9 .u32 (fun _ _ => 0) ffUnit 0 3 = .ok 2 := by decide +kernel

end Ex

end GBTL

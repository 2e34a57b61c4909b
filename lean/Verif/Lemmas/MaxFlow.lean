import Verif.Model.MaxFlow
import Verif.Lemmas.Flow
import Verif.Lemmas.Sssp
/-
The steps of `maxflow_push_relabel`.
-/
namespace GBTL
open Spec

/-! ### arithmetic -/

theorem run_plus {t : ITy} {x y : Int} (hx : t.Has x) (hy : t.Has y) (hs : t.Has (x + y)) :
    BOp.plus.run t t t x y = .ok (x + y) := by
  rw [C45_binary .plus t t t x y (by rw [ITy.common_self]; exact ITy.has_promote hx)
    (by rw [ITy.common_self]; exact ITy.has_promote hy) (by rw [ITy.common_self]; exact ITy.has_promote hs) hs]
  rfl

theorem run_minus {t : ITy} {x y : Int} (hx : t.Has x) (hy : t.Has y) (hs : t.Has (x - y)) :
    BOp.minus.run t t t x y = .ok (x - y) := by
  rw [C45_binary .minus t t t x y (by rw [ITy.common_self]; exact ITy.has_promote hx)
    (by rw [ITy.common_self]; exact ITy.has_promote hy) (by rw [ITy.common_self]; exact ITy.has_promote hs) hs]
  rfl

theorem run_minus_wide {t : ITy} {x y : Int} (hx : t.Has x) (hy : t.Has y) (hs : t.Has (x - y)) :
    BOp.minus.run t t (ITy.common t t) x y = .ok (x - y) := by
  rw [C45_binary .minus t t (ITy.common t t) x y (by rw [ITy.common_self]; exact ITy.has_promote hx)
    (by rw [ITy.common_self]; exact ITy.has_promote hy) (by rw [ITy.common_self]; exact ITy.has_promote hs)
    (by rw [ITy.common_self]; exact ITy.has_promote hs)]
  rfl

theorem run_succ {t : ITy} {x : Int} (h0 : 0 ≤ x) (hs : t.Has (x + 1)) :
    BOp.plus.run t .i32 t x 1 = .ok (x + 1) := by
  have h2 := hs.2
  have hc : ∀ z : Int, 0 ≤ z → z ≤ x + 1 → (ITy.common t .i32).Has z := by
    intro z a b
    have h3 : t.maxVal ≤ (ITy.common t .i32).maxVal := by cases t <;> decide
    have h4 : (ITy.common t .i32).minVal ≤ 0 := by cases t <;> decide
    constructor
    · omega
    · omega
  rw [C45_binary .plus t .i32 t x 1 (hc x h0 (by omega)) (hc 1 (by omega) (by omega))
    (hc (x + 1) (by omega) (by omega)) hs]
  rfl

theorem belowIx_eq {t : ITy} {x : Int} {n : Nat} (h0 : 0 ≤ x) (hx : t.Has x) (hn : t.Has n) :
    belowIx t x n = decide (x < n) := by
  have e : ITy.common t .u64 = .u64 := by cases t <;> decide
  have hx' : ITy.Has .u64 x := by
    obtain ⟨k, rfl⟩ := Int.eq_ofNat_of_zero_le h0
    exact ITy.has_u64 hx
  rw [belowIx, e, ITy.conv_id hx', ITy.conv_id (ITy.has_u64 hn)]

/-! ### reads -/

/-- What a vector stores, zero where nothing is stored. -/
def val1 (v : BVec Int) (x : Nat) : Int := (v.get x).getD 0

/-- What a matrix stores, zero where nothing is stored. -/
def val2 (A : Lil Int) (x y : Nat) : Int := (A.get x y).getD 0

theorem BVec.at0_spec {v : BVec Int} (hv : v.WF) {i : Nat} (hi : i < v.size) : v.at0 i = .ok (val1 v i) := by
  unfold BVec.at0 val1
  rw [BVec.hasElement_spec hv hi]
  cases h : v.get i with
  | none => rfl
  | some x =>
    show (if (some x).isSome = true then v.extractElement i else .ok 0) = _
    simp only [Option.isSome_some, if_true]
    exact BVec.extractElement_spec hv hi h

theorem Lil.at0_spec {A : Lil Int} (hA : A.WFr) {i j : Nat} (hi : i < A.nrows) (hj : j < A.ncols) :
    A.at0 i j = .ok (val2 A i j) := by
  unfold Lil.at0 val2
  rw [Lil.hasElement_spec hA hi hj]
  cases h : A.get i j with
  | none => rfl
  | some x =>
    show (if (some x).isSome = true then A.extractElement i j else .ok 0) = _
    simp only [Option.isSome_some, if_true]
    rw [Lil.extractElement_spec hA hi hj, h]
    rfl

theorem setV {v : BVec Int} (hv : v.WF) {i : Nat} (hi : i < v.size) (x : Int) :
    ∃ w, method (v.setElement i x) = .ok w ∧ w.WF ∧ w.size = v.size ∧
      ∀ k, val1 w k = if k = i then x else val1 v k := by
  obtain ⟨w, e, h1, h2, h3⟩ := BVec.setElement_spec hv hi x
  refine ⟨w, by rw [e, method_ok], h1, h2, ?_⟩
  intro k
  unfold val1
  rw [h3]
  split <;> rfl

theorem setM {A : Lil Int} (hA : A.WF) {i j : Nat} (hi : i < A.nrows) (hj : j < A.ncols) (x : Int) :
    ∃ B, method (A.setElement i j x) = .ok B ∧ B.WF ∧ B.nrows = A.nrows ∧ B.ncols = A.ncols ∧
      ∀ k l, val2 B k l = if k = i ∧ l = j then x else val2 A k l := by
  obtain ⟨B, e, h1, h2, h3, h4⟩ := Lil.setElement_spec hA hi hj x
  refine ⟨B, by rw [e, method_ok], h1, h2, h3, ?_⟩
  intro k l
  unfold val2
  rw [h4]
  split <;> rfl

/-! ### the setting -/

/-- The network: `n` vertices, capacities not negative, and a scalar type with room for
the sum of all capacities (and its negation) and for `2 n`. -/
structure Net (t : ITy) (C : Lil Int) (n s : Nat) (K : Int) : Prop where
  wf : C.WF
  rows : C.nrows = n
  cols : C.ncols = n
  src : s < n
  nonneg : ∀ x y, x < n → y < n → 0 ≤ val2 C x y
  sum : totalCapacity n (val2 C) = K
  flow : ∀ x, -K ≤ x → x ≤ K → t.Has x
  small : ∀ x, 0 ≤ x → x ≤ 2 * (n : Int) → t.Has x

/-- A preflow of the network, with its excesses. -/
structure Base (t : ITy) (C : Lil Int) (n s : Nat) (F : Lil Int) (e : BVec Int) : Prop where
  wfF : F.WF
  rows : F.nrows = n
  cols : F.ncols = n
  wfe : e.WF
  size : e.size = n
  pre : Preflow n s (val2 C) (val2 F) (val1 e)
  src : val1 e s = t.maxVal - total n (val2 F s)

variable {t : ITy} {C F : Lil Int} {n s u v : Nat} {K : Int} {e : BVec Int}

theorem Net.cap_nonneg (N : Net t C n s K) {x : Nat} (hx : x < n) : 0 ≤ total n (val2 C x) :=
  total_nonneg fun y hy => N.nonneg x y hx hy

theorem Net.row_le (N : Net t C n s K) {x : Nat} (hx : x < n) : total n (val2 C x) ≤ K := by
  rw [← N.sum]
  exact le_total hx (f := fun x => total n fun y => val2 C x y) (fun y hy => N.cap_nonneg hy)

theorem Net.cap_le (N : Net t C n s K) {x y : Nat} (hx : x < n) (hy : y < n) : val2 C x y ≤ K :=
  Int.le_trans (le_total hy (f := val2 C x) fun z hz => N.nonneg x z hx hz) (N.row_le hx)

theorem Net.cap2_le (N : Net t C n s K) {x y : Nat} (hx : x < n) (hy : y < n) (hxy : x ≠ y) :
    val2 C x y + val2 C y x ≤ K := by
  have h1 := le_total2 hx hy hxy (f := fun x => total n fun y => val2 C x y) (fun y hy => N.cap_nonneg hy)
  have h2 := le_total hy (f := val2 C x) fun z hz => N.nonneg x z hx hz
  have h3 := le_total hx (f := val2 C y) fun z hz => N.nonneg y z hy hz
  have h4 : total n (fun x => total n fun y => val2 C x y) = K := N.sum
  rw [h4] at h1
  have h5 : total n (fun z => val2 C x z) = total n (val2 C x) := rfl
  have h6 : total n (fun z => val2 C y z) = total n (val2 C y) := rfl
  omega

theorem Net.zero_le (N : Net t C n s K) : 0 ≤ K :=
  Int.le_trans (N.cap_nonneg N.src) (N.row_le N.src)

theorem Net.le_max (N : Net t C n s K) : K ≤ t.maxVal := by
  have := N.zero_le
  exact (N.flow K (by omega) (by omega)).2

theorem Base.flow_range (N : Net t C n s K) (B : Base t C n s F e) {x y : Nat} (hx : x < n) (hy : y < n) :
    -K ≤ val2 F x y ∧ val2 F x y ≤ K := by
  have := B.pre.cap x y hx hy
  have := B.pre.cap y x hy hx
  have := B.pre.anti x y hx hy
  have := N.cap_le hx hy
  have := N.cap_le hy hx
  omega

theorem Base.left_range (N : Net t C n s K) (B : Base t C n s F e) {x y : Nat} (hx : x < n) (hy : y < n) :
    0 ≤ val2 C x y - val2 F x y ∧ val2 C x y - val2 F x y ≤ K := by
  have h1 := B.pre.cap x y hx hy
  have h2 := B.pre.cap y x hy hx
  have h3 := B.pre.anti x y hx hy
  by_cases hxy : x = y
  · subst hxy
    have := N.cap_le hx hx
    omega
  · have := N.cap2_le hx hy hxy
    omega

theorem Base.out_range (N : Net t C n s K) (B : Base t C n s F e) :
    0 ≤ total n (val2 F s) ∧ total n (val2 F s) ≤ K := by
  refine ⟨B.pre.sum_nonneg N.src, Int.le_trans (total_mono fun y hy => ?_) (N.row_le N.src)⟩
  exact B.pre.cap s y N.src hy

theorem Base.excess_range (N : Net t C n s K) (B : Base t C n s F e) {x : Nat} (hx : x < n) :
    0 ≤ val1 e x ∧ val1 e x ≤ t.maxVal := by
  have h1 := B.out_range N
  have h2 := N.le_max
  by_cases hxs : x = s
  · rw [hxs, B.src]
    omega
  · have := B.pre.pos x hx hxs
    have := B.pre.excess_le N.src hx hxs
    omega

theorem Base.excess_has (N : Net t C n s K) (B : Base t C n s F e) {x : Nat} (hx : x < n) : t.Has (val1 e x) := by
  have := B.excess_range N hx
  exact ITy.has_nn this.1 this.2

theorem leftover_spec (N : Net t C n s K) (B : Base t C n s F e) (hu : u < n) (hv : v < n) :
    leftover t C F u v = .ok (val2 C u v - val2 F u v) := by
  unfold leftover
  rw [Lil.at0_spec N.wf.toWFr (by rw [N.rows]; exact hu) (by rw [N.cols]; exact hv),
    Lil.at0_spec B.wfF.toWFr (by rw [B.rows]; exact hu) (by rw [B.cols]; exact hv)]
  have h1 := B.flow_range N hu hv
  have h2 := B.left_range N hu hv
  have h3 := N.nonneg u v hu hv
  have h4 := N.cap_le hu hv
  exact run_minus_wide (N.flow _ (by omega) h4) (N.flow _ h1.1 h1.2) (N.flow _ (by omega) h2.2)

/-- `sendE` keeps the account of the source. -/
theorem send_src {f : Nat → Nat → Int} {g : Nat → Int} {m d : Int} (hs : s < n) (hu : u < n) (hv : v < n)
    (huv : u ≠ v) (h : g s = m - total n (f s)) :
    sendE g u v d s = m - total n (sendF f u v d s) := by
  by_cases h1 : s = u
  · subst h1
    have := total_upd hv (f := f s) (g := sendF f s v d s) (fun y _ hy => by simp [sendF, hy, huv])
    rw [this]
    simp [sendE, sendF]
    omega
  · by_cases h2 : s = v
    · subst h2
      have := total_upd hu (f := f s) (g := sendF f u s d s) (fun y _ hy => by simp [sendF, hy, h1])
      rw [this]
      simp [sendE, sendF, h1]
      omega
    · rw [total_congr (f := sendF f u v d s) (g := f s) (fun y _ => by simp [sendF, h1, h2])]
      simp [sendE, h1, h2, h]

/-- `push` between different vertices. -/
theorem pushFlow_spec (N : Net t C n s K) (B : Base t C n s F e) (hu : u < n) (hv : v < n) (huv : u ≠ v) :
    ∃ F' e', pushFlow t C F e u v = .ok (F', e') ∧ Base t C n s F' e' ∧
      val2 F' = sendF (val2 F) u v (min (val1 e u) (val2 C u v - val2 F u v)) ∧
      val1 e' = sendE (val1 e) u v (min (val1 e u) (val2 C u v - val2 F u v)) := by
  have hl := B.left_range N hu hv
  have he := B.excess_range N hu
  have hK := N.le_max
  have hmin := t.minVal_le
  have hd : (if t.conv (val2 C u v - val2 F u v) < val1 e u then t.conv (val2 C u v - val2 F u v) else val1 e u) =
      min (val1 e u) (val2 C u v - val2 F u v) := by
    rw [ITy.conv_id (N.flow _ (by omega) hl.2)]
    split <;> omega
  have hd0 : 0 ≤ min (val1 e u) (val2 C u v - val2 F u v) := by omega
  have hdK : min (val1 e u) (val2 C u v - val2 F u v) ≤ K := by omega
  have hdc : min (val1 e u) (val2 C u v - val2 F u v) ≤ val2 C u v - val2 F u v := by omega
  have hde : min (val1 e u) (val2 C u v - val2 F u v) ≤ val1 e u := by omega
  -- the new preflow
  have hp := B.pre.send hu hv huv hd0 hdc (fun _ => hde) N.nonneg
  have hsrc := send_src (d := min (val1 e u) (val2 C u v - val2 F u v)) N.src hu hv huv B.src
  -- the steps
  obtain ⟨F1, e1, w1, r1, c1, g1⟩ := setM B.wfF (i := u) (j := v) (by rw [B.rows]; exact hu)
    (by rw [B.cols]; exact hv) (val2 F u v + min (val1 e u) (val2 C u v - val2 F u v))
  have k1 : val2 F1 v u = val2 F v u := by rw [g1, if_neg (by omega)]
  obtain ⟨F2, e2, w2, r2, c2, g2⟩ := setM w1 (i := v) (j := u) (by rw [r1, B.rows]; exact hv)
    (by rw [c1, B.cols]; exact hu) (val2 F v u - min (val1 e u) (val2 C u v - val2 F u v))
  obtain ⟨x1, e3, w3, z3, g3⟩ := setV B.wfe (i := u) (by rw [B.size]; exact hu)
    (val1 e u - min (val1 e u) (val2 C u v - val2 F u v))
  have k3 : val1 x1 v = val1 e v := by rw [g3, if_neg (by omega)]
  obtain ⟨x2, e4, w4, z4, g4⟩ := setV w3 (i := v) (by rw [z3, B.size]; exact hv)
    (val1 e v + min (val1 e u) (val2 C u v - val2 F u v))
  have hF : val2 F2 = sendF (val2 F) u v (min (val1 e u) (val2 C u v - val2 F u v)) := by
    funext x y
    rw [g2, g1]
    unfold sendF
    by_cases h1 : x = v ∧ y = u
    · rw [if_pos h1, if_neg (by omega), if_pos h1, h1.1, h1.2]
    · rw [if_neg h1, if_neg h1]
      by_cases h2 : x = u ∧ y = v
      · rw [if_pos h2, if_pos h2, h2.1, h2.2]
      · rw [if_neg h2, if_neg h2]
  have hE : val1 x2 = sendE (val1 e) u v (min (val1 e u) (val2 C u v - val2 F u v)) := by
    funext x
    rw [g4, g3]
    unfold sendE
    by_cases h1 : x = v
    · rw [if_pos h1, if_neg (by omega), if_pos h1, h1]
    · rw [if_neg h1, if_neg h1]
      by_cases h2 : x = u
      · rw [if_pos h2, if_pos h2, h2]
      · rw [if_neg h2, if_neg h2]
  have B' : Base t C n s F2 x2 :=
    { wfF := w2, rows := by rw [r2, r1, B.rows], cols := by rw [c2, c1, B.cols], wfe := w4,
      size := by rw [z4, z3, B.size], pre := by rw [hF, hE]; exact hp,
      src := by rw [hF, hE]; exact hsrc }
  refine ⟨F2, x2, ?_, B', hF, hE⟩
  -- no overflow
  generalize hD : min (val1 e u) (val2 C u v - val2 F u v) = d at *
  have f1 := B.flow_range N hu hv
  have f2 := B.flow_range N hv hu
  have hH : t.Has d := N.flow _ (by omega) hdK
  have a1 : val2 F2 u v = val2 F u v + d := by rw [hF]; simp [sendF]
  have a2 : val2 F2 v u = val2 F v u - d := by rw [hF]; unfold sendF; rw [if_neg (by omega), if_pos ⟨rfl, rfl⟩]
  have a3 : val1 x2 v = val1 e v + d := by rw [hE]; unfold sendE; rw [if_neg (by omega), if_pos rfl]
  have n1 := B'.flow_range N hu hv
  have n2 := B'.flow_range N hv hu
  have n3 := B'.excess_range N hv
  rw [a1] at n1
  rw [a2] at n2
  rw [a3] at n3
  unfold pushFlow
  rw [BVec.at0_spec B.wfe (by rw [B.size]; exact hu), leftover_spec N B hu hv]
  simp only [Except.bind_ok', hd]
  rw [Lil.at0_spec B.wfF.toWFr (by rw [B.rows]; exact hu) (by rw [B.cols]; exact hv)]
  simp only [Except.bind_ok']
  rw [run_plus (N.flow _ f1.1 f1.2) hH (N.flow _ n1.1 n1.2)]
  simp only [Except.bind_ok', e1]
  rw [Lil.at0_spec w1.toWFr (by rw [r1, B.rows]; exact hv) (by rw [c1, B.cols]; exact hu), k1]
  simp only [Except.bind_ok']
  rw [run_minus (N.flow _ f2.1 f2.2) hH (N.flow _ n2.1 n2.2)]
  simp only [Except.bind_ok', e2]
  rw [run_minus (B.excess_has N hu) hH (ITy.has_nn (by omega) (by omega))]
  simp only [Except.bind_ok', e3]
  rw [BVec.at0_spec w3 (by rw [z3, B.size]; exact hv), k3]
  simp only [Except.bind_ok']
  rw [run_plus (B.excess_has N hv) hH (ITy.has_nn n3.1 n3.2)]
  simp only [Except.bind_ok', e4]

/-- `push` from a vertex to itself changes no flow and no excess. -/
theorem pushFlow_self (N : Net t C n s K) (B : Base t C n s F e) (hu : u < n) :
    ∃ F' e', pushFlow t C F e u u = .ok (F', e') ∧ Base t C n s F' e' ∧
      val2 F' = val2 F ∧ val1 e' = val1 e := by
  have hl := B.left_range N hu hu
  have he := B.excess_range N hu
  have hK := N.le_max
  have h0 := B.pre.anti u u hu hu
  have hd : (if t.conv (val2 C u u - val2 F u u) < val1 e u then t.conv (val2 C u u - val2 F u u) else val1 e u) =
      min (val1 e u) (val2 C u u - val2 F u u) := by
    rw [ITy.conv_id (N.flow _ (by omega) hl.2)]
    split <;> omega
  obtain ⟨d, hD⟩ : ∃ d, d = min (val1 e u) (val2 C u u - val2 F u u) := ⟨_, rfl⟩
  rw [← hD] at hd
  have hd0 : 0 ≤ d := by omega
  have hdK : d ≤ K := by omega
  have hH : t.Has d := N.flow _ (by omega) hdK
  have z0 : t.Has 0 := N.flow _ (by omega) (by omega)
  obtain ⟨F1, e1, w1, r1, c1, g1⟩ := setM B.wfF (i := u) (j := u) (by rw [B.rows]; exact hu)
    (by rw [B.cols]; exact hu) (val2 F u u + d)
  have k1 : val2 F1 u u = val2 F u u + d := by rw [g1, if_pos ⟨rfl, rfl⟩]
  obtain ⟨F2, e2, w2, r2, c2, g2⟩ := setM w1 (i := u) (j := u) (by rw [r1, B.rows]; exact hu)
    (by rw [c1, B.cols]; exact hu) (val2 F u u + d - d)
  obtain ⟨x1, e3, w3, z3, g3⟩ := setV B.wfe (i := u) (by rw [B.size]; exact hu) (val1 e u - d)
  have k3 : val1 x1 u = val1 e u - d := by rw [g3, if_pos rfl]
  obtain ⟨x2, e4, w4, z4, g4⟩ := setV w3 (i := u) (by rw [z3, B.size]; exact hu) (val1 e u - d + d)
  have hF : val2 F2 = val2 F := by
    funext x y
    rw [g2, g1]
    by_cases h1 : x = u ∧ y = u
    · rw [if_pos h1, h1.1, h1.2]; omega
    · rw [if_neg h1, if_neg h1]
  have hE : val1 x2 = val1 e := by
    funext x
    rw [g4, g3]
    by_cases h1 : x = u
    · rw [if_pos h1, h1]; omega
    · rw [if_neg h1, if_neg h1]
  refine ⟨F2, x2, ?_, ⟨w2, by rw [r2, r1, B.rows], by rw [c2, c1, B.cols], w4, by rw [z4, z3, B.size],
    by rw [hF, hE]; exact B.pre, by rw [hF, hE]; exact B.src⟩, hF, hE⟩
  have hz : val2 F u u = 0 := by omega
  rw [hz] at e1 e2 k1
  unfold pushFlow
  rw [BVec.at0_spec B.wfe (by rw [B.size]; exact hu), leftover_spec N B hu hu]
  simp only [Except.bind_ok', hd]
  rw [Lil.at0_spec B.wfF.toWFr (by rw [B.rows]; exact hu) (by rw [B.cols]; exact hu), hz]
  simp only [Except.bind_ok']
  have h0d : t.Has (0 + d) := by rw [Int.zero_add]; exact hH
  rw [run_plus z0 hH h0d]
  simp only [Except.bind_ok', e1]
  rw [Lil.at0_spec w1.toWFr (by rw [r1, B.rows]; exact hu) (by rw [c1, B.cols]; exact hu), k1]
  simp only [Except.bind_ok']
  rw [run_minus h0d hH (N.flow _ (by omega) (by omega))]
  simp only [Except.bind_ok', e2]
  have hed : t.Has (val1 e u - d) := ITy.has_nn (by omega) (by omega)
  rw [run_minus (B.excess_has N hu) hH hed]
  simp only [Except.bind_ok', e3]
  rw [BVec.at0_spec w3 (by rw [z3, B.size]; exact hu), k3]
  simp only [Except.bind_ok']
  rw [run_plus hed hH (ITy.has_nn (by omega) (by omega))]
  simp only [Except.bind_ok', e4]

/-! ### relabelling -/

/-- `relabel` of a vertex from which nothing can be pushed. -/
theorem relabel_spec (N : Net t C n s K) (B : Base t C n s F e) {h : BVec Int} (hwf : h.WF) (hsz : h.size = n)
    (hu : u < n) (hr : ∀ x, x < n → 0 ≤ val1 h x ∧ val1 h x < 2 * n)
    (hno : ∀ y, Res n (val2 C) (val2 F) u y → val1 h u ≤ val1 h y)
    (hex : ∃ y, Res n (val2 C) (val2 F) u y) :
    ∃ h', relabel t C F h u = .ok h' ∧ h'.WF ∧ h'.size = n ∧ (∀ x, x ≠ u → val1 h' x = val1 h x) ∧
      val1 h u < val1 h' u ∧ ∀ y, y ≠ u → Res n (val2 C) (val2 F) u y → val1 h' u ≤ val1 h y + 1 := by
  have hres : ∀ y, y < n → (Res n (val2 C) (val2 F) u y ↔ 0 < val2 C u y - val2 F u y) := by
    intro y hy
    unfold Res
    constructor
    · rintro ⟨-, -, h⟩; omega
    · intro h; exact ⟨hu, hy, by omega⟩
  have hu0 := hr u hu
  obtain ⟨r, e1, q1, q2, q3, q4⟩ := forP_inv
    (b := fun v s => lift (relabelStep t C F u v s))
    (fun i r => r.2.WF ∧ r.2.size = n ∧ (∀ x, x ≠ u → val1 r.2 x = val1 h x) ∧
      (((∀ y, y < i → ¬ Res n (val2 C) (val2 F) u y) ∧ r.1 = t.maxVal ∧ val1 r.2 u = val1 h u) ∨
        ((∃ y, y < i ∧ Res n (val2 C) (val2 F) u y) ∧ val1 r.2 u = r.1 + 1 ∧ val1 h u ≤ r.1 ∧ r.1 < 2 * n ∧
          ∀ y, y < i → y ≠ u → Res n (val2 C) (val2 F) u y → r.1 ≤ val1 h y)))
    C.nrows (t.maxVal, h)
    ⟨hwf, hsz, fun _ _ => rfl, .inl ⟨fun y hy => absurd hy (Nat.not_lt_zero y), rfl, rfl⟩⟩ (by
      intro i r hi ⟨a1, a2, a3, a4⟩
      have hin : i < n := by rw [← N.rows]; exact hi
      have hri := hr i hin
      have hd := leftover_spec N B hu hin
      by_cases hR : 0 < val2 C u i - val2 F u i
      · have hR' := (hres i hin).2 hR
        -- the value read
        have hval : val1 h u ≤ val1 r.2 i := by
          by_cases hiu : i = u
          · subst hiu
            rcases a4 with ⟨-, -, h3⟩ | ⟨-, h2, h3, -, -⟩ <;> omega
          · rw [a3 i hiu]; exact hno i hR'
        have hmax : 2 * (n : Int) ≤ t.maxVal := (N.small (2 * n) (by omega) (by omega)).2
        obtain ⟨m, hm⟩ : ∃ m, m = (if val1 r.2 i < r.1 then val1 r.2 i else r.1) := ⟨_, rfl⟩
        have hm2 : m < 2 * n ∧ val1 h u ≤ m ∧ m ≤ r.1 ∧ (i ≠ u → m ≤ val1 h i) := by
          by_cases hiu : i = u
          · subst hiu
            rcases a4 with ⟨-, h2, h3⟩ | ⟨-, h2, h3, h4, -⟩
            · rw [h3, h2] at hm
              split at hm <;> omega
            · split at hm <;> omega
          · rw [a3 i hiu] at hm hval
            rcases a4 with ⟨-, h2, h3⟩ | ⟨-, h2, h3, h4, -⟩
            · split at hm <;> omega
            · split at hm <;> omega
        obtain ⟨h2, e2, w2, z2, g2⟩ := setV a1 (i := u) (by rw [a2]; exact hu) (m + 1)
        refine ⟨(m, h2), ?_, w2, by rw [z2, a2], ?_, .inr ⟨⟨i, by omega, hR'⟩, ?_, hm2.2.1, hm2.1, ?_⟩⟩
        · unfold relabelStep
          rw [hd]
          simp only [Except.bind_ok']
          rw [if_pos hR, BVec.at0_spec a1 (by rw [a2]; exact hin)]
          simp only [Except.bind_ok', ← hm]
          rw [run_succ (by omega) (N.small _ (by omega) (by omega))]
          simp only [Except.bind_ok', e2]
          rfl
        · intro x hx
          show val1 h2 x = _
          rw [g2, if_neg hx, a3 x hx]
        · show val1 h2 u = m + 1
          rw [g2, if_pos rfl]
        · intro y hy hyu hRy
          show m ≤ _
          by_cases hyi : y = i
          · subst hyi; exact hm2.2.2.2 hyu
          · rcases a4 with ⟨b1, -, -⟩ | ⟨-, -, -, -, b5⟩
            · exact absurd hRy (b1 y (by omega))
            · have := b5 y (by omega) hyu hRy
              omega
      · have hR' : ¬ Res n (val2 C) (val2 F) u i := fun hh => hR ((hres i hin).1 hh)
        refine ⟨r, ?_, a1, a2, a3, ?_⟩
        · unfold relabelStep
          rw [hd]
          simp only [Except.bind_ok']
          rw [if_neg hR]
          rfl
        · rcases a4 with ⟨b1, b2⟩ | ⟨⟨y, hy, b1⟩, b2, b3, b4, b5⟩
          · refine .inl ⟨?_, b2⟩
            intro y hy
            by_cases hyi : y = i
            · subst hyi; exact hR'
            · exact b1 y (by omega)
          · refine .inr ⟨⟨y, by omega, b1⟩, b2, b3, b4, ?_⟩
            intro z hz hzu hRz
            by_cases hzi : z = i
            · subst hzi; exact absurd hRz hR'
            · exact b5 z (by omega) hzu hRz)
  refine ⟨r.2, ?_, q1, q2, q3, ?_⟩
  · unfold relabel
    rw [e1]
    rfl
  · rcases q4 with ⟨b1, -, -⟩ | ⟨-, b2, b3, b4, b5⟩
    · obtain ⟨y, hy⟩ := hex
      exact absurd hy (b1 y (by rw [N.rows]; exact hy.2.1))
    · refine ⟨by omega, ?_⟩
      intro y hyu hRy
      have := b5 y (by rw [N.rows]; exact hRy.2.1) hyu hRy
      omega

/-! ### discharging -/

/-- Flow can be pushed from `x` to `y`. -/
def Adm (n : Nat) (c f : Nat → Nat → Int) (h : Nat → Int) (x y : Nat) : Prop := Res n c f x y ∧ h y < h x

/-- The invariant of the algorithm after the first pushes. -/
structure PInv (t : ITy) (C : Lil Int) (n s k : Nat) (q : PRSt) : Prop where
  base : Base t C n s q.F q.excess
  wfh : q.height.WF
  sizeh : q.height.size = n
  wfs : q.seen.WF
  sizes : q.seen.size = n
  top : val1 q.height s = n
  bottom : val1 q.height k = 0
  heights : ∀ x, x < n → 0 ≤ val1 q.height x ∧ val1 q.height x < 2 * n
  seens : ∀ x, x < n → 0 ≤ val1 q.seen x ∧ val1 q.seen x ≤ n
  valid : Valid n (val2 C) (val2 q.F) (val1 q.height)
  arcs : ∀ x y : Nat, (y : Int) < val1 q.seen x → ¬ Adm n (val2 C) (val2 q.F) (val1 q.height) x y

/-- What discharging `u` has changed. -/
structure Moved (C : Lil Int) (n s u : Nat) (q q' : PRSt) : Prop where
  others : ∀ x, x ≠ u → val1 q'.height x = val1 q.height x
  up : val1 q.height u ≤ val1 q'.height u
  still : val1 q'.height u = val1 q.height u →
    (∀ x y, Adm n (val2 C) (val2 q'.F) (val1 q'.height) x y → Adm n (val2 C) (val2 q.F) (val1 q.height) x y) ∧
    ∀ x, x < n → x ≠ s → x ≠ u → val1 q'.excess x ≠ val1 q.excess x →
      Adm n (val2 C) (val2 q.F) (val1 q.height) u x
  risen : val1 q.height u < val1 q'.height u →
    (∀ x y, x ≠ u → y ≠ u → Adm n (val2 C) (val2 q'.F) (val1 q'.height) x y →
      Adm n (val2 C) (val2 q.F) (val1 q.height) x y) ∧
    ∀ x, ¬ Adm n (val2 C) (val2 q'.F) (val1 q'.height) x u

theorem Moved.refl (C : Lil Int) (n s u : Nat) (q : PRSt) : Moved C n s u q q :=
  ⟨fun _ _ => rfl, Int.le_refl _, fun _ => ⟨fun _ _ h => h, fun _ _ _ _ h => absurd rfl h⟩,
    fun h => absurd h (Int.lt_irrefl _)⟩

/-- The edges with capacity left after a push: those from before, and the reverse
one. -/
theorem send_res {c f : Nat → Nat → Int} {d : Int} {x y : Nat} (hd : 0 ≤ d)
    (h : Res n c (sendF f u v d) x y) : Res n c f x y ∨ (x = v ∧ y = u) := by
  obtain ⟨h1, h2, h3⟩ := h
  unfold sendF at h3
  by_cases a : x = u ∧ y = v
  · rw [if_pos a] at h3
    exact .inl ⟨h1, h2, by omega⟩
  · rw [if_neg a] at h3
    by_cases b : x = v ∧ y = u
    · exact .inr b
    · rw [if_neg b] at h3
      exact .inl ⟨h1, h2, h3⟩

theorem send_adm {c f : Nat → Nat → Int} {h : Nat → Int} {d : Int} {x y : Nat} (hd : 0 ≤ d) (hh : h v < h u)
    (ha : Adm n c (sendF f u v d) h x y) : Adm n c f h x y := by
  rcases send_res hd ha.1 with h1 | ⟨rfl, rfl⟩
  · exact ⟨h1, ha.2⟩
  · have := ha.2
    omega

/-- The measure of `discharge`. -/
noncomputable def dMeasure (C : Lil Int) (n u : Nat) (q : PRSt) : Nat :=
  open Classical in
  (2 * (n : Int) - val1 q.height u).toNat * (2 * n + 2) + 2 * ((n : Int) - val1 q.seen u).toNat +
    if 0 < val1 q.excess u ∧ Adm n (val2 C) (val2 q.F) (val1 q.height) u (val1 q.seen u).toNat then 1 else 0

variable {k : Nat}

/-- The step of `discharge` that pushes. -/
theorem discharge_push (N : Net t C n s K) {q0 q : PRSt} (I : PInv t C n s k q) (M : Moved C n s u q0 q)
    (hu : u < n) (hpos : 0 < val1 q.excess u) (hv : v < n)
    (hseen : val1 q.seen u = v) (ha : Adm n (val2 C) (val2 q.F) (val1 q.height) u v) :
    ∃ F' e', pushFlow t C q.F q.excess u v = .ok (F', e') ∧ PInv t C n s k ⟨F', e', q.height, q.seen⟩ ∧
      Moved C n s u q0 ⟨F', e', q.height, q.seen⟩ ∧
      dMeasure C n u ⟨F', e', q.height, q.seen⟩ < dMeasure C n u q := by
  have huv : u ≠ v := by rintro rfl; have := ha.2; omega
  obtain ⟨F', e', hp, B', hF, hE⟩ := pushFlow_spec N I.base hu hv huv
  have hres := ha.1.2.2
  obtain ⟨d, hd⟩ : ∃ d, d = min (val1 q.excess u) (val2 C u v - val2 q.F u v) := ⟨_, rfl⟩
  rw [← hd] at hF hE
  have hd0 : 0 < d := by omega
  have hadm : ∀ x y, Adm n (val2 C) (val2 F') (val1 q.height) x y → Adm n (val2 C) (val2 q.F) (val1 q.height) x y := by
    intro x y h
    rw [hF] at h
    exact send_adm (by omega) ha.2 h
  refine ⟨F', e', hp, ⟨B', I.wfh, I.sizeh, I.wfs, I.sizes, I.top, I.bottom, I.heights, I.seens, ?_, ?_⟩,
    ⟨M.others, M.up, ?_, ?_⟩, ?_⟩
  · intro x y h
    have h' : Res n (val2 C) (sendF (val2 q.F) u v d) x y := by rw [← hF]; exact h
    rcases send_res (by omega) h' with h1 | ⟨rfl, rfl⟩
    · exact I.valid x y h1
    · have := ha.2
      show val1 q.height x ≤ val1 q.height y + 1
      omega
  · intro x y hy h
    exact I.arcs x y hy (hadm x y h)
  · intro hh
    obtain ⟨m1, m2⟩ := M.still hh
    refine ⟨fun x y h => m1 x y (hadm x y h), ?_⟩
    intro x hx hxs hxu hne
    by_cases hxv : x = v
    · subst hxv
      exact m1 _ _ ha
    · refine m2 x hx hxs hxu ?_
      intro heq
      apply hne
      show val1 e' x = _
      rw [hE, sendE, if_neg hxu, if_neg hxv, heq]
  · intro hh
    obtain ⟨m1, m2⟩ := M.risen hh
    exact ⟨fun x y hx hy h => m1 x y hx hy (hadm x y h), fun x h => m2 x (hadm x u h)⟩
  · have hneg : ¬ (0 < val1 e' u ∧ Adm n (val2 C) (val2 F') (val1 q.height) u v) := by
      rintro ⟨h1, h2⟩
      have h3 := h2.1.2.2
      rw [hE, sendE, if_pos rfl] at h1
      rw [hF, sendF, if_pos ⟨rfl, rfl⟩] at h3
      omega
    unfold dMeasure
    have hv' : (val1 q.seen u).toNat = v := by omega
    simp only
    rw [hv', if_neg hneg, if_pos ⟨hpos, ha⟩]
    omega

/-- The step of `discharge` that advances `seen`. -/
theorem discharge_bump (N : Net t C n s K) {q0 q : PRSt} (I : PInv t C n s k q) (M : Moved C n s u q0 q)
    (hu : u < n) (hv : v < n) (hseen : val1 q.seen u = v)
    (ha : ¬ Adm n (val2 C) (val2 q.F) (val1 q.height) u v) :
    ∃ seen', bumpSeen t q.seen u = .ok seen' ∧ PInv t C n s k ⟨q.F, q.excess, q.height, seen'⟩ ∧
      Moved C n s u q0 ⟨q.F, q.excess, q.height, seen'⟩ ∧
      dMeasure C n u ⟨q.F, q.excess, q.height, seen'⟩ < dMeasure C n u q := by
  obtain ⟨w, e1, w1, z1, g1⟩ := setV I.wfs (i := u) (by rw [I.sizes]; exact hu) (v + 1)
  refine ⟨w, ?_, ⟨I.base, I.wfh, I.sizeh, w1, by rw [z1, I.sizes], I.top, I.bottom, I.heights, ?_, I.valid, ?_⟩,
    ⟨M.others, M.up, M.still, M.risen⟩, ?_⟩
  · unfold bumpSeen
    rw [BVec.at0_spec I.wfs (by rw [I.sizes]; exact hu), hseen]
    simp only [Except.bind_ok']
    rw [run_succ (by omega) (N.small _ (by omega) (by omega))]
    simp only [Except.bind_ok', e1]
  · intro x hx
    show 0 ≤ val1 w x ∧ val1 w x ≤ n
    rw [g1]
    split
    · omega
    · exact I.seens x hx
  · intro x y hy
    have hy' : (y : Int) < val1 w x := hy
    rw [g1] at hy'
    by_cases hx : x = u
    · rw [if_pos hx] at hy'
      subst hx
      by_cases hyv : y = v
      · subst hyv; exact ha
      · exact I.arcs x y (by omega)
    · rw [if_neg hx] at hy'
      exact I.arcs x y hy'
  · unfold dMeasure
    simp only
    have h1 : val1 w u = v + 1 := by rw [g1, if_pos rfl]
    rw [h1, hseen]
    split <;> split <;> omega

/-- The step of `discharge` that relabels. -/
theorem discharge_relabel (N : Net t C n s K) {q0 q : PRSt} (I : PInv t C n s k q) (M : Moved C n s u q0 q)
    (hu : u < n) (hus : u ≠ s) (huk : u ≠ k) (hpos : 0 < val1 q.excess u) (hseen : (n : Int) ≤ val1 q.seen u) :
    ∃ h' seen', relabel t C q.F q.height u = .ok h' ∧ method (q.seen.setElement u 0) = .ok seen' ∧
      PInv t C n s k ⟨q.F, q.excess, h', seen'⟩ ∧ Moved C n s u q0 ⟨q.F, q.excess, h', seen'⟩ ∧
      dMeasure C n u ⟨q.F, q.excess, h', seen'⟩ < dMeasure C n u q := by
  have hno : ∀ y, Res n (val2 C) (val2 q.F) u y → val1 q.height u ≤ val1 q.height y := by
    intro y hy
    refine Int.not_lt.1 fun hlt => I.arcs u y ?_ ⟨hy, hlt⟩
    have := hy.2.1
    omega
  have hpath := I.base.pre.path N.nonneg hu hus hpos
  have hex : ∃ y, Res n (val2 C) (val2 q.F) u y := by
    refine Classical.byContradiction fun hn => ?_
    have : ∀ j y, Walk (Res n (val2 C) (val2 q.F)) (· = u) j y → y = u := by
      intro j
      induction j with
      | zero => intro y h; exact h
      | succ j ih =>
        rintro y ⟨x, h1, h2⟩
        rw [ih x h1] at h2
        exact absurd ⟨y, h2⟩ hn
    obtain ⟨j, hj⟩ := hpath
    exact hus (this j s hj).symm
  obtain ⟨h', e1, w1, z1, g1, g2, g3⟩ := relabel_spec N I.base I.wfh I.sizeh hu I.heights hno hex
  obtain ⟨w, e2, w2, z2, g4⟩ := setV I.wfs (i := u) (by rw [I.sizes]; exact hu) 0
  have hw : val1 w u = 0 := by rw [g4, if_pos rfl]
  have hvalid : Valid n (val2 C) (val2 q.F) (val1 h') := by
    intro x y hR
    by_cases hx : x = u
    · subst hx
      by_cases hy : y = x
      · subst hy; omega
      · rw [g1 y hy]; exact g3 y hy hR
    · rw [g1 x hx]
      have := I.valid x y hR
      by_cases hy : y = u
      · subst hy; omega
      · rw [g1 y hy]; exact this
  have htop : val1 h' s = n := by rw [g1 s (Ne.symm hus)]; exact I.top
  have hlt := I.base.pre.height_lt N.nonneg hvalid htop hu hus hpos
  -- edges into `u`
  have hin : ∀ x, ¬ Adm n (val2 C) (val2 q.F) (val1 h') x u := by
    rintro x ⟨h1, h2⟩
    by_cases hx : x = u
    · subst hx; omega
    · rw [g1 x hx] at h2
      have := I.valid x u h1
      omega
  have hoth : ∀ x y, x ≠ u → y ≠ u → Adm n (val2 C) (val2 q.F) (val1 h') x y →
      Adm n (val2 C) (val2 q.F) (val1 q.height) x y := by
    rintro x y hx hy ⟨h1, h2⟩
    rw [g1 x hx, g1 y hy] at h2
    exact ⟨h1, h2⟩
  have hup := M.up
  have hu0 := I.heights u hu
  refine ⟨h', w, e1, e2, ⟨I.base, w1, z1, w2, by rw [z2, I.sizes], htop, ?_, ?_, ?_, hvalid, ?_⟩, ⟨?_, ?_, ?_, ?_⟩, ?_⟩
  · show val1 h' k = 0
    rw [g1 k (Ne.symm huk)]; exact I.bottom
  · intro x hx
    show 0 ≤ val1 h' x ∧ val1 h' x < 2 * n
    by_cases hxu : x = u
    · subst hxu; omega
    · rw [g1 x hxu]; exact I.heights x hx
  · intro x hx
    show 0 ≤ val1 w x ∧ val1 w x ≤ n
    rw [g4]
    split
    · omega
    · exact I.seens x hx
  · intro x y hy h
    have hy' : (y : Int) < val1 w x := hy
    rw [g4] at hy'
    by_cases hx : x = u
    · rw [if_pos hx] at hy'; omega
    · rw [if_neg hx] at hy'
      by_cases hyu : y = u
      · subst hyu; exact hin x h
      · exact I.arcs x y hy' (hoth x y hx hyu h)
  · intro x hx
    show val1 h' x = _
    rw [g1 x hx, M.others x hx]
  · show _ ≤ val1 h' u
    omega
  · intro hh
    have : val1 h' u = val1 q0.height u := hh
    omega
  · intro _
    refine ⟨?_, hin⟩
    intro x y hx hy h
    have h1 := hoth x y hx hy h
    rcases Int.lt_or_eq_of_le hup with h2 | h2
    · exact (M.risen h2).1 x y hx hy h1
    · exact (M.still h2.symm).1 x y h1
  · unfold dMeasure
    simp only
    have hs := I.seens u hu
    rw [hw]
    have hd : (2 * (n : Int) - val1 h' u).toNat + 1 ≤ (2 * (n : Int) - val1 q.height u).toNat := by omega
    have hm := Nat.mul_le_mul_right (2 * n + 2) hd
    rw [Nat.succ_mul] at hm
    have h1 : ((n : Int) - 0).toNat = n := by omega
    rw [h1]
    split <;> split <;> omega

/-- Fuel that is enough. -/
def prFuel (n : Nat) : Nat := 2 * (n * n * n) + 6 * (n * n) + 6 * n + 1

theorem dMeasure_le (I : PInv t C n s k q) (hu : u < n) : dMeasure C n u q ≤ prFuel n := by
  unfold dMeasure prFuel
  have h1 := I.heights u hu
  have h2 := I.seens u hu
  have hd : (2 * (n : Int) - val1 q.height u).toNat ≤ 2 * n := by omega
  have hm := Nat.mul_le_mul_right (2 * n + 2) hd
  have h3 : 2 * n * (2 * n + 2) = 4 * (n * n) + 4 * n := by
    rw [Nat.mul_add, Nat.mul_assoc 2 n (2 * n), Nat.mul_left_comm n 2 n, ← Nat.mul_assoc 2 2]
    omega
  rw [h3] at hm
  split <;> omega

/-- `discharge` of a vertex other than the source and the sink. -/
theorem discharge_spec (N : Net t C n s K) {q0 : PRSt} (I : PInv t C n s k q0) (hu : u < n) (hus : u ≠ s)
    (huk : u ≠ k) {fuel : Nat} (hf : prFuel n ≤ fuel) :
    ∃ q, discharge fuel t C u q0 = .ok q ∧ PInv t C n s k q ∧ Moved C n s u q0 q ∧ val1 q.excess u = 0 := by
  have hpa : ∀ q, PInv t C n s k q → positiveAt q.excess u = decide (0 < val1 q.excess u) := by
    intro q I
    unfold positiveAt
    rw [BVec.at0_spec I.base.wfe (by rw [I.base.size]; exact hu)]
  obtain ⟨q, e1, ⟨I1, M1⟩, hc⟩ := loop_rule
    (c := fun s : PRSt => positiveAt s.excess u) (b := dischargeBody t C u)
    (fun q => PInv t C n s k q ∧ Moved C n s u q0 q) (dMeasure C n u) (by
      rintro q ⟨I, M⟩ hc
      rw [hpa q I] at hc
      have hpos : 0 < val1 q.excess u := by simpa using hc
      have hs := I.seens u hu
      have hsn : t.Has (val1 q.seen u) := N.small _ hs.1 (by omega)
      have hbel : belowIx t (val1 q.seen u) C.nrows = decide (val1 q.seen u < n) := by
        rw [N.rows]
        exact belowIx_eq hs.1 hsn (N.small _ (by omega) (by omega))
      unfold dischargeBody
      rw [BVec.at0_spec I.base.wfe (by rw [I.base.size]; exact hu),
        BVec.at0_spec I.wfs (by rw [I.sizes]; exact hu)]
      simp only [lift_ok, prog_bind_ok]
      rw [hbel]
      by_cases hlt : val1 q.seen u < n
      · obtain ⟨v, hv⟩ := Int.eq_ofNat_of_zero_le hs.1
        have hvn : v < n := by omega
        have hcv : (ITy.conv .u64 (val1 q.seen u)).toNat = v := by
          rw [hv]
          rw [ITy.conv_id (ITy.has_u64 (t := t) (by rw [← hv]; exact hsn))]
          rfl
        simp only [hlt, decide_true, if_true]
        rw [hcv, leftover_spec N I.base hu hvn, BVec.at0_spec I.wfh (by rw [I.sizeh]; exact hu),
          BVec.at0_spec I.wfh (by rw [I.sizeh]; exact hvn)]
        simp only [lift_ok, prog_bind_ok]
        by_cases ha : Adm n (val2 C) (val2 q.F) (val1 q.height) u v
        · have h1 := ha.1.2.2
          rw [if_pos ⟨by omega, ha.2⟩]
          obtain ⟨F', e', r1, r2, r3, r4⟩ := discharge_push N I M hu hpos hvn hv ha
          rw [r1]
          exact ⟨_, rfl, ⟨r2, r3⟩, r4⟩
        · rw [if_neg (fun hh => ha ⟨⟨hu, hvn, by omega⟩, hh.2⟩)]
          obtain ⟨w, r1, r2, r3, r4⟩ := discharge_bump N I M hu hvn hv ha
          rw [r1]
          exact ⟨_, rfl, ⟨r2, r3⟩, r4⟩
      · simp only [hlt, decide_false]
        obtain ⟨h', w, r1, r2, r3, r4, r5⟩ := discharge_relabel N I M hu hus huk hpos (by omega)
        simp only [Bool.false_eq_true, if_false]
        rw [r1, r2]
        exact ⟨_, rfl, ⟨r3, r4⟩, r5⟩)
    fuel q0 ⟨I, Moved.refl C n s u q0⟩ (Nat.le_trans (dMeasure_le I hu) hf)
  refine ⟨q, e1, I1, M1, ?_⟩
  rw [hpa q I1] at hc
  have h1 := I1.base.pre.pos u hu hus
  have : ¬ 0 < val1 q.excess u := by simpa using hc
  omega

end GBTL

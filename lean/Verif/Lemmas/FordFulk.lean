import Verif.Model.FordFulk
import Verif.Lemmas.MaxFlow
import Verif.Props.Containers
/-
Arithmetic modulo the width of a type, and the search of `maxflow_ford_fulk`.
-/
namespace GBTL
open Spec

/-! ### arithmetic -/

/-- A signed type holds the value. -/
def ITy.Fit (t : ITy) (x : Int) : Prop := t.signed = true → t.Has x

theorem ITy.plusT_conv {t : ITy} (ht : t ≠ .bool) (ov : Int → Int → Int) {x y : Int} (hx : t.Fit x) (hy : t.Fit y)
    (hs : t.Fit (x + y)) : t.plusT ov (t.conv x) (t.conv y) = t.conv (x + y) := by
  cases hsg : t.signed with
  | true =>
    rw [ITy.conv_id (hx hsg), ITy.conv_id (hy hsg), ITy.conv_id (hs hsg)]
    exact ITy.plusT_eq ov (hx hsg) (hy hsg) (hs hsg)
  | false =>
    clear hx hy hs
    have key : BOp.plus.run t t t (t.conv x) (t.conv y) = .ok (t.conv (x + y)) := by
      cases t <;> simp only [reduceCtorEq, ne_eq, not_true_eq_false, not_false_eq_true] at ht <;>
        simp only [ITy.signed, Bool.true_eq_false] at hsg
      · have h1 : ITy.Has .i32 (x % 256) := ⟨by show -2147483648 ≤ x % 256; omega, by show x % 256 ≤ 2147483647; omega⟩
        have h2 : ITy.Has .i32 (y % 256) := ⟨by show -2147483648 ≤ y % 256; omega, by show y % 256 ≤ 2147483647; omega⟩
        have h3 : ITy.Has .i32 (x % 256 + y % 256) :=
          ⟨by show -2147483648 ≤ x % 256 + y % 256; omega, by show x % 256 + y % 256 ≤ 2147483647; omega⟩
        show arithOp (· + ·) .u8 .u8 .u8 (x % 256) (y % 256) = .ok ((x + y) % 256)
        show (arith .i32 (ITy.conv .i32 (x % 256) + ITy.conv .i32 (y % 256))).map (ITy.conv .u8) = _
        rw [ITy.conv_id h1, ITy.conv_id h2, arith, if_pos (show ITy.signed .i32 = true from rfl), if_pos h3]
        show Except.ok ((x % 256 + y % 256) % 256) = _
        congr 1; omega
      · have h1 : ITy.Has .i32 (x % 65536) := ⟨by show -2147483648 ≤ x % 65536; omega, by show x % 65536 ≤ 2147483647; omega⟩
        have h2 : ITy.Has .i32 (y % 65536) := ⟨by show -2147483648 ≤ y % 65536; omega, by show y % 65536 ≤ 2147483647; omega⟩
        have h3 : ITy.Has .i32 (x % 65536 + y % 65536) :=
          ⟨by show -2147483648 ≤ x % 65536 + y % 65536; omega, by show x % 65536 + y % 65536 ≤ 2147483647; omega⟩
        show (arith .i32 (ITy.conv .i32 (x % 65536) + ITy.conv .i32 (y % 65536))).map (ITy.conv .u16) = _
        rw [ITy.conv_id h1, ITy.conv_id h2, arith, if_pos (show ITy.signed .i32 = true from rfl), if_pos h3]
        show Except.ok ((x % 65536 + y % 65536) % 65536) = Except.ok ((x + y) % 65536)
        congr 1; omega
      · show Except.ok ((((x % 4294967296) % 4294967296 + (y % 4294967296) % 4294967296) % 4294967296) % 4294967296) =
          Except.ok ((x + y) % 4294967296)
        congr 1; omega
      · show Except.ok ((((x % 18446744073709551616) % 18446744073709551616 +
          (y % 18446744073709551616) % 18446744073709551616) % 18446744073709551616) % 18446744073709551616) =
          Except.ok ((x + y) % 18446744073709551616)
        congr 1; omega
    rw [ITy.plusT, key]
    rfl

theorem ITy.negT_conv {t : ITy} (ht : t ≠ .bool) (ov : Int → Int → Int) {x : Int} (hx : t.Fit x)
    (hs : t.Fit (-x)) : t.negT ov (t.conv x) = t.conv (-x) := by
  cases hsg : t.signed with
  | true =>
    rw [ITy.conv_id (hx hsg), ITy.conv_id (hs hsg)]
    have h1 := ITy.has_promote (hx hsg)
    have h2 := ITy.has_promote (hs hsg)
    have h3 : t.promote.signed = true := by cases t <;> first | rfl | cases hsg
    rw [ITy.negT, opAddInv]
    rw [ITy.conv_id h1, arith, if_pos h3, if_pos h2]
    show t.conv (-x) = -x
    exact ITy.conv_id (hs hsg)
  | false =>
    clear hx hs
    have key : opAddInv t t (t.conv x) = .ok (t.conv (-x)) := by
      cases t <;> simp only [reduceCtorEq, ne_eq, not_true_eq_false, not_false_eq_true] at ht <;>
        simp only [ITy.signed, Bool.true_eq_false] at hsg
      · have h1 : ITy.Has .i32 (x % 256) := ⟨by show -2147483648 ≤ x % 256; omega, by show x % 256 ≤ 2147483647; omega⟩
        have h3 : ITy.Has .i32 (-(x % 256)) :=
          ⟨by show -2147483648 ≤ -(x % 256); omega, by show -(x % 256) ≤ 2147483647; omega⟩
        show (arith .i32 (-(ITy.conv .i32 (x % 256)))).map (ITy.conv .u8) = _
        rw [ITy.conv_id h1, arith, if_pos (show ITy.signed .i32 = true from rfl), if_pos h3]
        show Except.ok ((-(x % 256)) % 256) = Except.ok ((-x) % 256)
        congr 1; omega
      · have h1 : ITy.Has .i32 (x % 65536) := ⟨by show -2147483648 ≤ x % 65536; omega, by show x % 65536 ≤ 2147483647; omega⟩
        have h3 : ITy.Has .i32 (-(x % 65536)) :=
          ⟨by show -2147483648 ≤ -(x % 65536); omega, by show -(x % 65536) ≤ 2147483647; omega⟩
        show (arith .i32 (-(ITy.conv .i32 (x % 65536)))).map (ITy.conv .u16) = _
        rw [ITy.conv_id h1, arith, if_pos (show ITy.signed .i32 = true from rfl), if_pos h3]
        show Except.ok ((-(x % 65536)) % 65536) = Except.ok ((-x) % 65536)
        congr 1; omega
      · show Except.ok (((-((x % 4294967296) % 4294967296)) % 4294967296) % 4294967296) =
          Except.ok ((-x) % 4294967296)
        congr 1; omega
      · show Except.ok (((-((x % 18446744073709551616) % 18446744073709551616)) % 18446744073709551616) %
          18446744073709551616) = Except.ok ((-x) % 18446744073709551616)
        congr 1; omega
    rw [ITy.negT, key]
    rfl

theorem ITy.conv_zero (t : ITy) : t.conv 0 = 0 := by cases t <;> decide

/-- A stored element is `z` in the type, and where nothing is stored `z` is zero. -/
def Rep (t : ITy) (o : Option Int) (z : Int) : Prop := (∀ x, o = some x → x = t.conv z) ∧ (o = none → z = 0)

variable {t : ITy} {ov : Int → Int → Int}

theorem Rep.getD {o : Option Int} {z : Int} (h : Rep t o z) : o.getD 0 = t.conv z := by
  cases ho : o with
  | none => rw [h.2 ho, ITy.conv_zero]; rfl
  | some x => exact h.1 x ho

theorem Rep.either (ht : t ≠ .bool) {a b : Option Int} {x y : Int} (ha : Rep t a x) (hb : Rep t b y) (hx : t.Fit x)
    (hy : t.Fit y) (hs : t.Fit (x + y)) : Rep t (Spec.either (t.plusT ov) id id a b) (x + y) := by
  cases ha' : a with
  | none =>
    obtain rfl := ha.2 ha'
    cases hb' : b with
    | none =>
      obtain rfl := hb.2 hb'
      exact ⟨fun z hz => by simp [Spec.either] at hz, fun _ => rfl⟩
    | some b' =>
      refine ⟨fun z hz => ?_, fun h => by simp [Spec.either] at h⟩
      simp only [Spec.either, id, Option.some.injEq] at hz
      rw [← hz, hb.1 _ hb', Int.zero_add]
  | some a' =>
    cases hb' : b with
    | none =>
      obtain rfl := hb.2 hb'
      refine ⟨fun z hz => ?_, fun h => by simp [Spec.either] at h⟩
      simp only [Spec.either, id, Option.some.injEq] at hz
      rw [← hz, ha.1 _ ha', Int.add_zero]
    | some b' =>
      refine ⟨fun z hz => ?_, fun h => by simp [Spec.either] at h⟩
      simp only [Spec.either, Option.some.injEq] at hz
      rw [← hz, ha.1 _ ha', hb.1 _ hb', ITy.plusT_conv ht ov hx hy hs]

theorem Rep.neg (ht : t ≠ .bool) {a : Option Int} {x : Int} (ha : Rep t a x) (hx : t.Fit x) (hs : t.Fit (-x)) :
    Rep t (a.map (t.negT ov)) (-x) := by
  cases ha' : a with
  | none =>
    obtain rfl := ha.2 ha'
    exact ⟨fun z hz => by simp at hz, fun _ => rfl⟩
  | some a' =>
    refine ⟨fun z hz => ?_, fun h => by simp at h⟩
    simp only [Option.map_some, Option.some.injEq] at hz
    rw [← hz, ha.1 _ ha', ITy.negT_conv ht ov hx hs]

/-! ### the search -/

/-- 1 where the matrix stores an element. -/
def stored (M : Lil Bool) (x y : Nat) : Int := if (M.get x y).isSome then 1 else 0

/-- 1 if equal. -/
def delta (x y : Nat) : Int := if x = y then 1 else 0

/-- `M` stores the edges of a shortest path from `c`, at distance `d` of `s`, to `k`. -/
structure PathFrom (E : Nat → Nat → Prop) (n s k c d : Nat) (M : Lil Bool) : Prop where
  wf : M.WF
  rows : M.nrows = n
  cols : M.ncols = n
  lt : c < n
  dist : HopDist E (· = s) c d
  edge : ∀ u v b, M.get u v = some b → b = true ∧ E u v ∧
    ∃ j, d ≤ j ∧ HopDist E (· = s) u j ∧ HopDist E (· = s) v (j + 1)
  net : ∀ x, x < n → total n (fun y => stored M x y - stored M y x) = delta x c - delta x k

variable {α : Type}

theorem searchBody_eq (G : Lil α) (ramp : BVec Nat) : searchBody G ramp = bfsBody G ramp := rfl

theorem PathFrom.step {E : Nat → Nat → Prop} {n s k c d p : Nat} {M M' : Lil Bool}
    (h : PathFrom E n s k c (d + 1) M) (hp : HopDist E (· = s) p d) (hpn : p < n) (he : E p c)
    (m1 : M'.WF) (m2 : M'.nrows = n) (m3 : M'.ncols = n)
    (m4 : ∀ u v, M'.get u v = if u = p ∧ v = c then some true else M.get u v) :
    PathFrom E n s k p d M' := by
  have hout : ∀ y, M.get p y = none := by
    intro y
    cases hb : M.get p y with
    | none => rfl
    | some b =>
      obtain ⟨-, -, j, hj, h1, -⟩ := h.edge p y b hb
      have := h1.unique hp
      omega
  have hin : ∀ y b, M.get y p = some b → False := by
    intro y b hb
    obtain ⟨-, -, j, hj, -, h1⟩ := h.edge y p b hb
    have := h1.unique hp
    omega
  have hpc : p ≠ c := by
    intro e
    subst e
    have := hp.unique h.dist
    omega
  have hst : ∀ x y, stored M' x y = if x = p ∧ y = c then 1 else stored M x y := by
    intro x y
    unfold stored
    rw [m4]
    split <;> rfl
  have h0 : stored M p c = 0 := by unfold stored; rw [hout]; rfl
  refine ⟨m1, m2, m3, hpn, hp, ?_, ?_⟩
  · intro u v b hb
    rw [m4] at hb
    split at hb
    · rename_i e
      obtain ⟨rfl, rfl⟩ := e
      cases hb
      exact ⟨rfl, he, d, Nat.le_refl _, hp, h.dist⟩
    · obtain ⟨h1, h2, j, h3, h4⟩ := h.edge u v b hb
      exact ⟨h1, h2, j, by omega, h4⟩
  · intro x hx
    have hn := h.net x hx
    rw [total_sub] at hn ⊢
    have a1 : total n (stored M' x) = total n (stored M x) + delta x p := by
      rw [total_upd h.lt (f := stored M x) (g := stored M' x)
        (fun y _ hy => by simp only [hst]; rw [if_neg (by omega)])]
      simp only [hst, delta, and_true]
      by_cases e : x = p
      · subst e; simp [h0]
      · simp [e]
    have a2 : total n (fun y => stored M' y x) = total n (fun y => stored M y x) + delta x c := by
      rw [total_upd hpn (f := fun y => stored M y x) (g := fun y => stored M' y x)
        (fun y _ hy => by simp only [hst]; rw [if_neg (by omega)])]
      simp only [hst, delta, true_and]
      by_cases e : x = c
      · subst e; simp [h0]
      · simp [e]
    omega

theorem maxflowBfs_spec {G : Lil α} (hG : G.WF) {n s k : Nat} (hr : G.nrows = n) (hc : G.ncols = n) (hs : s < n)
    (hk : k < n) {ramp : BVec Nat} (r1 : ramp.WF) (r2 : ramp.size = n) (r3 : ∀ i, i < n → ramp.get i = some i)
    {M : Lil Bool} (m1 : M.WF) (m2 : M.nrows = n) (m3 : M.ncols = n) {fuel : Nat} (hf : n ≤ fuel) :
    (maxflowBfs fuel G s k ramp M = .ok (false, M) ∧ ¬ Reachable (Edge G.get) (· = s) k) ∨
    ∃ M', maxflowBfs fuel G s k ramp M = .ok (true, M') ∧ PathFrom (Edge G.get) n s k s 0 M' := by
  obtain ⟨w0, e0, w1, w2, w3⟩ := BVec.new_spec (α := Nat) (n := n) (by omega)
  obtain ⟨w, e1, v1, v2, v3⟩ := BVec.setElement_spec w1 (i := s) (by omega) 1
  obtain ⟨p, e2, p1, p2, p3⟩ := BVec.setElement_spec w1 (i := s) (by omega) s
  have hp2 : p.size = n := p2.trans w2
  have hw2 : w.size = n := v2.trans w2
  have hstart : ParOK (Edge G.get) s n { wave := w, parents := p } := by
    refine ⟨v1, hw2, p1, hp2, ⟨0, ?_, ?_, ?_, ?_, ?_⟩, ?_⟩
    · intro v hv
      show w.get v ≠ none
      rw [v3, if_pos (hopDist_zero.1 hv)]; simp
    · intro v hv
      show w.get v = none
      rw [v3, if_neg (fun h => hv (hopDist_zero.2 h)), w3]
    · show p.get s = some s
      rw [p3, if_pos rfl]
    · intro v k hk; exact absurd hk (Nat.not_lt_zero _)
    · intro v hv
      show p.get v = none
      rw [p3, if_neg (fun h => hv 0 (Nat.le_refl _) (hopDist_zero.2 h)), w3]
    · intro v
      show w.get v ≠ none → p.get v ≠ none
      rw [v3, p3]
      by_cases h : v = s
      · simp [h]
      · simp [h, w3]
  have hsearch : ∀ q : ParSt, ParOK (Edge G.get) s n q →
      searching k q = (!(q.parents.get k).isSome && decide (0 < q.wave.nvals)) := by
    intro q hq
    unfold searching
    rw [BVec.hasElement_spec hq.pwf (by rw [hq.psize]; exact hk)]
  obtain ⟨q, e, h, hcq⟩ := loop_rule (c := searching k) (b := searchBody G ramp)
    (ParOK (Edge G.get) s n)
    (fun s => if 0 < s.wave.nvals then n - Vec.count n s.parents.get + 1 else 0)
    (by
      intro q hq hcq
      rw [hsearch q hq, Bool.and_eq_true] at hcq
      have hcq : 0 < q.wave.nvals := of_decide_eq_true hcq.2
      obtain ⟨s', e, h1, h2⟩ := bfsBody_spec hG hr hc r1 r2 r3 hq
      refine ⟨s', e, h1, ?_⟩
      simp only [hcq, if_true]
      split
      · rename_i h; have := h2 h; omega
      · omega) fuel _ hstart (by
      show (if 0 < w.nvals then n - Vec.count n p.get + 1 else 0) ≤ fuel
      have := count_lt (n := n) (f := fun _ => (none : Option Nat)) (g := p.get) (k := s)
        (fun _ _ h => by cases h) hs rfl (by rw [p3, if_pos rfl]; rfl)
      split <;> omega)
  rw [hsearch q h] at hcq
  obtain ⟨d, hi⟩ := h.inv
  have hhas0 := BVec.hasElement_spec p1 (i := k) (by rw [hp2]; exact hk)
  have hhas := BVec.hasElement_spec h.pwf (i := k) (by rw [h.psize]; exact hk)
  have hpar : ∀ v x, q.parents.get v = some x → v ≠ s →
      ∃ j, HopDist (Edge G.get) (· = s) v (j + 1) ∧ HopDist (Edge G.get) (· = s) x j ∧ Edge G.get x v := by
    intro v x hx hv
    have hex : ∃ j, j ≤ d ∧ HopDist (Edge G.get) (· = s) v j := by
      refine Classical.byContradiction fun hno => ?_
      rw [hi.outP v (fun j hj hd => hno ⟨j, hj, hd⟩)] at hx
      cases hx
    obtain ⟨j, hj, hd⟩ := hex
    cases j with
    | zero => exact absurd (hopDist_zero.1 hd) hv
    | succ j =>
      obtain ⟨p', hp', a, ha1, ha2, ha3, -⟩ := hi.inP v j (by omega) hd
      rw [hx] at hp'
      cases hp'
      exact ⟨a, ha1, ha2, ha3⟩
  cases hkp : q.parents.get k with
  | none =>
    left
    rw [hkp] at hcq hhas
    have hnv : q.wave.nvals = 0 := by simpa using hcq
    have hnone := none_of_nvals h.wwf hnv
    have hnd : ∀ v, ¬ HopDist (Edge G.get) (· = s) v d := fun v hv => hi.inW v hv (hnone v)
    refine ⟨?_, ?_⟩
    · unfold maxflowBfs
      rw [hr, hc, e0]
      simp only [lift_ok, prog_bind_ok, e1, e2, method_ok, hhas0, e, hhas]
      rfl
    · rintro ⟨j, hj⟩
      obtain ⟨j, -, hd⟩ := Walk.dist hj
      rcases Nat.lt_or_ge d j with h' | h'
      · exact hopDist_none hnd (by omega) hd
      · exact hi.par_ne h' hd hkp
  | some pk =>
    right
    rw [hkp] at hhas
    obtain ⟨dk, hdk⟩ : ∃ j, HopDist (Edge G.get) (· = s) k j := by
      by_cases hks : k = s
      · exact ⟨0, hopDist_zero.2 hks⟩
      · obtain ⟨j, h1, -⟩ := hpar k pk hkp hks
        exact ⟨j + 1, h1⟩
    have hdkn : dk < n := hopDist_lt (n := n) (fun u v e => by rw [← hc]; exact (edge_lt hG e).2)
      (fun v hv => by omega) hdk
    have hM0 : PathFrom (Edge G.get) n s k k dk M.clear := by
      have hg : ∀ u v, M.clear.get u v = none := fun u v => by rw [Lil.get, Lil.rowD_clear]; rfl
      refine ⟨Lil.clear_wf m1.toWFr, m2, m3, hk, hdk, ?_, ?_⟩
      · intro u v b hb
        rw [hg] at hb; cases hb
      · intro x hx
        rw [total_const_zero (fun y _ => by simp [stored, hg])]
        omega
    have hback : ∀ (d fuel : Nat) (c : Nat) (M : Lil Bool), d ≤ fuel → q.parents.get c ≠ none →
        PathFrom (Edge G.get) n s k c d M →
        ∃ r, loop (fun r => decide (r.curr ≠ s)) (backBody q.parents) fuel { M := M, curr := c } = .ok r ∧
          PathFrom (Edge G.get) n s k s 0 r.M := by
      intro d
      induction d with
      | zero =>
        intro fuel c M _ _ hP
        have hcs : c = s := (hopDist_zero (S := (· = s))).1 hP.dist
        subst hcs
        refine ⟨{ M := M, curr := c }, ?_, hP⟩
        cases fuel <;> simp [loop]
      | succ d ih =>
        intro fuel c M hf hpc hP
        have hcs : c ≠ s := by
          intro e
          have := hP.dist.unique (hopDist_zero.2 e)
          omega
        obtain ⟨x, hx⟩ := Option.ne_none_iff_exists'.1 hpc
        obtain ⟨j, j1, j2, j3⟩ := hpar c x hx hcs
        have hj := hP.dist.unique j1
        have : j = d := by omega
        subst this
        have hxn : x < n := by rw [← hr]; exact (edge_lt hG j3).1
        obtain ⟨M', f1, f2, f3, f4, f5⟩ := Lil.setElement_spec hP.wf (i := x) (j := c)
          (by rw [hP.rows]; exact hxn) (by rw [hP.cols]; exact hP.lt) true
        have hx' : q.parents.get x ≠ none := by
          by_cases hxs : x = s
          · rw [hxs, hi.root]; simp
          · have hcd : ∃ a, a ≤ d ∧ HopDist (Edge G.get) (· = s) c a := by
              refine Classical.byContradiction fun hno => ?_
              rw [hi.outP c (fun j hj hd => hno ⟨j, hj, hd⟩)] at hx
              cases hx
            obtain ⟨a, ha, hca⟩ := hcd
            have := hca.unique j1
            exact hi.par_ne (k := j) (by omega) j2
        cases fuel with
        | zero => omega
        | succ fuel =>
          obtain ⟨r, g1, g2⟩ := ih fuel x M' (by omega) hx'
            (hP.step j2 hxn j3 f2 (f3.trans hP.rows) (f4.trans hP.cols) f5)
          refine ⟨r, ?_, g2⟩
          have hb : backBody q.parents { M := M, curr := c } = .ok { M := M', curr := x } := by
            unfold backBody
            rw [BVec.extractElement_spec h.pwf (by rw [h.psize]; exact hP.lt) hx]
            simp only [lift_ok, prog_bind_ok, f1, method_ok]
          rw [loop, if_pos (by simpa using hcs), hb]
          exact g1
    obtain ⟨r, g1, g2⟩ := hback dk fuel k M.clear (by omega) (by rw [hkp]; simp) hM0
    refine ⟨r.M, ?_, g2⟩
    unfold maxflowBfs
    rw [hr, hc, e0]
    simp only [lift_ok, prog_bind_ok, e1, e2, method_ok, hhas0, e, hhas, Option.isSome_some, if_true, g1]

end GBTL

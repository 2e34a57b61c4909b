import Verif.Lemmas.EdgeBcCalls
import Verif.Props.BetweennessV
/-
**C59**: edge betweenness centrality.
-/
namespace GBTL
open Spec

variable {T : Type}

/-- The operations agree with those on the natural numbers up to `M`, which `num`
represents. -/
structure EbcExact (o : EbcOps T) (num : Nat → T) (M : Nat) : Prop where
  add : ∀ a b, a + b ≤ M → o.add (num a) (num b) = num (a + b)
  times : ∀ a b, a ≤ M → b ≤ M → a * b ≤ M → o.times (num a) (num b) = num (a * b)
  div : ∀ a b, 0 < a → 0 < b → a * b ≤ M → o.div (num (b * a)) (num b) = num a
  truthy : ∀ a, 0 < a → a ≤ M → o.truthy (num a) = true
  toB : ∀ a, 0 < a → a ≤ M → o.toB (num a) = true
  one : o.one = num 1
  ofBool : o.ofBool true = num 1

section
variable [Inhabited T] {o : EbcOps T} {num : Nat → T} {M : Nat} {A : Lil T} {n s : Nat}

theorem EbcExact.counts (h : EbcExact o num M) : Counts o.add o.truthy num M := ⟨h.add, h.truthy⟩

theorem EbcExact.countsB (h : EbcExact o num M) : Counts o.add o.toB num M := ⟨h.add, h.toB⟩

/-- The state before round `k`; there are no loops, so the source is counted once. -/
structure EbcOK (n : Nat) (E : Nat → Nat → Bool) (num : Nat → T) (s k : Nat) (q : VbcSt T) : Prop where
  fsz : Sz n q.f
  psz : Sz n q.p
  front : Front n E num s (k + 1) q.f.get
  fsrc : q.f.get s = none
  nsp : Nsp n E num s k q.p.get
  psrc : q.p.get s = some (num 1)
  sig : ∀ i X, q.S[i]? = some X → Sz n X ∧ ∀ v, X.get v = if hops n E s v = some i then some true else none
  len : q.S.length = k + 1

theorem EbcOK.count {E : Nat → Nat → Bool} {k : Nat} {q : VbcSt T} (hE : EdgesIn n E) (hs : s < n)
    (hq : EbcOK n E num s k q) {v d : Nat} (h : hops n E s v = some d) (hd : d ≤ k) :
    q.p.get v = some (num (spc n E s v)) := by
  by_cases hv : v = s
  · subst hv
    rw [spc_self hE hs]; exact hq.psrc
  · exact hq.nsp.at_ v d hv h hd

theorem ebc_round (hx : EbcExact o num M) (hM2 : 2 ≤ M) (hA : Sh n n A) (h1 : ∀ u v a, A.get u v = some a → a = num 1)
    (hs : s < n) (hM : totalPaths n (edges A) s ≤ M) {k : Nat} {q : VbcSt T} (hq : EbcOK n (edges A) num s k q) :
    ∃ q', ebcBody o A n q = .ok q' ∧ EbcOK n (edges A) num s (k + 1) q' := by
  have hE := edges_in hA
  have hn : 0 < n := by omega
  obtain ⟨S0, e0, z0, -⟩ := newV (τ := Bool) hn
  obtain ⟨S, e1, z1, g1⟩ := applyVP_ok (f := o.toB) z0 hq.fsz
  obtain ⟨p, e2, z2, g2⟩ := addVR_ok (f := ⟨o.add, id, id, id, o.add, id⟩) hq.psz hq.psz hq.fsz
  have hp : Nsp n (edges A) num s (k + 1) p.get := by
    refine Nsp.next hx.counts hM2 hq.nsp hq.front ?_
    intro v
    by_cases hv : v < n
    · exact g2 v hv
    · rw [z2.out hv, hq.psz.out hv, hq.fsz.out hv]; rfl
  obtain ⟨f, e3, z3, g3⟩ := stepV_ok (truthy := o.truthy) (sr := ⟨o.add, o.times, o.times⟩) hq.fsz z2 hq.fsz hA
  have hps : p.get s = some (num 1) := by rw [g2 s hs, hq.psrc, hq.fsrc]; rfl
  refine ⟨{ f := f, p := p, S := q.S ++ [S] }, ?_, z3, z2, ?_, ?_, hp, hps, ?_, by simp [hq.len]⟩
  · unfold ebcBody
    rw [e0]
    simp only [lift_ok, prog_bind_ok]
    rw [e1]
    simp only [prog_bind_ok]
    rw [e2]
    simp only [prog_bind_ok]
    rw [e3]
    rfl
  · refine Front.next hE hs hx.counts hM hM2 hp hq.front
      (pr := fun u v => both o.times (q.f.get u) (A.get u v)) ?_ ?_ ?_
    · intro u v a hu ha
      show both _ _ _ = _
      rw [hu]
      cases hg : A.get u v with
      | none => simp [edges, hg, both]
      | some x =>
        simp only [edges, hg, Option.isSome_some, if_true, both]
        rw [h1 u v x hg, hx.times a 1 ha (by omega) (by omega), Nat.mul_one]
    · intro u v hu
      show both _ _ _ = _
      rw [hu]; rfl
    · intro v
      by_cases hv : v < n
      · exact g3 v hv
      · show f.get v = _
        rw [z3.out hv]
        split
        · rfl
        · symm
          rw [osum_range_none]
          intro u _
          rw [hA.out (fun h => hv h.2)]
          cases q.f.get u <;> rfl
  · show f.get s = none
    rw [g3 s hs, hps, if_pos]
    exact hx.truthy 1 (by omega) (by omega)
  · intro i X hX
    rcases Nat.lt_trichotomy i q.S.length with hi | hi | hi
    · rw [List.getElem?_append_left hi] at hX
      exact hq.sig i X hX
    · subst hi
      rw [List.getElem?_append_right (Nat.le_refl _)] at hX
      simp at hX
      subst hX
      rw [hq.len]
      refine ⟨z1, ?_⟩
      intro v
      by_cases hv : v < n
      · rw [g1 v hv]
        by_cases hvs : v = s
        · subst hvs
          rw [hq.fsrc, hops_self hE hs, if_neg (by intro h; cases h)]; rfl
        · split
          · rename_i h
            rw [hq.front.at_ v hvs h]
            show some (o.toB _) = _
            rw [hx.toB _ (spc_pos hE hs h) (Nat.le_trans (spc_le hE hs h) hM)]
          · rename_i h
            rw [hq.front.off v hvs h]; rfl
      · rw [z1.out hv, if_neg (fun h => hv (hops_in hE hs h))]
    · rw [List.getElem?_append_right (by omega), List.getElem?_eq_none (by simp; omega)] at hX
      cases hX

/-- The vertices further from `s` than `d`. -/
def beyond (n : Nat) (E : Nat → Nat → Bool) (s d w : Nat) : Bool := (hops n E s w).any fun i => decide (d < i)

/-- Before a step back from depth `d`: the edges to vertices further away have been
counted, and `flow` has the numbers of paths that leave the vertices at depth `d`. -/
structure EbcBackOK (n : Nat) (E : Nat → Nat → Bool) (num : Nat → T) (s d : Nat) (X : Nat → Nat → Nat) (q : EbcBack T) :
    Prop where
  ssz : Sh n n q.score
  usz : Sh n n q.update
  fsz : Sz n q.flow
  score : ∀ v w, v < n → w < n →
    q.score.get v w = optN num (X v w + if beyond n E s d w = true then edgePaths n E s v w else 0)
  flow : ∀ v, hops n E s v = some d → q.flow.get v = optN num (spc n E s v * (ext n E s v - 1))

theorem ebc_back (hx : EbcExact o num M) (hA : Sh n n A) (h1 : ∀ u v a, A.get u v = some a → a = num 1)
    (hs : s < n) (hM : totalPaths n (edges A) s ≤ M) {k d : Nat} {q : VbcSt T} (hq : EbcOK n (edges A) num s k q)
    (hd1 : 1 ≤ d) (hd : d ≤ k) {X : Nat → Nat → Nat} (hX : ∀ v w, X v w + totalPaths n (edges A) s ≤ M)
    {r : EbcBack T} (hr : EbcBackOK n (edges A) num s d X r) :
    ∃ r', ebcBackBody o A n q.S q.p d r = .ok r' ∧ EbcBackOK n (edges A) num s (d - 1) X r' := by
  have hE := edges_in hA
  have hn : 0 < n := by omega
  have hl := hq.len
  have c1 : q.S[d]? = some (q.S[d]'(by omega)) := List.getElem?_eq_getElem _
  have c0 : q.S[d - 1]? = some (q.S[d - 1]'(by omega)) := List.getElem?_eq_getElem _
  obtain ⟨s1, k1⟩ := hq.sig _ _ c1
  obtain ⟨s0, k0⟩ := hq.sig _ _ c0
  revert s1 k1 s0 k0 c1 c0
  generalize q.S[d]'(by omega) = S1
  generalize q.S[d - 1]'(by omega) = S0
  intro c1 c0 s1 k1 s0 k0
  obtain ⟨w0, e0, z0, g0⟩ := newV (τ := T) hn
  obtain ⟨w1, e1, z1, g1⟩ := multVE_ok (f := ⟨o.div, id, id, id, o.div, id⟩) z0 g0 s1 hr.fsz hq.psz
  obtain ⟨w2, e2, z2, g2⟩ := addVG_ok
    (f := ⟨fun x b => o.add x (o.ofBool b), id, o.ofBool, o.ofBool, o.add, id⟩) z1 z1 s1
  obtain ⟨D1, e3, z3, g3⟩ := diagV_ok z2
  obtain ⟨up1, e4, z4, g4⟩ := mxmP_ok (sr := ⟨o.add, o.times, o.times⟩) (via := id) hr.usz hA z3
  obtain ⟨w3, e5, z5, g5⟩ := applyVM_ok (f := id) z2 s0 hq.psz
  obtain ⟨D2, e6, z6, g6⟩ := diagV_ok z5
  obtain ⟨up2, e7, z7, g7⟩ := mxmP_ok (sr := ⟨o.add, o.times, o.times⟩) (via := id) z4 z6 z4
  obtain ⟨sc, e8, z8, g8⟩ := addM_ok (add := o.add) hr.ssz hr.ssz z7
  obtain ⟨fl, e9, z9, g9⟩ := rowSum_ok (add := o.add) hr.fsz z7
  -- the weights of the vertices at depth `d`
  have hext : ∀ v i, hops n (edges A) s v = some i → 0 < ext n (edges A) s v ∧ 0 < spc n (edges A) s v ∧
      spc n (edges A) s v * ext n (edges A) s v ≤ M ∧ ext n (edges A) s v ≤ M ∧ spc n (edges A) s v ≤ M := by
    intro v i h
    have a1 := ext_rec hE hs h
    have a2 := spc_pos hE hs h
    have a3 := Nat.le_trans (spc_ext_le hE hs h) hM
    refine ⟨by omega, a2, a3, ?_, Nat.le_trans (spc_le hE hs h) hM⟩
    exact Nat.le_trans (Nat.le_mul_of_pos_left _ a2) a3
  have hw2 : ∀ v, v < n → w2.get v = if hops n (edges A) s v = some d then some (num (ext n (edges A) s v)) else none := by
    intro v hv
    rw [g2 v hv, g1 v hv, k1 v]
    by_cases h : hops n (edges A) s v = some d
    · obtain ⟨a1, a2, a3, a4, -⟩ := hext v d h
      simp only [h, if_true]
      rw [hr.flow v h, hq.count hE hs h hd]
      rcases Nat.eq_zero_or_pos (ext n (edges A) s v - 1) with h0 | h0
      · rw [h0, Nat.mul_zero]
        show some (o.ofBool true) = _
        rw [hx.ofBool, show ext n (edges A) s v = 1 by omega]
      · rw [optN_pos (Nat.mul_pos a2 h0)]
        show some (o.add (o.div _ _) (o.ofBool true)) = _
        have hle : (ext n (edges A) s v - 1) * spc n (edges A) s v ≤ M := by
          refine Nat.le_trans ?_ a3
          rw [Nat.mul_comm (spc n (edges A) s v)]
          exact Nat.mul_le_mul_right _ (by omega)
        rw [hx.div _ _ h0 a2 hle, hx.ofBool, hx.add _ _ (by omega),
          show ext n (edges A) s v - 1 + 1 = ext n (edges A) s v by omega]
    · simp only [h, if_false]
      rfl
  -- the graph with these weights
  have hu1 : ∀ v w, v < n → w < n → up1.get v w =
      if edges A v w = true ∧ hops n (edges A) s w = some d then some (num (ext n (edges A) s w)) else none := by
    intro v w hv hw
    rw [g4 v w hv hw, osum_single hw (by
      intro j _ hj
      show both _ (A.get v j) (D1.get j w) = none
      rw [g3, if_neg hj]
      cases A.get v j <;> rfl)]
    show both o.times (A.get v w) (D1.get w w) = _
    rw [g3, if_pos rfl, hw2 w hw]
    cases hg : A.get v w with
    | none => simp [edges, hg, both]
    | some x =>
      by_cases h : hops n (edges A) s w = some d
      · obtain ⟨a1, a2, a3, a4, -⟩ := hext w d h
        rw [if_pos h, if_pos ⟨by simp [edges, hg], h⟩]
        show some (o.times x _) = _
        rw [h1 v w x hg, hx.times 1 _ (by omega) a4 (by omega), Nat.one_mul]
      · rw [if_neg h, if_neg (fun e => h e.2)]; rfl
  have hw3 : ∀ v, v < n → w3.get v =
      if hops n (edges A) s v = some (d - 1) then some (num (spc n (edges A) s v)) else none := by
    intro v hv
    rw [g5 v hv, k0 v]
    by_cases h : hops n (edges A) s v = some (d - 1)
    · simp only [h, if_true]
      rw [hq.count hE hs h (by omega)]; rfl
    · simp only [h, if_false]; rfl
  have hdown : ∀ v w, edges A v w = true ∧ hops n (edges A) s v = some (d - 1) ∧ hops n (edges A) s w = some d →
      Down n (edges A) s v w := by
    rintro v w ⟨a, b, c⟩
    exact ⟨a, d - 1, b, by rw [c]; congr 1; omega⟩
  -- the paths that use each edge to depth `d`
  have hu2 : ∀ v w, v < n → w < n → up2.get v w =
      optN num (if hops n (edges A) s w = some d then edgePaths n (edges A) s v w else 0) := by
    intro v w hv hw
    rw [g7 v w hv hw, osum_single hv (by
      intro j _ hj
      show both _ (D2.get v j) (up1.get j w) = none
      rw [g6, if_neg (fun e => hj e.symm)]; rfl)]
    show both o.times (D2.get v v) (up1.get v w) = _
    rw [g6, if_pos rfl, hw3 v hv, hu1 v w hv hw]
    by_cases h : edges A v w = true ∧ hops n (edges A) s v = some (d - 1) ∧ hops n (edges A) s w = some d
    · have hD := hdown v w h
      obtain ⟨b1, b2, -, -, b5⟩ := hext v _ h.2.1
      obtain ⟨a1, a2, a3, a4, -⟩ := hext w d h.2.2
      have hep := edgePaths_down hE hs hD
      have hle := Nat.le_trans (edgePaths_le (n := n) (E := edges A) s v w) hM
      rw [hep] at hle
      rw [if_pos h.2.1, if_pos ⟨h.1, h.2.2⟩, if_pos h.2.2, hep, optN_pos (Nat.mul_pos b2 a1)]
      show some (o.times _ _) = _
      rw [hx.times _ _ b5 a4 hle]
    · have hz : (if hops n (edges A) s w = some d then edgePaths n (edges A) s v w else 0) = 0 := by
        split
        · rename_i hw'
          refine edgePaths_not hE hs ?_
          rintro ⟨a, i, b, c⟩
          rw [hw'] at c
          cases c
          exact h ⟨a, b, hw'⟩
        · rfl
      rw [hz, optN_zero]
      by_cases ha : hops n (edges A) s v = some (d - 1)
      · rw [if_pos ha, if_neg (fun e => h ⟨e.1, ha, e.2⟩)]; rfl
      · rw [if_neg ha]; rfl
  refine ⟨{ score := sc, update := up2, flow := fl }, ?_, z8, z7, z9, ?_, ?_⟩
  · unfold ebcBackBody sigmaAt
    rw [c1, c0, e0]
    simp only [lift_ok, prog_bind_ok]
    rw [e1]
    simp only [prog_bind_ok]
    rw [e2]
    simp only [prog_bind_ok]
    rw [e3]
    simp only [lift_ok, prog_bind_ok]
    rw [e4]
    simp only [prog_bind_ok]
    rw [e5]
    simp only [prog_bind_ok]
    rw [e6]
    simp only [lift_ok, prog_bind_ok]
    rw [e7]
    simp only [prog_bind_ok]
    rw [e8]
    simp only [prog_bind_ok]
    rw [e9]
    rfl
  · intro v w hv hw
    show sc.get v w = _
    have hle := edgePaths_le (n := n) (E := edges A) s v w
    have := hX v w
    rw [g8 v w hv hw, hr.score v w hv hw, hu2 v w hv hw, either_optN hx.counts]
    · congr 1
      rw [Nat.add_assoc]
      congr 1
      unfold beyond
      cases hh : hops n (edges A) s w with
      | none => simp
      | some i =>
        simp only [Option.any_some, decide_eq_true_eq, Option.some.injEq]
        rcases Nat.lt_trichotomy i d with h | h | h
        · rw [if_neg (by omega), if_neg (by omega), if_neg (by omega)]
        · rw [if_neg (by omega), if_pos h, if_pos (by omega), Nat.zero_add]
        · rw [if_pos h, if_neg (by omega), if_pos (by omega)]; rfl
    · have h2 : ∀ (c : Prop) [Decidable c], (if c then edgePaths n (edges A) s v w else 0) ≤ edgePaths n (edges A) s v w := by
        intro c _
        split <;> omega
      unfold beyond
      cases hh : hops n (edges A) s w with
      | none => simp; omega
      | some i =>
        simp only [Option.any_some, decide_eq_true_eq, Option.some.injEq]
        rcases Nat.lt_trichotomy i d with h | h | h
        · rw [if_neg (by omega), if_neg (by omega)]; omega
        · rw [if_neg (by omega), if_pos h]; omega
        · rw [if_pos h, if_neg (by omega)]; omega
  · intro v hv
    have hvn := hops_in hE hs hv
    show fl.get v = _
    have hsum : sumTo n (fun w => if hops n (edges A) s w = some d then edgePaths n (edges A) s v w else 0) =
        spc n (edges A) s v * (ext n (edges A) s v - 1) := by
      rw [ext_rec hE hs hv, Nat.add_sub_cancel_left, ← sumTo_mul]
      refine sumTo_congr ?_
      intro w _
      rw [show d - 1 + 1 = d by omega]
      by_cases h : hops n (edges A) s w = some d
      · rw [if_pos h]
        by_cases he : edges A v w = true
        · rw [if_pos ⟨he, h⟩, edgePaths_down hE hs (hdown v w ⟨he, hv, h⟩)]
        · rw [if_neg (fun e => he e.1), edgePaths_not hE hs (fun e => he e.1), Nat.mul_zero]
      · rw [if_neg h, if_neg (fun e => h e.2), Nat.mul_zero]
    rw [g9 v hvn, osum_optN hx.counts (fun w hw => hu2 v w hvn hw), hsum]
    rw [hsum]
    obtain ⟨-, -, a3, -, -⟩ := hext v _ hv
    exact Nat.le_trans (Nat.mul_le_mul_left _ (by omega)) a3

/-- One root. -/
theorem ebcRoot_ok (hx : EbcExact o num M) (hM2 : 2 ≤ M) (hA : Sh n n A)
    (h1 : ∀ u v a, A.get u v = some a → a = num 1) (hl : edges A s s ≠ true)
    (hs : s < n) (hM : totalPaths n (edges A) s ≤ M) {X : Nat → Nat → Nat}
    (hX : ∀ v w, X v w + totalPaths n (edges A) s ≤ M) {score : Lil T} (hsz : Sh n n score)
    (hsc : ∀ v w, v < n → w < n → score.get v w = optN num (X v w)) {fuel : Nat} (hf : n ≤ fuel) :
    ∃ sc, ebcRoot fuel o A n s score = .ok sc ∧ Sh n n sc ∧
      ∀ v w, v < n → w < n → sc.get v w = optN num (X v w + edgePaths n (edges A) s v w) := by
  have hE := edges_in hA
  have hn : 0 < n := by omega
  obtain ⟨t, et, zt, gt⟩ := newV (τ := T) hn
  obtain ⟨b, eb, zb, gb⟩ := newV (τ := Bool) hn
  obtain ⟨f, e1, zf, gf⟩ := rowV_ok (cz := id) zt hA hs
  obtain ⟨p, e2, zp, gp⟩ := setV_ok zt hs o.one
  obtain ⟨S, e3, zS, gS⟩ := setV_ok zb hs true
  have h0 : EbcOK n (edges A) num s 0 { f := f, p := p, S := [S] } := by
    refine ⟨zf, zp, Front.first hE hs ?_, ?_, Nsp.init hE hs ?_ ?_, ?_, ?_, rfl⟩
    · intro v
      by_cases hv : v < n
      · show f.get v = _
        rw [gf v hv]
        cases hg : A.get s v with
        | none => simp [edges, hg]
        | some x => simp [edges, hg, h1 s v x hg]
      · show f.get v = _
        rw [zf.out hv, edges, hA.out (fun h => hv h.2)]; rfl
    · show f.get s = none
      rw [gf s hs]
      have := hl
      unfold edges at this
      cases hg : A.get s s with
      | none => rfl
      | some x => rw [hg] at this; exact absurd rfl this
    · show p.get s = _
      rw [gp, if_pos rfl, hx.one]
    · intro v hv
      show p.get v = _
      rw [gp, if_neg hv, gt]
    · show p.get s = _
      rw [gp, if_pos rfl, hx.one]
    · intro i Y hY
      cases i with
      | zero =>
        simp at hY
        subst hY
        refine ⟨zS, ?_⟩
        intro v
        rw [gS]
        by_cases hv : v = s
        · subst hv
          rw [if_pos rfl, if_pos (hops_self hE hs)]
        · rw [if_neg hv, gb, if_neg (fun e => hv (hops_zero hE hs e))]
      | succ i => simp at hY
  obtain ⟨k, q, e4, hq, hc⟩ := loop_count (EbcOK n (edges A) num s) n
    (c := fun q : VbcSt T => decide (0 < q.f.nvals)) (b := ebcBody o A n)
    (by
      intro k q hq hc
      obtain ⟨v, -, hv⟩ := hq.fsz.some (of_decide_eq_true hc)
      exact ⟨hq.front.le hs hv, ebc_round hx hM2 hA h1 hs hM hq⟩) fuel 0 _ h0 (by omega)
  have hlast : ∀ v, hops n (edges A) s v ≠ some (k + 1) := by
    intro v hv
    have hnone := hq.fsz.none (of_decide_eq_false hc)
    by_cases hvs : v = s
    · subst hvs
      rw [hops_self hE hs] at hv
      cases hv
    · have := hq.front.at_ v hvs hv
      rw [hnone] at this; cases this
  have hk : q.S.length - 1 = k := by rw [hq.len]; rfl
  obtain ⟨r, e5, hr⟩ := forP_inv
    (b := fun j r => ebcBackBody o A n q.S q.p (q.S.length - 1 - j) r)
    (fun j r => EbcBackOK n (edges A) num s (k - j) X r)
    (q.S.length - 1) { score := score, update := Lil.new n n, flow := t }
    (by
      refine ⟨hsz, Sh.new n n, zt, ?_, ?_⟩
      · intro v w hv hw
        show score.get v w = _
        rw [hsc v w hv hw, if_neg, Nat.add_zero]
        unfold beyond
        cases hh : hops n (edges A) s w with
        | none => simp
        | some i =>
          simp only [Option.any_some, decide_eq_true_eq]
          intro hlt
          exact hops_none_above hE hs hlast (show k + 1 ≤ i by omega) hh
      · intro v hv
        show t.get v = _
        rw [gt, ext_rec hE hs hv, Nat.add_sub_cancel_left, sumTo_eq_zero]
        · rfl
        · intro w _
          rw [if_neg (fun e => hlast w e.2)])
    (by
      intro j r hj hr
      rw [hk] at hj ⊢
      obtain ⟨r', e', hr'⟩ := ebc_back hx hA h1 hs hM hq (show 1 ≤ k - j by omega) (by omega) hX hr
      exact ⟨r', e', by rw [show k - (j + 1) = k - j - 1 by omega]; exact hr'⟩)
  refine ⟨r.score, ?_, hr.ssz, ?_⟩
  · unfold ebcRoot
    rw [et, eb]
    simp only [lift_ok, prog_bind_ok]
    rw [e1]
    simp only [prog_bind_ok]
    rw [e2, e3]
    simp only [lift_ok, prog_bind_ok]
    rw [e4]
    simp only [prog_bind_ok]
    rw [e5]
    rfl
  · intro v w hv hw
    rw [hr.score v w hv hw]
    congr 2
    by_cases hD : Down n (edges A) s v w
    · obtain ⟨-, i, -, c⟩ := hD
      rw [if_pos]
      unfold beyond
      rw [c, hk]
      simp
    · rw [edgePaths_not hE hs hD]
      split <;> rfl

omit [Inhabited T] in
theorem sumTo_prefix {m r : Nat} {f : Nat → Nat} (h : r < m) : sumTo r f + f r ≤ sumTo m f := by
  induction m with
  | zero => omega
  | succ m ih =>
    by_cases hr : r = m
    · subst hr; exact Nat.le_refl _
    · have := ih (by omega)
      rw [sumTo]; omega

theorem ebc_ok (hx : EbcExact o num M) (hM2 : 2 ≤ M) (hA : A.WF) (hsq : A.nrows = A.ncols)
    (h1 : ∀ u v a, A.get u v = some a → a = num 1) (hl : ∀ v, A.get v v = none)
    (hM : ((List.range A.nrows).map (pathCount A.nrows (edges A))).sum ≤ M) {fuel : Nat} (hf : A.nrows ≤ fuel) :
    ∃ S, ebc fuel o A = .ok S ∧ S.WF ∧ S.nrows = A.nrows ∧ S.ncols = A.nrows ∧
      ∀ v w, S.get v w = if edges A v w = true then some (num (edgeScore A.nrows (edges A) v w)) else none := by
  have hS : Sh A.nrows A.nrows A := ⟨hA, rfl, hsq.symm⟩
  have hE := edges_in hS
  have hl' : ∀ v, edges A v v ≠ true := by intro v; simp [edges, hl v]
  rw [sumTo_eq] at hM
  have hle : ∀ r, r < A.nrows → sumTo r (totalPaths A.nrows (edges A)) + totalPaths A.nrows (edges A) r ≤ M := by
    intro r hr
    refine Nat.le_trans ?_ hM
    rw [sumTo_congr (g := totalPaths A.nrows (edges A)) (fun s _ => pathCount_eq _ _ _)]
    exact sumTo_prefix hr
  obtain ⟨S, e, zS, gS⟩ := forP_inv
    (b := fun root score => ebcRoot fuel o A A.nrows root score)
    (fun r sc => Sh A.nrows A.nrows sc ∧ ∀ v w, v < A.nrows → w < A.nrows →
      sc.get v w = optN num (sumTo r fun s => edgePaths A.nrows (edges A) s v w))
    A.nrows (Lil.new A.nrows A.nrows)
    ⟨Sh.new _ _, by intro v w hv hw; simp [Lil.get, sumTo, optN]⟩
    (by
      rintro r sc hr ⟨zc, gc⟩
      have h3 : ∀ v w, (sumTo r fun s => edgePaths A.nrows (edges A) s v w) + totalPaths A.nrows (edges A) r ≤ M := by
        intro v w
        have := sumTo_mono (n := r) (f := fun s => edgePaths A.nrows (edges A) s v w) (g := totalPaths A.nrows (edges A))
          (fun s _ => edgePaths_le s v w)
        have := hle r hr
        omega
      obtain ⟨sc', e', z', g'⟩ := ebcRoot_ok hx hM2 hS h1 (hl' r) hr (by have := hle r hr; omega) h3 zc gc hf
      exact ⟨sc', e', z', g'⟩)
  refine ⟨S, ?_, zS.wf, zS.nr, zS.nc, ?_⟩
  · unfold ebc
    rw [if_neg (fun h => h hsq)]
    exact e
  · intro v w
    by_cases hvw : v < A.nrows ∧ w < A.nrows
    · rw [gS v w hvw.1 hvw.2]
      have hes : edgeScore A.nrows (edges A) v w = sumTo A.nrows fun s => edgePaths A.nrows (edges A) s v w := sumTo_eq _ _
      rw [hes]
      split
      · rename_i he
        refine optN_pos (sumTo_pos.2 ⟨v, hvw.1, ?_⟩)
        refine edgePaths_pos hE ?_ he
        intro e
        subst e
        exact hl' v he
      · rename_i he
        rw [sumTo_eq_zero]
        · rfl
        · intro s hs
          exact edgePaths_not hE hs (fun h => he h.1)
    · rw [zS.out hvw, if_neg (fun he => hvw (hE v w he))]

end

theorem exact_rat (M : Nat) : EbcExact .rat numR M := by
  refine ⟨?_, ?_, ?_, ?_, ?_, rfl, rfl⟩
  · intro a b _
    show (a : Rat) + (b : Rat) = ((a + b : Nat) : Rat)
    rw [Rat.natCast_add]
  · intro a b _ _ _
    show (a : Rat) * (b : Rat) = ((a * b : Nat) : Rat)
    rw [Rat.natCast_mul]
  · intro a b _ h _
    show ((b * a : Nat) : Rat) / (b : Rat) = (a : Rat)
    have : (b : Rat) ≠ 0 := by simp; omega
    rw [Rat.natCast_mul]
    grind
  · intro a h _
    show ((a : Rat) != 0) = true
    simp; omega
  · intro a h _
    show (decide (1 ≤ (a : Rat)) || _) = true
    have : (1 : Rat) ≤ (a : Rat) := by
      have : ((1 : Nat) : Rat) ≤ (a : Rat) := Rat.natCast_le_natCast.2 h
      exact this
    simp [this]

theorem exact_int {t : ITy} (ov : Int → Int → Int) {M : Nat} (h1 : (M : Int) ≤ t.maxVal) (h2 : M ≤ 2147483647) :
    EbcExact (.int t ov) numI M := by
  have hh : ∀ a : Nat, a ≤ M → t.Has (a : Int) := fun a ha => ITy.has_nn (by omega) (by omega)
  refine ⟨?_, ?_, ?_, ?_, ?_, rfl, rfl⟩
  · intro a b h
    show t.plusT ov (a : Int) (b : Int) = ((a + b : Nat) : Int)
    rw [ITy.plusT_eq ov (hh a (by omega)) (hh b (by omega)) (by have := hh (a + b) h; simpa using this)]
    simp
  · intro a b ha hb h
    show t.timesT ov (a : Int) (b : Int) = ((a * b : Nat) : Int)
    rw [ITy.timesT_eq ov (hh a ha) (hh b hb) (by have := hh (a * b) h; simpa using this)]
    simp
  · intro a b _ hb _
    show Int.tdiv ((b * a : Nat) : Int) (b : Int) = (a : Int)
    rw [Int.natCast_mul, Int.mul_tdiv_cancel_left _ (by omega)]
  · intro a h _
    show ((a : Int) != 0) = true
    simp; omega
  · intro a h ha
    have h32 : ITy.i32.Has (numI a) :=
      ITy.has_nn (by unfold numI; omega) (by show numI a ≤ 2147483647; unfold numI; omega)
    simp only [EbcOps.int]
    rw [ITy.conv_id h32]
    unfold numI
    simp; omega

/-! ### the property -/

/-- **C59**, proved part, with a floating-point scalar type: on a graph without loops whose
stored elements are all 1, the score of an edge is the number of shortest paths between
any two vertices that use it; nothing else is stored. Missing: loops, see
`C59_edge_betweenness_disproof`. -/
theorem C59_edge_betweenness_partial {A : Lil Rat} (hA : A.WF) (hsq : A.nrows = A.ncols)
    (h1 : ∀ u v a, A.get u v = some a → a = 1) (hl : ∀ v, A.get v v = none)
    (hM : ((List.range A.nrows).map (pathCount A.nrows (edges A))).sum ≤ 2147483647) {fuel : Nat} (hf : A.nrows ≤ fuel) :
    ∃ S, ebc fuel .rat A = .ok S ∧ S.WF ∧ S.nrows = A.nrows ∧ S.ncols = A.nrows ∧
      ∀ v w, S.get v w = if edges A v w = true then some (edgeScore A.nrows (edges A) v w : Rat) else none :=
  ebc_ok (exact_rat 2147483647) (by decide) hA hsq h1 hl hM hf

/-- **C59**, proved part, with an integer scalar type in which the number of all shortest
paths fits. -/
theorem C59_edge_betweenness_int_partial {t : ITy} (ht : t ≠ .bool) (ov : Int → Int → Int) {A : Lil Int} (hA : A.WF)
    (hsq : A.nrows = A.ncols) (h1 : ∀ u v a, A.get u v = some a → a = 1) (hl : ∀ v, A.get v v = none)
    (hM : ((List.range A.nrows).map (pathCount A.nrows (edges A))).sum ≤ 2147483647)
    (hM' : (((List.range A.nrows).map (pathCount A.nrows (edges A))).sum : Int) ≤ t.maxVal)
    {fuel : Nat} (hf : A.nrows ≤ fuel) :
    ∃ S, ebc fuel (.int t ov) A = .ok S ∧ S.WF ∧ S.nrows = A.nrows ∧ S.ncols = A.nrows ∧
      ∀ v w, S.get v w = if edges A v w = true then some (edgeScore A.nrows (edges A) v w : Int) else none := by
  generalize hP : ((List.range A.nrows).map (pathCount A.nrows (edges A))).sum = P at hM hM'
  have h2 : (2 : Int) ≤ t.maxVal := by cases t <;> first | exact absurd rfl ht | decide
  refine ebc_ok (M := max 2 P) (exact_int ov ?_ ?_) (by omega) hA hsq h1 hl (by omega) hf
  · omega
  · omega

/-- A graph that is not square is refused. -/
theorem C59_edge_betweenness_dimension [Inhabited T] {fuel : Nat} {o : EbcOps T} {A : Lil T} (h : A.nrows ≠ A.ncols) :
    ebc fuel o A = .error (.err .dimension) := by
  unfold ebc
  rw [if_pos h]

namespace Ex59

/-- A graph of ones, as floating-point numbers or integers. -/
def graphR (n : Nat) (es : List (Nat × Nat)) : Lil Rat :=
  (Lil.new n n : Lil Rat).build (fun _ y => y) (es.map fun e => (e.1, e.2, 1)) |>.2

/-- The graph of `test_bc.cpp`. -/
def B : List (Nat × Nat) := [(0, 1), (0, 2), (0, 3), (1, 2), (1, 4), (2, 4), (3, 2), (3, 4), (4, 5), (4, 6), (5, 7), (6, 7)]

/-- The elements of a result. -/
def elems {T : Type} (r : Prog (Lil T)) : Option (List (Nat × Nat × T)) :=
  match r with
  | .ok A => some A.extractTuples
  | .error _ => none

/-- A diamond. -/
def D : List (Nat × Nat) := [(0, 1), (0, 2), (1, 3), (2, 3)]

/-- An edge that starts from a vertex with a loop. -/
def L : List (Nat × Nat) := [(0, 0), (0, 1)]

theorem stored_one {A : Lil Rat} (h : A.extractTuples.all (fun t => t.2.2 == 1) = true) (hA : A.WF) :
    ∀ u v a, A.get u v = some a → a = 1 := by
  intro u v a hg
  have := List.all_eq_true.1 h _ (((C07_matrix_tuples A hA).2.1 u v a).2 hg)
  simpa using this

end Ex59

theorem Ex59.no_loop {A : Lil Rat} (h : ∀ v, v < A.nrows → A.get v v = none) (hA : A.WF) : ∀ v, A.get v v = none := by
  intro v
  cases hg : A.get v v with
  | none => rfl
  | some x =>
    have := h v (some_lt hA (i := v) (j := v) (by rw [hg]; simp)).1
    rw [hg] at this; cases this

open Ex59 in
/-- The graph and the answer of the library's own test. -/
example : (graphR 8 B).WF ∧ (graphR 8 B).nrows = (graphR 8 B).ncols ∧
    (∀ u v a, (graphR 8 B).get u v = some a → a = 1) ∧ (∀ v, (graphR 8 B).get v v = none) ∧
    ((List.range 8).map (pathCount 8 (edges (graphR 8 B)))).sum ≤ 2147483647 ∧
    elems (ebc 8 .rat (graphR 8 B)) = some [(0, 1, 6), (0, 2, 6), (0, 3, 6), (1, 2, 1), (1, 4, 10), (2, 4, 10), (3, 2, 1),
      (3, 4, 10), (4, 5, 14), (4, 6, 14), (5, 7, 8), (6, 7, 8)] :=
  have hw : (graphR 8 B).WF := Lil.wf_chk (by decide +kernel)
  ⟨hw, by decide +kernel, stored_one (by decide +kernel) hw, no_loop (by decide +kernel) hw, by decide +kernel,
    by decide +kernel⟩

open Ex59 in
/-- The same in a type of 8 bits. -/
example : elems (ebc 4 (.int .i8 fun _ _ => 0) (Ex56.graph 4 D)) = some [(0, 1, 2), (0, 2, 2), (1, 3, 2), (2, 3, 2)] ∧
    ((List.range 4).map (pathCount 4 (edges (Ex56.graph 4 D)))).sum = 10 := by
  refine ⟨?_, ?_⟩ <;> decide +kernel

open Ex59 in
/-- **C59**, negation of the full statement: a loop at the start of an edge. The one
shortest path that uses the edge from 0 to 1 is counted twice, and the loop, which is on
no shortest path, has a score. -/
theorem C59_edge_betweenness_disproof :
    (graphR 2 L).WF ∧ (graphR 2 L).nrows = (graphR 2 L).ncols ∧ (∀ u v a, (graphR 2 L).get u v = some a → a = 1) ∧
    elems (ebc 2 .rat (graphR 2 L)) = some [(0, 0, 2), (0, 1, 2)] ∧
    edgeScore 2 (edges (graphR 2 L)) 0 1 = 1 ∧ edgeScore 2 (edges (graphR 2 L)) 0 0 = 0 :=
  have hw : (graphR 2 L).WF := Lil.wf_chk (by decide +kernel)
  ⟨hw, by decide +kernel, stored_one (by decide +kernel) hw, by decide +kernel, by decide +kernel, by decide +kernel⟩

/-- The score is the edge betweenness centrality as usually defined, if there is never more
than one shortest path. -/
theorem C59_score_unique_paths {n : Nat} {E : Nat → Nat → Bool}
    (h : ∀ s t, s < n → t < n → (shortestPaths n E s t).length ≤ 1) (v w : Nat) :
    (edgeScore n E v w : Rat) = edgeBetweenness n E v w := by
  have e1 : edgeScore n E v w = sumTo n fun s => sumTo n fun t => ((shortestPaths n E s t).filter (usesEdge v w)).length := by
    unfold edgeScore
    rw [sumTo_eq]
    exact sumTo_congr fun s _ => edgePaths_sumTo s v w
  unfold edgeBetweenness
  rw [e1, rsum_cast, rsum_eq]
  refine rsum_congr fun s hs => ?_
  rw [rsum_cast, rsum_eq]
  refine rsum_congr fun t ht => ?_
  have h1 := h s t hs ht
  generalize shortestPaths n E s t = l at h1
  match l, h1 with
  | [], _ => simp; grind
  | [p], _ =>
    show _ = _ / ((1 : Nat) : Rat)
    grind
  | _ :: _ :: _, h1 => simp at h1

open Ex59 in
/-- In general it is not: of the two shortest paths across a diamond each counts fully. -/
theorem C59_score_not_fractions :
    edgeScore 4 (edges (graphR 4 D)) 0 1 = 2 ∧ edgeBetweenness 4 (edges (graphR 4 D)) 0 1 = 3 / 2 ∧
    elems (ebc 4 .rat (graphR 4 D)) = some [(0, 1, 2), (0, 2, 2), (1, 3, 2), (2, 3, 2)] := by
  refine ⟨?_, ?_, ?_⟩ <;> decide +kernel

example : (∀ s t, s < 3 → t < 3 → (shortestPaths 3 (fun u v => v == u + 1 && decide (v < 3)) s t).length ≤ 1) ∧
    edgeScore 3 (fun u v => v == u + 1 && decide (v < 3)) 0 1 = 2 := by
  refine ⟨fun s t hs ht => ?_, by decide +kernel⟩
  exact (show ∀ s, s < 3 → ∀ t, t < 3 → (shortestPaths 3 (fun u v => v == u + 1 && decide (v < 3)) s t).length ≤ 1 by
    decide +kernel) s hs t ht

end GBTL

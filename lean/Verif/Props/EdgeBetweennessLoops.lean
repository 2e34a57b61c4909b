import Verif.Props.EdgeBetweenness
/-
C59: edge betweenness centrality of graphs with loops.
-/
namespace GBTL
open Spec

section
variable {T : Type} [Inhabited T] {o : EbcOps T} {num : Nat → T} {M : Nat} {A : Lil T} {n s : Nat}

/-- The state before round `k` for a source with a loop: the source is in the first
frontier too. -/
structure EbcLoop (n : Nat) (E : Nat → Nat → Bool) (num : Nat → T) (s k : Nat) (q : VbcSt T) : Prop where
  fsz : Sz n q.f
  psz : Sz n q.p
  front : Front n E num s (k + 1) q.f.get
  fsrc : q.f.get s = if k = 0 then some (num 1) else none
  nsp : Nsp n E num s k q.p.get
  psrc : q.p.get s = some (num (if k = 0 then 1 else 2))
  sig : ∀ i X, q.S[i]? = some X → Sz n X ∧
    ∀ v, X.get v = if hops n E s v = some i ∨ v = s ∧ i = 1 then some true else none
  len : q.S.length = k + 1

theorem ebc_loop_round (hx : EbcExact o num M) (hM2 : 2 ≤ M) (hA : Sh n n A)
    (h1 : ∀ u v a, A.get u v = some a → a = num 1)
    (hs : s < n) (hM : totalPaths n (edges A) s ≤ M) {k : Nat} {q : VbcSt T} (hq : EbcLoop n (edges A) num s k q) :
    ∃ q', ebcBody o A n q = .ok q' ∧ EbcLoop n (edges A) num s (k + 1) q' := by
  have hE := edges_in hA
  have hn : 0 < n := by omega
  obtain ⟨S0, e0, z0, -⟩ := newV (τ := Bool) hn
  obtain ⟨S, e1, z1, g1⟩ := applyVP_ok (f := o.toB) z0 hq.fsz
  obtain ⟨p, e2, z2, g2⟩ := addVR_ok (f := ⟨o.add, id, id, id, o.add, id⟩) hq.psz hq.psz hq.fsz
  have hp : Nsp n (edges A) num s (k + 1) p.get := by
    refine Nsp.next hx.counts hM2 hq.nsp hq.front ?_
    intro v
    by_cases hv : v < n
    · exact g2 v hv
    · rw [z2.out hv, hq.psz.out hv, hq.fsz.out hv]; rfl
  obtain ⟨f, e3, z3, g3⟩ := stepV_ok (truthy := o.truthy) (sr := ⟨o.add, o.times, o.times⟩) hq.fsz z2 hq.fsz hA
  have hps : p.get s = some (num 2) := by
    rw [g2 s hs, hq.psrc, hq.fsrc]
    by_cases hk : k = 0
    · rw [if_pos hk, if_pos hk]
      show some (o.add (num 1) (num 1)) = _
      rw [hx.add 1 1 hM2]
    · rw [if_neg hk, if_neg hk]; rfl
  refine ⟨{ f := f, p := p, S := q.S ++ [S] }, ?_, z3, z2, ?_, ?_, hp, by rw [if_neg (by omega)]; exact hps, ?_, by simp [hq.len]⟩
  · unfold ebcBody
    rw [e0]
    simp only [lift_ok, prog_bind_ok]
    rw [e1]
    simp only [prog_bind_ok]
    rw [e2]
    simp only [prog_bind_ok]
    rw [e3]
    rfl
  · refine Front.next hE hs hx.counts hM hM2 hp hq.front
      (pr := fun u v => both o.times (q.f.get u) (A.get u v)) ?_ ?_ ?_
    · intro u v a hu ha
      show both _ _ _ = _
      rw [hu]
      cases hg : A.get u v with
      | none => simp [edges, hg, both]
      | some x =>
        simp only [edges, hg, Option.isSome_some, if_true, both]
        rw [h1 u v x hg, hx.times a 1 ha (by omega) (by omega), Nat.mul_one]
    · intro u v hu
      show both _ _ _ = _
      rw [hu]; rfl
    · intro v
      by_cases hv : v < n
      · exact g3 v hv
      · show f.get v = _
        rw [z3.out hv]
        split
        · rfl
        · symm
          rw [osum_range_none]
          intro u _
          rw [hA.out (fun h => hv h.2)]
          cases q.f.get u <;> rfl
  · show f.get s = _
    rw [if_neg (by omega), g3 s hs, hps, if_pos]
    exact hx.truthy 2 (by omega) (by omega)
  · intro i X hX
    rcases Nat.lt_trichotomy i q.S.length with hi | hi | hi
    · rw [List.getElem?_append_left hi] at hX
      exact hq.sig i X hX
    · subst hi
      rw [List.getElem?_append_right (Nat.le_refl _)] at hX
      simp at hX
      subst hX
      rw [hq.len]
      refine ⟨z1, ?_⟩
      intro v
      by_cases hv : v < n
      · rw [g1 v hv]
        by_cases hvs : v = s
        · subst hvs
          rw [hq.fsrc, hops_self hE hs]
          by_cases hk : k = 0
          · subst hk
            rw [if_pos rfl, if_pos (Or.inr ⟨rfl, rfl⟩)]
            show some (o.toB (num 1)) = _
            rw [hx.toB 1 (by omega) (by omega)]
          · rw [if_neg hk, if_neg]
            · rfl
            · rintro (h | h)
              · cases h
              · omega
        · split
          · rename_i h
            rw [hq.front.at_ v hvs (h.resolve_right fun h => hvs h.1)]
            show some (o.toB _) = _
            have h := h.resolve_right fun h => hvs h.1
            rw [hx.toB _ (spc_pos hE hs h) (Nat.le_trans (spc_le hE hs h) hM)]
          · rename_i h
            rw [hq.front.off v hvs (fun e => h (Or.inl e))]; rfl
      · rw [z1.out hv, if_neg]
        rintro (h | h)
        · exact hv (hops_in hE hs h)
        · omega
    · rw [List.getElem?_append_right (by omega), List.getElem?_eq_none (by simp; omega)] at hX
      cases hX

/-- What the edges out of a source with a loop have too much in the end. -/
def loopExtra (n : Nat) (E : Nat → Nat → Bool) (s w : Nat) : Nat := if w = s then 2 else edgePaths n E s s w

/-- Before a step back from depth `d`. -/
structure EbcLoopBack (n : Nat) (E : Nat → Nat → Bool) (num : Nat → T) (s d : Nat) (X : Nat → Nat → Nat) (q : EbcBack T) :
    Prop where
  ssz : Sh n n q.score
  usz : Sh n n q.update
  fsz : Sz n q.flow
  score : ∀ v w, v < n → w < n →
    q.score.get v w = optN num (X v w + ((if beyond n E s d w = true then edgePaths n E s v w else 0) +
      if d = 0 ∧ v = s then loopExtra n E s w else 0))
  flow : ∀ v, 1 ≤ d → hops n E s v = some d → q.flow.get v = optN num (spc n E s v * (ext n E s v - 1))
  src : d = 1 → q.flow.get s = none

theorem ebc_loop_back (hx : EbcExact o num M) (hM2 : 2 ≤ M) (hA : Sh n n A) (h1 : ∀ u v a, A.get u v = some a → a = num 1)
    (hs : s < n) (hl : edges A s s = true) {k d : Nat} {q : VbcSt T} (hq : EbcLoop n (edges A) num s k q)
    (hd1 : 1 ≤ d) (hd : d ≤ k) {X : Nat → Nat → Nat} (hX : ∀ v w, X v w + 2 * totalPaths n (edges A) s ≤ M)
    {r : EbcBack T} (hr : EbcLoopBack n (edges A) num s d X r) :
    ∃ r', ebcBackBody o A n q.S q.p d r = .ok r' ∧ EbcLoopBack n (edges A) num s (d - 1) X r' := by
  have hE := edges_in hA
  have hn : 0 < n := by omega
  have hl' := hq.len
  have c1 : q.S[d]? = some (q.S[d]'(by omega)) := List.getElem?_eq_getElem _
  have c0 : q.S[d - 1]? = some (q.S[d - 1]'(by omega)) := List.getElem?_eq_getElem _
  obtain ⟨s1, k1⟩ := hq.sig _ _ c1
  obtain ⟨s0, k0⟩ := hq.sig _ _ c0
  revert s1 k1 s0 k0 c1 c0
  generalize q.S[d]'(by omega) = S1
  generalize q.S[d - 1]'(by omega) = S0
  intro c1 c0 s1 k1 s0 k0
  obtain ⟨w0, e0, z0, g0⟩ := newV (τ := T) hn
  obtain ⟨w1, e1, z1, g1⟩ := multVE_ok (f := ⟨o.div, id, id, id, o.div, id⟩) z0 g0 s1 hr.fsz hq.psz
  obtain ⟨w2, e2, z2, g2⟩ := addVG_ok
    (f := ⟨fun x b => o.add x (o.ofBool b), id, o.ofBool, o.ofBool, o.add, id⟩) z1 z1 s1
  obtain ⟨D1, e3, z3, g3⟩ := diagV_ok z2
  obtain ⟨up1, e4, z4, g4⟩ := mxmP_ok (sr := ⟨o.add, o.times, o.times⟩) (via := id) hr.usz hA z3
  obtain ⟨w3, e5, z5, g5⟩ := applyVM_ok (f := id) z2 s0 hq.psz
  obtain ⟨D2, e6, z6, g6⟩ := diagV_ok z5
  obtain ⟨up2, e7, z7, g7⟩ := mxmP_ok (sr := ⟨o.add, o.times, o.times⟩) (via := id) z4 z6 z4
  obtain ⟨sc, e8, z8, g8⟩ := addM_ok (add := o.add) hr.ssz hr.ssz z7
  obtain ⟨fl, e9, z9, g9⟩ := rowSum_ok (add := o.add) hr.fsz z7
  have hs0 := hops_self hE hs
  have hMt : 2 * totalPaths n (edges A) s ≤ M := by have := hX 0 0; omega
  have hpos : 1 ≤ totalPaths n (edges A) s := by
    have h1 := spc_ext_le hE hs hs0
    have h2 := ext_rec hE hs hs0
    rw [spc_self hE hs] at h1
    omega
  have hext : ∀ v i, hops n (edges A) s v = some i → 0 < ext n (edges A) s v ∧ 0 < spc n (edges A) s v ∧
      2 * (spc n (edges A) s v * ext n (edges A) s v) ≤ M ∧ 2 * ext n (edges A) s v ≤ M ∧ spc n (edges A) s v ≤ M := by
    intro v i h
    have a1 := ext_rec hE hs h
    have a2 := spc_pos hE hs h
    have a3 := spc_ext_le hE hs h
    have a4 := Nat.le_mul_of_pos_left (ext n (edges A) s v) a2
    have a5 := spc_le hE hs h
    exact ⟨by omega, a2, by omega, by omega, by omega⟩
  have hne : ∀ {v i}, hops n (edges A) s v = some (i + 1) → v ≠ s := by
    intro v i h e
    subst e
    rw [hs0] at h; cases h
  have hned : ∀ {v}, hops n (edges A) s v = some d → v ≠ s := by
    intro v h e
    subst e
    rw [hs0] at h
    have := Option.some.inj h
    omega
  have hcount : ∀ v i, v ≠ s → hops n (edges A) s v = some i → i ≤ k → q.p.get v = some (num (spc n (edges A) s v)) :=
    fun v i hv h hi => hq.nsp.at_ v i hv h hi
  have hp2 : q.p.get s = some (num 2) := by rw [hq.psrc, if_neg (by omega)]
  -- the weights of the vertices at depth `d`
  have hw2 : ∀ v, v < n → w2.get v = if hops n (edges A) s v = some d ∨ v = s ∧ d = 1 then
      some (num (if v = s then 1 else ext n (edges A) s v)) else none := by
    intro v hv
    rw [g2 v hv, g1 v hv, k1 v]
    by_cases hvs : v = s
    · subst hvs
      by_cases hd' : d = 1
      · rw [if_pos rfl]
        simp only [hd', and_self, or_true, if_true]
        rw [hr.src hd', hp2]
        show some (o.ofBool true) = _
        rw [hx.ofBool]
      · have hc : ¬ (hops n (edges A) v v = some d ∨ v = v ∧ d = 1) := by
          rintro (h | h)
          · exact hned h rfl
          · exact hd' h.2
        rw [if_neg hc, if_neg hc]
        rfl
    rw [if_neg hvs]
    by_cases h : hops n (edges A) s v = some d
    · obtain ⟨a1, a2, a3, a4, -⟩ := hext v d h
      simp only [h, true_or, if_true]
      rw [hr.flow v hd1 h, hcount v d hvs h hd]
      rcases Nat.eq_zero_or_pos (ext n (edges A) s v - 1) with h0 | h0
      · rw [h0, Nat.mul_zero]
        show some (o.ofBool true) = _
        rw [hx.ofBool, show ext n (edges A) s v = 1 by omega]
      · rw [optN_pos (Nat.mul_pos a2 h0)]
        show some (o.add (o.div _ _) (o.ofBool true)) = _
        have hle : (ext n (edges A) s v - 1) * spc n (edges A) s v ≤ M := by
          refine Nat.le_trans ?_ (show spc n (edges A) s v * ext n (edges A) s v ≤ M by omega)
          rw [Nat.mul_comm (spc n (edges A) s v)]
          exact Nat.mul_le_mul_right _ (by omega)
        rw [hx.div _ _ h0 a2 hle, hx.ofBool, hx.add _ _ (by omega),
          show ext n (edges A) s v - 1 + 1 = ext n (edges A) s v by omega]
    · have hc : ¬ (hops n (edges A) s v = some d ∨ v = s ∧ d = 1) := by
        rintro (h' | h')
        · exact h h'
        · exact hvs h'.1
      simp only [hc, if_false]
      rfl
  -- the graph with these weights
  have hu1 : ∀ v w, v < n → w < n → up1.get v w =
      if edges A v w = true ∧ (hops n (edges A) s w = some d ∨ w = s ∧ d = 1) then
        some (num (if w = s then 1 else ext n (edges A) s w)) else none := by
    intro v w hv hw
    rw [g4 v w hv hw, osum_single hw (by
      intro j _ hj
      show both _ (A.get v j) (D1.get j w) = none
      rw [g3, if_neg hj]
      cases A.get v j <;> rfl)]
    show both o.times (A.get v w) (D1.get w w) = _
    rw [g3, if_pos rfl, hw2 w hw]
    cases hg : A.get v w with
    | none => simp [edges, hg, both]
    | some x =>
      by_cases h : hops n (edges A) s w = some d ∨ w = s ∧ d = 1
      · have he : edges A v w = true := by simp [edges, hg]
        have hc : edges A v w = true ∧ (hops n (edges A) s w = some d ∨ w = s ∧ d = 1) := ⟨he, h⟩
        rw [if_pos h, if_pos hc]
        show some (o.times x _) = _
        have hle : (if w = s then 1 else ext n (edges A) s w) ≤ M := by
          split
          · omega
          · rename_i hws
            obtain ⟨-, -, -, a4, -⟩ := hext w d (h.resolve_right fun e => hws e.1)
            omega
        rw [h1 v w x hg, hx.times 1 _ (by omega) hle (by rw [Nat.one_mul]; exact hle), Nat.one_mul]
      · rw [if_neg h, if_neg (fun e => h e.2)]; rfl
  have hw3 : ∀ v, v < n → w3.get v =
      if hops n (edges A) s v = some (d - 1) ∨ v = s ∧ d - 1 = 1 then
        some (num (if v = s then 2 else spc n (edges A) s v)) else none := by
    intro v hv
    rw [g5 v hv, k0 v]
    by_cases h : hops n (edges A) s v = some (d - 1) ∨ v = s ∧ d - 1 = 1
    · simp only [h, if_true]
      by_cases hvs : v = s
      · subst hvs
        rw [hp2, if_pos rfl]; rfl
      · rw [hcount v (d - 1) hvs (h.resolve_right fun e => hvs e.1) (by omega), if_neg hvs]; rfl
    · simp only [h, if_false]; rfl
  have hdown : ∀ v w, edges A v w = true ∧ hops n (edges A) s v = some (d - 1) ∧ hops n (edges A) s w = some d →
      Down n (edges A) s v w := by
    rintro v w ⟨a, b, c⟩
    exact ⟨a, d - 1, b, by rw [c]; congr 1; omega⟩
  have hnot : ∀ v w, hops n (edges A) s w = some d →
      ¬ (edges A v w = true ∧ hops n (edges A) s v = some (d - 1)) → edgePaths n (edges A) s v w = 0 := by
    intro v w hw h
    refine edgePaths_not hE hs ?_
    rintro ⟨a, i, b, c⟩
    rw [hw] at c
    cases c
    exact h ⟨a, b⟩
  -- the paths that use each edge to depth `d`
  have hu2 : ∀ v w, v < n → w < n → up2.get v w =
      optN num ((if hops n (edges A) s w = some d then edgePaths n (edges A) s v w else 0) +
        if d = 1 ∧ v = s then (if w = s then 2 else if hops n (edges A) s w = some d then edgePaths n (edges A) s s w else 0) else 0) := by
    intro v w hv hw
    rw [g7 v w hv hw, osum_single hv (by
      intro j _ hj
      show both _ (D2.get v j) (up1.get j w) = none
      rw [g6, if_neg (fun e => hj e.symm)]; rfl)]
    show both o.times (D2.get v v) (up1.get v w) = _
    rw [g6, if_pos rfl, hw3 v hv, hu1 v w hv hw]
    by_cases hvs : v = s
    · subst hvs
      by_cases hd' : d = 1
      · subst hd'
        rw [if_pos (Or.inl hs0), if_pos rfl, if_pos (⟨rfl, rfl⟩ : 1 = 1 ∧ v = v)]
        by_cases hws : w = v
        · subst hws
          rw [if_pos ⟨hl, Or.inr ⟨rfl, rfl⟩⟩, if_pos rfl, if_pos rfl, if_neg (fun e => hned e rfl), Nat.zero_add, optN_pos (by omega)]
          show some (o.times _ _) = _
          rw [hx.times 2 1 (by omega) (by omega) (by omega)]
        · rw [if_neg hws, if_neg hws]
          by_cases h : hops n (edges A) v w = some 1
          · rw [if_pos h]
            by_cases he : edges A v w = true
            · obtain ⟨a1, a2, a3, a4, -⟩ := hext w 1 h
              have hep := edgePaths_down hE hs (hdown v w ⟨he, hs0, h⟩)
              rw [spc_self hE hs, Nat.one_mul] at hep
              rw [if_pos ⟨he, Or.inl h⟩, hep, optN_pos (by omega)]
              show some (o.times _ _) = _
              rw [hx.times 2 _ (by omega) (by omega) a4, Nat.two_mul]
            · rw [if_neg (fun e => he e.1), hnot v w h (fun e => he e.1)]
              rfl
          · rw [if_neg h, if_neg]
            · rfl
            · rintro ⟨-, h' | h'⟩
              · exact h h'
              · exact hws h'.1
      · rw [if_neg (fun e => hd' e.1 : ¬ (d = 1 ∧ v = v)), Nat.add_zero]
        have hz : (if hops n (edges A) v w = some d then edgePaths n (edges A) v v w else 0) = 0 := by
          split
          · rename_i h
            refine hnot v w h ?_
            rintro ⟨-, h'⟩
            rw [hs0] at h'
            have := Option.some.inj h'
            omega
          · rfl
        rw [hz, optN_zero]
        have hno : ¬ (edges A v w = true ∧ (hops n (edges A) v w = some d ∨ w = v ∧ d = 1)) := by
          rintro ⟨he, h | h⟩
          · obtain ⟨i, hi, hj⟩ := hops_edge hE hs hs0 he
            rw [h] at hj
            have := Option.some.inj hj
            omega
          · exact hd' h.2
        rw [if_neg hno]
        split <;> rfl
    rw [if_neg (fun e => hvs e.2 : ¬ (d = 1 ∧ v = s)), Nat.add_zero, if_neg hvs]
    by_cases h : edges A v w = true ∧ hops n (edges A) s v = some (d - 1) ∧ hops n (edges A) s w = some d
    · have hD := hdown v w h
      obtain ⟨b1, b2, -, -, b5⟩ := hext v _ h.2.1
      obtain ⟨a1, a2, a3, a4, -⟩ := hext w d h.2.2
      have hep := edgePaths_down hE hs hD
      have hle := edgePaths_le (n := n) (E := edges A) s v w
      rw [hep] at hle
      rw [if_pos (Or.inl h.2.1), if_pos ⟨h.1, Or.inl h.2.2⟩, if_pos h.2.2, hep, optN_pos (Nat.mul_pos b2 a1), if_neg (hned h.2.2)]
      show some (o.times _ _) = _
      rw [hx.times _ _ b5 (by omega) (by omega)]
    · have hz : (if hops n (edges A) s w = some d then edgePaths n (edges A) s v w else 0) = 0 := by
        split
        · rename_i hw'
          exact hnot v w hw' fun e => h ⟨e.1, e.2, hw'⟩
        · rfl
      rw [hz, optN_zero]
      by_cases ha : hops n (edges A) s v = some (d - 1) ∨ v = s ∧ d - 1 = 1
      · have ha' := ha.resolve_right fun e => hvs e.1
        rw [if_pos ha, if_neg]
        · rfl
        · rintro ⟨he, h' | h'⟩
          · exact h ⟨he, ha', h'⟩
          · rw [h'.2] at ha'
            exact hvs (hops_zero hE hs ha')
      · rw [if_neg ha]; rfl
  refine ⟨{ score := sc, update := up2, flow := fl }, ?_, z8, z7, z9, ?_, ?_, ?_⟩
  · unfold ebcBackBody sigmaAt
    rw [c1, c0, e0]
    simp only [lift_ok, prog_bind_ok]
    rw [e1]
    simp only [prog_bind_ok]
    rw [e2]
    simp only [prog_bind_ok]
    rw [e3]
    simp only [lift_ok, prog_bind_ok]
    rw [e4]
    simp only [prog_bind_ok]
    rw [e5]
    simp only [prog_bind_ok]
    rw [e6]
    simp only [lift_ok, prog_bind_ok]
    rw [e7]
    simp only [prog_bind_ok]
    rw [e8]
    simp only [prog_bind_ok]
    rw [e9]
    rfl
  · intro v w hv hw
    show sc.get v w = _
    have hle := edgePaths_le (n := n) (E := edges A) s v w
    have := hX v w
    have hb : (if beyond n (edges A) s d w = true then edgePaths n (edges A) s v w else 0) +
        (if hops n (edges A) s w = some d then edgePaths n (edges A) s v w else 0) =
        if beyond n (edges A) s (d - 1) w = true then edgePaths n (edges A) s v w else 0 := by
      unfold beyond
      cases hh : hops n (edges A) s w with
      | none => simp
      | some i =>
        simp only [Option.any_some, decide_eq_true_eq, Option.some.injEq]
        rcases Nat.lt_trichotomy i d with h | h | h
        · rw [if_neg (by omega), if_neg (by omega), if_neg (by omega)]
        · rw [if_neg (by omega), if_pos h, if_pos (by omega), Nat.zero_add]
        · rw [if_pos h, if_neg (by omega), if_pos (by omega)]; rfl
    have he : (if d = 1 ∧ v = s then (if w = s then 2 else if hops n (edges A) s w = some d then edgePaths n (edges A) s s w else 0)
        else 0) = if d - 1 = 0 ∧ v = s then loopExtra n (edges A) s w else 0 := by
      by_cases h : d = 1 ∧ v = s
      · have h' : d - 1 = 0 ∧ v = s := ⟨by omega, h.2⟩
        rw [if_pos h, if_pos h', h.1]
        unfold loopExtra
        by_cases hws : w = s
        · rw [if_pos hws, if_pos hws]
        · rw [if_neg hws, if_neg hws]
          split
          · rfl
          · rename_i hh
            rw [edgePaths_not hE hs]
            rintro ⟨-, i, a, b⟩
            rw [hs0] at a
            cases a
            exact hh b
      · rw [if_neg h, if_neg (fun e => h ⟨by omega, e.2⟩)]
    have hle1 : (if beyond n (edges A) s (d - 1) w = true then edgePaths n (edges A) s v w else 0) ≤ edgePaths n (edges A) s v w := by
      split <;> omega
    have hle2 : edgePaths n (edges A) s v w + (if d - 1 = 0 ∧ v = s then loopExtra n (edges A) s w else 0) ≤
        2 * totalPaths n (edges A) s := by
      split
      · unfold loopExtra
        split
        · rename_i hws
          rw [edgePaths_not hE hs]
          · omega
          · rintro ⟨-, i, -, b⟩
            rw [hws, hs0] at b
            cases b
        · have := edgePaths_le (n := n) (E := edges A) s s w
          omega
      · omega
    rw [g8 v w hv hw, hr.score v w hv hw, hu2 v w hv hw, if_neg (by omega : ¬ (d = 0 ∧ v = s)), he, either_optN hx.counts]
    · congr 1
      omega
    · omega
  · intro v hd2 hv
    have hvn := hops_in hE hs hv
    show fl.get v = _
    have hsum : sumTo n (fun w => (if hops n (edges A) s w = some d then edgePaths n (edges A) s v w else 0) +
        if d = 1 ∧ v = s then (if w = s then 2 else if hops n (edges A) s w = some d then edgePaths n (edges A) s s w else 0) else 0) =
        spc n (edges A) s v * (ext n (edges A) s v - 1) := by
      rw [ext_rec hE hs hv, Nat.add_sub_cancel_left, ← sumTo_mul]
      refine sumTo_congr ?_
      intro w _
      rw [show d - 1 + 1 = d by omega, if_neg (by omega : ¬ (d = 1 ∧ v = s)), Nat.add_zero]
      by_cases h : hops n (edges A) s w = some d
      · rw [if_pos h]
        by_cases he : edges A v w = true
        · rw [if_pos ⟨he, h⟩, edgePaths_down hE hs (hdown v w ⟨he, hv, h⟩)]
        · rw [if_neg (fun e => he e.1), edgePaths_not hE hs (fun e => he e.1), Nat.mul_zero]
      · rw [if_neg h, if_neg (fun e => h e.2), Nat.mul_zero]
    rw [g9 v hvn, osum_optN hx.counts (fun w hw => hu2 v w hvn hw), hsum]
    rw [hsum]
    obtain ⟨-, -, a3, -, -⟩ := hext v _ hv
    exact Nat.le_trans (Nat.mul_le_mul_left _ (by omega)) (show spc n (edges A) s v * ext n (edges A) s v ≤ M by omega)
  · intro hd2
    show fl.get s = none
    rw [g9 s hs, osum_range_none]
    intro w hw
    rw [hu2 s w hs hw, if_neg (by omega : ¬ (d = 1 ∧ s = s)), Nat.add_zero]
    split
    · rename_i h
      rw [hnot s w h]
      · rfl
      · rintro ⟨-, b⟩
        rw [hs0] at b
        have := Option.some.inj b
        omega
    · rfl

/-- A root with a loop. -/
theorem ebcRoot_loop (hx : EbcExact o num M) (hM2 : 2 ≤ M) (hA : Sh n n A)
    (h1 : ∀ u v a, A.get u v = some a → a = num 1) (hl : edges A s s = true)
    (hs : s < n) {X : Nat → Nat → Nat}
    (hX : ∀ v w, X v w + 2 * totalPaths n (edges A) s ≤ M) {score : Lil T} (hsz : Sh n n score)
    (hsc : ∀ v w, v < n → w < n → score.get v w = optN num (X v w)) {fuel : Nat} (hf : n ≤ fuel) :
    ∃ sc, ebcRoot fuel o A n s score = .ok sc ∧ Sh n n sc ∧
      ∀ v w, v < n → w < n → sc.get v w =
        optN num (X v w + (edgePaths n (edges A) s v w + if v = s then loopExtra n (edges A) s w else 0)) := by
  have hE := edges_in hA
  have hn : 0 < n := by omega
  have hM : totalPaths n (edges A) s ≤ M := by have := hX 0 0; omega
  obtain ⟨t, et, zt, gt⟩ := newV (τ := T) hn
  obtain ⟨b, eb, zb, gb⟩ := newV (τ := Bool) hn
  obtain ⟨f, e1, zf, gf⟩ := rowV_ok (cz := id) zt hA hs
  obtain ⟨p, e2, zp, gp⟩ := setV_ok zt hs o.one
  obtain ⟨S, e3, zS, gS⟩ := setV_ok zb hs true
  have hfv : ∀ v, f.get v = if edges A s v = true then some (num 1) else none := by
    intro v
    by_cases hv : v < n
    · rw [gf v hv]
      cases hg : A.get s v with
      | none => simp [edges, hg]
      | some x => simp [edges, hg, h1 s v x hg]
    · rw [zf.out hv, edges, hA.out (fun h => hv h.2)]; rfl
  have h0 : EbcLoop n (edges A) num s 0 { f := f, p := p, S := [S] } := by
    refine ⟨zf, zp, Front.first hE hs hfv, ?_, Nsp.init hE hs ?_ ?_, ?_, ?_, rfl⟩
    · show f.get s = _
      rw [hfv s, if_pos hl, if_pos rfl]
    · show p.get s = _
      rw [gp, if_pos rfl, hx.one]
    · intro v hv
      show p.get v = _
      rw [gp, if_neg hv, gt]
    · show p.get s = _
      rw [gp, if_pos rfl, hx.one, if_pos rfl]
    · intro i Y hY
      cases i with
      | zero =>
        simp at hY
        subst hY
        refine ⟨zS, ?_⟩
        intro v
        rw [gS]
        by_cases hv : v = s
        · subst hv
          rw [if_pos rfl, if_pos (Or.inl (hops_self hE hs))]
        · rw [if_neg hv, gb, if_neg]
          rintro (h | h)
          · exact hv (hops_zero hE hs h)
          · omega
      | succ i => simp at hY
  obtain ⟨k, q, e4, hq, hc⟩ := loop_count (EbcLoop n (edges A) num s) n
    (c := fun q : VbcSt T => decide (0 < q.f.nvals)) (b := ebcBody o A n)
    (by
      intro k q hq hc
      obtain ⟨v, -, hv⟩ := hq.fsz.some (of_decide_eq_true hc)
      exact ⟨hq.front.le hs hv, ebc_loop_round hx hM2 hA h1 hs hM hq⟩) fuel 0 _ h0 (by omega)
  have hk1 : 1 ≤ k := by
    have hnone := hq.fsz.none (of_decide_eq_false hc)
    rcases Nat.eq_zero_or_pos k with h | h
    · have := hq.fsrc
      rw [hnone, if_pos h] at this
      cases this
    · exact h
  have hlast : ∀ v, hops n (edges A) s v ≠ some (k + 1) := by
    intro v hv
    have hnone := hq.fsz.none (of_decide_eq_false hc)
    by_cases hvs : v = s
    · subst hvs
      rw [hops_self hE hs] at hv
      cases hv
    · have := hq.front.at_ v hvs hv
      rw [hnone] at this; cases this
  have hk : q.S.length - 1 = k := by rw [hq.len]; rfl
  obtain ⟨r, e5, hr⟩ := forP_inv
    (b := fun j r => ebcBackBody o A n q.S q.p (q.S.length - 1 - j) r)
    (fun j r => EbcLoopBack n (edges A) num s (k - j) X r)
    (q.S.length - 1) { score := score, update := Lil.new n n, flow := t }
    (by
      refine ⟨hsz, Sh.new n n, zt, ?_, ?_, fun _ => gt s⟩
      · intro v w hv hw
        show score.get v w = _
        rw [hsc v w hv hw, if_neg, if_neg (by omega), Nat.add_zero]
        unfold beyond
        cases hh : hops n (edges A) s w with
        | none => simp
        | some i =>
          simp only [Option.any_some, decide_eq_true_eq]
          intro hlt
          exact hops_none_above hE hs hlast (show k + 1 ≤ i by omega) hh
      · intro v _ hv
        show t.get v = _
        rw [gt, ext_rec hE hs hv, Nat.add_sub_cancel_left, sumTo_eq_zero]
        · rfl
        · intro w _
          rw [if_neg (fun e => hlast w e.2)])
    (by
      intro j r hj hr
      rw [hk] at hj ⊢
      obtain ⟨r', e', hr'⟩ := ebc_loop_back hx hM2 hA h1 hs hl hq (show 1 ≤ k - j by omega) (by omega) hX hr
      exact ⟨r', e', by rw [show k - (j + 1) = k - j - 1 by omega]; exact hr'⟩)
  refine ⟨r.score, ?_, hr.ssz, ?_⟩
  · unfold ebcRoot
    rw [et, eb]
    simp only [lift_ok, prog_bind_ok]
    rw [e1]
    simp only [prog_bind_ok]
    rw [e2, e3]
    simp only [lift_ok, prog_bind_ok]
    rw [e4]
    simp only [prog_bind_ok]
    rw [e5]
    rfl
  · intro v w hv hw
    rw [hr.score v w hv hw]
    have hz : k - (q.S.length - 1) = 0 := by omega
    congr 3
    · by_cases hD : Down n (edges A) s v w
      · obtain ⟨-, i, -, c⟩ := hD
        rw [if_pos]
        unfold beyond
        rw [c, hk]
        simp
      · rw [edgePaths_not hE hs hD]
        split <;> rfl
    · rw [hz]
      simp

/-- What is added to the score of the edge from `v` to `w` because of a loop at `v`. -/
def loopShare (n : Nat) (E : Nat → Nat → Bool) (s v w : Nat) : Nat :=
  if v = s ∧ E s s = true then loopExtra n E s w else 0

omit [Inhabited T] in
theorem share_le {E : Nat → Nat → Bool} (hE : ∀ u v, E u v = true → u < n ∧ v < n) (hs : s < n) (v w : Nat) :
    edgePaths n E s v w + loopShare n E s v w ≤ 2 * totalPaths n E s := by
  have hs0 := hops_self hE hs
  have hpos : 1 ≤ totalPaths n E s := by
    have h1 := spc_ext_le hE hs hs0
    have h2 := ext_rec hE hs hs0
    rw [spc_self hE hs] at h1
    omega
  have hle := edgePaths_le (n := n) (E := E) s v w
  unfold loopShare
  split
  · unfold loopExtra
    split
    · rename_i hws
      rw [edgePaths_not hE hs]
      · omega
      · rintro ⟨-, i, -, b⟩
        rw [hws, hs0] at b
        cases b
    · have := edgePaths_le (n := n) (E := E) s s w
      omega
  · omega

theorem ebc_all (hx : EbcExact o num M) (hM2 : 2 ≤ M) (hA : A.WF) (hsq : A.nrows = A.ncols)
    (h1 : ∀ u v a, A.get u v = some a → a = num 1)
    (hM : 2 * ((List.range A.nrows).map (pathCount A.nrows (edges A))).sum ≤ M) {fuel : Nat} (hf : A.nrows ≤ fuel) :
    ∃ S, ebc fuel o A = .ok S ∧ S.WF ∧ S.nrows = A.nrows ∧ S.ncols = A.nrows ∧
      ∀ v w, S.get v w = if edges A v w = true then some (num (edgeScore A.nrows (edges A) v w +
        if edges A v v = true then (if w = v then 2 else edgePaths A.nrows (edges A) v v w) else 0)) else none := by
  have hS : Sh A.nrows A.nrows A := ⟨hA, rfl, hsq.symm⟩
  have hE := edges_in hS
  rw [sumTo_eq] at hM
  have hle : ∀ r, r < A.nrows →
      2 * (sumTo r (totalPaths A.nrows (edges A)) + totalPaths A.nrows (edges A) r) ≤ M := by
    intro r hr
    refine Nat.le_trans (Nat.mul_le_mul_left 2 ?_) hM
    rw [sumTo_congr (g := totalPaths A.nrows (edges A)) (fun s _ => pathCount_eq _ _ _)]
    exact sumTo_prefix hr
  obtain ⟨S, e, zS, gS⟩ := forP_inv
    (b := fun root score => ebcRoot fuel o A A.nrows root score)
    (fun r sc => Sh A.nrows A.nrows sc ∧ ∀ v w, v < A.nrows → w < A.nrows →
      sc.get v w = optN num (sumTo r fun s => edgePaths A.nrows (edges A) s v w + loopShare A.nrows (edges A) s v w))
    A.nrows (Lil.new A.nrows A.nrows)
    ⟨Sh.new _ _, by intro v w hv hw; simp [Lil.get, sumTo, optN]⟩
    (by
      rintro r sc hr ⟨zc, gc⟩
      have h3 : ∀ v w, (sumTo r fun s => edgePaths A.nrows (edges A) s v w + loopShare A.nrows (edges A) s v w) +
          2 * totalPaths A.nrows (edges A) r ≤ M := by
        intro v w
        have h := sumTo_mono (n := r) (f := fun s => edgePaths A.nrows (edges A) s v w + loopShare A.nrows (edges A) s v w)
          (g := fun s => 2 * totalPaths A.nrows (edges A) s)
          (fun s hs => share_le hE (by omega) v w)
        rw [sumTo_mul] at h
        have := hle r hr
        omega
      by_cases hl : edges A r r = true
      · obtain ⟨sc', e', z', g'⟩ := ebcRoot_loop hx hM2 hS h1 hl hr h3 zc gc hf
        refine ⟨sc', e', z', ?_⟩
        intro v w hv hw
        rw [g' v w hv hw]
        simp only [sumTo, loopShare, hl, and_true]
      · obtain ⟨sc', e', z', g'⟩ := ebcRoot_ok hx hM2 hS h1 hl hr (by have := hle r hr; omega)
          (fun v w => by have := h3 v w; omega) zc gc hf
        refine ⟨sc', e', z', ?_⟩
        intro v w hv hw
        rw [g' v w hv hw, sumTo, show loopShare A.nrows (edges A) r v w = 0 from if_neg (fun e => hl e.2), Nat.add_zero])
  refine ⟨S, ?_, zS.wf, zS.nr, zS.nc, ?_⟩
  · unfold ebc
    rw [if_neg (fun h => h hsq)]
    exact e
  · intro v w
    by_cases hvw : v < A.nrows ∧ w < A.nrows
    · rw [gS v w hvw.1 hvw.2]
      have hes : edgeScore A.nrows (edges A) v w = sumTo A.nrows fun s => edgePaths A.nrows (edges A) s v w := sumTo_eq _ _
      rw [hes, sumTo_add, show (sumTo A.nrows fun s => loopShare A.nrows (edges A) s v w) =
        if edges A v v = true then loopExtra A.nrows (edges A) v w else 0 by
          rw [sumTo_single hvw.1]
          · simp [loopShare]
          · intro j hj
            exact if_neg fun e => hj e.1.symm]
      by_cases he : edges A v w = true
      · rw [if_pos he]
        refine optN_pos (num := num) ?_
        by_cases hw : w = v
        · subst hw
          rw [if_pos he, loopExtra, if_pos rfl]
          omega
        · have hp := edgePaths_pos hE (v := v) (w := w) (fun e => hw e.symm) he
          exact Nat.lt_of_lt_of_le (sumTo_pos.2 ⟨v, hvw.1, hp⟩) (Nat.le_add_right _ _)
      · rw [if_neg he, sumTo_eq_zero, Nat.zero_add]
        · split
          · rename_i hl
            unfold loopExtra
            rw [if_neg (fun e => he (by rw [e]; exact hl)), edgePaths_not hE hvw.1 (fun h => he h.1)]
            rfl
          · rfl
        · intro s hs
          exact edgePaths_not hE hs (fun h => he h.1)
    · rw [zS.out hvw, if_neg (fun he => hvw (hE v w he))]

end

/-- **C59**, every graph of ones, with a floating-point scalar type: what the function
returns. For an edge that leaves a vertex with a loop, the shortest paths from that vertex
that begin with the edge are counted once more, and a loop has the score 2. -/
theorem C59_edge_betweenness_actual {A : Lil Rat} (hA : A.WF) (hsq : A.nrows = A.ncols)
    (h1 : ∀ u v a, A.get u v = some a → a = 1) {fuel : Nat} (hf : A.nrows ≤ fuel) :
    ∃ S, ebc fuel .rat A = .ok S ∧ S.WF ∧ S.nrows = A.nrows ∧ S.ncols = A.nrows ∧
      ∀ v w, S.get v w = if edges A v w = true then some ((edgeScore A.nrows (edges A) v w +
        if edges A v v = true then (if w = v then 2 else edgePaths A.nrows (edges A) v v w) else 0 : Nat) : Rat) else none :=
  ebc_all (exact_rat (max 2 (2 * ((List.range A.nrows).map (pathCount A.nrows (edges A))).sum))) (by omega) hA hsq h1
    (by omega) hf

/-- The same with an integer scalar type in which twice the number of all shortest paths
fits. -/
theorem C59_edge_betweenness_int_actual {t : ITy} (ht : t ≠ .bool) (ov : Int → Int → Int) {A : Lil Int} (hA : A.WF)
    (hsq : A.nrows = A.ncols) (h1 : ∀ u v a, A.get u v = some a → a = 1)
    (hM : 2 * ((List.range A.nrows).map (pathCount A.nrows (edges A))).sum ≤ 2147483647)
    (hM' : 2 * (((List.range A.nrows).map (pathCount A.nrows (edges A))).sum : Int) ≤ t.maxVal)
    {fuel : Nat} (hf : A.nrows ≤ fuel) :
    ∃ S, ebc fuel (.int t ov) A = .ok S ∧ S.WF ∧ S.nrows = A.nrows ∧ S.ncols = A.nrows ∧
      ∀ v w, S.get v w = if edges A v w = true then some ((edgeScore A.nrows (edges A) v w +
        if edges A v v = true then (if w = v then 2 else edgePaths A.nrows (edges A) v v w) else 0 : Nat) : Int) else none := by
  generalize hP : ((List.range A.nrows).map (pathCount A.nrows (edges A))).sum = P at hM hM'
  have h2 : (2 : Int) ≤ t.maxVal := by cases t <;> first | exact absurd rfl ht | decide
  refine ebc_all (M := max 2 (2 * P)) (exact_int ov ?_ ?_) (by omega) hA hsq h1 (by omega) hf
  · omega
  · omega

namespace Ex59

/-- A path of three edges from a vertex with a loop, and a loop at its end. -/
def P : List (Nat × Nat) := [(0, 0), (0, 1), (1, 2), (2, 3), (3, 3)]

end Ex59

open Ex59 in
example : (graphR 4 P).WF ∧ (graphR 4 P).nrows = (graphR 4 P).ncols ∧ (∀ u v a, (graphR 4 P).get u v = some a → a = 1) ∧
    elems (ebc 4 .rat (graphR 4 P)) = some [(0, 0, 2), (0, 1, 6), (1, 2, 4), (2, 3, 3), (3, 3, 2)] ∧
    edgeScore 4 (edges (graphR 4 P)) 0 1 = 3 ∧ edgePaths 4 (edges (graphR 4 P)) 0 0 1 = 3 ∧
    edgeScore 4 (edges (graphR 4 P)) 3 3 = 0 :=
  have hw : (graphR 4 P).WF := Lil.wf_chk (by decide +kernel)
  ⟨hw, by decide +kernel, stored_one (by decide +kernel) hw, by decide +kernel, by decide +kernel, by decide +kernel,
    by decide +kernel⟩

open Ex59 in
/-- The same in a type of 8 bits. -/
example : elems (ebc 2 (.int .i8 fun _ _ => 0) (Ex56.graph 2 L)) = some [(0, 0, 2), (0, 1, 2)] ∧
    ((List.range 2).map (pathCount 2 (edges (Ex56.graph 2 L)))).sum = 3 := by
  refine ⟨?_, ?_⟩ <;> decide +kernel

end GBTL

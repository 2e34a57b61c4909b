import Verif.Lemmas.Tuples
import Verif.Model.Mis
import Verif.Props.Sssp
/-
C40: maximal independent sets.
-/
namespace GBTL
open Spec

variable {α δ ρ γ τ μ : Type}

/-! ### masked outputs, pointwise -/

theorem vMasked_replace {c : τ → γ} {w w' : BVec γ} {truthy : μ → Bool} {m : BVec μ} {t : Vec τ}
    (y : (vMasked c w .plain truthy m .replace).Yields t w') :
    w'.WF ∧ w'.size = w.size ∧
      ∀ i, i < w.size → w'.get i = if (m.get i).any truthy then (t i).map c else none := by
  refine ⟨y.wf, y.size, fun i hi => ?_⟩
  rw [y.get i hi]
  cases h : (m.get i).any truthy <;>
    simp [vMasked, VMask.allows, Spec.write, Spec.accum, Spec.allows, h]

theorem vMasked_comp_replace {c : τ → γ} {w w' : BVec γ} {truthy : μ → Bool} {m : BVec μ} {t : Vec τ}
    (y : (vMasked c w .comp truthy m .replace).Yields t w') :
    w'.WF ∧ w'.size = w.size ∧
      ∀ i, i < w.size → w'.get i = if (m.get i).any truthy then none else (t i).map c := by
  refine ⟨y.wf, y.size, fun i hi => ?_⟩
  rw [y.get i hi]
  cases h : (m.get i).any truthy <;>
    simp [vMasked, VMask.allows, Spec.write, Spec.accum, Spec.allows, h]

theorem vMasked_merge {c : τ → γ} {w w' : BVec γ} {truthy : μ → Bool} {m : BVec μ} {t : Vec τ}
    (y : (vMasked c w .plain truthy m .merge).Yields t w') :
    w'.WF ∧ w'.size = w.size ∧
      ∀ i, i < w.size → w'.get i = if (m.get i).any truthy then (t i).map c else w.get i := by
  refine ⟨y.wf, y.size, fun i hi => ?_⟩
  rw [y.get i hi]
  cases h : (m.get i).any truthy <;>
    simp [vMasked, VMask.allows, Spec.write, Spec.accum, Spec.allows, h]

theorem drawn_wf {d : BVec δ} (hd : d.WF) (f : Nat → ρ) : (drawn d f).WF :=
  ⟨by simp [drawn], hd.blen, hd.count⟩

theorem drawn_get {d : BVec δ} (hd : d.WF) (f : Nat → ρ) (i : Nat) :
    (drawn d f).get i = (d.get i).map fun _ => f i := by
  by_cases h : d.bitmap[i]? = some true
  · have hi : i < d.size := by
      rw [← hd.blen]
      rcases Nat.lt_or_ge i d.bitmap.length with h' | h'
      · exact h'
      · rw [List.getElem?_eq_none h'] at h; cases h
    have hl : i < d.vals.length := by rw [hd.vlen]; exact hi
    simp [BVec.get, drawn, h, hi, List.getElem?_eq_getElem hl]
  · simp [BVec.get, drawn, h]

/-! ### the set, as predicates -/

/-- The vertices of a set of flags. -/
def Flagged (v : BVec Bool) (i : Nat) : Prop := v.get i = some true

/-- The invariant: the set is independent, and the candidates are the vertices outside
of the set without a neighbour in it. -/
structure MisInv (n : Nat) (E : Nat → Nat → Prop) (C I : Nat → Prop) : Prop where
  indep : ∀ u v, I u → I v → ¬ E u v
  cand : ∀ v, v < n → (C v ↔ ¬ I v ∧ ∀ u, I u → ¬ E v u)

theorem MisInv.step {n : Nat} {E : Nat → Nat → Prop} {C I N C' I' : Nat → Prop} (h : MisInv n E C I)
    (hsym : ∀ u v, E u v → E v u)
    (hNC : ∀ v, N v → v < n ∧ C v) (hN : ∀ u v, N u → N v → ¬ E u v)
    (hI : ∀ v, I' v ↔ I v ∨ N v)
    (hC : ∀ v, v < n → (C' v ↔ C v ∧ ¬ N v ∧ ∀ u, N u → ¬ E v u)) : MisInv n E C' I' := by
  constructor
  · intro u v hu hv e
    rcases (hI u).1 hu with hu | hu <;> rcases (hI v).1 hv with hv | hv
    · exact h.indep u v hu hv e
    · obtain ⟨hv1, hv2⟩ := hNC v hv
      exact ((h.cand v hv1).1 hv2).2 u hu (hsym u v e)
    · obtain ⟨hv1, hv2⟩ := hNC u hu
      exact ((h.cand u hv1).1 hv2).2 v hv e
    · exact hN u v hu hv e
  · intro v hv
    rw [hC v hv, h.cand v hv]
    constructor
    · rintro ⟨⟨h1, h2⟩, h3, h4⟩
      refine ⟨fun hc => ((hI v).1 hc).elim h1 h3, fun u hu => ?_⟩
      exact ((hI u).1 hu).elim (h2 u) (h4 u)
    · rintro ⟨h1, h2⟩
      refine ⟨⟨fun hc => h1 ((hI v).2 (.inl hc)), fun u hu => h2 u ((hI u).2 (.inl hu))⟩,
        fun hc => h1 ((hI v).2 (.inr hc)), fun u hu => h2 u ((hI u).2 (.inr hu))⟩

/-! ### what is asked of the scalar types -/

/-- `<` on the random values is a strict weak order, as it is on floating point numbers
other than NaN. -/
structure MisTy.Ordered (R : MisTy α δ ρ) : Prop where
  irrefl : ∀ x, R.lt x x = false
  trans : ∀ x y z, R.lt x y = true → R.lt y z = true → R.lt x z = true
  weak : ∀ x y z, R.lt x z = true → R.lt x y = true ∨ R.lt y z = true

theorem MisTy.Ordered.max_spec {R : MisTy α δ ρ} (hR : R.Ordered) (x y : ρ) :
    (R.max x y = x ∨ R.max x y = y) ∧ R.lt (R.max x y) x = false ∧ R.lt (R.max x y) y = false := by
  unfold MisTy.max
  cases h : R.lt x y with
  | true =>
    refine ⟨.inr (by simp), ?_, by simpa using hR.irrefl y⟩
    simp only [if_true]
    cases h' : R.lt y x with
    | false => rfl
    | true => rw [← hR.irrefl x]; exact (hR.trans x y x h h').symm
  | false => exact ⟨.inl (by simp), by simpa using hR.irrefl x, by simpa using h⟩

/-- The graph as the algorithm needs it: square, undirected, with `true` edges; the degree of a vertex with edges is `true`. -/
structure MisTy.Graph (R : MisTy α δ ρ) (G : Lil α) : Prop where
  wf : G.WF
  square : G.nrows = G.ncols
  symm : ∀ u v, Edge G.get u v → Edge G.get v u
  edges : ∀ u v x, G.get u v = some x → R.toB x = true
  degrees : ∃ Pos : δ → Prop, (∀ x, Pos x → R.dtrue x = true) ∧
    (∀ x y, Pos x → Pos y → Pos (R.plus x y)) ∧ ∀ u v x, G.get u v = some x → Pos (R.toD x)

/-- The consistent states of the loop. -/
structure MisOK (R : MisTy α δ ρ) (G : Lil α) (degrees : BVec δ) (n : Nat) (s : MisSt ρ) : Prop where
  pwf : s.prob.WF
  psize : s.prob.size = n
  xwf : s.nmax.WF
  xsize : s.nmax.size = n
  mwf : s.members.WF
  msize : s.members.size = n
  nwf : s.nbrs.WF
  nsize : s.nbrs.size = n
  cwf : s.cand.WF
  csize : s.cand.size = n
  iwf : s.iset.WF
  isize : s.iset.size = n
  ctrue : ∀ v b, s.cand.get v = some b → b = true
  itrue : ∀ v b, s.iset.get v = some b → b = true
  deg : ∀ v, Flagged s.cand v → degrees.get v ≠ none
  inv : MisInv n (Edge G.get) (Flagged s.cand) (Flagged s.iset)

/-- `v` is selected in a round with candidates `C`: its number is greater than that of
every neighbour that is a candidate. -/
def Selected (R : MisTy α δ ρ) (E : Nat → Nat → Prop) (C : Nat → Prop) (draw : Nat → ρ) (v : Nat) : Prop :=
  C v ∧ ∀ u, C u → E v u → R.lt (draw u) (draw v) = true

theorem any_id {o : Option Bool} (h : ∀ b, o = some b → b = true) :
    o.any id = true ↔ o = some true := by
  cases o with
  | none => simp
  | some b => simp

theorem mem_flag {v : BVec Bool} (hv : ∀ i b, v.get i = some b → b = true) {i : Nat} :
    v.get i = none ↔ ¬ Flagged v i := by
  unfold Flagged
  cases h : v.get i with
  | none => simp
  | some b => simp [hv i b h]

/-- Lines 146-193. -/
theorem misSelect_spec [Inhabited ρ] {R : MisTy α δ ρ} (hR : R.Ordered) {G : Lil α} (hG : R.Graph G)
    {n : Nat} (hn : G.nrows = n) {degrees : BVec δ} (hd : degrees.WF) (hds : degrees.size = n)
    {draw : Nat → Nat → ρ} (hdr : ∀ r v, R.rtrue (draw r v) = true) {s : MisSt ρ}
    (hs : MisOK R G degrees n s) :
    ∃ s', misSelect R G degrees draw s = .ok s' ∧
      s'.round = s.round + 1 ∧ s'.nbrs = s.nbrs ∧
      s'.prob.WF ∧ s'.prob.size = n ∧ s'.nmax.WF ∧ s'.nmax.size = n ∧
      s'.members.WF ∧ s'.members.size = n ∧ s'.cand.WF ∧ s'.cand.size = n ∧
      s'.iset.WF ∧ s'.iset.size = n ∧
      (∀ v b, s'.members.get v = some b → b = true) ∧
      (∀ v b, s'.cand.get v = some b → b = true) ∧
      (∀ v b, s'.iset.get v = some b → b = true) ∧
      (∀ v, Flagged s'.members v ↔
        Selected R (Edge G.get) (Flagged s.cand) (draw s.round) v) ∧
      (∀ v, Flagged s'.iset v ↔ Flagged s.iset v ∨ Flagged s'.members v) ∧
      (∀ v, Flagged s'.cand v ↔ Flagged s.cand v ∧ ¬ Flagged s'.members v) := by
  have hnc : G.ncols = n := hG.square.symm.trans hn
  have hcn : ∀ v, s.cand.get v = none ∨ s.cand.get v = some true := by
    intro v
    cases h : s.cand.get v with
    | none => exact .inl rfl
    | some b => rw [hs.ctrue v b h]; exact .inr rfl
  have hclt : ∀ v, Flagged s.cand v → v < n := by
    intro v h
    rw [← hs.csize]; exact vec_some_lt hs.cwf (by rw [h]; simp)
  -- prob
  obtain ⟨prob, e1, y1⟩ := C14_eWiseMult_vector (o := vPlain id s.prob) (f := ewDraw) (u := s.cand)
    (v := drawn degrees (draw s.round)) (vPlain_wf hs.pwf) hs.cwf (drawn_wf hd _)
    ⟨vPlain_fits _, by show s.prob.size = s.cand.size; rw [hs.psize, hs.csize],
      by show s.cand.size = degrees.size; rw [hs.csize, hds]⟩
  obtain ⟨p1, p2, p3⟩ := plain_yields y1
  rw [hs.psize] at p2 p3
  have hp : ∀ v, prob.get v = if s.cand.get v = some true then some (draw s.round v) else none := by
    intro v
    rcases Nat.lt_or_ge v n with hv | hv
    · rw [p3 v hv, drawn_get hd]
      rcases hcn v with h | h
      · rw [h]; simp [both]
      · have := hs.deg v h
        rw [h]
        cases hg : degrees.get v with
        | none => exact absurd hg this
        | some x => simp [both, ewDraw]
    · rw [p1.get_none (by omega), if_neg]
      intro h
      have := hclt v h; omega
  -- nmax
  obtain ⟨nmax, e2, y2⟩ := C12_mxv (o := vMasked id s.nmax .plain id s.cand .replace)
    (sr := maxSecond R) (u := prob) (A := G) ⟨hs.xwf, maskOK hs.cwf⟩ p1 hG.wf
    ⟨maskFits (by show s.cand.size = s.nmax.size; rw [hs.csize, hs.xsize]),
      by show s.nmax.size = G.nrows; rw [hs.xsize, hn], by show prob.size = G.ncols; rw [p2, hnc]⟩
  obtain ⟨x1, x2, x3⟩ := vMasked_replace y2
  rw [hs.xsize] at x2 x3
  -- members
  obtain ⟨mem0, e3, y3⟩ := C13_eWiseAdd_vector (o := vPlain id s.members) (f := ewGreater R) (u := prob)
    (v := nmax) (vPlain_wf hs.mwf) p1 x1
    ⟨vPlain_fits _, by show s.members.size = prob.size; rw [hs.msize, p2], by rw [p2, x2]⟩
  obtain ⟨q1, q2, q3⟩ := plain_yields y3
  rw [hs.msize] at q2 q3
  obtain ⟨mem, e4, y4⟩ := C15_apply_vector (o := vMasked id mem0 .plain id mem0 .replace) (f := id)
    (u := mem0) ⟨q1, maskOK q1⟩ q1 ⟨maskFits rfl, rfl⟩
  obtain ⟨m1, m2, m3⟩ := vMasked_replace y4
  rw [q2] at m2 m3
  have hmtrue : ∀ v b, mem.get v = some b → b = true := by
    intro v b hb
    have hv : v < n := by rw [← m2]; exact vec_some_lt m1 (by rw [hb]; simp)
    rw [m3 v hv] at hb
    cases h : mem0.get v with
    | none => rw [h] at hb; simp at hb
    | some c => cases c <;> simp [h] at hb; exact hb
  have hmem : ∀ v, Flagged mem v ↔ Selected R (Edge G.get) (Flagged s.cand) (draw s.round) v := by
    intro v
    rcases Nat.lt_or_ge v n with hv | hv
    · have h0 : Flagged mem v ↔ mem0.get v = some true := by
        unfold Flagged
        rw [m3 v hv]
        cases h : mem0.get v with
        | none => simp
        | some c => cases c <;> simp
      rw [h0, q3 v hv, x3 v hv, hp v]
      unfold Selected Flagged
      rcases hcn v with h | h
      · simp [h, either]
      · simp only [h, Option.any_some, id_eq, if_true, true_and, Option.map_id_fun]
        cases ho : Spec.mxv G.ncols (maxSecond R).add (maxSecond R).mult G.get prob.get v with
        | none =>
          simp only [either, ewGreater, hdr, true_iff]
          intro u hu he
          have hun : u < G.ncols := by rw [hnc]; exact hclt u hu
          unfold Spec.mxv at ho
          rw [osum_range_none] at ho
          have := ho u hun
          rw [hp u, if_pos hu] at this
          obtain ⟨x, hx⟩ := Option.isSome_iff_exists.1 he
          rw [hx] at this
          simp [both] at this
        | some x =>
          simp only [either, ewGreater, Option.some.injEq]
          obtain ⟨⟨k, hk, hk2⟩, hbest⟩ := osum_best (add := R.max)
            (le := fun a b => R.lt a b = false) hR.irrefl
            (fun a b c h1 h2 => by
              cases h3 : R.lt a c with
              | false => rfl
              | true =>
                rcases hR.weak a b c h3 with h4 | h4
                · rw [h1] at h4; cases h4
                · rw [h2] at h4; cases h4) hR.max_spec ho
          constructor
          · intro hlt u hu he
            obtain ⟨a, ha⟩ := Option.isSome_iff_exists.1 he
            have hb := hbest u (draw s.round u) (by rw [hnc]; exact hclt u hu)
              (by rw [hp u, if_pos hu, ha]; simp [both, maxSecond])
            rcases hR.weak x (draw s.round u) (draw s.round v) hlt with h4 | h4
            · rw [hb] at h4; cases h4
            · exact h4
          · intro hall
            rw [hp k] at hk2
            by_cases hkc : s.cand.get k = some true
            · rw [if_pos hkc] at hk2
              cases ha : G.get v k with
              | none => rw [ha] at hk2; simp [both] at hk2
              | some a =>
                rw [ha] at hk2
                simp only [both, maxSecond, Option.some.injEq] at hk2
                rw [← hk2]
                exact hall k hkc (by rw [Edge, ha]; rfl)
            · rw [if_neg hkc] at hk2
              cases ha : G.get v k <;> rw [ha] at hk2 <;> simp [both] at hk2
    · constructor
      · intro h
        have := vec_some_lt m1 (i := v) (by rw [h]; simp)
        omega
      · intro h
        have := hclt v h.1
        omega
  -- iset
  obtain ⟨iset, e5, y5⟩ := C13_eWiseAdd_vector (o := vPlain id s.iset) (f := ewOr) (u := s.iset)
    (v := mem) (vPlain_wf hs.iwf) hs.iwf m1
    ⟨vPlain_fits _, rfl, by rw [hs.isize, m2]⟩
  obtain ⟨i1, i2, i3⟩ := plain_yields y5
  rw [hs.isize] at i2 i3
  -- cand
  obtain ⟨cand, e6, y6⟩ := C14_eWiseMult_vector (o := vMasked id s.cand .comp id mem .replace)
    (f := ewAnd) (u := s.cand) (v := s.cand) ⟨hs.cwf, maskOK m1⟩ hs.cwf hs.cwf
    ⟨maskFits (by show mem.size = s.cand.size; rw [m2, hs.csize]), rfl, rfl⟩
  obtain ⟨c1, c2, c3⟩ := vMasked_comp_replace y6
  rw [hs.csize] at c2 c3
  have hmn : ∀ v, mem.get v = none ∨ mem.get v = some true := by
    intro v
    cases h : mem.get v with
    | none => exact .inl rfl
    | some b => rw [hmtrue v b h]; exact .inr rfl
  have hin : ∀ v, s.iset.get v = none ∨ s.iset.get v = some true := by
    intro v
    cases h : s.iset.get v with
    | none => exact .inl rfl
    | some b => rw [hs.itrue v b h]; exact .inr rfl
  have hout : ∀ {w : BVec Bool} (_ : w.WF) (_ : w.size = n) {v : Nat}, n ≤ v → w.get v = none := by
    intro w hw hws v hv
    exact hw.get_none (by omega)
  refine ⟨⟨s.round + 1, prob, nmax, mem, s.nbrs, cand, iset⟩,
    by simp only [misSelect, e1, e2, e3, e4, e5, e6, exec_done, prog_bind_ok], rfl, rfl, p1, p2, x1, x2,
    m1, m2, c1, c2, i1, i2, hmtrue, ?_, ?_, hmem, ?_, ?_⟩
  · intro v b hb
    rcases Nat.lt_or_ge v n with hv | hv
    · rw [c3 v hv] at hb
      rcases hmn v with h | h <;> rcases hcn v with h' | h' <;> simp [h, h', both, ewAnd] at hb
      exact hb
    · rw [hout c1 c2 hv] at hb; cases hb
  · intro v b hb
    rcases Nat.lt_or_ge v n with hv | hv
    · rw [i3 v hv] at hb
      rcases hmn v with h | h <;> rcases hin v with h' | h' <;> simp [h, h', either, ewOr] at hb <;> exact hb
    · rw [hout i1 i2 hv] at hb; cases hb
  · intro v
    unfold Flagged
    rcases Nat.lt_or_ge v n with hv | hv
    · show iset.get v = some true ↔ _ ∨ mem.get v = some true
      rw [i3 v hv]
      rcases hmn v with h | h <;> rcases hin v with h' | h' <;> simp [h, h', either, ewOr]
    · show iset.get v = some true ↔ _ ∨ mem.get v = some true
      rw [hout i1 i2 hv, hout hs.iwf hs.isize hv, hout m1 m2 hv]; simp
  · intro v
    unfold Flagged
    rcases Nat.lt_or_ge v n with hv | hv
    · show cand.get v = some true ↔ _ ∧ ¬ mem.get v = some true
      rw [c3 v hv]
      rcases hmn v with h | h <;> rcases hcn v with h' | h' <;> simp [h, h', both, ewAnd]
    · show cand.get v = some true ↔ _ ∧ ¬ mem.get v = some true
      rw [hout c1 c2 hv, hout hs.cwf hs.csize hv]; simp

/-- Lines 200-214. -/
theorem misPrune_spec {R : MisTy α δ ρ} {G : Lil α} (hG : R.Graph G) {n : Nat} (hn : G.nrows = n)
    {s : MisSt ρ} (hmw : s.members.WF) (hms : s.members.size = n)
    (hmt : ∀ v b, s.members.get v = some b → b = true) (hnw : s.nbrs.WF) (hns : s.nbrs.size = n)
    (hcw : s.cand.WF) (hcs : s.cand.size = n) (hct : ∀ v b, s.cand.get v = some b → b = true) :
    ∃ nbrs cand, misPrune R G s = .ok { s with nbrs := nbrs, cand := cand } ∧
      nbrs.WF ∧ nbrs.size = n ∧ cand.WF ∧ cand.size = n ∧
      (∀ v b, cand.get v = some b → b = true) ∧
      (∀ v, Flagged cand v ↔
        Flagged s.cand v ∧ ∀ u, Flagged s.members u → ¬ Edge G.get v u) := by
  have hnc : G.ncols = n := hG.square.symm.trans hn
  have hcn : ∀ v, s.cand.get v = none ∨ s.cand.get v = some true := by
    intro v
    cases h : s.cand.get v with
    | none => exact .inl rfl
    | some b => rw [hct v b h]; exact .inr rfl
  have hmn : ∀ v, s.members.get v = none ∨ s.members.get v = some true := by
    intro v
    cases h : s.members.get v with
    | none => exact .inl rfl
    | some b => rw [hmt v b h]; exact .inr rfl
  obtain ⟨nbrs, e1, y1⟩ := C12_mxv (o := vMasked id s.nbrs .plain id s.cand .merge)
    (sr := logicalB R) (u := s.members) (A := G) ⟨hnw, maskOK hcw⟩ hmw hG.wf
    ⟨maskFits (by show s.cand.size = s.nbrs.size; rw [hcs, hns]),
      by show s.nbrs.size = G.nrows; rw [hns, hn], by show s.members.size = G.ncols; rw [hms, hnc]⟩
  obtain ⟨n1, n2, n3⟩ := vMasked_merge y1
  rw [hns] at n2 n3
  obtain ⟨cand, e2, y2⟩ := C14_eWiseMult_vector (o := vMasked id s.cand .comp id nbrs .replace)
    (f := ewAnd) (u := s.cand) (v := s.cand) ⟨hcw, maskOK n1⟩ hcw hcw
    ⟨maskFits (by show nbrs.size = s.cand.size; rw [n2, hcs]), rfl, rfl⟩
  obtain ⟨c1, c2, c3⟩ := vMasked_comp_replace y2
  rw [hcs] at c2 c3
  have hterm : ∀ v k, both (logicalB R).mult (G.get v k) (s.members.get k) = none ∨
      both (logicalB R).mult (G.get v k) (s.members.get k) = some true := by
    intro v k
    cases hg : G.get v k with
    | none => exact .inl (by simp [both])
    | some x =>
      rcases hmn k with h | h
      · exact .inl (by simp [both, h])
      · exact .inr (by simp [both, h, logicalB, hG.edges v k x hg])
  have hhas : ∀ v k, both (logicalB R).mult (G.get v k) (s.members.get k) = some true ↔
      Flagged s.members k ∧ Edge G.get v k := by
    intro v k
    unfold Flagged Edge
    cases hg : G.get v k with
    | none => simp [both]
    | some x =>
      rcases hmn k with h | h
      · simp [both, h]
      · simp [both, h, logicalB, hG.edges v k x hg]
  have hprod : ∀ v, (∃ u, Flagged s.members u ∧ Edge G.get v u) →
      Spec.mxv G.ncols (logicalB R).add (logicalB R).mult G.get s.members.get v = some true := by
    rintro v ⟨u, hu, he⟩
    exact osum_const rfl (fun k _ => hterm v k) ⟨u, (edge_lt hG.wf he).2, (hhas v u).2 ⟨hu, he⟩⟩
  have hprod' : ∀ v, (¬ ∃ u, Flagged s.members u ∧ Edge G.get v u) →
      Spec.mxv G.ncols (logicalB R).add (logicalB R).mult G.get s.members.get v = none := by
    intro v h
    refine osum_range_none.2 fun k _ => ?_
    rcases hterm v k with h' | h'
    · exact h'
    · exact absurd ⟨k, (hhas v k).1 h'⟩ h
  have hout : ∀ v, n ≤ v → cand.get v = none ∧ s.cand.get v = none := by
    intro v hv
    exact ⟨c1.get_none (by omega), hcw.get_none (by omega)⟩
  refine ⟨nbrs, cand, by simp only [misPrune, e1, e2, exec_done, prog_bind_ok], n1, n2, c1, c2, ?_, ?_⟩
  · intro v b hb
    rcases Nat.lt_or_ge v n with hv | hv
    · rw [c3 v hv] at hb
      split at hb
      · cases hb
      · rcases hcn v with h | h <;> simp [h, both, ewAnd] at hb
        exact hb
    · rw [(hout v hv).1] at hb; cases hb
  · intro v
    unfold Flagged
    rcases Nat.lt_or_ge v n with hv | hv
    · rw [c3 v hv, n3 v hv]
      rcases hcn v with h | h
      · simp [h, both]
      · by_cases he : ∃ u, Flagged s.members u ∧ Edge G.get v u
        · rw [hprod v he]
          obtain ⟨u, hu, he⟩ := he
          simp only [h, Option.any_some, id_eq, if_true, Option.map_some, true_and]
          exact ⟨fun hc => (by cases hc), fun hc => absurd he (hc u hu)⟩
        · rw [hprod' v he]
          simp only [h, Option.any_some, id_eq, if_true, Option.map_none, Option.any_none, both, ewAnd,
            Bool.false_eq_true, if_false, Option.map_some, Bool.and_self, true_and, true_iff]
          exact fun u hu hc => he ⟨u, hu, hc⟩
    · rw [(hout v hv).1, (hout v hv).2]; simp

/-- One round keeps the invariant, and makes progress if somebody is selected. -/
theorem misBody_spec [Inhabited ρ] {R : MisTy α δ ρ} (hR : R.Ordered) {G : Lil α} (hG : R.Graph G)
    {n : Nat} (hn : G.nrows = n) {degrees : BVec δ} (hd : degrees.WF) (hds : degrees.size = n)
    {draw : Nat → Nat → ρ} (hdr : ∀ r v, R.rtrue (draw r v) = true) {s : MisSt ρ}
    (hs : MisOK R G degrees n s) :
    ∃ s', misBody R G degrees draw s = .ok s' ∧ MisOK R G degrees n s' ∧
      s'.round = s.round + 1 ∧
      (∀ v, Flagged s'.cand v → Flagged s.cand v ∧
        ¬ Selected R (Edge G.get) (Flagged s.cand) (draw s.round) v) ∧
      (∀ v, Flagged s'.iset v ↔ Flagged s.iset v ∨ Selected R (Edge G.get) (Flagged s.cand) (draw s.round) v) := by
  obtain ⟨s1, e1, g1, g2, g3, g4, g5, g6, g7, g8, g9, g10, g11, g12, g13, g14, g15, g16, g17, g18⟩ :=
    misSelect_spec hR hG hn hd hds hdr hs
  have hNC : ∀ v, Flagged s1.members v → v < n ∧ Flagged s.cand v := by
    intro v hv
    refine ⟨?_, ((g16 v).1 hv).1⟩
    rw [← g8]; exact vec_some_lt g7 (by rw [hv]; simp)
  have hN : ∀ u v, Flagged s1.members u → Flagged s1.members v → ¬ Edge G.get u v := by
    intro u v hu hv he
    have h1 := ((g16 u).1 hu).2 v (hNC v hv).2 he
    have h2 := ((g16 v).1 hv).2 u (hNC u hu).2 (hG.symm u v he)
    have := hR.trans _ _ _ h1 h2
    rw [hR.irrefl] at this; cases this
  by_cases h0 : s1.cand.nvals = 0
  · refine ⟨s1, ?_, ?_, g1, ?_, fun v => by rw [g17, g16]⟩
    · simp only [misBody, e1, prog_bind_ok, h0, if_true]
    · refine ⟨g3, g4, g5, g6, g7, g8, by rw [g2]; exact hs.nwf, by rw [g2]; exact hs.nsize, g9, g10,
        g11, g12, g14, g15, fun v hv => hs.deg v ((g18 v).1 hv).1, ?_⟩
      have hnone : ∀ v, ¬ Flagged s1.cand v := by
        intro v hv
        rw [Flagged, none_of_nvals g9 h0] at hv; cases hv
      refine hs.inv.step hG.symm hNC hN g17 ?_
      intro v _
      constructor
      · intro hv; exact absurd hv (hnone v)
      · rintro ⟨h1, h2, -⟩; exact absurd ((g18 v).2 ⟨h1, h2⟩) (hnone v)
    · intro v hv
      rw [g18, g16] at hv
      exact hv
  · obtain ⟨nbrs, cand, e2, f1, f2, f3, f4, f5, f6⟩ := misPrune_spec hG hn g7 g8 g13
      (by rw [g2]; exact hs.nwf) (by rw [g2]; exact hs.nsize) g9 g10 g14
    refine ⟨{ s1 with nbrs := nbrs, cand := cand }, ?_, ?_, g1, ?_, fun v => by rw [← g16]; exact g17 v⟩
    · simp only [misBody, e1, prog_bind_ok, h0, if_false, e2]
    · refine ⟨g3, g4, g5, g6, g7, g8, f1, f2, f3, f4, g11, g12, f5, g15, ?_, ?_⟩
      · intro v hv
        exact hs.deg v ((g18 v).1 ((f6 v).1 hv).1).1
      · refine hs.inv.step hG.symm hNC hN g17 ?_
        intro v _
        show Flagged cand v ↔ _
        rw [f6, g18, and_assoc]
    · intro v hv
      have := ((f6 v).1 hv).1
      rw [g18, g16] at this
      exact this

/-- `ofold` keeps a property. -/
theorem ofold_all {first : α → τ} {next : τ → α → τ} {P : τ → Prop} {n : Nat} {f : Nat → Option α}
    (h1 : ∀ k x, k < n → f k = some x → P (first x))
    (h2 : ∀ k x t, k < n → f k = some x → P t → P (next t x)) :
    (Spec.ofold first next ((List.range n).map f) = none ∧ ∀ k, k < n → f k = none) ∨
      ∃ t, Spec.ofold first next ((List.range n).map f) = some t ∧ P t ∧ ∃ k, k < n ∧ f k ≠ none := by
  induction n with
  | zero => exact .inl ⟨rfl, fun k hk => by omega⟩
  | succ n ih =>
    have hstep : Spec.ofold first next ((List.range (n + 1)).map f) =
        match Spec.ofold first next ((List.range n).map f), f n with
        | some t, some a => some (next t a)
        | none, some a => some (first a)
        | acc, none => acc := by
      simp only [Spec.ofold, List.range_succ, List.map_append, List.foldl_append, List.map_cons,
        List.map_nil, List.foldl_cons, List.foldl_nil]
      rfl
    rw [hstep]
    rcases ih (fun k x hk => h1 k x (by omega)) (fun k x t hk => h2 k x t (by omega)) with
      ⟨e, h⟩ | ⟨t, e, hp, k, hk, hk2⟩
    · rw [e]
      cases hf : f n with
      | none =>
        refine .inl ⟨rfl, fun k hk => ?_⟩
        rcases Nat.lt_or_ge k n with h' | h'
        · exact h k h'
        · rw [show k = n by omega]; exact hf
      | some a => exact .inr ⟨_, rfl, h1 n a (by omega) hf, n, by omega, by rw [hf]; simp⟩
    · rw [e]
      cases hf : f n with
      | none => exact .inr ⟨t, rfl, hp, k, by omega, hk2⟩
      | some a => exact .inr ⟨_, rfl, h2 n a t (by omega) hf hp, n, by omega, by rw [hf]; simp⟩

theorem assignAll_replace {w w' : BVec Bool} {truthy : μ → Bool} {m : BVec μ} {k : MaskKind}
    {outp : Outp} (hw : outp = .replace ∨ ∀ i, w.get i = none)
    (y : (vMasked id w k truthy m outp).Holds (fun i => Spec.assignAt id (.none id)
        (Spec.selected (Idx.all).sel w.size i) (w.get i)
        (if Spec.selected (Idx.all).sel w.size i then some true else none)) w') :
    w'.WF ∧ w'.size = w.size ∧
      ∀ i, i < w.size → w'.get i = if Spec.allows truthy k (m.get i) then some true else none := by
  refine ⟨y.wf, y.size, fun i hi => ?_⟩
  rw [y.get i hi]
  cases h : Spec.allows truthy k (m.get i) with
  | true => simp [vMasked, VMask.allows, Spec.write, Spec.accum, h, Spec.assignAt,
      Spec.selected, Spec.posOf, Idx.sel, hi]
  | false =>
    rcases hw with rfl | hw
    · simp [vMasked, VMask.allows, Spec.write, h]
    · cases outp <;> simp [vMasked, VMask.allows, Spec.write, h, hw i]

/-- The degrees and the state in which the loop starts. -/
structure MisStart (R : MisTy α δ ρ) (G : Lil α) (n : Nat) (degrees : BVec δ) (s : MisSt ρ) : Prop where
  dwf : degrees.WF
  dsize : degrees.size = n
  ok : MisOK R G degrees n s
  first : s.round = 0
  alone : ∀ v, Flagged s.iset v ↔ v < n ∧ ∀ u, ¬ Edge G.get v u

theorem misStart {R : MisTy α δ ρ} {G : Lil α} (hG : R.Graph G) {n : Nat} (hn : G.nrows = n)
    {degrees : BVec δ} (hd : degrees.WF) (hds : degrees.size = n)
    (hdg : ∀ v, v < n → degrees.get v =
      Spec.ofold R.toD (fun t y => R.plus t (R.toD y)) ((List.range G.ncols).map (G.get v)))
    {prob nmax : BVec ρ} {members nbrs cand iset : BVec Bool}
    (p1 : prob.WF) (p2 : prob.size = n) (x1 : nmax.WF) (x2 : nmax.size = n)
    (m1 : members.WF) (m2 : members.size = n) (b1 : nbrs.WF) (b2 : nbrs.size = n)
    (c1 : cand.WF) (c2 : cand.size = n)
    (c3 : ∀ v, v < n → cand.get v = if Spec.allows R.dtrue .plain (degrees.get v) then some true else none)
    (i1 : iset.WF) (i2 : iset.size = n)
    (i3 : ∀ v, v < n → iset.get v = if Spec.allows R.dtrue .comp (degrees.get v) then some true else none) :
    MisStart R G n degrees ⟨0, prob, nmax, members, nbrs, cand, iset⟩ := by
  have hnc : G.ncols = n := hG.square.symm.trans hn
  obtain ⟨Pos, hp1, hp2, hp3⟩ := hG.degrees
  have hdeg : ∀ v, v < n → (degrees.get v = none ∧ ∀ u, ¬ Edge G.get v u) ∨
      ∃ t, degrees.get v = some t ∧ R.dtrue t = true ∧ ∃ u, Edge G.get v u := by
    intro v hv
    rw [hdg v hv]
    rcases ofold_all (first := R.toD) (next := fun t y => R.plus t (R.toD y)) (P := Pos) (n := G.ncols)
      (f := G.get v) (fun k x _ h => hp3 v k x h) (fun k x t _ h ht => hp2 _ _ ht (hp3 v k x h)) with
      ⟨h1, h2⟩ | ⟨t, h1, h2, k, hk, h3⟩
    · refine .inl ⟨h1, fun u he => ?_⟩
      have := h2 u (edge_lt hG.wf he).2
      rw [Edge, this] at he; cases he
    · refine .inr ⟨t, h1, hp1 t h2, k, ?_⟩
      exact Option.isSome_iff_ne_none.2 h3
  refine ⟨hd, hds, ⟨p1, p2, x1, x2, m1, m2, b1, b2, c1, c2, i1, i2, ?_, ?_, ?_, ?_, ?_⟩, rfl, fun v => ?_⟩
  · intro v b hb
    have hv : v < n := by rw [← c2]; exact vec_some_lt c1 (by rw [hb]; simp)
    rw [c3 v hv] at hb
    split at hb
    · exact (Option.some.inj hb).symm
    · cases hb
  · intro v b hb
    have hv : v < n := by rw [← i2]; exact vec_some_lt i1 (by rw [hb]; simp)
    rw [i3 v hv] at hb
    split at hb
    · exact (Option.some.inj hb).symm
    · cases hb
  · intro v hv he
    have hv' : v < n := by rw [← c2]; exact vec_some_lt c1 (by rw [hv]; simp)
    rw [Flagged, c3 v hv', he] at hv
    simp [Spec.allows] at hv
  · intro u v hu _ he
    have hu' : u < n := by rw [← hn]; exact (edge_lt hG.wf he).1
    rw [Flagged, i3 u hu'] at hu
    rcases hdeg u hu' with ⟨h1, h2⟩ | ⟨t, h1, h2, h3⟩
    · exact h2 v he
    · simp [h1, Spec.allows, h2] at hu
  · intro v hv
    show cand.get v = some true ↔ ¬ iset.get v = some true ∧ _
    rw [c3 v hv, i3 v hv]
    rcases hdeg v hv with ⟨h1, h2⟩ | ⟨t, h1, h2, h3⟩
    · simp [h1, Spec.allows]
    · simp only [h1, Spec.allows, Option.any_some, h2, if_true, Bool.not_true, Bool.false_eq_true,
        if_false, true_iff]
      refine ⟨by simp, fun u hu he => ?_⟩
      have hu' : u < n := by rw [← hn]; exact (edge_lt hG.wf (hG.symm v u he)).1
      rw [Flagged, i3 u hu'] at hu
      rcases hdeg u hu' with ⟨h4, h5⟩ | ⟨t', h4, h5, h6⟩
      · exact h5 v (hG.symm v u he)
      · simp [h4, Spec.allows, h5] at hu
  · show iset.get v = some true ↔ _
    rcases Nat.lt_or_ge v n with hv | hv
    · rw [i3 v hv]
      rcases hdeg v hv with ⟨h1, h2⟩ | ⟨t, h1, h2, u, h3⟩
      · simp [h1, Spec.allows]
        exact ⟨hv, h2⟩
      · simp [h1, Spec.allows, h2]
        exact fun _ => ⟨u, h3⟩
    · constructor
      · intro h
        have := vec_some_lt i1 (i := v) (by rw [h]; simp)
        omega
      · intro h; omega

/-- The set of a state without candidates is a maximal independent set. -/
theorem MisOK.done {R : MisTy α δ ρ} {G : Lil α} {degrees : BVec δ} {n : Nat} {s : MisSt ρ}
    (hs : MisOK R G degrees n s) (h0 : s.cand.nvals = 0) :
    IsMIS n (Edge G.get) (Flagged s.iset) := by
  refine ⟨?_, hs.inv.indep, ?_⟩
  · intro v hv
    rw [← hs.isize]; exact vec_some_lt hs.iwf (by rw [hv]; simp)
  · intro v hv hi
    refine Classical.byContradiction fun hc => ?_
    have := (hs.inv.cand v hv).2 ⟨hi, fun u hu he => hc ⟨u, hu, he⟩⟩
    rw [Flagged, none_of_nvals hs.cwf h0] at this; cases this

/-- The loop, whenever it ends. -/
theorem misLoop_partial [Inhabited ρ] {R : MisTy α δ ρ} (hR : R.Ordered) {G : Lil α} (hG : R.Graph G)
    {n : Nat} (hn : G.nrows = n) {degrees : BVec δ} {draw : Nat → Nat → ρ}
    (hdr : ∀ r v, R.rtrue (draw r v) = true) {s r : MisSt ρ} (hs : MisStart R G n degrees s) {fuel : Nat}
    (e : misLoop R G degrees draw fuel s = .ok r) :
    r.iset.WF ∧ r.iset.size = n ∧ (∀ v b, r.iset.get v = some b → b = true) ∧
      IsMIS n (Edge G.get) (Flagged r.iset) := by
  obtain ⟨h1, h2⟩ := loop_partial (MisOK R G degrees n)
    (fun s s' h _ e => by
      obtain ⟨s2, e2, h2, -⟩ := misBody_spec hR hG hn hs.dwf hs.dsize hdr h
      rw [e2] at e
      exact (Except.ok.inj e) ▸ h2) fuel s r hs.ok e
  refine ⟨h1.iwf, h1.isize, h1.itrue, h1.done ?_⟩
  have := of_decide_eq_false h2
  omega

/-- In every round, adjacent vertices draw different numbers. -/
def NoTies (R : MisTy α δ ρ) (E : Nat → Nat → Prop) (draw : Nat → Nat → ρ) : Prop :=
  ∀ r u v, E u v → R.lt (draw r u) (draw r v) = true ∨ R.lt (draw r v) (draw r u) = true

/-- Among finitely many, one draws a number that no other exceeds. -/
theorem exists_top {R : MisTy α δ ρ} (hR : R.Ordered) (f : Nat → ρ) (C : Nat → Prop) :
    ∀ n, (∃ v, v < n ∧ C v) → ∃ v, v < n ∧ C v ∧ ∀ u, u < n → C u → R.lt (f v) (f u) = false := by
  intro n
  induction n with
  | zero => rintro ⟨v, hv, -⟩; omega
  | succ n ih =>
    rintro ⟨w, hw, hcw⟩
    by_cases h : ∃ v, v < n ∧ C v
    · obtain ⟨v, hv, hc, ht⟩ := ih h
      by_cases hn : C n ∧ R.lt (f v) (f n) = true
      · refine ⟨n, by omega, hn.1, fun u hu hcu => ?_⟩
        rcases Nat.lt_or_ge u n with h' | h'
        · cases hlt : R.lt (f n) (f u) with
          | false => rfl
          | true =>
            have := hR.trans _ _ _ hn.2 hlt
            rw [ht u h' hcu] at this; cases this
        · rw [show u = n by omega]; exact hR.irrefl _
      · refine ⟨v, by omega, hc, fun u hu hcu => ?_⟩
        rcases Nat.lt_or_ge u n with h' | h'
        · exact ht u h' hcu
        · have hun : u = n := by omega
          subst hun
          cases hlt : R.lt (f v) (f u) with
          | false => rfl
          | true => exact absurd ⟨hcu, hlt⟩ hn
    · have hwn : w = n := by
        rcases Nat.lt_or_ge w n with h' | h'
        · exact absurd ⟨w, h', hcw⟩ h
        · omega
      subst hwn
      refine ⟨w, by omega, hcw, fun u hu hcu => ?_⟩
      rcases Nat.lt_or_ge u w with h' | h'
      · exact absurd ⟨u, h', hcu⟩ h
      · rw [show u = w by omega]; exact hR.irrefl _

/-- Without ties, the loop ends after at most as many rounds as there are vertices. -/
theorem misLoop_ends [Inhabited ρ] {R : MisTy α δ ρ} (hR : R.Ordered) {G : Lil α} (hG : R.Graph G)
    {n : Nat} (hn : G.nrows = n) {degrees : BVec δ} {draw : Nat → Nat → ρ}
    (hdr : ∀ r v, R.rtrue (draw r v) = true) (hnt : NoTies R (Edge G.get) draw)
    {s : MisSt ρ} (hs : MisStart R G n degrees s) {fuel : Nat} (hf : n ≤ fuel) :
    ∃ r, misLoop R G degrees draw fuel s = .ok r := by
  obtain ⟨r, e, -⟩ := loop_rule (c := fun s : MisSt ρ => decide (0 < s.cand.nvals))
    (b := misBody R G degrees draw) (MisOK R G degrees n) (fun s => s.cand.nvals)
    (fun s h hc => by
      obtain ⟨s2, e2, h2, -, h3, -⟩ := misBody_spec hR hG hn hs.dwf hs.dsize hdr h
      refine ⟨s2, e2, h2, ?_⟩
      obtain ⟨i, x, hi, hx⟩ := nonempty_of_nvals h.cwf (of_decide_eq_true hc)
      obtain ⟨v, hv, hcv, htop⟩ := exists_top hR (draw s.round) (Flagged s.cand) n
        ⟨i, by rw [← h.csize]; exact hi, by rw [Flagged, hx, h.ctrue i x hx]⟩
      have hsel : Selected R (Edge G.get) (Flagged s.cand) (draw s.round) v := by
        refine ⟨hcv, fun u hu he => ?_⟩
        have hun : u < n := by rw [← h.csize]; exact vec_some_lt h.cwf (by rw [hu]; simp)
        rcases hnt s.round v u he with h' | h'
        · rw [htop u hun hu] at h'; cases h'
        · exact h'
      rw [h.cwf.nvals_eq, h2.cwf.nvals_eq, h.csize, h2.csize]
      refine count_lt (k := v) ?_ hv ?_ (by rw [hcv]; rfl)
      · intro j _ hj
        obtain ⟨b, hb⟩ := Option.isSome_iff_exists.1 hj
        have : Flagged s2.cand j := by rw [Flagged, hb, h2.ctrue j b hb]
        rw [(h3 j this).1]; rfl
      · rw [mem_flag h2.ctrue]
        intro hc2
        exact (h3 v hc2).2 hsel) fuel s hs.ok (by
      show s.cand.nvals ≤ fuel
      rw [hs.ok.cwf.nvals_eq, hs.ok.csize]
      exact Nat.le_trans (count_le _ _) hf)
  exact ⟨r, e⟩

/-- The calls before the loop of `mis`. -/
theorem mis_start [Inhabited δ] [Inhabited ρ] {R : MisTy α δ ρ} {G : Lil α} (hG : R.Graph G)
    (hpos : 0 < G.nrows) {iset : BVec Bool} (hi : iset.WF) (his : iset.size = G.nrows)
    (draw : Nat → Nat → ρ) :
    ∃ degrees s, MisStart R G G.nrows degrees s ∧ ∀ fuel,
      mis fuel R G draw iset = (do let r ← misLoop R G degrees draw fuel s; .ok r.iset) := by
  obtain ⟨prob, e1, p1, p2, -⟩ := BVec.new_spec (α := ρ) (n := G.nrows) (by omega)
  obtain ⟨bv, e2, b1, b2, b3⟩ := BVec.new_spec (α := Bool) (n := G.nrows) (by omega)
  obtain ⟨d0, e3, d1, d2, d3⟩ := BVec.new_spec (α := δ) (n := G.nrows) (by omega)
  obtain ⟨deg, e4, y4⟩ := C16_reduce_rows_op (f := R.plus) (c := R.toD) (A := .plain G)
    (o := (⟨d0, none, id, .some R.plus id id, id, .merge⟩ : VOut δ δ δ Bool))
    ⟨d1, noMaskOK⟩ hG.wf ⟨noMaskFits, d2⟩
  obtain ⟨cand, e5, y5⟩ := C20_assign_const_vector_partial
    (o := vMasked id bv .plain R.dtrue deg .replace) (keep := id) (x := true) (ix := .all)
    ⟨b1, maskOK y4.wf⟩ ⟨maskFits (by show deg.size = bv.size; rw [b2]; exact y4.size.trans d2), Nat.le_refl _⟩
    trivial trivial
  obtain ⟨c1, c2, c3⟩ := assignAll_replace (.inl rfl) y5
  obtain ⟨is, e6, y6⟩ := C20_assign_const_vector_partial
    (o := vMasked id iset .comp R.dtrue deg .replace) (keep := id) (x := true) (ix := .all)
    ⟨hi, maskOK y4.wf⟩ ⟨maskFits (by show deg.size = iset.size; rw [his]; exact y4.size.trans d2), Nat.le_refl _⟩
    trivial trivial
  obtain ⟨i1, i2, i3⟩ := assignAll_replace (.inl rfl) y6
  rw [b2] at c2 c3
  rw [his] at i2 i3
  refine ⟨deg, ⟨0, prob, prob, bv, bv, cand, is⟩,
    misStart hG rfl y4.wf (y4.size.trans d2) ?_ p1 p2 p1 p2 b1 b2 b1 b2 c1 c2 c3 i1 i2 i3, ?_⟩
  · intro v hv
    have := y4.get v (by show v < d0.size; rw [d2]; exact hv)
    rw [this]
    cases h : Spec.ofold R.toD (fun t y => R.plus t (R.toD y)) ((List.range G.ncols).map (G.get v)) <;>
      simp [VMask.allows, Spec.write, Spec.accum, d3, Operand.get, Operand.ncols, h]
  · intro fuel
    have e4' : exec (reduceMV (⟨d0, none, id, .some R.plus id id, id, .merge⟩ : VOut δ δ δ Bool)
      (⟨fun x y => R.plus (R.toD x) (R.toD y), fun t y => R.plus t (R.toD y), R.plus, R.toD⟩)
      (.plain G)) = .ok deg := by
      show exec (reduceMV _ (RedOp.of R.plus R.toD) _) = _
      rw [e4]; rfl
    rw [mis, if_neg (by rw [his, ← hG.square]; simp)]
    simp only [e1, e2, e3, e4', e5, e6, lift_ok, exec_done, prog_bind_ok]

/-- The calls before the loop of `mis_appendixB6`. -/
theorem misB6_start [Inhabited δ] [Inhabited ρ] {R : MisTy α δ ρ} {G : Lil α} (hG : R.Graph G)
    (hpos : 0 < G.nrows) {iset : BVec Bool} (hi : iset.WF) (his : iset.size = G.nrows)
    (draw : Nat → Nat → ρ) :
    ∃ degrees s, MisStart R G G.nrows degrees s ∧ ∀ fuel,
      misB6 fuel R G draw iset = (do let r ← misLoop R G degrees draw fuel s; .ok r.iset) := by
  obtain ⟨prob, e1, p1, p2, -⟩ := BVec.new_spec (α := ρ) (n := G.nrows) (by omega)
  obtain ⟨bv, e2, b1, b2, b3⟩ := BVec.new_spec (α := Bool) (n := G.nrows) (by omega)
  obtain ⟨d0, e3, d1, d2, d3⟩ := BVec.new_spec (α := δ) (n := G.nrows) (by omega)
  obtain ⟨deg, e4, y4⟩ := C16_reduce_rows_op (f := R.plus) (c := R.toD) (A := .plain G)
    (o := vPlain id d0) (vPlain_wf d1) hG.wf ⟨vPlain_fits _, d2⟩
  obtain ⟨g1, g2, g3⟩ := plain_yields y4
  obtain ⟨cand, e5, y5⟩ := C20_assign_const_vector_partial
    (o := vMasked id bv .plain R.dtrue deg .merge) (keep := id) (x := true) (ix := .all)
    ⟨b1, maskOK y4.wf⟩ ⟨maskFits (by show deg.size = bv.size; rw [b2]; exact y4.size.trans d2), Nat.le_refl _⟩
    trivial trivial
  obtain ⟨c1, c2, c3⟩ := assignAll_replace (.inr b3) y5
  obtain ⟨is, e6, y6⟩ := C20_assign_const_vector_partial
    (o := vMasked id iset .comp R.dtrue deg .replace) (keep := id) (x := true) (ix := .all)
    ⟨hi, maskOK y4.wf⟩ ⟨maskFits (by show deg.size = iset.size; rw [his]; exact y4.size.trans d2), Nat.le_refl _⟩
    trivial trivial
  obtain ⟨i1, i2, i3⟩ := assignAll_replace (.inl rfl) y6
  rw [b2] at c2 c3
  rw [his] at i2 i3
  rw [d2] at g2 g3
  refine ⟨deg, ⟨0, prob, prob, bv, bv, cand, is⟩,
    misStart hG rfl g1 g2 ?_ p1 p2 p1 p2 b1 b2 b1 b2 c1 c2 c3 i1 i2 i3, ?_⟩
  · intro v hv
    rw [g3 v hv, Option.map_id_fun]; rfl
  · intro fuel
    have e4' : exec (reduceMV (vPlain id d0)
      (⟨fun x y => R.plus (R.toD x) (R.toD y), fun t y => R.plus t (R.toD y), R.plus, R.toD⟩)
      (.plain G)) = .ok deg := by
      show exec (reduceMV _ (RedOp.of R.plus R.toD) _) = _
      rw [e4]; rfl
    rw [misB6]
    simp only [e1, e2, e3, e4', e5, e6, lift_ok, exec_done, prog_bind_ok]

/-- **C40**, `mis`: on an undirected graph, whatever numbers are drawn (ties included), whenever it returns, the stored elements of the result are all `true`
and are a maximal independent set. -/
theorem C40_mis [Inhabited δ] [Inhabited ρ] (R : MisTy α δ ρ) (hR : R.Ordered) (G : Lil α)
    (hG : R.Graph G) (hpos : 0 < G.nrows) (draw : Nat → Nat → ρ)
    (hdr : ∀ r v, R.rtrue (draw r v) = true) (iset : BVec Bool) (hi : iset.WF)
    (his : iset.size = G.nrows) (fuel : Nat) (set : BVec Bool)
    (e : mis fuel R G draw iset = .ok set) :
    set.WF ∧ set.size = G.nrows ∧ (∀ v b, set.get v = some b → b = true) ∧
      IsMIS G.nrows (Edge G.get) (fun v => set.get v = some true) := by
  obtain ⟨degrees, s, hs, he⟩ := mis_start hG hpos hi his draw
  rw [he] at e
  cases hl : misLoop R G degrees draw fuel s with
  | error x => rw [hl] at e; cases e
  | ok r =>
    rw [hl] at e
    obtain rfl : r.iset = set := Except.ok.inj e
    exact misLoop_partial hR hG rfl hdr hs hl

/-- **C40**, termination: `mis` returns within as many rounds as there are vertices if
in no round two adjacent vertices draw the same number (which implies that there are no
loops). (With ties it may need more: it
draws again until they are broken.) -/
theorem C40_mis_returns [Inhabited δ] [Inhabited ρ] (R : MisTy α δ ρ) (hR : R.Ordered) (G : Lil α)
    (hG : R.Graph G) (hpos : 0 < G.nrows) (draw : Nat → Nat → ρ)
    (hdr : ∀ r v, R.rtrue (draw r v) = true) (hnt : NoTies R (Edge G.get) draw) (iset : BVec Bool)
    (hi : iset.WF) (his : iset.size = G.nrows) (fuel : Nat) (hf : G.nrows ≤ fuel) :
    ∃ set, mis fuel R G draw iset = .ok set := by
  obtain ⟨degrees, s, hs, he⟩ := mis_start hG hpos hi his draw
  obtain ⟨r, e⟩ := misLoop_ends hR hG rfl hdr hnt hs hf
  exact ⟨r.iset, by rw [he, e]; rfl⟩

/-- **C40**, `mis_appendixB6`. -/
theorem C40_appendixB6 [Inhabited δ] [Inhabited ρ] (R : MisTy α δ ρ) (hR : R.Ordered) (G : Lil α)
    (hG : R.Graph G) (hpos : 0 < G.nrows) (draw : Nat → Nat → ρ)
    (hdr : ∀ r v, R.rtrue (draw r v) = true) (iset : BVec Bool) (hi : iset.WF)
    (his : iset.size = G.nrows) (fuel : Nat) (set : BVec Bool)
    (e : misB6 fuel R G draw iset = .ok set) :
    set.WF ∧ set.size = G.nrows ∧ (∀ v b, set.get v = some b → b = true) ∧
      IsMIS G.nrows (Edge G.get) (fun v => set.get v = some true) := by
  obtain ⟨degrees, s, hs, he⟩ := misB6_start hG hpos hi his draw
  rw [he] at e
  cases hl : misLoop R G degrees draw fuel s with
  | error x => rw [hl] at e; cases e
  | ok r =>
    rw [hl] at e
    obtain rfl : r.iset = set := Except.ok.inj e
    exact misLoop_partial hR hG rfl hdr hs hl

/-- **C40**, termination of `mis_appendixB6`. -/
theorem C40_appendixB6_returns [Inhabited δ] [Inhabited ρ] (R : MisTy α δ ρ) (hR : R.Ordered) (G : Lil α)
    (hG : R.Graph G) (hpos : 0 < G.nrows) (draw : Nat → Nat → ρ)
    (hdr : ∀ r v, R.rtrue (draw r v) = true) (hnt : NoTies R (Edge G.get) draw) (iset : BVec Bool)
    (hi : iset.WF) (his : iset.size = G.nrows) (fuel : Nat) (hf : G.nrows ≤ fuel) :
    ∃ set, misB6 fuel R G draw iset = .ok set := by
  obtain ⟨degrees, s, hs, he⟩ := misB6_start hG hpos hi his draw
  obtain ⟨r, e⟩ := misLoop_ends hR hG rfl hdr hnt hs hf
  exact ⟨r.iset, by rw [he, e]; rfl⟩

/-- **C40**, the proviso "whenever it returns" is needed: a vertex whose only edge is a
loop makes `mis` run forever, whatever is drawn. -/
theorem C40_self_loop_forever [Inhabited δ] [Inhabited ρ] (R : MisTy α δ ρ) (hR : R.Ordered) (G : Lil α)
    (hG : R.Graph G) (draw : Nat → Nat → ρ) (hdr : ∀ r v, R.rtrue (draw r v) = true) (iset : BVec Bool)
    (hi : iset.WF) (his : iset.size = G.nrows) (v : Nat) (hv : ∀ u, Edge G.get v u ↔ u = v) (fuel : Nat) :
    mis fuel R G draw iset = .error .running := by
  have hvn : v < G.nrows := (edge_lt hG.wf ((hv v).2 rfl)).1
  obtain ⟨degrees, s, hs, he⟩ := mis_start hG (by omega) hi his draw
  have hl := loop_forever (c := fun s : MisSt ρ => decide (0 < s.cand.nvals))
    (b := misBody R G degrees draw) (MisOK R G degrees G.nrows)
    (fun s h => by
      refine ⟨?_, ?_⟩
      · refine decide_eq_true (Nat.pos_of_ne_zero fun h0 => ?_)
        have hiv : ¬ Flagged s.iset v := fun hc => h.inv.indep v v hc hc ((hv v).2 rfl)
        have := (h.inv.cand v hvn).2 ⟨hiv, fun u hu hc => hiv (((hv u).1 hc) ▸ hu)⟩
        rw [Flagged, none_of_nvals h.cwf h0] at this; cases this
      · obtain ⟨s2, e2, h2, -⟩ := misBody_spec hR hG rfl hs.dwf hs.dsize hdr h
        exact ⟨s2, e2, h2⟩) fuel s hs.ok
  rw [he, misLoop, hl]; rfl

/-- **C40**, `get_vertex_IDs`: the vertices of the set, ascending. -/
theorem C40_vertex_ids [Inhabited α] (v : BVec α) (hv : v.WF) :
    ∃ ids, getVertexIDs v = .ok ids ∧ ids.Pairwise (· < ·) ∧ ∀ i, i ∈ ids ↔ v.get i ≠ none := by
  obtain ⟨ts, e, hs, hm, hl⟩ := C07_vector_tuples v hv
  refine ⟨ts.map fun p => p.1, ?_, ?_, ?_⟩
  · simp only [getVertexIDs, vecTuples_eq e hl, Except.bind_ok']
  · rw [List.pairwise_map]; exact hs
  · intro i
    rw [List.mem_map]
    constructor
    · rintro ⟨p, hp, rfl⟩
      rw [(hm p.1 p.2).1 hp]; simp
    · intro h
      obtain ⟨x, hx⟩ := Option.ne_none_iff_exists'.1 h
      exact ⟨(i, x), (hm i x).2 hx, rfl⟩

example : getVertexIDs (⟨5, 3, [false, true, false, true, true], [false, true, false, true, true]⟩ : BVec Bool)
    = .ok [1, 3, 4] := by decide +kernel

namespace Ex

/-- Integers for the floating point types. -/
def misR : MisTy Int Int Int :=
  { plus := fun x y => x + y, dtrue := fun x => x != 0, lt := fun x y => decide (x < y),
    rtrue := fun x => x != 0, toD := id, toB := fun x => x != 0 }

theorem misR_ordered : misR.Ordered := by
  refine ⟨fun x => ?_, fun x y z => ?_, fun x y z => ?_⟩ <;>
    simp only [misR, decide_eq_true_eq, decide_eq_false_iff_not] <;> omega

theorem misR_graph {G : Lil Int} (hG : G.WF) (hsq : G.nrows = G.ncols)
    (h1 : ∀ r ∈ G.rows, ∀ p ∈ r, p.2 = 1)
    (hs : ∀ u, u < G.nrows → ∀ v, v < G.nrows → (G.get u v).isSome = (G.get v u).isSome) :
    misR.Graph G := by
  have hx : ∀ u v x, G.get u v = some x → x = 1 := fun u v x h => get_chk hG (P := fun x => x = 1) h1 h
  refine ⟨hG, hsq, ?_, ?_, fun x => 0 < x, ?_, ?_, ?_⟩
  · intro u v he
    have := edge_lt hG he
    unfold Edge
    rw [hs v (by omega) u this.1]; exact he
  · intro u v x h; rw [hx u v x h]; rfl
  · intro x h; simp only [misR, bne_iff_ne]; omega
  · intro x y h1 h2; show 0 < x + y; omega
  · intro u v x h; rw [hx u v x h]; decide

/-- The path 0 – 1 – 2 – 3 and the isolated vertex 4. -/
def path : Lil Int := ⟨5, 5, 6, [[(1, 1)], [(0, 1), (2, 1)], [(1, 1), (3, 1)], [(2, 1)], []]⟩
theorem path_graph : misR.Graph path :=
  misR_graph (Lil.wf_chk (by decide)) rfl (by decide) (by decide +kernel)
def noSet : BVec Bool := ⟨5, 0, [false, false, false, false, false], [false, false, false, false, false]⟩
/-- In round 0 the vertices 1 and 2 tie; in round 1 the numbers ascend. -/
def draws (r v : Nat) : Int := if r = 0 then [3, 7, 7, 2, 9].getD v 1 else v + 1
theorem draws_true (r v : Nat) : misR.rtrue (draws r v) = true := by
  by_cases h : r = 0
  · simp only [draws, h, if_true, misR]
    match v with
    | 0 | 1 | 2 | 3 | 4 => rfl
    | v + 5 => rfl
  · simp only [draws, h, if_false, misR, bne_iff_ne]; omega

/-- A loop at vertex 0, no other edges. -/
def loopG : Lil Int := ⟨2, 2, 1, [[(0, 1)], []]⟩
theorem loopG_graph : misR.Graph loopG :=
  misR_graph (Lil.wf_chk (by decide)) rfl (by decide) (by decide +kernel)
end Ex

example : IsMIS 5 (Edge Ex.path.get)
    (fun v => (⟨5, 3, [false, true, false, true, true], [false, true, false, true, true]⟩ : BVec Bool).get v
      = some true) :=
  (C40_mis Ex.misR Ex.misR_ordered Ex.path Ex.path_graph (by decide) Ex.draws Ex.draws_true Ex.noSet
    ⟨rfl, rfl, rfl⟩ rfl 5 _ (by decide +kernel)).2.2.2

example : ∃ set, mis 5 Ex.misR Ex.path (fun _ v => v + 1) Ex.noSet = .ok set :=
  C40_mis_returns Ex.misR Ex.misR_ordered Ex.path Ex.path_graph (by decide) _
    (fun _ v => by simp only [Ex.misR, bne_iff_ne]; omega)
    (fun r u v h => by
      have hne : u ≠ v := by
        rintro rfl
        have := edge_lt Ex.path_graph.wf h
        exact absurd h ((by decide +kernel : ∀ u, u < 5 → ¬ (Ex.path.get u u).isSome = true) u this.1)
      simp only [Ex.misR, decide_eq_true_eq]; omega)
    Ex.noSet ⟨rfl, rfl, rfl⟩ rfl 5 (by decide)

example : mis 1000 Ex.misR Ex.loopG (fun _ _ => 1) ⟨2, 0, [false, false], [false, false]⟩ = .error .running :=
  C40_self_loop_forever Ex.misR Ex.misR_ordered Ex.loopG Ex.loopG_graph _ (fun _ _ => rfl) _
    ⟨rfl, rfl, rfl⟩ rfl 0
    (fun u => by
      constructor
      · intro h
        have := edge_lt Ex.loopG_graph.wf h
        exact (by decide +kernel : ∀ u, u < 2 → (Ex.loopG.get 0 u).isSome = true → u = 0) u this.2 h
      · rintro rfl; rfl) 1000

end GBTL

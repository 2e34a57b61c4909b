import Verif.Lemmas.Tuples
import Verif.Model.Mst
import Verif.Lemmas.Mst
import Verif.Props.Mis
/-
C50: minimum spanning trees.
-/
namespace GBTL
open Spec

/-! ### argmin -/

theorem argminLoop_spec (l : List (Nat × Int)) (p : Nat × Int)
    (h : (p :: l).Pairwise fun p q => p.1 < q.1) :
    ∃ q ∈ p :: l, argminLoop p l = q.1 ∧ ∀ r ∈ p :: l, q.2 < r.2 ∨ q.2 = r.2 ∧ q.1 ≤ r.1 := by
  induction l generalizing p with
  | nil =>
    refine ⟨p, by simp, rfl, ?_⟩
    intro r hr
    obtain rfl : r = p := by simpa using hr
    exact .inr ⟨rfl, Nat.le_refl _⟩
  | cons a l ih =>
    rw [List.pairwise_cons] at h
    have hpa := h.1 a (by simp)
    unfold argminLoop
    by_cases hlt : a.2 < p.2
    · rw [if_pos hlt]
      obtain ⟨q, hq, e, hr⟩ := ih a h.2
      refine ⟨q, List.mem_cons_of_mem _ hq, e, ?_⟩
      intro r hr'
      rcases List.mem_cons.1 hr' with rfl | hr'
      · have := hr a (by simp)
        exact .inl (by omega)
      · exact hr r hr'
    · rw [if_neg hlt]
      have h2 : (p :: l).Pairwise fun p q : Nat × Int => p.1 < q.1 :=
        List.pairwise_cons.2 ⟨fun r hr => h.1 r (List.mem_cons_of_mem _ hr), (List.pairwise_cons.1 h.2).2⟩
      obtain ⟨q, hq, e, hr⟩ := ih p h2
      refine ⟨q, ?_, e, ?_⟩
      · rcases List.mem_cons.1 hq with rfl | hq
        · simp
        · exact List.mem_cons_of_mem _ (List.mem_cons_of_mem _ hq)
      · intro r hr'
        rcases List.mem_cons.1 hr' with rfl | hr'
        · exact hr r (by simp)
        rcases List.mem_cons.1 hr' with rfl | hr'
        · have := hr p (by simp)
          omega
        · exact hr r (List.mem_cons_of_mem _ hr')

/-- `argmin(v)` throws when `v` has no elements. Otherwise it is the position of a
smallest element, of several the first. -/
theorem C50_argmin (v : BVec Int) (hv : v.WF) :
    ((∀ i, v.get i = none) → argmin v = .error .panic) ∧
    ((∃ i, v.get i ≠ none) → ∃ u x, argmin v = .ok u ∧ v.get u = some x ∧
      ∀ i y, v.get i = some y → x < y ∨ x = y ∧ u ≤ i) := by
  obtain ⟨ts, e, hs, hm, hl⟩ := C07_vector_tuples v hv
  constructor
  · intro h
    have : v.nvals = 0 := by
      rcases Nat.eq_zero_or_pos v.nvals with h' | h'
      · exact h'
      · obtain ⟨i, x, -, hx⟩ := nonempty_of_nvals hv h'
        rw [h] at hx; cases hx
    rw [argmin, if_pos this]
  · rintro ⟨i, hi⟩
    have hne : v.nvals ≠ 0 := fun h => hi (none_of_nvals hv h i)
    rw [argmin, if_neg hne]
    have e2 : vecTuples v = .ok ts := vecTuples_eq e hl
    rw [e2]
    cases ts with
    | nil => rw [List.length_nil] at hl; exact absurd hl.symm hne
    | cons p l =>
      obtain ⟨q, hq, e3, hr⟩ := argminLoop_spec l p hs
      refine ⟨q.1, q.2, by show Except.ok (argminLoop p l) = _; rw [e3], (hm _ _).1 hq, ?_⟩
      intro j y hj
      exact hr (j, y) ((hm _ _).2 hj)

example : argmin { size := 5, nvals := 3, vals := [0, 7, 4, 0, 4], bitmap := [false, true, true, false, true] } =
    .ok 2 := by decide +kernel

/-! ### the rows of the graph, with their number -/

theorem mstMatrix_spec (G : Lil Int) (hG : G.WF) :
    ∃ A, mstMatrix G = .ok A ∧ A.WF ∧ A.nrows = G.nrows ∧ A.ncols = G.ncols ∧
      ∀ i j, A.get i j = (G.get i j).map fun w => (i, w) := by
  obtain ⟨hs, hm, hl⟩ := C07_matrix_tuples G hG
  obtain ⟨A, e, hA, h1, h2, h3⟩ := build_distinct (Lil.new_wf G.nrows G.ncols)
    (fun i j => by simp [Lil.get]) (fun _ y => y)
    (ts := G.extractTuples.map fun p => (p.1, p.2.1, (p.1, p.2.2)))
    (by
      intro q hq
      obtain ⟨p, hp, rfl⟩ := List.mem_map.1 hq
      have := (hm p.1 p.2.1 p.2.2).1 hp
      exact edge_lt hG (by rw [Edge, this]; rfl))
    (by
      rw [List.map_map, List.Nodup, List.pairwise_map]
      refine hs.imp ?_
      intro p q h e
      simp only [Function.comp, Prod.mk.injEq] at e
      omega)
  refine ⟨A, ?_, hA, h1, h2, ?_⟩
  · simp only [mstMatrix, matTuples_eq hl, Except.bind_ok', e, method]
  · intro i j
    refine option_ext fun x => ?_
    rw [h3]
    simp only [List.mem_map, Option.map_eq_some_iff]
    constructor
    · rintro ⟨p, hp, e⟩
      cases e
      exact ⟨p.2.2, (hm _ _ _).1 hp, rfl⟩
    · rintro ⟨y, hy, rfl⟩
      exact ⟨(i, j, y), (hm _ _ _).2 hy, rfl⟩

/-- `extract(w, A', AllIndices, u)`: row `u`. -/
theorem row_spec {A : Lil (Nat × Int)} (hA : A.WF) {n u : Nat} (hr : A.nrows = n) (hc : A.ncols = n)
    (hu : u < n) {w : BVec (Nat × Int)} (hw : w.WF) (hs : w.size = n) :
    ∃ w', extractC (vPlain id w) (.tr A) .all u = .done w' ∧ w'.WF ∧ w'.size = n ∧
      ∀ v, w'.get v = A.get u v := by
  obtain ⟨w', e, y⟩ := C18_extract_column (o := vPlain id w) (A := .tr A) (ri := .all) (j := u)
    (vPlain_wf hw) hA (vPlain_fits _) rfl trivial (by show u < A.nrows; omega)
  obtain ⟨h1, h2, h3⟩ := plain_yields y
  rw [hs] at h2 h3
  refine ⟨w', e, h1, h2, ?_⟩
  intro v
  rcases Nat.lt_or_ge v n with hv | hv
  · rw [h3 v hv]
    have : v < A.ncols := by omega
    simp [Spec.extract, Idx.sel, Spec.nth, Operand.nrows, Operand.get, Mat.tr, this]
  · rw [h1.get_none (by omega), hA.toWFr.get_none (.inr (by omega))]

/-! ### the invariant -/

/-- Every sum of fewer than `n` edge weights is a value of type `t`. -/
def TreesFit (t : ITy) (n : Nat) (W : Mat Int) : Prop :=
  ∀ F : List (Nat × Nat), (∀ e ∈ F, Edge W e.1 e.2) → F.length < n → t.Has (weight W F)

/-- After `k` rounds; `P` are the edges taken so far. -/
structure MstInv (G : Lil Int) (n k : Nat) (P : List (Nat × Nat)) (s : MstSt) : Prop where
  dwf : s.d.WF
  dsize : s.d.size = n
  mwf : s.mask.WF
  msize : s.mask.size = n
  swf : s.s.WF
  ssize : s.s.size = n
  pwf : s.parents.WF
  psize : s.parents.size = n
  len : P.length = k
  count : s.mask.nvals = k + 1
  mtrue : ∀ v b, s.mask.get v = some b → b = true
  start : Flagged s.mask 0
  rest : ∀ v, v < n → s.s.get v = if s.mask.get v = none then some 0 else none
  near : ∀ v p w, s.mask.get v = none → s.d.get v = some (p, w) → Flagged s.mask p ∧ G.get p v = some w
  best : ∀ v x w, s.mask.get v = none → Flagged s.mask x → G.get x v = some w →
    ∃ p w', s.d.get v = some (p, w') ∧ w' ≤ w
  inside : ∀ e ∈ P, Flagged s.mask e.1 ∧ Flagged s.mask e.2
  edges : ∀ e ∈ P, Edge G.get e.1 e.2
  linked : ∀ v, Flagged s.mask v → Linked P 0 v
  reach : ∀ v, Flagged s.mask v → Reachable (Edge G.get) (· = 0) v
  pars : ∀ p v, (p, v) ∈ P ↔ s.parents.get v = some p
  root : s.parents.get 0 = none
  total : s.weight = weight G.get P
  opt : (∀ u v, G.get u v = G.get v u) → ∀ F, IsSpanningTree n G.get F →
    ∃ Q : List (Nat × Nat), P.length + Q.length = F.length ∧
      weight G.get P + weight G.get Q ≤ weight G.get F ∧ (∀ e ∈ Q, Edge G.get e.1 e.2) ∧
      ∀ v, v < n → Linked (P ++ Q) 0 v

theorem weight_append (W : Mat Int) (F F' : List (Nat × Nat)) :
    weight W (F ++ F') = weight W F + weight W F' := by
  induction F with
  | nil => simp [weight]
  | cons e F ih => rw [List.cons_append, weight_cons, weight_cons, ih]; omega

theorem TreesFit.edge {t : ITy} {n : Nat} {W : Mat Int} (h : TreesFit t n W) (hn : 1 < n) {u v : Nat} {w : Int}
    (e : W u v = some w) : t.Has w := by
  have := h [(u, v)] (by simp [Edge, e]) (by simpa using hn)
  simpa [weight, e] using this

theorem minPair_spec (x y : Nat × Int) :
    (minPair x y = x ∨ minPair x y = y) ∧ (minPair x y).2 ≤ x.2 ∧ (minPair x y).2 ≤ y.2 := by
  unfold minPair
  split
  · exact ⟨.inl rfl, by omega, by omega⟩
  · exact ⟨.inr rfl, by omega, by omega⟩

/-- One round: it throws when no edge leaves the tree, and otherwise adds one. -/
theorem mstBody_spec {t : ITy} {ov : Int → Int → Int} {G : Lil Int} {A : Lil (Nat × Int)} {n : Nat}
    (hG : G.WF) (hA : A.WF) (hr : G.nrows = n) (hc : G.ncols = n) (hr' : A.nrows = n)
    (hc' : A.ncols = n) (hget : ∀ i j, A.get i j = (G.get i j).map fun w => (i, w))
    (ht : TreesFit t n G.get) {k : Nat} {P : List (Nat × Nat)} {s : MstSt} (h : MstInv G n k P s)
    (hk : s.mask.nvals < n) :
    (mstBody t ov A s = .error (.err .panic) ∧
      ∀ x y, Flagged s.mask x → ¬ Flagged s.mask y → ¬ Edge G.get x y) ∨
    ∃ s' P', mstBody t ov A s = .ok s' ∧ MstInv G n (k + 1) P' s' := by
  have hn1 : 1 < n := by rw [h.count] at hk; omega
  obtain ⟨temp0, e0, w1, w2, w3⟩ := BVec.new_spec (α := Int) (n := A.nrows) (by omega)
  obtain ⟨temp, e1, y1⟩ := C14_eWiseMult_vector (o := vPlain id temp0) (f := mstPlus t ov) (u := s.s)
    (v := s.d) (vPlain_wf w1) h.swf h.dwf
    ⟨vPlain_fits _, by show temp0.size = s.s.size; rw [w2, hr', h.ssize], by rw [h.ssize, h.dsize]⟩
  obtain ⟨t1, t2, t3⟩ := plain_yields y1
  rw [w2, hr'] at t2 t3
  have hmn : ∀ v, s.mask.get v = none ↔ ¬ Flagged s.mask v := fun v => mem_flag h.mtrue
  have hf_lt : ∀ v, Flagged s.mask v → v < n := fun v hv => by
    rw [← h.msize]; exact vec_some_lt h.mwf (by rw [show s.mask.get v = some true from hv]; simp)
  have htemp : ∀ v, temp.get v = if s.mask.get v = none then (s.d.get v).map Prod.snd else none := by
    intro v
    rcases Nat.lt_or_ge v n with hv | hv
    · rw [t3 v hv, h.rest v hv]
      by_cases hm : s.mask.get v = none
      · rw [if_pos hm, if_pos hm]
        cases hd : s.d.get v with
        | none => rfl
        | some q =>
          obtain ⟨p, w⟩ := q
          have hw := ht.edge hn1 (h.near v p w hm hd).2
          have h0 : t.Has 0 := by simpa [weight] using ht [] (by simp) (by simp; omega)
          show some (t.plusT ov 0 w) = some w
          rw [ITy.plusT_eq ov h0 hw (by simpa using hw), Int.zero_add]
      · rw [if_neg hm, if_neg hm]; rfl
    · rw [t1.get_none (by omega), h.dwf.get_none (by rw [h.dsize]; omega)]
      simp
  obtain ⟨hpanic, hmin⟩ := C50_argmin temp t1
  rcases (Classical.em (∃ i, temp.get i ≠ none)).symm with hex | hex
  · left
    have hnone : ∀ i, temp.get i = none := fun i => Classical.byContradiction fun hi => hex ⟨i, hi⟩
    refine ⟨?_, ?_⟩
    · simp only [mstBody, e0, e1, lift_ok, exec_done, prog_bind_ok, hpanic hnone, lift_error,
        prog_bind_error]
    · intro x y hx hy e
      obtain ⟨w, hw⟩ := Option.isSome_iff_exists.1 e
      obtain ⟨p, w', hd, -⟩ := h.best y x w ((hmn y).2 hy) hx hw
      have := htemp y
      rw [hnone, if_pos ((hmn y).2 hy), hd] at this
      cases this
  · right
    obtain ⟨u, x, e2, hux, hmin⟩ := hmin hex
    rw [htemp u] at hux
    have hmu : s.mask.get u = none := by
      by_cases hm : s.mask.get u = none
      · exact hm
      · rw [if_neg hm] at hux; cases hux
    rw [if_pos hmu, Option.map_eq_some_iff] at hux
    obtain ⟨⟨p, w⟩, hdu, hwx⟩ := hux
    obtain rfl : w = x := hwx
    obtain ⟨hp, hpu⟩ := h.near u p w hmu hdu
    have hun : u < n := by
      rw [← hc]; exact (edge_lt hG (u := p) (v := u) (by rw [Edge, hpu]; rfl)).2
    have hu0 : u ≠ 0 := by
      rintro rfl
      rw [show s.mask.get 0 = some true from h.start] at hmu
      cases hmu
    obtain ⟨mask, e3, m1, m2, m3⟩ := BVec.setElement_spec h.mwf (i := u) (by rw [h.msize]; exact hun) true
    obtain ⟨sv, e4, y4⟩ := C15_apply_vector (o := vMasked id s.s .comp id mask .replace) (f := id)
      (u := s.s) ⟨h.swf, maskOK m1⟩ h.swf
      ⟨maskFits (by show mask.size = s.s.size; rw [m2, h.msize, h.ssize]), rfl⟩
    obtain ⟨s1, s2, s3⟩ := vMasked_comp_replace y4
    rw [h.ssize] at s2 s3
    have e5 := BVec.extractElement_spec h.dwf (i := u) (by rw [h.dsize]; exact hun) hdu
    obtain ⟨par, e6, p1, p2, p3⟩ := BVec.setElement_spec h.pwf (i := u) (by rw [h.psize]; exact hun) p
    obtain ⟨row0, e7, r1, r2, r3⟩ := BVec.new_spec (α := Nat × Int) (n := A.ncols) (by omega)
    obtain ⟨row, e8, a1, a2, a3⟩ := row_spec hA hr' hc' hun r1 (r2.trans hc')
    obtain ⟨d, e9, y9⟩ := C13_eWiseAdd_vector (o := vPlain id s.d) (f := mstMin) (u := s.d) (v := row)
      (vPlain_wf h.dwf) h.dwf a1 ⟨vPlain_fits _, rfl, by rw [h.dsize, a2]⟩
    obtain ⟨d1, d2, d3⟩ := plain_yields y9
    rw [h.dsize] at d2 d3
    have hfl : ∀ v, Flagged mask v ↔ v = u ∨ Flagged s.mask v := by
      intro v
      unfold Flagged
      rw [m3]
      by_cases hv : v = u <;> simp [hv]
    have hmt : ∀ v b, mask.get v = some b → b = true := by
      intro v b hb
      rw [m3] at hb
      by_cases hv : v = u
      · rw [if_pos hv] at hb; cases hb; rfl
      · rw [if_neg hv] at hb; exact h.mtrue v b hb
    have hmn' : ∀ v, mask.get v = none ↔ ¬ Flagged mask v := fun v => mem_flag hmt
    -- the new edge
    have hedges : ∀ e ∈ (p, u) :: P, Edge G.get e.1 e.2 := by
      intro e he
      rcases List.mem_cons.1 he with rfl | he
      · show Edge G.get p u
        rw [Edge, hpu]; rfl
      · exact h.edges e he
    have hwt : weight G.get ((p, u) :: P) = weight G.get P + w := by
      rw [weight_cons, hpu]; simp [Int.add_comm]
    have hadd : t.plusT ov s.weight w = weight G.get ((p, u) :: P) := by
      rw [h.total, hwt]
      have hl : P.length + 1 < n := by rw [h.len, ← h.count]; exact hk
      refine ITy.plusT_eq ov (ht P h.edges (by omega)) (ht.edge hn1 hpu) ?_
      rw [← hwt]
      exact ht _ hedges (by simpa using hl)
    -- what `d` holds
    have hd : ∀ v, d.get v = either minPair id id (s.d.get v) ((G.get u v).map fun w => (u, w)) := by
      intro v
      rcases Nat.lt_or_ge v n with hv | hv
      · rw [d3 v hv]
        simp only [mstMin, a3, hget, Option.map_id, id]
      · rw [d1.get_none (by omega), h.dwf.get_none (by rw [h.dsize]; omega),
          hG.toWFr.get_none (.inr (by omega))]
        rfl
    refine ⟨⟨t.plusT ov s.weight w, d, mask, sv, par⟩, (p, u) :: P, ?_, ?_⟩
    · simp only [mstBody, e0, e1, e2, e3, e4, e5, e6, e7, e8, e9, lift_ok, exec_done, prog_bind_ok,
        method_ok]
    · refine ⟨d1, d2, m1, m2.trans h.msize, s1, s2, p1, p2.trans h.psize, ?_, ?_, hmt, ?_, ?_, ?_, ?_, ?_,
        hedges, ?_, ?_, ?_, ?_, hadd, ?_⟩
      · simp [h.len]
      · show mask.nvals = k + 1 + 1
        rw [m1.nvals_eq, m2, h.msize, ← h.count, h.mwf.nvals_eq, h.msize]
        refine count_set hun hmu (by rw [m3, if_pos rfl]; rfl) ?_
        intro i hi
        rw [m3, if_neg hi]
      · exact (hfl 0).2 (.inr h.start)
      · intro v hv
        show sv.get v = if mask.get v = none then _ else _
        rw [s3 v hv, h.rest v hv]
        cases hm : mask.get v with
        | none =>
          have : s.mask.get v = none := (hmn v).2 fun hf => (hmn' v).1 hm ((hfl v).2 (.inr hf))
          simp [this]
        | some b => obtain rfl := hmt v b hm; simp
      · intro v q w' hm hdv
        have hnf := (hmn' v).1 hm
        have hm0 : s.mask.get v = none := (hmn v).2 fun hf => hnf ((hfl v).2 (.inr hf))
        change d.get v = _ at hdv
        rw [hd] at hdv
        show Flagged mask q ∧ _
        have old : s.d.get v = some (q, w') → Flagged mask q ∧ G.get q v = some w' := fun e => by
          obtain ⟨h1, h2⟩ := h.near v q w' hm0 e
          exact ⟨(hfl q).2 (.inr h1), h2⟩
        have new : (G.get u v).map (fun w => (u, w)) = some (q, w') →
            Flagged mask q ∧ G.get q v = some w' := fun e => by
          rw [Option.map_eq_some_iff] at e
          obtain ⟨w2, h1, h2⟩ := e
          cases h2
          exact ⟨(hfl u).2 (.inl rfl), h1⟩
        cases ha : s.d.get v with
        | none =>
          rw [ha] at hdv
          cases hb : G.get u v with
          | none => rw [hb] at hdv; simp [either] at hdv
          | some w2 =>
            rw [hb] at hdv
            exact new (by rw [hb]; simpa [either] using hdv)
        | some a =>
          rw [ha] at hdv
          cases hb : G.get u v with
          | none =>
            rw [hb] at hdv
            exact old (by rw [ha]; simpa [either] using hdv)
          | some w2 =>
            rw [hb] at hdv
            have hdv : minPair a (u, w2) = (q, w') := by simpa [either] using hdv
            rcases (minPair_spec a (u, w2)).1 with h' | h'
            · exact old (by rw [ha, ← hdv, h'])
            · exact new (by rw [hb, ← hdv, h']; rfl)
      · intro v x w' hm hx hxv
        have hnf := (hmn' v).1 hm
        have hm0 : s.mask.get v = none := (hmn v).2 fun hf => hnf ((hfl v).2 (.inr hf))
        change ∃ p w'', d.get v = _ ∧ _
        rw [hd]
        rcases (hfl x).1 hx with rfl | hx
        · rw [hxv]
          cases ha : s.d.get v with
          | none => exact ⟨x, w', by simp [either], Int.le_refl _⟩
          | some a =>
            exact ⟨_, _, by simp [either]; rfl, (minPair_spec a (x, w')).2.2⟩
        · obtain ⟨q, w1, ha, hle⟩ := h.best v x w' hm0 hx hxv
          rw [ha]
          cases hb : G.get u v with
          | none => exact ⟨q, w1, by simp [either], hle⟩
          | some w2 =>
            exact ⟨_, _, by simp [either]; rfl, Int.le_trans (minPair_spec (q, w1) (u, w2)).2.1 hle⟩
      · intro e he
        show Flagged mask _ ∧ Flagged mask _
        rcases List.mem_cons.1 he with rfl | he
        · exact ⟨(hfl p).2 (.inr hp), (hfl u).2 (.inl rfl)⟩
        · obtain ⟨h1, h2⟩ := h.inside e he
          exact ⟨(hfl _).2 (.inr h1), (hfl _).2 (.inr h2)⟩
      · intro v hv
        have key : ∀ v, Flagged s.mask v → Linked ((p, u) :: P) 0 v := fun v hv =>
          (h.linked v hv).mono fun e he => List.mem_cons_of_mem _ he
        rcases (hfl v).1 hv with rfl | hv
        · exact (key p hp).step (.inl (by simp))
        · exact key v hv
      · intro v hv
        rcases (hfl v).1 hv with rfl | hv
        · obtain ⟨m, hm⟩ := h.reach p hp
          exact ⟨m + 1, p, hm, by rw [Edge, hpu]; rfl⟩
        · exact h.reach v hv
      · intro q v
        show _ ↔ par.get v = some q
        rw [p3]
        by_cases hv : v = u
        · subst hv
          rw [if_pos rfl]
          constructor
          · intro he
            rcases List.mem_cons.1 he with he | he
            · cases he; rfl
            · exact absurd (h.inside _ he).2 ((hmn v).1 hmu)
          · intro he; cases he; simp
        · rw [if_neg hv, ← h.pars]
          simp [hv]
      · show par.get 0 = none
        rw [p3, if_neg (by omega), h.root]
      · intro hsym F hF
        obtain ⟨Q, q1, q2, q3, q4⟩ := h.opt hsym F hF
        obtain ⟨f, hf, hcr, hl⟩ := exchange h.start h.inside h.linked q4 hp ((hmn u).1 hmu) hun
        have hle : w ≤ (G.get f.1 f.2).getD 0 := by
          obtain ⟨wf, hwf⟩ := Option.isSome_iff_exists.1 (q3 f hf)
          rw [hwf, Option.getD_some]
          have key : ∀ a b, Flagged s.mask a → ¬ Flagged s.mask b → G.get a b = some wf → w ≤ wf := by
            intro a b ha hb he
            obtain ⟨q, w1, h1, h2⟩ := h.best b a wf ((hmn b).2 hb) ha he
            have := hmin b w1 (by rw [htemp, if_pos ((hmn b).2 hb), h1]; rfl)
            omega
          rcases hcr with ⟨ha, hb⟩ | ⟨ha, hb⟩
          · exact key _ _ ha hb hwf
          · exact key _ _ hb ha (by rw [hsym]; exact hwf)
        refine ⟨Q.erase f, ?_, ?_, fun e he => q3 e (List.mem_of_mem_erase he), hl⟩
        · rw [List.length_erase_of_mem hf, List.length_cons]
          have : 0 < Q.length := List.length_pos_iff_exists_mem.2 ⟨f, hf⟩
          omega
        · have := weight_erase G.get hf
          rw [hwt]
          omega

/-- The state before the loop. -/
theorem mst_loop {t : ITy} {ov : Int → Int → Int} {G : Lil Int} {parents : BVec Nat} (hG : G.WF)
    (hsq : G.nrows = G.ncols) (hn : 0 < G.nrows) (hp : parents.WF) (hps : parents.size = G.nrows)
    (ht : TreesFit t G.nrows G.get) {fuel : Nat} (hf : G.nrows ≤ fuel) :
    (∃ k P s, mst fuel t ov G parents = .ok (s.weight, s.parents) ∧ MstInv G G.nrows k P s ∧
      G.nrows ≤ s.mask.nvals) ∨
    (∃ k P s, mst fuel t ov G parents = .error (.err .panic) ∧ MstInv G G.nrows k P s ∧
      s.mask.nvals < G.nrows ∧
      ∀ x y, Flagged s.mask x → ¬ Flagged s.mask y → ¬ Edge G.get x y) := by
  obtain ⟨n, hn'⟩ : ∃ n, G.nrows = n := ⟨_, rfl⟩
  have hc : G.ncols = n := hsq.symm.trans hn'
  obtain ⟨A, e1, hA, hAr, hAc, hget⟩ := mstMatrix_spec G hG
  rw [hn'] at hAr ht hps hn hf
  rw [hc] at hAc
  obtain ⟨d0, e2, d1, d2, d3⟩ := BVec.new_spec (α := Nat × Int) (n := n) (by omega)
  obtain ⟨m0, e3, m1, m2, m3⟩ := BVec.new_spec (α := Bool) (n := n) (by omega)
  obtain ⟨mask, e4, k1, k2, k3⟩ := BVec.setElement_spec m1 (i := 0) (by omega) true
  obtain ⟨s0, e5, s1, s2, s3⟩ := BVec.new_spec (α := Int) (n := n) (by omega)
  obtain ⟨s, e6, z1, z2, z3⟩ := C20_assign_const_vector_partial
    (o := vMasked (μ := Bool) id s0 .comp id mask .replace) (keep := id) (x := (0 : Int)) (ix := .all)
    ⟨s1, maskOK k1⟩ ⟨maskFits (by show mask.size = s0.size; rw [k2, m2, s2]), Nat.le_refl _⟩ trivial trivial
  change s.size = s0.size at z2
  rw [s2] at z2
  obtain ⟨d, e7, r1, r2, r3⟩ := row_spec hA hAr hAc hn d1 d2
  have hfl : ∀ v, Flagged mask v ↔ v = 0 := by
    intro v
    unfold Flagged
    rw [k3, m3]
    by_cases hv : v = 0 <;> simp [hv]
  have hmt : ∀ v b, mask.get v = some b → b = true := by
    intro v b hb
    rw [k3, m3] at hb
    by_cases hv : v = 0
    · rw [if_pos hv] at hb; cases hb; rfl
    · rw [if_neg hv] at hb; cases hb
  have hstart : MstInv G n 0 [] ⟨0, d, mask, s, parents.clear⟩ := by
    refine ⟨r1, r2, k1, k2.trans m2, z1, z2, BVec.clear_wf hp.vlen, hps, rfl, ?_, hmt, (hfl 0).2 rfl, ?_, ?_,
      ?_, by simp, by simp, ?_, ?_, ?_, BVec.get_clear _ _, rfl, ?_⟩
    · show mask.nvals = 1
      rw [k1.nvals_eq, k2, m2, count_set (f := m0.get) (k := 0) hn (m3 0) (by rw [k3, if_pos rfl]; rfl)
        (fun i hi => by rw [k3, if_neg hi]), ← m2, ← m1.nvals_eq]
      have := count_mono (n := n) (f := m0.get) (g := fun _ => (none : Option Unit))
        (fun i _ hi => by rw [m3] at hi; cases hi)
      have h0 : Vec.count n (fun _ => (none : Option Unit)) = 0 := by simp [Vec.count]
      rw [m1.nvals_eq, m2]
      omega
    · intro v hv
      show s.get v = if mask.get v = none then _ else _
      have := z3 v (by show v < s0.size; omega)
      rw [this]
      have hv' : v < s0.size := by omega
      cases hm : mask.get v with
      | none => simp [vMasked, VMask.allows, Spec.write, Spec.accum, Spec.allows, hm, Spec.assignAt,
          Spec.selected, Spec.posOf, Idx.sel, hv']
      | some b =>
        obtain rfl := hmt v b hm
        simp [vMasked, VMask.allows, Spec.write, Spec.allows, hm]
    · intro v p w hm hd
      change d.get v = _ at hd
      rw [r3, hget, Option.map_eq_some_iff] at hd
      obtain ⟨w', h1, h2⟩ := hd
      cases h2
      exact ⟨(hfl 0).2 rfl, h1⟩
    · intro v x w hm hx hxv
      obtain rfl := (hfl x).1 hx
      exact ⟨0, w, by show d.get v = _; rw [r3, hget, hxv]; rfl, Int.le_refl _⟩
    · intro v hv
      obtain rfl := (hfl v).1 hv
      exact .refl
    · intro v hv
      obtain rfl := (hfl v).1 hv
      exact ⟨0, rfl⟩
    · intro p v
      show _ ↔ parents.clear.get v = some p
      rw [BVec.get_clear]
      simp
    · intro _ F hF
      exact ⟨F, by simp, by simp [weight], hF.edges, by simpa using hF.connected⟩
  have key := loop_count_or (c := fun s : MstSt => decide (s.mask.nvals < A.nrows)) (b := mstBody t ov A)
    (e := .err .panic) (fun k s => ∃ P, MstInv G n k P s) n
    (by
      rintro k s ⟨P, hs⟩ hlt
      have hlt : s.mask.nvals < n := by rw [← hAr]; exact of_decide_eq_true hlt
      refine ⟨by rw [hs.count] at hlt; omega, ?_⟩
      rcases mstBody_spec (ov := ov) hG hA hn' hc hAr hAc hget ht hs hlt with h | ⟨s', P', h1, h2⟩
      · exact .inl h.1
      · exact .inr ⟨s', h1, P', h2⟩)
    fuel 0 _ ⟨[], hstart⟩ (by omega)
  have hrun : mst fuel t ov G parents =
      (mstLoop t ov A fuel ⟨0, d, mask, s, parents.clear⟩ >>= fun r => .ok (r.weight, r.parents)) := by
    rw [mst, if_neg (by rw [hps]; omega)]
    simp only [hn', e1, e2, e3, e4, e5, e6, e7, lift_ok, exec_done, prog_bind_ok, method_ok]
  rw [hrun, mstLoop, hn']
  rcases key with ⟨k, s', h1, ⟨P, h2⟩, h3⟩ | ⟨k, s', h1, ⟨P, h2⟩, h3, h4⟩
  · refine .inl ⟨k, P, s', by rw [h1]; rfl, h2, ?_⟩
    have := of_decide_eq_false h3
    omega
  · have hlt : s'.mask.nvals < n := by rw [← hAr]; exact of_decide_eq_true h3
    refine .inr ⟨k, P, s', by rw [h1]; rfl, h2, hlt, ?_⟩
    rcases mstBody_spec (ov := ov) hG hA hn' hc hAr hAc hget ht h2 hlt with h | ⟨s'', P', h5, -⟩
    · exact h.2
    · rw [h4] at h5; cases h5

/-- **C50**, `mst(graph, mst_parents)`: on a connected undirected graph for whose scalar
type sums of fewer than `n` weights do not overflow, it returns the weight of a minimum
spanning tree, and `mst_parents` holds that tree: its edges are those from a vertex to
its parent, and vertex 0 has none. -/
theorem C50_mst (t : ITy) (ov : Int → Int → Int) (G : Lil Int) (parents : BVec Nat) (hG : G.WF)
    (hsq : G.nrows = G.ncols) (hn : 0 < G.nrows) (hsym : ∀ u v, G.get u v = G.get v u)
    (hconn : ∀ v, v < G.nrows → Reachable (Edge G.get) (· = 0) v)
    (hp : parents.WF) (hps : parents.size = G.nrows) (ht : TreesFit t G.nrows G.get)
    (fuel : Nat) (hf : G.nrows ≤ fuel) :
    ∃ w parents' P, mst fuel t ov G parents = .ok (w, parents') ∧
      parents'.WF ∧ parents'.size = G.nrows ∧ parents'.get 0 = none ∧
      (∀ p v, (p, v) ∈ P ↔ parents'.get v = some p) ∧
      IsSpanningTree G.nrows G.get P ∧ w = weight G.get P ∧
      ∀ F, IsSpanningTree G.nrows G.get F → w ≤ weight G.get F := by
  rcases mst_loop (ov := ov) hG hsq hn hp hps ht hf with ⟨k, P, s, h1, h2, h3⟩ | ⟨k, P, s, h1, h2, h3, h4⟩
  · have hlen : P.length + 1 = G.nrows := by
      have := count_le G.nrows s.mask.get
      have := h2.mwf.nvals_eq
      have := h2.msize
      have := h2.count
      have := h2.len
      rw [h2.msize] at *
      omega
    refine ⟨s.weight, s.parents, P, h1, h2.pwf, h2.psize, h2.root, h2.pars, ⟨h2.edges, hlen, ?_⟩, h2.total, ?_⟩
    · intro v hv
      refine h2.linked v ?_
      refine Classical.byContradiction fun hc => ?_
      have hm : s.mask.get v = none := (mem_flag h2.mtrue).2 hc
      have := count_lt (n := G.nrows) (f := s.mask.get) (g := fun _ => some ()) (fun _ _ _ => rfl) hv hm rfl
      have := count_le G.nrows (fun _ => some ())
      have := h2.mwf.nvals_eq
      rw [h2.msize] at this
      omega
    · intro F hF
      obtain ⟨Q, q1, q2, -, -⟩ := h2.opt hsym F hF
      have : Q.length = 0 := by have := hF.size; omega
      rw [List.length_eq_zero_iff] at this
      subst this
      rw [h2.total]
      simpa [weight] using q2
  · exfalso
    obtain ⟨v, hv, hm⟩ : ∃ v, v < G.nrows ∧ s.mask.get v = none := by
      refine Classical.byContradiction fun hc => ?_
      have := count_mono (n := G.nrows) (f := fun _ => some ()) (g := s.mask.get) (fun i hi _ => by
        cases h : s.mask.get i with
        | none => exact absurd ⟨i, hi, h⟩ hc
        | some _ => rfl)
      have e : Vec.count G.nrows (fun _ => some ()) = G.nrows := by
        unfold Vec.count
        show (List.filter (fun _ => true) _).length = _
        rw [List.filter_eq_self.2 (fun _ _ => rfl), List.length_range]
      have := h2.mwf.nvals_eq
      rw [h2.msize] at this
      omega
    obtain ⟨m, hw⟩ := hconn v hv
    obtain ⟨x, y, hx, hy, e⟩ := leaves h2.start hw ((mem_flag h2.mtrue).1 hm)
    exact h4 x y hx hy e

/-- **C50**: when some vertex cannot be reached from vertex 0 there is no spanning tree,
and `mst` throws `PanicException`. -/
theorem C50_disconnected (t : ITy) (ov : Int → Int → Int) (G : Lil Int) (parents : BVec Nat) (hG : G.WF)
    (hsq : G.nrows = G.ncols) (hp : parents.WF) (hps : parents.size = G.nrows)
    (ht : TreesFit t G.nrows G.get) (fuel : Nat) (hf : G.nrows ≤ fuel) {v : Nat} (hv : v < G.nrows)
    (hun : ¬ Reachable (Edge G.get) (· = 0) v) : mst fuel t ov G parents = .error (.err .panic) := by
  rcases mst_loop (ov := ov) hG hsq (by omega) hp hps ht hf with
    ⟨k, P, s, h1, h2, h3⟩ | ⟨k, P, s, h1, h2, h3, h4⟩
  · exfalso
    refine hun (h2.reach v ?_)
    refine Classical.byContradiction fun hc => ?_
    have hm : s.mask.get v = none := (mem_flag h2.mtrue).2 hc
    have := count_lt (n := G.nrows) (f := s.mask.get) (g := fun _ => some ()) (fun _ _ _ => rfl) hv hm rfl
    have := count_le G.nrows (fun _ => some ())
    have := h2.mwf.nvals_eq
    rw [h2.msize] at this
    omega
  · exact h1

/-- **C50**: a graph that is not square and `mst_parents` of another size are rejected. -/
theorem C50_rejects (t : ITy) (ov : Int → Int → Int) (G : Lil Int) (parents : BVec Nat) (fuel : Nat)
    (h : G.nrows ≠ G.ncols ∨ parents.size ≠ G.nrows) :
    mst fuel t ov G parents = .error (.err .dimension) := by
  rw [mst, if_pos (h.imp id fun h e => h e.symm)]

theorem weight_le {W : Mat Int} {B : Nat} (hW : ∀ u v w, W u v = some w → -B ≤ w ∧ w ≤ B)
    (F : List (Nat × Nat)) : -(F.length * B : Nat) ≤ weight W F ∧ weight W F ≤ (F.length * B : Nat) := by
  induction F with
  | nil => simp [weight]
  | cons e F ih =>
    rw [weight_cons, List.length_cons, Nat.add_mul]
    cases h : W e.1 e.2 with
    | none => simp only [Option.getD_none]; omega
    | some w => have := hW _ _ _ h; simp only [Option.getD_some]; omega

/-- Weights that are small enough. -/
theorem TreesFit.of_small {t : ITy} {n : Nat} {W : Mat Int} (B : Nat)
    (hW : ∀ u v w, W u v = some w → -B ≤ w ∧ w ≤ B)
    (hB : ∀ x : Int, -(n * B : Nat) ≤ x → x ≤ (n * B : Nat) → t.Has x) : TreesFit t n W := by
  intro F _ hl
  have h1 := weight_le hW F
  have : F.length * B ≤ n * B := Nat.mul_le_mul_right B (by omega)
  exact hB _ (by omega) (by omega)

theorem symm_chk {A : Lil Int} (hA : A.WF) (hsq : A.nrows = A.ncols)
    (h : ∀ u, u < A.nrows → ∀ v, v < A.nrows → A.get u v = A.get v u) (u v : Nat) :
    A.get u v = A.get v u := by
  rcases Nat.lt_or_ge u A.nrows with hu | hu
  · rcases Nat.lt_or_ge v A.nrows with hv | hv
    · exact h u hu v hv
    · rw [hA.toWFr.get_none (.inr (by omega)), hA.toWFr.get_none (.inl hv)]
  · rw [hA.toWFr.get_none (.inl hu), hA.toWFr.get_none (.inr (by omega))]

namespace Ex

/-- 0 -(4)- 1, 0 -(1)- 2, 1 -(2)- 2, 1 -(-5)- 3. -/
def mg : Lil Int := ⟨4, 4, 8, [[(1, 4), (2, 1)], [(0, 4), (2, 2), (3, -5)], [(0, 1), (1, 2)], [(1, -5)]]⟩

/-- Two components: 0 -(4)- 1 and 2. -/
def mg2 : Lil Int := ⟨3, 3, 2, [[(1, 4)], [(0, 4)], []]⟩

theorem mg_fits : TreesFit .i32 4 mg.get := by
  refine TreesFit.of_small 5 (fun u v w h => get_chk (Lil.wf_chk (by decide))
    (P := fun w => -(5 : Nat) ≤ w ∧ w ≤ (5 : Nat)) (by decide) h) ?_
  intro x h1 h2
  have h1 : (-20 : Int) ≤ x := h1
  have h2 : x ≤ (20 : Int) := h2
  constructor
  · show (-2147483648 : Int) ≤ x; omega
  · show x ≤ (2147483647 : Int); omega

theorem mg2_fits : TreesFit .i32 3 mg2.get := by
  refine TreesFit.of_small 5 (fun u v w h => get_chk (Lil.wf_chk (by decide))
    (P := fun w => -(5 : Nat) ≤ w ∧ w ≤ (5 : Nat)) (by decide) h) ?_
  intro x h1 h2
  have h1 : (-15 : Int) ≤ x := h1
  have h2 : x ≤ (15 : Int) := h2
  constructor
  · show (-2147483648 : Int) ≤ x; omega
  · show x ≤ (2147483647 : Int); omega

end Ex

example : Ex.mg.WF ∧ (∀ u v, Ex.mg.get u v = Ex.mg.get v u) ∧
    (∀ v, v < 4 → Reachable (Edge Ex.mg.get) (· = 0) v) ∧ TreesFit .i32 4 Ex.mg.get ∧
    mst 4 .i32 (fun _ _ => 0) Ex.mg ⟨4, 0, [0, 0, 0, 0], [false, false, false, false]⟩ =
      .ok (-2, ⟨4, 3, [0, 2, 0, 1], [false, true, true, true]⟩) := by
  refine ⟨Lil.wf_chk (by decide), symm_chk (Lil.wf_chk (by decide)) rfl (by decide), ?_, Ex.mg_fits,
    by decide +kernel⟩
  intro v hv
  match v, hv with
  | 0, _ => exact ⟨0, rfl⟩
  | 1, _ => exact ⟨1, 0, rfl, rfl⟩
  | 2, _ => exact ⟨1, 0, rfl, rfl⟩
  | 3, _ => exact ⟨2, 1, ⟨0, rfl, rfl⟩, rfl⟩

example : Ex.mg2.WF ∧ ¬ Reachable (Edge Ex.mg2.get) (· = 0) 2 ∧ TreesFit .i32 3 Ex.mg2.get ∧
    mst 3 .i32 (fun _ _ => 0) Ex.mg2 ⟨3, 0, [0, 0, 0], [false, false, false]⟩ = .error (.err .panic) := by
  refine ⟨Lil.wf_chk (by decide), ?_, Ex.mg2_fits, by decide +kernel⟩
  rintro ⟨k, hk⟩
  cases k with
  | zero => exact absurd (show (2 : Nat) = 0 from hk) (by decide)
  | succ k =>
    obtain ⟨u, -, e⟩ := hk
    have hu := (edge_lt (Lil.wf_chk (by decide) : Ex.mg2.WF) e).1
    have hn : Ex.mg2.nrows = 3 := rfl
    match u, (hn ▸ hu : u < 3) with
    | 0, _ => exact absurd e (by unfold Edge; decide)
    | 1, _ => exact absurd e (by unfold Edge; decide)
    | 2, _ => exact absurd e (by unfold Edge; decide)

end GBTL

import Verif.Props.Sssp
/-
C37: all-pairs shortest paths.
-/
namespace GBTL
open Spec

/-- Arguments of `apsp`: a consistent square graph, weights of the scalar type, and no
walk of at most `2·n` edges has a weight that is not a value of the type. -/
structure ApspInput (t : ITy) (G : Lil Int) : Prop where
  graph : G.WF
  square : G.ncols = G.nrows
  weights : ∀ u v w, G.get u v = some w → t.Has w
  walks : ∀ u, u < G.nrows → WalksWithin G.get (source u) (2 * G.nrows) t.Has

theorem plain_yieldsM {τ γ : Type} {c : τ → γ} {C C' : Lil γ} {T : Mat τ} (h : (mPlain c C).Yields T C') :
    C'.WF ∧ C'.nrows = C.nrows ∧ C'.ncols = C.ncols ∧
      ∀ i j, i < C.nrows → j < C.ncols → C'.get i j = (T i j).map c := by
  refine ⟨h.wf, h.nrows, h.ncols, ?_⟩
  intro i j hi hj
  rw [h.get i j hi hj]
  simp [mPlain, MMask.allows, Spec.write, Spec.accum]

/-- One round of `apsp`. -/
theorem apspBody_spec {t : ITy} {ov : Int → Int → Int} {n k : Nat} (hk : k < n) {s : ApspSt}
    (d1 : s.dist.WF) (d2 : s.dist.nrows = n) (d3 : s.dist.ncols = n) (c1 : s.col.WF) (c2 : s.col.nrows = n)
    (c3 : s.col.ncols = 1) (r1 : s.row.WF) (r2 : s.row.nrows = 1) (r3 : s.row.ncols = n)
    (hh : ∀ u v x, s.dist.get u v = some x → t.Has x)
    (hs : ∀ u v y z, s.dist.get u k = some y → s.dist.get k v = some z → t.Has (y + z)) :
    ∃ s', apspBody t ov k s = .ok s' ∧ s'.dist.WF ∧ s'.dist.nrows = n ∧ s'.dist.ncols = n ∧
      s'.col.WF ∧ s'.col.nrows = n ∧ s'.col.ncols = 1 ∧ s'.row.WF ∧ s'.row.nrows = 1 ∧ s'.row.ncols = n ∧
      Through k s.dist.get s'.dist.get := by
  obtain ⟨row, e1, y1⟩ := C18_extract_matrix (o := mPlain id s.row) (A := .plain s.dist) (ri := .list [k])
    (ci := .all) ⟨r1, noMaskOKM⟩ d1 noMaskFitsM (by show 1 = s.row.nrows; exact r2.symm) rfl
    (by intro i hi; rw [List.mem_singleton] at hi; subst hi; show i < s.dist.nrows; omega) trivial
  obtain ⟨p1, p2, p3, p4⟩ := plain_yieldsM y1
  obtain ⟨col, e2, y2⟩ := C18_extract_matrix (o := mPlain id s.col) (A := .plain s.dist) (ri := .all)
    (ci := .list [k]) ⟨c1, noMaskOKM⟩ d1 noMaskFitsM rfl (by show 1 = s.col.ncols; exact c3.symm) trivial
    (by intro i hi; rw [List.mem_singleton] at hi; subst hi; show i < s.dist.ncols; omega)
  obtain ⟨q1, q2, q3, q4⟩ := plain_yieldsM y2
  obtain ⟨D, e3, y3⟩ := C09_mxm (o := minOutM t s.dist) (sr := minPlusT t ov) (via := id) (A := col) (B := row)
    ⟨d1, noMaskOKM⟩ q1 p1 ⟨noMaskFitsM, by show s.dist.nrows = col.nrows; omega,
      by show s.dist.ncols = row.ncols; omega, by show col.ncols = row.nrows; omega⟩
  have hrow : ∀ v, v < n → row.get 0 v = s.dist.get k v := by
    intro v hv
    rw [p4 0 v (by omega) (by omega), Option.map_id]
    show Spec.extractMat s.dist.nrows s.dist.ncols (some [k]) none s.dist.get 0 v = _
    simp [Spec.extractMat, Spec.nth, d3, hv]
  have hcol : ∀ u, u < n → col.get u 0 = s.dist.get u k := by
    intro u hu
    rw [q4 u 0 (by omega) (by omega), Option.map_id]
    show Spec.extractMat s.dist.nrows s.dist.ncols none (some [k]) s.dist.get u 0 = _
    simp [Spec.extractMat, Spec.nth, d2, hu]
  have hD : ∀ u v, u < n → v < n → D.get u v =
      either min id id (s.dist.get u v) (both (fun y z => y + z) (s.dist.get u k) (s.dist.get k v)) := by
    intro u v hu hv
    rw [y3.get u v (by show u < s.dist.nrows; omega) (by show v < s.dist.ncols; omega)]
    simp only [minOutM, MMask.allows, Spec.write, if_true, Option.map_id, id]
    have hm : Spec.mxm col.ncols (minPlusT t ov).add (minPlusT t ov).mult col.get row.get u v =
        both (fun y z => y + z) (s.dist.get u k) (s.dist.get k v) := by
      rw [show col.ncols = 1 by omega]
      show Spec.both (t.plusT ov) (col.get u 0) (row.get 0 v) = _
      rw [hcol u hu, hrow v hv]
      cases hy : s.dist.get u k with
      | none => rfl
      | some y =>
        cases hz : s.dist.get k v with
        | none => rfl
        | some z =>
          show some (t.plusT ov y z) = some (y + z)
          rw [ITy.plusT_eq ov (hh _ _ _ hy) (hh _ _ _ hz) (hs u v y z hy hz)]
    rw [hm]
    refine accum_min (fun a ha => hh _ _ _ ha) ?_
    intro a ha
    cases hy : s.dist.get u k with
    | none => rw [hy] at ha; cases ha
    | some y =>
      cases hz : s.dist.get k v with
      | none => rw [hy, hz] at ha; cases ha
      | some z => rw [hy, hz] at ha; cases ha; exact hs u v y z hy hz
  have hlt : ∀ u v x, s.dist.get u v = some x → u < n ∧ v < n := by
    intro u v x hx
    have := some_lt d1 (i := u) (j := v) (by rw [hx]; simp)
    omega
  refine ⟨{ dist := D, col := col, row := row }, ?_, y3.wf, by rw [y3.nrows]; exact d2, by rw [y3.ncols]; exact d3,
    q1, by rw [q2]; exact c2, by rw [q3]; exact c3, p1, by rw [p2]; exact r2, by rw [p3]; exact r3, ?_⟩
  · rw [apspBody, e1, exec_done, prog_bind_ok, e2, exec_done, prog_bind_ok, e3, exec_done, prog_bind_ok]
  · refine ⟨?_, ?_, ?_⟩
    · intro u v x hx
      have hx : D.get u v = some x := hx
      have huv : u < n ∧ v < n := by
        have := some_lt y3.wf (i := u) (j := v) (by rw [hx]; simp)
        rw [y3.nrows, y3.ncols] at this
        exact ⟨by have := this.1; show u < n; rw [← d2]; exact this, by have := this.2; rw [← d3]; exact this⟩
      rw [hD u v huv.1 huv.2] at hx
      cases hy : s.dist.get u k with
      | none =>
        rw [hy] at hx
        left
        cases hd : s.dist.get u v with
        | none => rw [hd] at hx; cases hx
        | some a => rw [hd] at hx; exact hx
      | some y =>
        cases hz : s.dist.get k v with
        | none =>
          rw [hy, hz] at hx
          left
          cases hd : s.dist.get u v with
          | none => rw [hd] at hx; cases hx
          | some a => rw [hd] at hx; exact hx
        | some z =>
          rw [hy, hz] at hx
          cases hd : s.dist.get u v with
          | none => rw [hd] at hx; cases hx; exact Or.inr ⟨y, z, rfl, rfl, rfl⟩
          | some a =>
            rw [hd] at hx
            have hx : min a (y + z) = x := by simpa [either, both] using hx
            rcases Int.le_total a (y + z) with h4 | h4
            · left; congr 1; omega
            · right; exact ⟨y, z, rfl, rfl, by omega⟩
    · intro u v x hx
      obtain ⟨hu, hv⟩ := hlt u v x hx
      show ∃ y, D.get u v = some y ∧ y ≤ x
      rw [hD u v hu hv, hx]
      cases both (fun y z => y + z) (s.dist.get u k) (s.dist.get k v) with
      | none => exact ⟨x, rfl, Int.le_refl _⟩
      | some z => exact ⟨min x z, rfl, by omega⟩
    · intro u v y z hy hz
      show ∃ x, D.get u v = some x ∧ x ≤ y + z
      rw [hD u v (hlt u k y hy).1 (hlt k v z hz).2, hy, hz]
      cases s.dist.get u v with
      | none => exact ⟨y + z, rfl, Int.le_refl _⟩
      | some a => exact ⟨min a (y + z), rfl, by omega⟩

/-- What `apsp` returns, on every graph without negative cycles: outside the diagonal
and at the vertices without a self-loop, the distances (nothing if there is no walk); at
a vertex with a self-loop, the least weight of a way back to it that has at least one
edge. -/
theorem C37_apsp_exact {t : ITy} {ov : Int → Int → Int} {G : Lil Int} (h : ApspInput t G)
    (hc : ¬ HasNegCycle G.get) :
    ∃ D, apsp t ov G = .ok D ∧ D.WF ∧ D.nrows = G.nrows ∧ D.ncols = G.nrows ∧
      (∀ u v, u < G.nrows → u ≠ v ∨ G.get u u = none →
        (D.get u v = none ↔ ¬ WReach G.get (source u) v) ∧
        ∀ x, D.get u v = some x ↔ IsDist G.get (source u) v x) ∧
      ∀ u, G.get u u ≠ none → ∀ x, D.get u u = some x ↔ IsReturn G.get u x := by
  have hW : ∀ u v, G.get u v ≠ none → u < G.nrows ∧ v < G.nrows := by
    intro u v he
    have := some_lt h.graph he
    rw [h.square] at this; exact this
  obtain ⟨I, i1, i2, i3, i4, i5⟩ := C41_scaled_identity G.nrows (0 : Int)
  obtain ⟨D0, e0, y0⟩ := C13_eWiseAdd_same_type (o := mPlain id I) (op := t.plusT ov) (c1 := id) (c2 := id)
    (A := .plain I) (B := .plain G) ⟨i2, noMaskOKM⟩ i2 h.graph
    ⟨noMaskFitsM, rfl, rfl, by show I.ncols = G.ncols; rw [i4, h.square], by show I.nrows = G.nrows; exact i3⟩
  obtain ⟨a1, a2, a3, a4⟩ := plain_yieldsM y0
  have hzero : ∀ w, t.Has w → t.plusT ov 0 w = w := by
    intro w hw
    have h0 : t.Has 0 := by cases t <;> decide
    rw [ITy.plusT_eq ov h0 hw (by rw [Int.zero_add]; exact hw), Int.zero_add]
  have hD0 : ∀ u v, D0.get u v = if u = v ∧ u < G.nrows then some ((G.get u u).getD 0) else G.get u v := by
    intro u v
    by_cases huv : u < G.nrows ∧ v < G.nrows
    · rw [a4 u v (by rw [i3]; exact huv.1) (by rw [i4]; exact huv.2), Option.map_id]
      show either (t.plusT ov) id id (I.get u v) (G.get u v) = _
      rw [i5]
      by_cases he : u = v ∧ u < G.nrows
      · rw [if_pos he, if_pos he]
        obtain ⟨rfl, -⟩ := he
        cases hg : G.get u u with
        | none => rfl
        | some w =>
          show some (t.plusT ov 0 w) = some w
          rw [hzero w (h.weights u u w hg)]
      · rw [if_neg he, if_neg he]
        cases G.get u v <;> rfl
    · have : ¬ (u = v ∧ u < G.nrows) := by rintro ⟨rfl, h'⟩; exact huv ⟨h', h'⟩
      rw [if_neg this]
      have e1 : D0.get u v = none := a1.toWFr.get_none (by rw [a2, a3, i3, i4]; omega)
      have e2 : G.get u v = none := h.graph.toWFr.get_none (by rw [h.square]; omega)
      rw [e1, e2]
  have hFW0 : FW G.get G.nrows 0 D0.get := by
    refine ⟨?_, ?_, ?_⟩
    · intro u v x hx
      rw [hD0] at hx
      split at hx
      · rename_i he
        obtain ⟨rfl, hu⟩ := he
        cases hg : G.get u u with
        | none => rw [hg] at hx; cases hx; exact Or.inl ⟨rfl, rfl, rfl⟩
        | some w => rw [hg] at hx; cases hx; exact Or.inr ⟨0, by omega, hg⟩
      · exact Or.inr ⟨0, by have := (hW u v (by rw [hx]; simp)).1; omega, hx⟩
    · intro u v j x hw
      cases j with
      | zero =>
        have hw : G.get u v = some x := hw
        rw [hD0]
        split
        · rename_i he
          obtain ⟨rfl, hu⟩ := he
          rw [hw]; exact ⟨x, rfl, Int.le_refl _⟩
        · exact ⟨x, hw, Int.le_refl _⟩
      | succ j =>
        obtain ⟨a, y, w, -, h2, -⟩ := hw
        have := (lim_some h2).1
        omega
    · intro u hu hg
      rw [hD0, if_pos ⟨rfl, hu⟩, hg]
      exact ⟨0, rfl, Int.le_refl _⟩
  obtain ⟨s, e, d1, d2, d3, -, -, -, -, -, -, hF⟩ := forP_inv (b := fun k s => apspBody t ov k s)
    (fun k s => s.dist.WF ∧ s.dist.nrows = G.nrows ∧ s.dist.ncols = G.nrows ∧
      s.col.WF ∧ s.col.nrows = G.nrows ∧ s.col.ncols = 1 ∧ s.row.WF ∧ s.row.nrows = 1 ∧
      s.row.ncols = G.nrows ∧ FW G.get G.nrows k s.dist.get) G.nrows
    { dist := D0, col := Lil.new G.nrows 1, row := Lil.new 1 G.nrows }
    ⟨a1, a2.trans i3, a3.trans i4, Lil.new_wf _ _, rfl, rfl, Lil.new_wf _ _, rfl, rfl, hFW0⟩ (by
      intro k s hk ⟨b1, b2, b3, b4, b5, b6, b7, b8, b9, b10⟩
      have hwalk : ∀ u v x, s.dist.get u v = some x → u < G.nrows ∧
          ∃ j, j ≤ G.nrows ∧ WWalk G.get (source u) j v x := by
        intro u v x hx
        have := some_lt b1 (i := u) (j := v) (by rw [hx]; simp)
        rcases b10.walk u v x hx with ⟨rfl, rfl, -⟩ | ⟨j, hj, hw⟩
        · exact ⟨by omega, 0, by omega, by simp [WWalk, source]⟩
        · exact ⟨by omega, j + 1, by omega, hw.full⟩
      obtain ⟨s', e, c1, c2, c3, c4, c5, c6, c7, c8, c9, c10⟩ := apspBody_spec (t := t) (ov := ov) hk b1 b2 b3
        b4 b5 b6 b7 b8 b9
        (by
          intro u v x hx
          obtain ⟨hu, j, hj, hw⟩ := hwalk u v x hx
          exact h.walks u hu j v x (by omega) hw)
        (by
          intro u v y z hy hz
          obtain ⟨hu, j, hj, hw⟩ := hwalk u k y hy
          obtain ⟨-, j', hj', hw'⟩ := hwalk k v z hz
          exact h.walks u hu (j + j') v (y + z) (by omega) (hw.trans hw'))
      exact ⟨s', e, c1, c2, c3, c4, c5, c6, c7, c8, c9, b10.step hc hW c10⟩)
  refine ⟨s.dist, ?_, d1, d2, d3, fun u v hu huv => hF.final hW hu v huv,
    fun u hu x => hF.final_loop hW hu x⟩
  rw [apsp, if_neg (by rw [h.square]; simp), i1, lift_ok, prog_bind_ok,
    show ewPlus t ov = ⟨t.plusT ov, id, id, id, t.plusT ov, id⟩ from rfl, e0, exec_done, prog_bind_ok, e,
    prog_bind_ok]

/-- **C37**, proved part. On a graph without negative cycles and without self-loops of
positive weight, `apsp` returns the matrix whose `(u,v)` element is the minimum weight
over all walks from `u` to `v` (including the empty one when `u = v`), nothing if
there is none. Missing: with a self-loop of positive weight the statement is false,
see `C37_self_loop_wrong`; `C37_apsp_exact` says what is returned then. -/
theorem C37_apsp_partial {t : ITy} {ov : Int → Int → Int} {G : Lil Int} (h : ApspInput t G)
    (hc : ¬ HasNegCycle G.get) (hl : ∀ u w, G.get u u = some w → w ≤ 0) :
    ∃ D, apsp t ov G = .ok D ∧ D.WF ∧ D.nrows = G.nrows ∧ D.ncols = G.nrows ∧
      ∀ u v, u < G.nrows → (D.get u v = none ↔ ¬ WReach G.get (source u) v) ∧
        ∀ x, D.get u v = some x ↔ IsDist G.get (source u) v x := by
  obtain ⟨D, e, d1, d2, d3, d4, d5⟩ := C37_apsp_exact (ov := ov) h hc
  refine ⟨D, e, d1, d2, d3, ?_⟩
  intro u v hu
  by_cases huv : u ≠ v ∨ G.get u u = none
  · exact d4 u v hu huv
  · have h1 : u = v := Classical.byContradiction fun e => huv (Or.inl e)
    subst h1
    cases hg : G.get u u with
    | none => exact absurd (Or.inr hg) huv
    | some w =>
      have hno : ∀ k x, WWalk G.get (source u) k u x → 0 ≤ x := fun k x hx =>
        Int.not_lt.1 fun hneg => hc ⟨u, k, x, hx, hneg⟩
      have h0 : WWalk G.get (source u) 0 u 0 := by simp [WWalk, source]
      have h1 : WWalk G.get (source u) 1 u w := ⟨u, 0, w, h0, hg, by omega⟩
      have hw : w = 0 := by
        have := hno 1 w h1
        have := hl u w hg
        omega
      subst hw
      have hr : D.get u u = some 0 :=
        (d5 u (by rw [hg]; simp) 0).2 ⟨⟨0, h1⟩, fun k x hx => hno (k + 1) x hx⟩
      refine ⟨⟨fun e => by (rw [hr] at e; cases e), fun e => absurd ⟨0, 0, h0⟩ e⟩, ?_⟩
      intro x
      rw [hr]
      constructor
      · intro e; cases e; exact ⟨⟨0, h0⟩, hno⟩
      · rintro ⟨⟨k, hk⟩, hmin⟩
        have := hno k x hk
        have := hmin 0 0 h0
        congr 1; omega

/-- Small weights are good arguments. -/
theorem ApspInput.of_small {t : ITy} {G : Lil Int} (hG : G.WF) (h1 : G.ncols = G.nrows) (B : Nat)
    (hw : ∀ u v w, G.get u v = some w → -B ≤ w ∧ w ≤ B ∧ t.Has w)
    (hB : ∀ x : Int, -(2 * G.nrows * B : Nat) ≤ x → x ≤ (2 * G.nrows * B : Nat) → t.Has x) :
    ApspInput t G := by
  refine ⟨hG, h1, fun u v w h => (hw u v w h).2.2, ?_⟩
  intro u _ k v x hk h
  have := walks_small (S := source u) (fun v x h => by
    unfold source at h; split at h
    · cases h; rfl
    · cases h) (fun u v w h => ⟨(hw u v w h).1, (hw u v w h).2.1⟩) (2 * G.nrows) k v x hk h
  exact hB x this.1 this.2

/-- A graph with nonnegative weights has no negative cycle. -/
theorem noNeg_of_nonneg {W : Mat Int} (hW : ∀ u v w, W u v = some w → 0 ≤ w) : ¬ HasNegCycle W := by
  rintro ⟨v, k, c, h, hc⟩
  have key : ∀ k u x, WWalk W (source v) k u x → 0 ≤ x := by
    intro k
    induction k with
    | zero =>
      intro u x h
      simp only [WWalk, source] at h
      split at h
      · cases h; omega
      · cases h
    | succ k ih =>
      rintro u x ⟨a, y, w, h1, h2, rfl⟩
      have := ih a y h1
      have := hW a u w h2
      omega
  have := key k v c h
  omega

/-- **C37 is false as stated**: for the one-vertex graph with a self-loop of weight 7,
`apsp` returns 7 as the distance of the vertex from itself. -/
theorem C37_self_loop_wrong :
    ∃ (G D : Lil Int), ApspInput .i32 G ∧ ¬ HasNegCycle G.get ∧ apsp .i32 (fun _ _ => 0) G = .ok D ∧
      IsDist G.get (source 0) 0 0 ∧ D.get 0 0 = some 7 := by
  have hw : ∀ u v w, Lil.get ⟨1, 1, 1, [[(0, (7 : Int))]]⟩ u v = some w → 0 ≤ w ∧ w ≤ 7 := by
    intro u v w h
    exact Ex.get_chk (A := ⟨1, 1, 1, [[(0, (7 : Int))]]⟩) (Lil.wf_chk (by decide))
      (P := fun w => 0 ≤ w ∧ w ≤ 7) (by decide) h
  refine ⟨⟨1, 1, 1, [[(0, 7)]]⟩, ⟨1, 1, 1, [[(0, 7)]]⟩, ?_, ?_, by decide +kernel, ?_, rfl⟩
  · refine ApspInput.of_small (Lil.wf_chk (by decide)) rfl 7 ?_ ?_
    · intro u v w h
      have := hw u v w h
      exact ⟨by omega, by omega, by show (-2147483648 : Int) ≤ w; omega, by show w ≤ (2147483647 : Int); omega⟩
    · intro x h1 h2
      have h1 : -(14 : Nat) ≤ x := h1
      have h2 : x ≤ (14 : Nat) := h2
      exact ⟨by show (-2147483648 : Int) ≤ x; omega, by show x ≤ (2147483647 : Int); omega⟩
  · exact noNeg_of_nonneg fun u v w h => (hw u v w h).1
  · refine ⟨⟨0, by simp [WWalk, source]⟩, ?_⟩
    intro k x h
    apply Int.not_lt.1
    intro hneg
    exact noNeg_of_nonneg (fun u v w h => (hw u v w h).1) ⟨0, k, x, h, hneg⟩

/-- A loop of weight 7 at the first of two vertices that are joined both ways. -/
example : ApspInput .i32 ⟨2, 2, 3, [[(0, 7), (1, 2)], [(0, 3)]]⟩ ∧
    ¬ HasNegCycle (Lil.get (α := Int) ⟨2, 2, 3, [[(0, 7), (1, 2)], [(0, 3)]]⟩) ∧
    apsp .i32 (fun _ _ => 0) ⟨2, 2, 3, [[(0, 7), (1, 2)], [(0, 3)]]⟩ =
      .ok ⟨2, 2, 4, [[(0, 5), (1, 2)], [(0, 3), (1, 0)]]⟩ := by
  have hw : ∀ u v w, Lil.get (α := Int) ⟨2, 2, 3, [[(0, 7), (1, 2)], [(0, 3)]]⟩ u v = some w → 0 ≤ w ∧ w ≤ 7 := by
    intro u v w h
    exact Ex.get_chk (A := ⟨2, 2, 3, [[(0, 7), (1, 2)], [(0, 3)]]⟩) (Lil.wf_chk (by decide))
      (P := fun w => 0 ≤ w ∧ w ≤ 7) (by decide) h
  refine ⟨ApspInput.of_small (Lil.wf_chk (by decide)) rfl 7 ?_ ?_,
    noNeg_of_nonneg fun u v w h => (hw u v w h).1, by decide +kernel⟩
  · intro u v w h
    have := hw u v w h
    exact ⟨by omega, by omega, by show (-2147483648 : Int) ≤ w; omega, by show w ≤ (2147483647 : Int); omega⟩
  · intro x h1 h2
    have h1 : -(28 : Nat) ≤ x := h1
    have h2 : x ≤ (28 : Nat) := h2
    exact ⟨by show (-2147483648 : Int) ≤ x; omega, by show x ≤ (2147483647 : Int); omega⟩

example : ApspInput .i32 Ex.wg ∧ ¬ HasNegCycle Ex.wg.get ∧ (∀ u w, Ex.wg.get u u = some w → w ≤ 0) ∧
    apsp .i32 (fun _ _ => 0) Ex.wg = .ok ⟨3, 3, 6, [[(0, 0), (1, -2), (2, 2)], [(1, 0)], [(1, -4), (2, 0)]]⟩ := by
  have hget : ∀ u v w, Ex.wg.get u v = some w → (u = 0 ∧ v = 1 ∧ w = 5) ∨ (u = 0 ∧ v = 2 ∧ w = 2) ∨
      (u = 2 ∧ v = 1 ∧ w = -4) := by
    intro u v w h
    obtain ⟨h1, h2⟩ := edge_lt Ex.wg_input.graph (u := u) (v := v) (by simp [Edge, h])
    have h1 : u < 3 := h1
    have h2 : v < 3 := h2
    have hu : u = 0 ∨ u = 1 ∨ u = 2 := by omega
    have hv : v = 0 ∨ v = 1 ∨ v = 2 := by omega
    rcases hu with rfl | rfl | rfl <;> rcases hv with rfl | rfl | rfl <;>
      first
        | (have e : some w = none := h.symm; cases e; done)
        | (left; refine ⟨rfl, rfl, ?_⟩; have e : some w = some 5 := h.symm; cases e; rfl; done)
        | (right; left; refine ⟨rfl, rfl, ?_⟩; have e : some w = some 2 := h.symm; cases e; rfl; done)
        | (right; right; refine ⟨rfl, rfl, ?_⟩; have e : some w = some (-4) := h.symm; cases e; rfl)
  refine ⟨?_, ?_, ?_, by decide +kernel⟩
  · refine ApspInput.of_small Ex.wg_input.graph rfl 5 ?_ ?_
    · intro u v w h
      have := hget u v w h
      exact ⟨by omega, by omega, by show (-2147483648 : Int) ≤ w; omega, by show w ≤ (2147483647 : Int); omega⟩
    · intro x h1 h2
      have h1 : -(30 : Nat) ≤ x := h1
      have h2 : x ≤ (30 : Nat) := h2
      exact ⟨by show (-2147483648 : Int) ≤ x; omega, by show x ≤ (2147483647 : Int); omega⟩
  · rintro ⟨v, k, c, h, hc⟩
    -- every edge goes up in the order 0, 2, 1
    have key : ∀ k u x, WWalk Ex.wg.get (source v) k u x → (k = 0 ∧ x = 0) ∨ (v = 0 ∧ (u = 1 ∨ u = 2)) ∨
        (v = 2 ∧ u = 1) := by
      intro k
      induction k with
      | zero =>
        intro u x h
        simp only [WWalk, source] at h
        split at h
        · cases h; omega
        · cases h
      | succ k ih =>
        rintro u x ⟨a, y, w, h1, h2, rfl⟩
        have h3 := ih a y h1
        have h4 := hget a u w h2
        rcases h3 with ⟨rfl, rfl⟩ | h3 | h3
        · simp only [WWalk, source] at h1
          split at h1
          · omega
          · cases h1
        · omega
        · omega
    have := key k v c h
    omega
  · intro u w h
    have := hget u u w h
    omega

end GBTL

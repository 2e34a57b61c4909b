import Verif.Lemmas.Sssp
/-
C34, C35, C36: single-source shortest paths.
-/
namespace GBTL
open Spec

/-- What a graph, a start vector and their scalar type must satisfy: a consistent
square graph and a consistent vector of the same size, stored values of the scalar
type, and no walk of at most as many edges as there are vertices has a weight that
is not a value of the type. -/
structure PathInput (t : ITy) (G : Lil Int) (dist : BVec Int) : Prop where
  graph : G.WF
  start : dist.WF
  rows : G.nrows = dist.size
  cols : G.ncols = dist.size
  size : dist.size < 2 ^ 64
  weights : ∀ u v w, G.get u v = some w → t.Has w
  walks : WalksWithin G.get dist.get dist.size t.Has

theorem PathInput.verts {t : ITy} {G : Lil Int} {dist : BVec Int} (h : PathInput t G dist) :
    Verts G.get dist.get dist.size := by
  refine ⟨fun v hv => vec_some_lt h.start hv, ?_⟩
  intro u v he
  have : Edge G.get u v := by
    cases hg : G.get u v with
    | none => exact absurd hg he
    | some w => simp [Edge, hg]
  obtain ⟨h1, h2⟩ := edge_lt h.graph this
  exact ⟨by rw [← h.rows]; exact h1, by rw [← h.cols]; exact h2⟩

/-- One call of `vxm` in `sssp`. -/
theorem relax_spec {t : ITy} {ov : Int → Int → Int} {G : Lil Int} {d : BVec Int} (hG : G.WF)
    (hd : d.WF) (h1 : G.nrows = d.size) (h2 : G.ncols = d.size) (ho : NoOver t d.get G.get) :
    ∃ d', relax t ov G d = .ok d' ∧ d'.WF ∧ d'.size = d.size ∧ Relaxed G.get d.get d'.get := by
  obtain ⟨d', e, y⟩ := C11_vxm (o := minOut t d) (sr := minPlusT t ov) (u := d) (A := .plain G)
    ⟨hd, noMaskOK⟩ hd hG ⟨noMaskFits, h2.symm, h1.symm⟩
  refine ⟨d', by rw [relax, e, exec_done], y.wf, y.size, ?_⟩
  refine relaxed_of (n := d.size) (ov := ov) ho (fun u hu => vec_some_lt hd hu) ?_ ?_ ?_
  · intro u v he
    rw [← h2]
    refine (edge_lt hG (u := u) ?_).2
    cases hg : G.get u v with
    | none => exact absurd hg he
    | some w => simp [Edge, hg]
  · intro v hv
    rw [y.get v hv]
    simp only [minOut, VMask.allows, Spec.write, if_true, Option.map_id, id]
    rfl
  · intro v hv
    exact y.wf.get_none (by rw [y.size]; exact hv)

/-- The rounds of `sssp`. -/
theorem rounds_spec {t : ITy} {ov : Int → Int → Int} {G : Lil Int} {dist : BVec Int}
    (h : PathInput t G dist) (m : Nat) (hm : m ≤ dist.size) :
    ∃ d, forP m dist (fun _ d => relax t ov G d) = .ok d ∧ d.WF ∧ d.size = dist.size ∧
      Best G.get dist.get m d.get := by
  obtain ⟨d, e, a, b, c⟩ := forP_inv (b := fun _ d => relax t ov G d)
    (fun k d => d.WF ∧ d.size = dist.size ∧ Best G.get dist.get k d.get) m dist
    ⟨h.start, rfl, Best.zero⟩ (by
      intro i s hi ⟨a, b, c⟩
      obtain ⟨d', e, a', b', c'⟩ := relax_spec (t := t) (ov := ov) h.graph a (h.rows.trans b.symm)
        (h.cols.trans b.symm) (c.noOver h.weights h.walks (by omega))
      exact ⟨d', e, a', b'.trans b, c.step c'⟩)
  exact ⟨d, e, a, b, c⟩

/-- Reading the flags of a vector. -/
theorem any_false {flags : BVec Bool} :
    ((flags.bitmap.zip flags.vals).any fun p => p.1 && !p.2) = true ↔ ∃ i, flags.get i = some false := by
  rw [List.any_eq_true]
  constructor
  · rintro ⟨p, hp, h⟩
    obtain ⟨i, hi⟩ := List.mem_iff_getElem?.1 hp
    obtain ⟨b, v⟩ := p
    rw [List.getElem?_zip_eq_some] at hi
    simp only [Bool.and_eq_true, Bool.not_eq_true'] at h
    obtain ⟨rfl, rfl⟩ := h
    exact ⟨i, by rw [BVec.get, if_pos hi.1, hi.2]⟩
  · rintro ⟨i, h⟩
    rw [BVec.get] at h
    split at h
    · rename_i hb
      exact ⟨(true, false), List.mem_iff_getElem?.2 ⟨i, List.getElem?_zip_eq_some.2 ⟨hb, h⟩⟩, rfl⟩
    · cases h

theorem pred64_eq {n : Nat} (h0 : 0 < n) (h : n < 2 ^ 64) : pred64 n = n - 1 := by
  unfold pred64; omega

/-- What `sssp` computes, with and without negative cycles: distances over walks of
fewer than `n` edges; the flag tells whether `n` edges would give the same. -/
theorem sssp_spec {t : ITy} {ov : Int → Int → Int} {G : Lil Int} {dist : BVec Int}
    (h : PathInput t G dist) (h0 : 0 < dist.size) :
    ∃ b d, sssp t ov G dist = .ok (b, d) ∧ d.WF ∧ d.size = dist.size ∧
      Best G.get dist.get (dist.size - 1) d.get ∧
      (b = true ↔ Best G.get dist.get dist.size d.get) := by
  obtain ⟨d, e, d1, d2, d3⟩ := rounds_spec (ov := ov) h (dist.size - 1) (by omega)
  obtain ⟨d', e', f1, f2, f3⟩ := relax_spec (t := t) (ov := ov) h.graph d1 (h.rows.trans d2.symm)
    (h.cols.trans d2.symm) (d3.noOver h.weights h.walks (by omega))
  have f4 := d3.step f3
  rw [show dist.size - 1 + 1 = dist.size by omega] at f4
  obtain ⟨fl, g1, g2, g3, g4⟩ := BVec.new_spec (α := Bool) (n := G.nrows) (by rw [h.rows]; omega)
  obtain ⟨fl', k1, k2⟩ := C14_eWiseMult_vector (o := vPlain id fl) (f := equalTest) (u := d) (v := d')
    (vPlain_wf g2) d1 f1 ⟨noMaskFits, by show fl.size = d.size; rw [g3, h.rows, d2], f2.symm⟩
  refine ⟨!((fl'.bitmap.zip fl'.vals).any fun p => p.1 && !p.2), d, ?_, d1, d2, d3, ?_⟩
  · rw [sssp, if_neg (by rw [h.rows, h.cols]; simp), pred64_eq (by rw [h.rows]; exact h0)
      (by rw [h.rows]; exact h.size), h.rows, e, prog_bind_ok, e', prog_bind_ok, ← h.rows, g1, lift_ok,
      prog_bind_ok, k1, exec_done, prog_bind_ok]
  · obtain ⟨y1, y2, y3⟩ := plain_yields k2
    rw [Bool.not_eq_true', Bool.eq_false_iff, Ne, any_false]
    have hflag : ∀ i x y, d.get i = some x → d'.get i = some y → fl'.get i = some (x == y) := by
      intro i x y hx hy
      have hi : i < fl.size := by
        have := vec_some_lt d1 (i := i) (by rw [hx]; simp)
        rw [g3, h.rows]; omega
      rw [y3 i hi, hx, hy]; rfl
    have hsupp : ∀ v, d.get v ≠ none ↔ d'.get v ≠ none := fun v =>
      (d3.reach h.verts (by omega) v).trans (f4.reach h.verts (by omega) v).symm
    constructor
    · intro hno
      have heq : ∀ v, d.get v = d'.get v := by
        intro v
        cases hd : d.get v with
        | none =>
          cases hd' : d'.get v with
          | none => rfl
          | some y => exact absurd hd ((hsupp v).2 (by rw [hd']; simp))
        | some x =>
          cases hd' : d'.get v with
          | none => exact absurd hd' ((hsupp v).1 (by rw [hd]; simp))
          | some y =>
            by_cases hxy : x = y
            · rw [hxy]
            · exact absurd ⟨v, by rw [hflag v x y hd hd']; simp [hxy]⟩ hno
      have : d.get = d'.get := funext heq
      rw [this]; exact f4
    · rintro hb ⟨i, hi⟩
      have heq := hb.unique f4 i
      have hil : i < fl.size := by
        have := vec_some_lt y1 (i := i) (by rw [hi]; simp)
        rw [y2] at this; exact this
      rw [y3 i hil, ← heq] at hi
      cases hd : d.get i with
      | none => rw [hd] at hi; simp [both] at hi
      | some x => rw [hd] at hi; simp [both, equalTest] at hi

/-- **C34.** `sssp` on a graph without a negative cycle that can be reached returns
`true`, and `dist(v)` is the minimum weight over all walks to `v`, nothing if there is
none. -/
theorem C34_sssp {t : ITy} {ov : Int → Int → Int} {G : Lil Int} {dist : BVec Int}
    (h : PathInput t G dist) (h0 : 0 < dist.size) (hc : ¬ NegCycle G.get dist.get) :
    ∃ d, sssp t ov G dist = .ok (true, d) ∧ d.WF ∧ d.size = dist.size ∧
      ∀ v, (d.get v = none ↔ ¬ WReach G.get dist.get v) ∧
        ∀ x, d.get v = some x ↔ IsDist G.get dist.get v x := by
  obtain ⟨b, d, e, h1, h2, h3, h4⟩ := sssp_spec (ov := ov) h h0
  have hb := Best.enough h.verts hc (by omega) h3
  have : b = true := h4.2 (hb _ (by omega))
  subst this
  exact ⟨d, e, h1, h2, Best.dist hb⟩

/-- **C35.** `sssp` returns `false` if and only if a cycle of negative total weight
can be reached. -/
theorem C35_sssp_negative {t : ITy} {ov : Int → Int → Int} {G : Lil Int} {dist : BVec Int}
    (h : PathInput t G dist) (h0 : 0 < dist.size) :
    ∃ b d, sssp t ov G dist = .ok (b, d) ∧ (b = false ↔ NegCycle G.get dist.get) := by
  obtain ⟨b, d, e, h1, h2, h3, h4⟩ := sssp_spec (ov := ov) h h0
  refine ⟨b, d, e, ?_, ?_⟩
  · intro hb
    apply Classical.byContradiction
    intro hc
    have := h4.2 (Best.enough h.verts hc (by omega) h3 _ (by omega))
    rw [hb] at this; cases this
  · intro hc
    cases b with
    | false => rfl
    | true =>
      have h5 := h4.1 rfl
      exact (Best.no_fix hc (h3.fix (by rw [show dist.size - 1 + 1 = dist.size by omega]; exact h5))).elim

/-! ### concrete graphs -/

/-- Small weights give small walks. -/
theorem walks_small {W : Mat Int} {S : Vec Int} {B : Nat} (hS : ∀ v x, S v = some x → x = 0)
    (hW : ∀ u v w, W u v = some w → -B ≤ w ∧ w ≤ B) (m : Nat) :
    WalksWithin W S m (fun x => -(m * B : Nat) ≤ x ∧ x ≤ (m * B : Nat)) := by
  have key : ∀ k v x, WWalk W S k v x → -(k * B : Nat) ≤ x ∧ x ≤ (k * B : Nat) := by
    intro k
    induction k with
    | zero => intro v x h; have := hS v x h; subst this; simp
    | succ k ih =>
      rintro v x ⟨u, y, w, h1, h2, rfl⟩
      have a := ih u y h1
      have b := hW u v w h2
      rw [Nat.add_mul]
      omega
  intro k v x hk h
  have a := key k v x h
  have : k * B ≤ m * B := Nat.mul_le_mul_right B hk
  omega

/-- Arguments of the shortest path functions with small weights. -/
theorem PathInput.of_small {t : ITy} {G : Lil Int} {dist : BVec Int} (hG : G.WF) (hd : dist.WF)
    (h1 : G.nrows = dist.size) (h2 : G.ncols = dist.size) (h3 : dist.size < 2 ^ 64)
    (hs : ∀ v x, dist.get v = some x → x = 0) (B : Nat)
    (hw : ∀ u v w, G.get u v = some w → -B ≤ w ∧ w ≤ B ∧ t.Has w)
    (hB : ∀ x : Int, -(dist.size * B : Nat) ≤ x → x ≤ (dist.size * B : Nat) → t.Has x) :
    PathInput t G dist := by
  refine ⟨hG, hd, h1, h2, h3, fun u v w h => (hw u v w h).2.2, ?_⟩
  intro k v x hk h
  have := walks_small hs (fun u v w h => ⟨(hw u v w h).1, (hw u v w h).2.1⟩) dist.size k v x hk h
  exact hB x this.1 this.2

namespace Ex

/-- 0 →(5) 1, 0 →(2) 2, 2 →(-4) 1. -/
def wg : Lil Int := { nrows := 3, ncols := 3, nvals := 3, rows := [[(1, 5), (2, 2)], [], [(1, -4)]] }
/-- The same with an edge 1 →(1) 2: a cycle of weight -3. -/
def wgNeg : Lil Int :=
  { nrows := 3, ncols := 3, nvals := 4, rows := [[(1, 5), (2, 2)], [(2, 1)], [(1, -4)]] }
/-- Vertex 0 at distance zero. -/
def from0 : BVec Int := { size := 3, nvals := 1, vals := [0, 0, 0], bitmap := [true, false, false] }

theorem get_chk {A : Lil Int} (hA : A.WF) {P : Int → Prop} (h : ∀ r ∈ A.rows, ∀ p ∈ r, P p.2) {u v : Nat} {w : Int}
    (hw : A.get u v = some w) : P w := by
  unfold Lil.get Lil.rowD at hw
  cases hr : A.rows[u]? with
  | none => rw [hr] at hw; cases hw
  | some r =>
    rw [hr] at hw
    have hm := List.mem_of_getElem? hr
    have := (Row.get_eq_some_iff (hA.rowOK r hm).sorted).1 hw
    exact h r hm _ this

theorem from0_zero (v : Nat) (x : Int) (h : from0.get v = some x) : x = 0 := by
  match v with
  | 0 => simp [BVec.get, from0] at h; exact h.symm
  | 1 => simp [BVec.get, from0] at h
  | 2 => simp [BVec.get, from0] at h
  | v + 3 => simp [BVec.get, from0] at h

theorem wg_input : PathInput .i32 wg from0 := by
  refine PathInput.of_small (Lil.wf_chk (by decide)) ⟨rfl, rfl, rfl⟩ rfl rfl (by decide) from0_zero 5 ?_ ?_
  · intro u v w h
    exact get_chk (Lil.wf_chk (by decide)) (P := fun w => -(5 : Nat) ≤ w ∧ w ≤ (5 : Nat) ∧ ITy.Has .i32 w)
      (by decide) h
  · intro x h1 h2
    have e : from0.size * 5 = 15 := rfl
    rw [e] at h1 h2
    constructor
    · show (-2147483648 : Int) ≤ x; omega
    · show x ≤ (2147483647 : Int); omega

theorem wgNeg_input : PathInput .i32 wgNeg from0 := by
  refine PathInput.of_small (Lil.wf_chk (by decide)) ⟨rfl, rfl, rfl⟩ rfl rfl (by decide) from0_zero 5 ?_ ?_
  · intro u v w h
    exact get_chk (Lil.wf_chk (by decide)) (P := fun w => -(5 : Nat) ≤ w ∧ w ≤ (5 : Nat) ∧ ITy.Has .i32 w)
      (by decide) h
  · intro x h1 h2
    have e : from0.size * 5 = 15 := rfl
    rw [e] at h1 h2
    constructor
    · show (-2147483648 : Int) ≤ x; omega
    · show x ≤ (2147483647 : Int); omega

end Ex

/-- The hypotheses of C34 hold of `wg`: its result `true` also shows, by C35, that it
has no negative cycle. -/
example : PathInput .i32 Ex.wg Ex.from0 ∧ 0 < Ex.from0.size ∧ ¬ NegCycle Ex.wg.get Ex.from0.get ∧
    sssp .i32 (fun _ _ => 0) Ex.wg Ex.from0
      = .ok (true, { size := 3, nvals := 3, vals := [0, -2, 2], bitmap := [true, true, true] }) := by
  have e : sssp .i32 (fun _ _ => 0) Ex.wg Ex.from0
      = .ok (true, { size := 3, nvals := 3, vals := [0, -2, 2], bitmap := [true, true, true] }) := by
    decide +kernel
  refine ⟨Ex.wg_input, by decide, ?_, e⟩
  obtain ⟨b, d, h1, h2⟩ := C35_sssp_negative (ov := fun _ _ => 0) Ex.wg_input (by decide)
  rw [e] at h1; cases h1
  exact fun h => Bool.noConfusion (h2.2 h)

example : PathInput .i32 Ex.wgNeg Ex.from0 ∧ NegCycle Ex.wgNeg.get Ex.from0.get ∧
    (sssp .i32 (fun _ _ => 0) Ex.wgNeg Ex.from0).map (fun r => r.1) = .ok false := by
  refine ⟨Ex.wgNeg_input, ?_, by decide +kernel⟩
  refine ⟨1, ⟨1, 5, 0, 0, 5, rfl, rfl, rfl⟩, 2, -3, ⟨2, 1, -4, ⟨1, 0, 1, ?_, rfl, rfl⟩, rfl, rfl⟩, by decide⟩
  rfl

/-! ### filtered_sssp -/

/-- Between the rounds of `filtered_sssp`, `i` rounds done: the distances over walks of
at most `i` edges; `new_dist` holds those whose outgoing edges have not been used. -/
structure FiltOK (W : Mat Int) (S : Vec Int) (n i : Nat) (s : FiltSt) : Prop where
  dwf : s.dist.WF
  dsize : s.dist.size = n
  nwf : s.newDist.WF
  nsize : s.newDist.size = n
  fwf : s.flags.WF
  fsize : s.flags.size = n
  best : Best W S i s.dist.get
  sub : ∀ v x, s.newDist.get v = some x → s.dist.get v = some x
  settled : ∀ u v y w, s.dist.get u = some y → s.newDist.get u = none → W u v = some w →
    ∃ z, s.dist.get v = some z ∧ z ≤ y + w

/-- The walks of weight zero with at least one edge lead to start vertices only. -/
def NoZeroWalk (W : Mat Int) (S : Vec Int) : Prop := ∀ k v, WWalk W S (k + 1) v 0 → S v ≠ none

/-- After the probing half of a round: `new_dist` holds the improvements. -/
structure Probed (W : Mat Int) (s s' : FiltSt) : Prop where
  same : s'.dist = s.dist
  left : s'.left = s.left
  nwf : s'.newDist.WF
  nsize : s'.newDist.size = s.dist.size
  fwf : s'.flags.WF
  fsize : s'.flags.size = s.dist.size
  from_ : ∀ v x, s'.newDist.get v = some x →
    (∃ u y w, s.dist.get u = some y ∧ W u v = some w ∧ x = y + w) ∧ ∀ y, s.dist.get v = some y → x < y
  edge : ∀ u v y w, s.dist.get u = some y → W u v = some w →
    (∃ z, s.dist.get v = some z ∧ z ≤ y + w) ∨ ∃ z, s'.newDist.get v = some z ∧ z ≤ y + w

theorem filtProbe_spec {t : ITy} {ov : Int → Int → Int} {G : Lil Int} {dist : BVec Int}
    (h : PathInput t G dist) (hz : NoZeroWalk G.get dist.get) {i : Nat} (hi : i < dist.size) {s : FiltSt}
    (hs : FiltOK G.get dist.get dist.size i s) :
    ∃ s', filtProbe t ov G s = .ok s' ∧ Probed G.get s s' := by
  have hov := hs.best.noOver h.weights h.walks hi
  have hovN : NoOver t s.newDist.get G.get :=
    ⟨fun v x hx => hov.1 v x (hs.sub v x hx), fun u v y w hu => hov.2 u v y w (hs.sub u y hu)⟩
  obtain ⟨nd, e1, y1⟩ := C11_vxm (o := vPlain id s.newDist) (sr := minPlusT t ov) (u := s.newDist)
    (A := .plain G) (vPlain_wf hs.nwf) hs.nwf h.graph
    ⟨noMaskFits, by show s.newDist.size = G.ncols; rw [hs.nsize, h.cols],
      by show s.newDist.size = G.nrows; rw [hs.nsize, h.rows]⟩
  obtain ⟨n1, n2, n3⟩ := plain_yields y1
  have n2' : nd.size = dist.size := n2.trans hs.nsize
  have n3' : ∀ v, v < dist.size → nd.get v = Spec.vxm dist.size t.minT (t.plusT ov) s.newDist.get G.get v := by
    intro v hv
    rw [n3 v (by rw [hs.nsize]; exact hv), Option.map_id, hs.nsize]
    rfl
  obtain ⟨fl, e2, y2⟩ := C13_eWiseAdd_vector (o := flagOut s.flags nd) (f := ewLess t) (u := nd) (v := s.dist)
    ⟨hs.fwf, maskOK n1⟩ n1 hs.dwf
    ⟨maskFits (n2'.trans hs.fsize.symm), hs.fsize.trans n2'.symm, n2'.trans hs.dsize.symm⟩
  have f2 : fl.size = dist.size := y2.size.trans hs.fsize
  have f3 : ∀ v, v < dist.size → fl.get v =
      match nd.get v with
      | none => none
      | some x => some (match s.dist.get v with | none => isTrue x | some y => t.lessT x y) := by
    intro v hv
    have := y2.get v (by show v < s.flags.size; rw [hs.fsize]; exact hv)
    rw [this]
    cases hn : nd.get v with
    | none => simp [flagOut, VMask.allows, Spec.write, Spec.accum, Spec.allows, hn]
    | some x =>
      cases hd : s.dist.get v <;>
        simp [flagOut, VMask.allows, Spec.write, Spec.accum, Spec.allows, hn, hd, either, ewLess]
  obtain ⟨nd', e3, y3⟩ := C15_apply_vector (o := keepOut nd fl) (f := id) (u := nd) ⟨n1, maskOK y2.wf⟩ n1
    ⟨maskFits (f2.trans n2'.symm), rfl⟩
  have g3 : ∀ v, v < dist.size → nd'.get v = if fl.get v = some true then nd.get v else none := by
    intro v hv
    have := y3.get v (by show v < nd.size; rw [n2']; exact hv)
    rw [this]
    cases hf : fl.get v with
    | none => simp [keepOut, VMask.allows, Spec.write, Spec.accum, Spec.allows, hf]
    | some b => cases b <;> simp [keepOut, VMask.allows, Spec.write, Spec.accum, Spec.allows, hf]
  have g2 : nd'.size = dist.size := y3.size.trans n2'
  have hlt : ∀ v x, nd'.get v = some x → v < dist.size := by
    intro v x hx
    rw [← g2]; exact vec_some_lt y3.wf (by rw [hx]; simp)
  have hnd : ∀ v x, v < dist.size → nd.get v = some x →
      (∃ u y w, s.newDist.get u = some y ∧ G.get u v = some w ∧ x = y + w) ∧ t.Has x := by
    intro v x hv hx
    rw [n3' v hv] at hx
    obtain ⟨⟨u, y, w, -, a, b, c⟩, d⟩ := (minplus_spec hovN).1 x hx
    exact ⟨⟨u, y, w, a, b, c⟩, d⟩
  refine ⟨{ s with newDist := nd', flags := fl }, ?_, ⟨rfl, rfl, y3.wf, g2.trans hs.dsize.symm, y2.wf,
    f2.trans hs.dsize.symm, ?_, ?_⟩⟩
  · rw [filtProbe, e1, exec_done, prog_bind_ok, e2, exec_done, prog_bind_ok, e3, exec_done, prog_bind_ok]
  · intro v x hx
    have hv := hlt v x hx
    rw [show ({ s with newDist := nd', flags := fl } : FiltSt).newDist.get v = nd'.get v from rfl, g3 v hv] at hx
    split at hx
    · rename_i hf
      obtain ⟨⟨u, y, w, a, b, c⟩, hhas⟩ := hnd v x hv hx
      refine ⟨⟨u, y, w, hs.sub u y a, b, c⟩, ?_⟩
      intro z hz'
      rw [f3 v hv, hx, hz'] at hf
      simp only [Option.some.injEq] at hf
      rw [ITy.lessT_eq hhas (hov.1 v z hz')] at hf
      exact of_decide_eq_true hf
    · cases hx
  · intro u v y w hu hw
    have hv : v < dist.size := (h.verts.2 u v (by rw [hw]; simp)).2
    have hun : u < dist.size := (h.verts.2 u v (by rw [hw]; simp)).1
    cases hN : s.newDist.get u with
    | none => exact Or.inl (hs.settled u v y w hu hN hw)
    | some y' =>
      have : y' = y := by
        have := hs.sub u y' hN
        rw [hu] at this; cases this; rfl
      subst this
      obtain ⟨z, z1, z2⟩ := (minplus_spec (ov := ov) (n := dist.size) hovN).2 u y' w hun hN hw
      rw [← n3' v hv] at z1
      obtain ⟨⟨u', y2', w', a, b, c⟩, hhas⟩ := hnd v z hv z1
      cases hd : s.dist.get v with
      | none =>
        right
        refine ⟨z, ?_, z2⟩
        show nd'.get v = some z
        rw [g3 v hv, f3 v hv, z1, hd, if_pos]
        simp only [Option.some.injEq, isTrue, bne_iff_ne, ne_eq]
        intro h0
        subst h0
        obtain ⟨j, hj, hw'⟩ := hs.best.walk u' y2' (hs.sub u' y2' a)
        have hS := hz j v ⟨u', y2', w', hw', b, by omega⟩
        cases hsv : dist.get v with
        | none => exact hS hsv
        | some q =>
          obtain ⟨q', q1, -⟩ := hs.best.least 0 v q (Nat.zero_le _) hsv
          rw [hd] at q1; cases q1
      | some q =>
        rcases Int.lt_or_le z q with hlt' | hge
        · right
          refine ⟨z, ?_, z2⟩
          show nd'.get v = some z
          rw [g3 v hv, f3 v hv, z1, hd, if_pos]
          simp only [Option.some.injEq]
          rw [ITy.lessT_eq hhas (hov.1 v q hd)]
          exact decide_eq_true hlt'
        · exact Or.inl ⟨q, rfl, by omega⟩

theorem filtUpdate_spec {t : ITy} {G : Lil Int} {dist : BVec Int}
    (h : PathInput t G dist) {i : Nat} (hi : i < dist.size) {s s' : FiltSt}
    (hs : FiltOK G.get dist.get dist.size i s) (p : Probed G.get s s') :
    ∃ r, filtUpdate t s' = .ok r ∧ FiltOK G.get dist.get dist.size (i + 1) r ∧ r.left = s.left - 1 := by
  have hov := hs.best.noOver h.weights h.walks hi
  have hh : ∀ v x, s'.newDist.get v = some x → t.Has x := by
    intro v x hx
    obtain ⟨⟨u, y, w, a, b, rfl⟩, -⟩ := p.from_ v x hx
    exact (hov.2 u v y w a b).2
  obtain ⟨d, e, y⟩ := C13_eWiseAdd_vector (o := vPlain id s'.dist) (f := ewMin t) (u := s'.newDist)
    (v := s'.dist) (vPlain_wf (by rw [p.same]; exact hs.dwf)) p.nwf (by rw [p.same]; exact hs.dwf)
    ⟨noMaskFits, by show s'.dist.size = _; rw [p.same, p.nsize], by rw [p.same, p.nsize]⟩
  obtain ⟨d1, d2, d3⟩ := plain_yields y
  rw [p.same] at d2 d3
  have d2' : d.size = dist.size := d2.trans hs.dsize
  have d3' : ∀ v, d.get v = either min id id (s'.newDist.get v) (s.dist.get v) := by
    intro v
    rcases Nat.lt_or_ge v dist.size with hv | hv
    · rw [d3 v (by rw [hs.dsize]; exact hv), Option.map_id]
      cases hn : s'.newDist.get v with
      | none => cases s.dist.get v <;> rfl
      | some x =>
        cases hd : s.dist.get v with
        | none => rfl
        | some y =>
          show some (t.minT x y) = some (min x y)
          rw [ITy.minT_eq (hh v x hn) (hov.1 v y hd)]
    · rw [d1.get_none (by omega), p.nwf.get_none (by rw [p.nsize, hs.dsize]; exact hv),
        hs.dwf.get_none (by rw [hs.dsize]; exact hv)]
      rfl
  have hkeep : ∀ v x, s.dist.get v = some x → ∃ y, d.get v = some y ∧ y ≤ x := by
    intro v x hx
    rw [d3', hx]
    cases s'.newDist.get v with
    | none => exact ⟨x, rfl, Int.le_refl _⟩
    | some z => exact ⟨min z x, rfl, by omega⟩
  have hsub : ∀ v x, s'.newDist.get v = some x → d.get v = some x := by
    intro v x hx
    rw [d3', hx]
    cases hd : s.dist.get v with
    | none => rfl
    | some y =>
      have := (p.from_ v x hx).2 y hd
      show some (min x y) = some x
      congr 1; omega
  have hedge : ∀ u v y w, s.dist.get u = some y → G.get u v = some w → ∃ z, d.get v = some z ∧ z ≤ y + w := by
    intro u v y w hu hw
    rcases p.edge u v y w hu hw with ⟨z, z1, z2⟩ | ⟨z, z1, z2⟩
    · obtain ⟨q, q1, q2⟩ := hkeep v z z1
      exact ⟨q, q1, by omega⟩
    · exact ⟨z, hsub v z z1, z2⟩
  refine ⟨{ s' with dist := d, left := s'.left - 1 }, by rw [filtUpdate, e, exec_done, prog_bind_ok], ?_,
    by show s'.left - 1 = _; rw [p.left]⟩
  refine ⟨d1, d2', p.nwf, p.nsize.trans hs.dsize, p.fwf, p.fsize.trans hs.dsize, ?_, hsub, ?_⟩
  · refine hs.best.step ⟨?_, hkeep, hedge⟩
    intro v x hx
    rw [show ({ s' with dist := d, left := s'.left - 1 } : FiltSt).dist.get v = d.get v from rfl, d3'] at hx
    cases hn : s'.newDist.get v with
    | none =>
      rw [hn] at hx
      left
      cases hd : s.dist.get v with
      | none => rw [hd] at hx; cases hx
      | some y => rw [hd] at hx; exact hx
    | some z =>
      have := hsub v z hn
      rw [d3'] at this
      rw [this] at hx; cases hx
      exact Or.inr (p.from_ v x hn).1
  · intro u v y w hu hn hw
    refine hedge u v y w ?_ hw
    rw [show ({ s' with dist := d, left := s'.left - 1 } : FiltSt).dist.get u = d.get u from rfl, d3',
      show s'.newDist.get u = none from hn] at hu
    cases hd : s.dist.get u with
    | none => rw [hd] at hu; cases hu
    | some z => rw [hd] at hu; exact hu

theorem filtLoop_spec {t : ITy} {ov : Int → Int → Int} {G : Lil Int} {dist : BVec Int}
    (h : PathInput t G dist) (hz : NoZeroWalk G.get dist.get) :
    ∀ (k i : Nat) (s : FiltSt), i + k = dist.size → s.left = k →
      FiltOK G.get dist.get dist.size i s →
      (k = 0 → NegCycle G.get dist.get) →
      ∃ r, filtLoop t ov G k s = .ok r ∧ r.dist.WF ∧ r.dist.size = dist.size ∧
        (0 < r.left → ∃ m, ∀ j, m ≤ j → Best G.get dist.get j r.dist.get) ∧
        (r.left = 0 → NegCycle G.get dist.get) := by
  intro k
  induction k with
  | zero =>
    intro i s _ hl hs hc
    exact ⟨s, rfl, hs.dwf, hs.dsize, by intro h; omega, fun _ => hc rfl⟩
  | succ k ih =>
    intro i s hik hl hs _
    obtain ⟨s', e, p⟩ := filtProbe_spec (ov := ov) h hz (by omega) hs
    rw [filtLoop, e, prog_bind_ok]
    by_cases hn : s'.newDist.nvals = 0
    · rw [if_pos hn]
      have hnone := none_of_nvals p.nwf hn
      refine ⟨s', rfl, by rw [p.same]; exact hs.dwf, by rw [p.same]; exact hs.dsize, ?_, by rw [p.left]; omega⟩
      intro _
      rw [p.same]
      refine ⟨i, hs.best.fix (hs.best.step ⟨fun v x hx => Or.inl hx, fun v x hx => ⟨x, hx, Int.le_refl _⟩, ?_⟩)⟩
      intro u v y w hu hw
      rcases p.edge u v y w hu hw with h1 | ⟨z, z1, -⟩
      · exact h1
      · rw [hnone v] at z1; cases z1
    · rw [if_neg hn]
      obtain ⟨r, e2, hr, hrl⟩ := filtUpdate_spec (t := t) h (by omega) hs p
      rw [e2, prog_bind_ok]
      refine ih (i + 1) r (by omega) (by omega) hr ?_
      intro hk
      apply Classical.byContradiction
      intro hc
      obtain ⟨v, x, -, hx⟩ := nonempty_of_nvals p.nwf (Nat.pos_of_ne_zero hn)
      have hb := Best.enough h.verts hc (by omega) hs.best (i + 1) (by omega)
      obtain ⟨⟨u, y, w, a, b, c⟩, hlt⟩ := p.from_ v x hx
      obtain ⟨j, hj, hw⟩ := hs.best.walk u y a
      obtain ⟨q, q1, q2⟩ := hb.least (j + 1) v x (by omega) ⟨u, y, w, hw, b, c⟩
      have := hlt q q1
      omega

/-- **C36**, proved part. If the walks of weight zero (with at least one edge) lead to
start vertices only, in particular if all weights are positive, then `filtered_sssp`
returns `false` exactly if a negative cycle can be reached, and otherwise the minimum
weight over all walks to each vertex. Missing: graphs where another vertex is first
reached at distance zero, see `C36_filtered_zero_wrong`. -/
theorem C36_filtered_sssp_partial {t : ITy} {ov : Int → Int → Int} {G : Lil Int} {dist : BVec Int}
    (h : PathInput t G dist) (h0 : 0 < dist.size) (hz : NoZeroWalk G.get dist.get) :
    ∃ b d, filteredSssp t ov G dist = .ok (b, d) ∧ d.WF ∧ d.size = dist.size ∧
      (b = false ↔ NegCycle G.get dist.get) ∧
      (b = true → ∀ v, (d.get v = none ↔ ¬ WReach G.get dist.get v) ∧
        ∀ x, d.get v = some x ↔ IsDist G.get dist.get v x) := by
  obtain ⟨fl, g1, g2, g3, g4⟩ := BVec.new_spec (α := Bool) (n := dist.size) (by omega)
  obtain ⟨r, e, r1, r2, r3, r4⟩ := filtLoop_spec (ov := ov) h hz dist.size 0
    { dist := dist, newDist := dist, flags := fl, left := dist.size } (by omega) rfl
    ⟨h.start, rfl, h.start, rfl, g2, g3, Best.zero, fun v x hx => hx,
      fun u v y w h1 h2 => by rw [show dist.get u = none from h2] at h1; cases h1⟩ (by intro h; omega)
  refine ⟨decide (0 < r.left), r.dist, ?_, r1, r2, ⟨?_, ?_⟩, ?_⟩
  · rw [filteredSssp, if_neg (by rw [h.rows, h.cols]; simp), g1, lift_ok, prog_bind_ok, h.rows, e,
      prog_bind_ok]
  · intro hb
    have := of_decide_eq_false hb
    exact r4 (by omega)
  · intro hc
    apply decide_eq_false
    intro hl
    obtain ⟨m, hm⟩ := r3 hl
    exact Best.no_fix hc hm
  · intro hb
    obtain ⟨m, hm⟩ := r3 (of_decide_eq_true hb)
    exact Best.dist hm

/-- Positive weights satisfy the extra hypothesis. -/
theorem noZeroWalk_of_pos {W : Mat Int} {S : Vec Int} (hS : ∀ v x, S v = some x → x = 0)
    (hW : ∀ u v w, W u v = some w → 0 < w) : NoZeroWalk W S := by
  have key : ∀ k v x, WWalk W S k v x → 0 ≤ x ∧ (0 < k → 0 < x) := by
    intro k
    induction k with
    | zero => intro v x h; have := hS v x h; omega
    | succ k ih =>
      rintro v x ⟨u, y, w, h1, h2, rfl⟩
      have := ih u y h1
      have := hW u v w h2
      omega
  intro k v h
  have := (key _ v 0 h).2 (by omega)
  omega

/-- **C36 is false as stated**: over the edge 0 →(0) 1 vertex 1 is at distance zero,
and `filtered_sssp` returns `true` without it. -/
theorem C36_filtered_zero_wrong :
    ∃ (G : Lil Int) (dist d : BVec Int), PathInput .i32 G dist ∧ ¬ NegCycle G.get dist.get ∧
      filteredSssp .i32 (fun _ _ => 0) G dist = .ok (true, d) ∧
      IsDist G.get dist.get 1 0 ∧ d.get 1 = none := by
  have hin : PathInput .i32 ⟨2, 2, 1, [[(1, 0)], []]⟩ ⟨2, 1, [0, 0], [true, false]⟩ := by
    refine PathInput.of_small (Lil.wf_chk (by decide)) ⟨rfl, rfl, rfl⟩ rfl rfl (by decide) ?_ 0 ?_ ?_
    · intro v x h
      match v with
      | 0 => simp [BVec.get] at h; exact h.symm
      | 1 => simp [BVec.get] at h
      | v + 2 => simp [BVec.get] at h
    · intro u v w h
      exact Ex.get_chk (Lil.wf_chk (by decide)) (P := fun w => -(0 : Nat) ≤ w ∧ w ≤ (0 : Nat) ∧ ITy.Has .i32 w)
        (by decide) h
    · intro x h1 h2
      simp only [Nat.mul_zero] at h1 h2
      have : x = 0 := by omega
      subst this; decide
  obtain ⟨b, d, h1, h2⟩ := C35_sssp_negative (ov := fun _ _ => 0) hin (by decide)
  have e : (sssp .i32 (fun _ _ => 0) ⟨2, 2, 1, [[(1, 0)], []]⟩ ⟨2, 1, [0, 0], [true, false]⟩)
      = .ok (true, ⟨2, 2, [0, 0], [true, true]⟩) := by decide +kernel
  have hc := h1.symm.trans e
  cases hc
  have hno : ¬ NegCycle (Lil.get ⟨2, 2, 1, [[(1, 0)], []]⟩) (BVec.get ⟨2, 1, [0, 0], [true, false]⟩) :=
    fun h => Bool.noConfusion (h2.2 h)
  refine ⟨⟨2, 2, 1, [[(1, 0)], []]⟩, ⟨2, 1, [0, 0], [true, false]⟩, ⟨2, 1, [0, 0], [true, false]⟩, hin,
    hno, by decide +kernel, ?_, rfl⟩
  obtain ⟨d', e', -, -, hd⟩ := C34_sssp (ov := fun _ _ => 0) hin (by decide) hno
  have hc := e'.symm.trans e
  cases hc
  exact ((hd 1).2 0).1 rfl

example : PathInput .i32 Ex.wg Ex.from0 ∧ NoZeroWalk Ex.wg.get Ex.from0.get ∧
    filteredSssp .i32 (fun _ _ => 0) Ex.wg Ex.from0
      = .ok (true, { size := 3, nvals := 3, vals := [0, -2, 2], bitmap := [true, true, true] }) := by
  refine ⟨Ex.wg_input, ?_, by decide +kernel⟩
  have hget : ∀ u v w, Ex.wg.get u v = some w → (u = 0 ∧ v = 1 ∧ w = 5) ∨ (u = 0 ∧ v = 2 ∧ w = 2) ∨
      (u = 2 ∧ v = 1 ∧ w = -4) := by
    intro u v w h
    obtain ⟨h1, h2⟩ := edge_lt Ex.wg_input.graph (u := u) (v := v) (by simp [Edge, h])
    have h1 : u < 3 := h1
    have h2 : v < 3 := h2
    have hu : u = 0 ∨ u = 1 ∨ u = 2 := by omega
    have hv : v = 0 ∨ v = 1 ∨ v = 2 := by omega
    rcases hu with rfl | rfl | rfl <;> rcases hv with rfl | rfl | rfl <;>
      first
        | (have e : some w = none := h.symm; cases e; done)
        | (left; refine ⟨rfl, rfl, ?_⟩; have e : some w = some 5 := h.symm; cases e; rfl; done)
        | (right; left; refine ⟨rfl, rfl, ?_⟩; have e : some w = some 2 := h.symm; cases e; rfl; done)
        | (right; right; refine ⟨rfl, rfl, ?_⟩; have e : some w = some (-4) := h.symm; cases e; rfl)
  have hs : ∀ v x, Ex.from0.get v = some x → v = 0 ∧ x = 0 := by
    intro v x h
    refine ⟨?_, Ex.from0_zero v x h⟩
    match v with
    | 0 => rfl
    | 1 => simp [BVec.get, Ex.from0] at h
    | 2 => simp [BVec.get, Ex.from0] at h
    | v + 3 => simp [BVec.get, Ex.from0] at h
  have key : ∀ k v x, WWalk Ex.wg.get Ex.from0.get k v x → (k = 0 ∧ v = 0 ∧ x = 0) ∨
      (v = 1 ∧ (x = 5 ∨ x = -2)) ∨ (v = 2 ∧ x = 2) := by
    intro k
    induction k with
    | zero => intro v x h; left; exact ⟨rfl, hs v x h⟩
    | succ k ih =>
      rintro v x ⟨u, y, w, h1, h2, rfl⟩
      have a := ih u y h1
      have b := hget u v w h2
      omega
  intro k v h
  have := key _ v 0 h
  omega

/-! ### batch_sssp -/

/-- Arguments of `batch_sssp`: every row of `dists` is a start vector. -/
structure BatchInput (t : ITy) (G dists : Lil Int) : Prop where
  graph : G.WF
  start : dists.WF
  rows : G.nrows = dists.ncols
  cols : G.ncols = dists.ncols
  size : dists.ncols < 2 ^ 64
  weights : ∀ u v w, G.get u v = some w → t.Has w
  walks : ∀ r, r < dists.nrows → WalksWithin G.get (dists.get r) dists.ncols t.Has

theorem some_lt {α : Type} {A : Lil α} (hA : A.WF) {i j : Nat} (h : A.get i j ≠ none) : i < A.nrows ∧ j < A.ncols := by
  refine edge_lt hA ?_
  cases hg : A.get i j with
  | none => exact absurd hg h
  | some w => simp [Edge, hg]

theorem BatchInput.verts {t : ITy} {G dists : Lil Int} (h : BatchInput t G dists) (r : Nat) :
    Verts G.get (dists.get r) dists.ncols := by
  refine ⟨fun v hv => (some_lt h.start hv).2, ?_⟩
  intro u v he
  obtain ⟨h1, h2⟩ := some_lt h.graph he
  exact ⟨by rw [← h.rows]; exact h1, by rw [← h.cols]; exact h2⟩

theorem noMaskOKM {μ : Type} : MMask.WF (none : MMask μ) := by intro k' v' e; cases e
theorem noMaskFitsM {μ : Type} {m n : Nat} : MMask.Fits (none : MMask μ) m n := by intro k' v' e; cases e

/-- One call of `mxm` in `batch_sssp`. -/
theorem relaxM_spec {t : ITy} {ov : Int → Int → Int} {G d : Lil Int} (hG : G.WF)
    (hd : d.WF) (h1 : G.nrows = d.ncols) (h2 : G.ncols = d.ncols)
    (ho : ∀ r, r < d.nrows → NoOver t (d.get r) G.get) :
    ∃ d', relaxM t ov G d = .ok d' ∧ d'.WF ∧ d'.nrows = d.nrows ∧ d'.ncols = d.ncols ∧
      ∀ r, r < d.nrows → Relaxed G.get (d.get r) (d'.get r) := by
  obtain ⟨d', e, y⟩ := C09_mxm (o := minOutM t d) (sr := minPlusT t ov) (via := id) (A := d) (B := G)
    ⟨hd, noMaskOKM⟩ hd hG ⟨noMaskFitsM, rfl, h2.symm, h1.symm⟩
  refine ⟨d', by rw [relaxM, e, exec_done], y.wf, y.nrows, y.ncols, ?_⟩
  intro r hr
  refine relaxed_of (n := d.ncols) (ov := ov) (ho r hr) (fun u hu => (some_lt hd hu).2) ?_ ?_ ?_
  · intro u v he
    rw [← h2]; exact (some_lt hG he).2
  · intro v hv
    rw [y.get r v hr hv]
    simp only [minOutM, MMask.allows, Spec.write, if_true, Option.map_id, id]
    rfl
  · intro v hv
    exact y.wf.toWFr.get_none (Or.inr (by rw [y.ncols]; exact hv))

/-- Reading the flags of a matrix. -/
theorem any_falseM {F : Lil Bool} (hF : F.WF) :
    (F.rows.any fun r => r.any fun p => !p.2) = true ↔ ∃ i j, F.get i j = some false := by
  simp only [List.any_eq_true]
  constructor
  · rintro ⟨r, hr, p, hp, h⟩
    obtain ⟨i, hi⟩ := List.mem_iff_getElem?.1 hr
    obtain ⟨j, b⟩ := p
    simp only [Bool.not_eq_true'] at h
    subst h
    refine ⟨i, j, ?_⟩
    unfold Lil.get Lil.rowD
    rw [hi]
    exact (Row.get_eq_some_iff (hF.rowOK r hr).sorted).2 hp
  · rintro ⟨i, j, h⟩
    unfold Lil.get Lil.rowD at h
    cases hr : F.rows[i]? with
    | none => rw [hr] at h; cases h
    | some r =>
      rw [hr] at h
      have hm := List.mem_of_getElem? hr
      exact ⟨r, hm, _, (Row.get_eq_some_iff (hF.rowOK r hm).sorted).1 h, rfl⟩

/-- What `batch_sssp` computes. -/
theorem batchSssp_spec {t : ITy} {ov : Int → Int → Int} {G dists : Lil Int}
    (h : BatchInput t G dists) (h0 : 0 < dists.ncols) :
    ∃ b d, batchSssp t ov G dists = .ok (b, d) ∧ d.WF ∧ d.nrows = dists.nrows ∧ d.ncols = dists.ncols ∧
      (∀ r, r < dists.nrows → Best G.get (dists.get r) (dists.ncols - 1) (d.get r)) ∧
      (b = true ↔ ∀ r, r < dists.nrows → Best G.get (dists.get r) dists.ncols (d.get r)) := by
  obtain ⟨d, e, d1, d2, d2', d3⟩ := forP_inv (b := fun _ d => relaxM t ov G d)
    (fun k d => d.WF ∧ d.nrows = dists.nrows ∧ d.ncols = dists.ncols ∧
      ∀ r, r < dists.nrows → Best G.get (dists.get r) k (d.get r)) (dists.ncols - 1) dists
    ⟨h.start, rfl, rfl, fun _ _ => Best.zero⟩ (by
      intro i s hi ⟨a, b, b', c⟩
      obtain ⟨d', e, a', p, q, c'⟩ := relaxM_spec (t := t) (ov := ov) h.graph a (h.rows.trans b'.symm)
        (h.cols.trans b'.symm) (fun r hr => (c r (by omega)).noOver h.weights (h.walks r (by omega)) (by omega))
      exact ⟨d', e, a', p.trans b, q.trans b', fun r hr => (c r hr).step (c' r (by omega))⟩)
  obtain ⟨d', e', f1, f2, f2', f3⟩ := relaxM_spec (t := t) (ov := ov) h.graph d1 (h.rows.trans d2'.symm)
    (h.cols.trans d2'.symm) (fun r hr => (d3 r (by omega)).noOver h.weights (h.walks r (by omega)) (by omega))
  have f4 : ∀ r, r < dists.nrows → Best G.get (dists.get r) dists.ncols (d'.get r) := by
    intro r hr
    have := (d3 r hr).step (f3 r (by omega))
    rwa [show dists.ncols - 1 + 1 = dists.ncols by omega] at this
  obtain ⟨fl', k1, k2⟩ := C14_eWiseMult_same_type (o := mPlain id (Lil.new d.nrows d.ncols : Lil Bool))
    (op := fun x y : Int => x == y) (c1 := isTrue) (c2 := isTrue) (A := .plain d) (B := .plain d')
    ⟨Lil.new_wf _ _, noMaskOKM⟩ d1 f1 ⟨noMaskFitsM, rfl, rfl, f2'.symm, f2.symm⟩
  refine ⟨!(fl'.rows.any fun r => r.any fun p => !p.2), d, ?_, d1, d2, d2', d3, ?_⟩
  · rw [batchSssp, if_neg (by rw [h.rows, h.cols]; simp), pred64_eq (by rw [h.rows]; exact h0)
      (by rw [h.rows]; exact h.size), h.rows, e, prog_bind_ok, e', prog_bind_ok,
      show equalTest = ⟨fun x y => x == y, isTrue, isTrue, id, fun x y => x == y, isTrue⟩ from rfl, k1,
      exec_done, prog_bind_ok]
  · rw [Bool.not_eq_true', Bool.eq_false_iff, Ne, any_falseM k2.wf]
    have y3 : ∀ i j, i < d.nrows → j < d.ncols → fl'.get i j =
        both (fun x y : Int => x == y) (d.get i j) (d'.get i j) := by
      intro i j hi hj
      rw [k2.get i j hi hj]
      simp [mPlain, MMask.allows, Spec.write, Spec.accum, Operand.get]
    have hsupp : ∀ r v, r < dists.nrows → (d.get r v ≠ none ↔ d'.get r v ≠ none) := fun r v hr =>
      ((d3 r hr).reach (h.verts r) (by omega) v).trans ((f4 r hr).reach (h.verts r) (by omega) v).symm
    constructor
    · intro hno r hr
      have heq : ∀ v, d.get r v = d'.get r v := by
        intro v
        cases hd : d.get r v with
        | none =>
          cases hd' : d'.get r v with
          | none => rfl
          | some y => exact absurd hd ((hsupp r v hr).2 (by rw [hd']; simp))
        | some x =>
          cases hd' : d'.get r v with
          | none => exact absurd hd' ((hsupp r v hr).1 (by rw [hd]; simp))
          | some y =>
            by_cases hxy : x = y
            · rw [hxy]
            · have hlt := some_lt d1 (i := r) (j := v) (by rw [hd]; simp)
              exact absurd ⟨r, v, by rw [y3 r v hlt.1 hlt.2, hd, hd']; simp [both, hxy]⟩ hno
      have : d.get r = d'.get r := funext heq
      rw [this]; exact f4 r hr
    · rintro hb ⟨i, j, hi⟩
      have hlt : i < d.nrows ∧ j < d.ncols := by
        obtain ⟨h1, h2⟩ := edge_lt k2.wf (u := i) (v := j) (by simp [Edge, hi])
        rw [k2.nrows] at h1; rw [k2.ncols] at h2
        exact ⟨h1, h2⟩
      have hir : i < dists.nrows := by omega
      have heq := (hb i hir).unique (f4 i hir) j
      rw [y3 i j hlt.1 hlt.2, ← heq] at hi
      cases hd : d.get i j with
      | none => rw [hd] at hi; simp [both] at hi
      | some x => rw [hd] at hi; simp [both] at hi

/-- **C46.** `batch_sssp` returns `false` if and only if for some row of `dists` a
negative cycle can be reached; otherwise each row ends with the minimum weights of the
walks from its start vertices. -/
theorem C46_batch_sssp {t : ITy} {ov : Int → Int → Int} {G dists : Lil Int}
    (h : BatchInput t G dists) (h0 : 0 < dists.ncols) :
    ∃ b d, batchSssp t ov G dists = .ok (b, d) ∧ d.WF ∧ d.nrows = dists.nrows ∧ d.ncols = dists.ncols ∧
      (b = false ↔ ∃ r, r < dists.nrows ∧ NegCycle G.get (dists.get r)) ∧
      ∀ r, r < dists.nrows → ¬ NegCycle G.get (dists.get r) →
        ∀ v, (d.get r v = none ↔ ¬ WReach G.get (dists.get r) v) ∧
          ∀ x, d.get r v = some x ↔ IsDist G.get (dists.get r) v x := by
  obtain ⟨b, d, e, h1, h2, h2', h3, h4⟩ := batchSssp_spec (ov := ov) h h0
  refine ⟨b, d, e, h1, h2, h2', ⟨?_, ?_⟩, ?_⟩
  · intro hb
    apply Classical.byContradiction
    intro hc
    have := h4.2 (fun r hr => Best.enough (h.verts r) (fun hn => hc ⟨r, hr, hn⟩) (by omega) (h3 r hr) _ (by omega))
    rw [hb] at this; cases this
  · rintro ⟨r, hr, hc⟩
    cases b with
    | false => rfl
    | true =>
      have h5 := h4.1 rfl r hr
      exact (Best.no_fix hc ((h3 r hr).fix (by rw [show dists.ncols - 1 + 1 = dists.ncols by omega]; exact h5))).elim
  · intro r hr hc
    exact Best.dist (Best.enough (h.verts r) hc (by omega) (h3 r hr))

namespace Ex

/-- Two searches: from vertex 0 and from vertex 2. -/
def starts : Lil Int := { nrows := 2, ncols := 3, nvals := 2, rows := [[(0, 0)], [(2, 0)]] }

theorem starts_input : BatchInput .i32 wg starts := by
  refine ⟨wg_input.graph, Lil.wf_chk (by decide), rfl, rfl, by decide, wg_input.weights, ?_⟩
  intro r _ k v x hk h
  have := walks_small (B := 5) (fun v x h => get_chk (Lil.wf_chk (by decide)) (P := fun x => x = 0)
    (by decide : ∀ r ∈ starts.rows, ∀ p ∈ r, p.2 = 0) h)
    (fun u v w h => get_chk (Lil.wf_chk (by decide)) (P := fun w => -(5 : Nat) ≤ w ∧ w ≤ (5 : Nat))
      (by decide : ∀ r ∈ wg.rows, ∀ p ∈ r, -(5 : Nat) ≤ p.2 ∧ p.2 ≤ (5 : Nat)) h) 3 k v x hk h
  have h1 : (-15 : Int) ≤ x ∧ x ≤ 15 := this
  constructor
  · show (-2147483648 : Int) ≤ x; omega
  · show x ≤ (2147483647 : Int); omega

end Ex

example : BatchInput .i32 Ex.wg Ex.starts ∧ 0 < Ex.starts.ncols ∧
    batchSssp .i32 (fun _ _ => 0) Ex.wg Ex.starts = .ok (true,
      ⟨2, 3, 5, [[(0, 0), (1, -2), (2, 2)], [(1, -4), (2, 0)]]⟩) :=
  ⟨Ex.starts_input, by decide, by decide +kernel⟩

end GBTL

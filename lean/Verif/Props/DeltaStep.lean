import Verif.Lemmas.DeltaStep
import Verif.Props.Mis
import Verif.Props.Apsp
import Verif.Props.BfsBatch
/-
C54: shortest paths by delta-stepping.
-/
namespace GBTL
open Spec

/-- What the graph, the bucket width, the source and the output must satisfy: a consistent
square graph with positive weights of at most `B`, a positive width, a source vertex, an
output vector of the right size, and a scalar type that holds the weight of a path of as
many edges as there are vertices, plus the width. -/
structure DeltaInput (t : ITy) (G : Lil Int) (delta : Int) (src : Nat) (paths : BVec Int) (B : Nat) : Prop where
  graph : G.WF
  square : G.nrows = G.ncols
  source : src < G.nrows
  pwf : paths.WF
  psize : paths.size = G.nrows
  weights : ∀ u v w, G.get u v = some w → 0 < w ∧ w ≤ B
  width : 0 < delta
  range : t.Has ((G.nrows * B : Nat) + delta)

/-- The same with weights that may be zero. -/
structure DeltaInput0 (t : ITy) (G : Lil Int) (delta : Int) (src : Nat) (paths : BVec Int) (B : Nat) : Prop where
  graph : G.WF
  square : G.nrows = G.ncols
  source : src < G.nrows
  pwf : paths.WF
  psize : paths.size = G.nrows
  weights : ∀ u v w, G.get u v = some w → 0 ≤ w ∧ w ≤ B
  width : 0 < delta
  range : t.Has ((G.nrows * B : Nat) + delta)

theorem DeltaInput.nonneg {t : ITy} {G : Lil Int} {delta : Int} {src : Nat} {paths : BVec Int} {B : Nat}
    (h : DeltaInput t G delta src paths B) : DeltaInput0 t G delta src paths B :=
  ⟨h.graph, h.square, h.source, h.pwf, h.psize,
    fun u v w hw => ⟨Int.le_of_lt (h.weights u v w hw).1, (h.weights u v w hw).2⟩, h.width, h.range⟩

/-- The vertices that `deadEnds` takes the edges from. -/
def dead (W : Mat Int) (src v : Nat) : Prop := v ≠ src ∧ W src v = some 0

theorem deadEnds_some {W : Mat Int} {src u v : Nat} {w : Int} :
    deadEnds W src u v = some w ↔ W u v = some w ∧ ¬ dead W src u := by
  unfold deadEnds dead
  by_cases h : u ≠ src ∧ W src u = some 0
  · rw [if_pos h]
    exact ⟨fun h => (by cases h), fun h' => absurd h h'.2⟩
  · rw [if_neg h]
    exact ⟨fun h' => ⟨h', h⟩, fun h' => h'.1⟩

theorem deadEnds_set (W : Mat Int) (src : Nat) : DeadSet (deadEnds W src) src (dead W src) := by
  refine ⟨fun u v h => if_pos h, fun h => h.1 rfl, fun v hv => ?_⟩
  rw [deadEnds_some]
  exact ⟨fun h => ⟨hv, h.1⟩, fun h => ⟨h.2, fun h' => h'.1 rfl⟩⟩

/-- Without edges of weight zero out of the source nothing is taken away. -/
theorem deadEnds_id {W : Mat Int} {src : Nat} (h : ∀ v, v ≠ src → W src v ≠ some 0) : deadEnds W src = W := by
  funext u v
  exact if_neg fun h' => h u h'.1 h'.2

theorem asks_of {W A : Mat Int} {src : Nat} {p : Int → Prop} {P : Nat → Prop} {d r : Vec Int} (hA : part W p A)
    (hr : Requests A P d r) (hP : ∀ u, P u → ¬ dead W src u) : Asks (deadEnds W src) p P d r := by
  refine ⟨fun v x hx => ?_, fun u v y w h1 h2 h3 h4 => ?_⟩
  · obtain ⟨u, y, w, h1, h2, h3, h4⟩ := hr.from_ v x hx
    exact ⟨u, y, w, h1, h2, deadEnds_some.2 ⟨((hA u v w).1 h3).1, hP u h1⟩, ((hA u v w).1 h3).2, h4⟩
  · exact hr.edge u v y w h1 h2 ((hA u v w).2 ⟨(deadEnds_some.1 h3).1, h4⟩)

theorem DeltaInput0.has {t : ITy} {G : Lil Int} {delta : Int} {src : Nat} {paths : BVec Int} {B : Nat}
    (h : DeltaInput0 t G delta src paths B) {x : Int} (h0 : 0 ≤ x) (h1 : x ≤ (G.nrows * B : Nat) + delta) :
    t.Has x := by
  have h2 := h.range.2
  have h3 := (ITy.has_zero t).1
  exact ⟨by omega, by omega⟩

/-! ### the calls -/

/-- The edges that pass a test. -/
theorem edgesWhere_spec {G : Lil Int} (hG : G.WF) (hsq : G.nrows = G.ncols) (test : Int → Bool) :
    ∃ A, edgesWhere G test = .ok A ∧ A.WF ∧ A.nrows = G.nrows ∧ A.ncols = G.nrows ∧
      part G.get (fun w => test w = true) A.get := by
  obtain ⟨P, e1, y1⟩ := C15_apply_matrix (o := mPlain ofBool (Lil.new G.nrows G.nrows)) (f := test)
    (A := .plain G) ⟨Lil.new_wf _ _, noMaskOKM⟩ hG
    ⟨noMaskFitsM, hsq, rfl⟩
  obtain ⟨p1, p2, p3, p4⟩ := plain_yieldsM y1
  have p2 : P.nrows = G.nrows := p2
  have p3 : P.ncols = G.nrows := p3
  obtain ⟨A, e2, y2⟩ := C15_apply_matrix (o := selfMaskM P) (f := id) (A := .plain G)
    ⟨p1, maskOKM p1⟩ hG ⟨maskFitsM rfl rfl, p3.trans hsq, p2⟩
  refine ⟨A, by rw [edgesWhere, e1, exec_done, prog_bind_ok, e2, exec_done], y2.wf, y2.nrows.trans p2,
    y2.ncols.trans p3, ?_⟩
  intro u v w
  have hin : ∀ {X : Lil Int}, X.WF → X.get u v = some w → u < X.nrows ∧ v < X.ncols := by
    intro X hX hx
    exact edge_lt hX (by simp [Edge, hx])
  have key : u < G.nrows → v < G.nrows → A.get u v = if (G.get u v).any test then G.get u v else none := by
    intro hu hv
    have h2 := y2.get u v (by show u < P.nrows; omega) (by show v < P.ncols; omega)
    have h1 : P.get u v = ((G.get u v).map test).map ofBool := p4 u v hu hv
    rw [h2]
    cases hg : G.get u v with
    | none =>
      simp [selfMaskM, MMask.allows, Spec.write, Spec.accum, Spec.allows, h1, hg, Operand.get]
    | some a =>
      cases ht : test a <;>
      simp [selfMaskM, MMask.allows, Spec.write, Spec.accum, Spec.allows, h1, hg, ht, ofBool, isTrue, Operand.get]
  constructor
  · intro h
    obtain ⟨hu, hv⟩ := hin y2.wf h
    have hu : u < G.nrows := by rw [← p2, ← show A.nrows = P.nrows from y2.nrows]; exact hu
    have hv : v < G.nrows := by rw [← p3, ← show A.ncols = P.ncols from y2.ncols]; exact hv
    rw [key hu hv] at h
    split at h
    · rename_i ha
      rw [h] at ha
      exact ⟨h, ha⟩
    · cases h
  · rintro ⟨h, ht⟩
    obtain ⟨hu, hv⟩ := hin hG h
    rw [key hu (by omega), h]
    simp [ht]

/-- The distances of the vertices in a mask. -/
def OnMask (m : Vec Bool) (d tm : Vec Int) : Prop := ∀ u, tm u = if m u = some true then d u else none

theorem maskedCopy_spec {n : Nat} {w d : BVec Int} {m : BVec Bool} (hw : w.WF ∧ w.size = n)
    (hd : d.WF ∧ d.size = n) (hm : m.WF ∧ m.size = n) :
    ∃ r, applyV (vMasked id w .plain id m .replace) id d = .done r ∧ (r.WF ∧ r.size = n) ∧
      OnMask m.get d.get r.get := by
  obtain ⟨r, e, y⟩ := C15_apply_vector (o := vMasked id w .plain id m .replace) (f := id) (u := d)
    ⟨hw.1, maskOK hm.1⟩ hd.1 ⟨maskFits (hm.2.trans hw.2.symm), hw.2.trans hd.2.symm⟩
  obtain ⟨r1, r2, r3⟩ := vMasked_replace y
  refine ⟨r, e, ⟨r1, r2.trans hw.2⟩, ?_⟩
  intro u
  rcases Nat.lt_or_ge u n with hu | hu
  · rw [r3 u (by rw [hw.2]; exact hu)]
    cases hm : m.get u with
    | none => simp
    | some b => cases b <;> simp
  · rw [r1.get_none (by rw [r2, hw.2]; exact hu), hd.1.get_none (by rw [hd.2]; exact hu)]
    simp

/-- A product over (min, +). -/
theorem requests_spec {t : ITy} {ov : Int → Int → Int} {n : Nat} {A : Lil Int} {w tm : BVec Int}
    {d : Vec Int} {m : Vec Bool} (hA : A.WF) (h1 : A.nrows = n) (h2 : A.ncols = n)
    (hw : w.WF ∧ w.size = n) (htm : tm.WF ∧ tm.size = n) (hm : OnMask m d tm.get) (ho : NoOver t d A.get) :
    ∃ r, vxm (vPlain id w) (minPlusT t ov) tm (.plain A) = .done r ∧ (r.WF ∧ r.size = n) ∧
      Requests A.get (fun u => m u = some true) d r.get := by
  obtain ⟨r, e, y⟩ := C11_vxm (o := vPlain id w) (sr := minPlusT t ov) (u := tm) (A := .plain A)
    (vPlain_wf hw.1) htm.1 hA ⟨noMaskFits, hw.2.trans h2.symm, htm.2.trans h1.symm⟩
  obtain ⟨r1, r2, r3⟩ := plain_yields y
  have hsome : ∀ u x, tm.get u = some x → m u = some true ∧ d u = some x := by
    intro u x hx
    rw [hm u] at hx
    split at hx
    · exact ⟨by assumption, hx⟩
    · cases hx
  have ho' : NoOver t tm.get A.get :=
    ⟨fun v x hx => ho.1 v x (hsome v x hx).2, fun u v y w hu hw => ho.2 u v y w (hsome u y hu).2 hw⟩
  have r3' : ∀ v, v < n → r.get v = Spec.vxm n t.minT (t.plusT ov) tm.get A.get v := by
    intro v hv
    rw [r3 v (by rw [hw.2]; exact hv), htm.2, Option.map_id]
    rfl
  refine ⟨r, e, ⟨r1, r2.trans hw.2⟩, ?_, ?_⟩
  · intro v x hx
    have hv : v < n := by
      rw [← hw.2, ← r2]; exact vec_some_lt r1 (by rw [hx]; simp)
    rw [r3' v hv] at hx
    obtain ⟨⟨u, y, w, -, a, b, c⟩, -⟩ := (minplus_spec ho').1 x hx
    obtain ⟨a1, a2⟩ := hsome u y a
    exact ⟨u, y, w, a1, a2, b, c⟩
  · intro u v y w hu hd hA'
    obtain ⟨hu', hv'⟩ := edge_lt hA (u := u) (v := v) (by simp [Edge, hA'])
    have : tm.get u = some y := by rw [hm u, if_pos hu, hd]
    rw [r3' v (by omega)]
    exact (minplus_spec ho').2 u y w (by omega) this hA'

/-- `t = min(t, tReq)`. -/
theorem merged_spec {t : ITy} {n : Nat} {d r : BVec Int} (hd : d.WF ∧ d.size = n) (hr : r.WF ∧ r.size = n)
    (h1 : ∀ v x, d.get v = some x → t.Has x) (h2 : ∀ v x, r.get v = some x → t.Has x) :
    ∃ d', eWiseAddV (vPlain id d) (ewMin t) d r = .done d' ∧ (d'.WF ∧ d'.size = n) ∧
      Merged d.get r.get d'.get := by
  obtain ⟨d', e, y⟩ := C13_eWiseAdd_vector (o := vPlain id d) (f := ewMin t) (u := d) (v := r)
    (vPlain_wf hd.1) hd.1 hr.1 ⟨noMaskFits, rfl, hd.2.trans hr.2.symm⟩
  obtain ⟨r1, r2, r3⟩ := plain_yields y
  refine ⟨d', e, ⟨r1, r2.trans hd.2⟩, ?_⟩
  intro v
  rcases Nat.lt_or_ge v n with hv | hv
  · rw [r3 v (by rw [hd.2]; exact hv), Option.map_id]
    show either t.minT id id (d.get v) (r.get v) = _
    cases ha : d.get v with
    | none => cases r.get v <;> rfl
    | some a =>
      cases hb : r.get v with
      | none => rfl
      | some b =>
        show some (t.minT a b) = some (min a b)
        rw [ITy.minT_eq (h1 v a ha) (h2 v b hb)]
  · rw [r1.get_none (by rw [r2, hd.2]; exact hv), hd.1.get_none (by rw [hd.2]; exact hv),
      hr.1.get_none (by rw [hr.2]; exact hv)]
    rfl

/-! ### the loops -/

/-- The vectors have the right sizes, and the distances are tentative. -/
structure DeltaOK (G : Lil Int) (src B : Nat) (s : DeltaSt) : Prop where
  t : s.t.WF ∧ s.t.size = G.nrows
  tm : s.tm.WF ∧ s.tm.size = G.nrows
  req : s.req.WF ∧ s.req.size = G.nrows
  bi : s.bi.WF ∧ s.bi.size = G.nrows
  comp : s.comp.WF ∧ s.comp.size = G.nrows
  less : s.less.WF ∧ s.less.size = G.nrows
  done : s.s.WF ∧ s.s.size = G.nrows
  tent : Tentative (deadEnds G.get src) src B G.nrows s.t.get

/-- The members of a mask. -/
def mem (m : BVec Bool) (v : Nat) : Prop := m.get v = some true

theorem DeltaInput0.tent {t : ITy} {G : Lil Int} {delta : Int} {src : Nat} {paths : BVec Int} {B : Nat}
    (h : DeltaInput0 t G delta src paths B) {d : Vec Int} (hd : Tentative (deadEnds G.get src) src B G.nrows d) :
    ∀ v x, d v = some x → t.Has x := by
  intro v x hx
  have := h.width
  have := hd.le hx
  exact h.has (hd.nonneg v x hx) (by omega)

theorem DeltaInput0.noOver {t : ITy} {G : Lil Int} {delta : Int} {src : Nat} {paths : BVec Int} {B : Nat}
    (h : DeltaInput0 t G delta src paths B) {d : Vec Int} (hd : Tentative (deadEnds G.get src) src B G.nrows d)
    {A : Mat Int} {p : Int → Prop} (hA : part G.get p A) : NoOver t d A := by
  have hdl := h.width
  refine ⟨fun v x hx => h.has (hd.nonneg v x hx) ?_, ?_⟩
  · have := hd.le hx; omega
  · intro u v y w h1 h2
    have h3 := h.weights u v w ((hA u v w).1 h2).1
    have h4 := hd.le h1
    have h5 := hd.nonneg u y h1
    have : B ≤ G.nrows * B := Nat.le_mul_of_pos_left _ (by have := h.source; omega)
    exact ⟨h.has (by omega) (by omega), h.has (by omega) (by omega)⟩

theorem DeltaInput0.req {t : ITy} {G : Lil Int} {delta : Int} {src : Nat} {paths : BVec Int} {B : Nat}
    (h : DeltaInput0 t G delta src paths B) {d r : Vec Int} (hd : Tentative (deadEnds G.get src) src B G.nrows d)
    {A : Mat Int} {p : Int → Prop} (hA : part G.get p A) {P : Nat → Prop} (hr : Requests A P d r)
    {v : Nat} {x : Int} (hx : r v = some x) : 0 ≤ x ∧ x ≤ (G.nrows * B : Nat) ∧ t.Has x := by
  obtain ⟨u, y, w, -, h1, h2, rfl⟩ := hr.from_ v x hx
  have h3 := h.weights u v w ((hA u v w).1 h2).1
  have h4 := hd.le h1
  have h5 := hd.nonneg u y h1
  have := h.width
  exact ⟨by omega, by omega, h.has (by omega) (by omega)⟩

theorem DeltaInput0.ws {t : ITy} {G : Lil Int} {delta : Int} {src : Nat} {paths : BVec Int} {B : Nat}
    (h : DeltaInput0 t G delta src paths B) : Weights (deadEnds G.get src) B :=
  fun u v w hw => h.weights u v w (deadEnds_some.1 hw).1

/-- The invariant of the inner loop. -/
structure InnerOK (G : Lil Int) (src B : Nat) (delta lo hi : Int) (i : Nat) (s : DeltaSt) : Prop where
  ok : DeltaOK G src B s
  masked : OnMask s.bi.get s.t.get s.tm.get
  bucket : Bucket (deadEnds G.get src) (dead G.get src) delta lo hi s.t.get (mem s.bi) (mem s.s)
  idx : s.i = i

/-- One iteration of the inner loop. -/
theorem deltaInner_spec {t : ITy} {ov : Int → Int → Int} {G AL : Lil Int} {delta lo hi : Int} {src : Nat}
    {paths : BVec Int} {B : Nat} (h : DeltaInput0 t G delta src paths B) (hAL : AL.WF)
    (h1 : AL.nrows = G.nrows) (h2 : AL.ncols = G.nrows) (hp : part G.get (· ≤ delta) AL.get) {i : Nat} {s : DeltaSt}
    (hlt : lo < hi) (hlo : 0 ≤ lo) (hs : InnerOK G src B delta lo hi i s) :
    ∃ s', deltaInner t ov AL lo hi s = .ok s' ∧ InnerOK G src B delta lo hi i s' ∧
      Merged s.t.get s'.req.get s'.t.get ∧ (∀ v x, s'.req.get v = some x → 0 ≤ x ∧ x ≤ (G.nrows * B : Nat)) ∧
      ∀ v, mem s'.bi v → ∃ x, Better s.t.get s'.req.get v x := by
  obtain ⟨k, hm, hb, hi'⟩ := hs
  obtain ⟨req, e1, q, hreq⟩ := requests_spec (t := t) (ov := ov) hAL h1 h2 k.req k.tm hm (h.noOver k.tent hp)
  obtain ⟨ss, e2, y2⟩ := C13_eWiseAdd_vector (o := vPlain id s.s) (f := ewOr) (u := s.s) (v := s.bi)
    (vPlain_wf k.done.1) k.done.1 k.bi.1 ⟨noMaskFits, rfl, k.done.2.trans k.bi.2.symm⟩
  obtain ⟨s1, s2, s3⟩ := plain_yields y2
  obtain ⟨less, e3, y3⟩ := C13_eWiseAdd_vector (o := vMasked id s.less .plain isTrue req .replace) (f := ewLess t)
    (u := req) (v := s.t) ⟨k.less.1, maskOK q.1⟩ q.1 k.t.1
    ⟨maskFits (q.2.trans k.less.2.symm), k.less.2.trans q.2.symm, q.2.trans k.t.2.symm⟩
  obtain ⟨l1, l2, l3⟩ := vMasked_replace y3
  have l2' : less.size = G.nrows := l2.trans k.less.2
  obtain ⟨bi, e4, y4⟩ := C15_apply_vector (o := vMasked id s.bi .plain id less .replace) (f := inRange lo hi)
    (u := req) ⟨k.bi.1, maskOK l1⟩ q.1 ⟨maskFits (l2'.trans k.bi.2.symm), k.bi.2.trans q.2.symm⟩
  obtain ⟨b1, b2, b3⟩ := vMasked_replace y4
  have b2' : bi.size = G.nrows := b2.trans k.bi.2
  have hask := asks_of hp hreq fun u hu => hb.alive u (.inl hu)
  have hzero := fun v x (hx : Better s.t.get req.get v x) =>
    hb.zero h.ws (deadEnds_set _ _) k.tent (Int.le_of_lt h.width) hlt hlo hask hx
  have hr := fun v x (hx : req.get v = some x) => h.req k.tent hp hreq hx
  have hov := h.noOver k.tent hp
  obtain ⟨d, e5, d1, hmerge⟩ := merged_spec (t := t) k.t q hov.1 fun v x hx => (hr v x hx).2.2
  obtain ⟨tm, e6, m1, hmask⟩ := maskedCopy_spec k.tm d1 ⟨b1, b2'⟩
  have hless : ∀ v, v < G.nrows → (less.get v = some true ↔ ∃ x, Better s.t.get req.get v x ∧ x ≠ 0) := by
    intro v hv
    rw [l3 v (by rw [k.less.2]; exact hv)]
    cases hq : req.get v with
    | none =>
      simp only [Option.any_none]
      refine ⟨fun h => by simp at h, fun ⟨x, hx, _⟩ => ?_⟩
      rw [hx.1] at hq; cases hq
    | some x =>
      have hB : (∃ x', Better s.t.get req.get v x' ∧ x' ≠ 0) ↔ x ≠ 0 ∧ ∀ z, s.t.get v = some z → x < z := by
        constructor
        · rintro ⟨x', ⟨a, b⟩, c⟩
          rw [hq] at a; cases a; exact ⟨c, b⟩
        · rintro ⟨c, hz⟩; exact ⟨x, ⟨hq, hz⟩, c⟩
      by_cases hx0 : x = 0
      · have : (Option.some x).any isTrue = false := by
          subst hx0; rfl
        rw [if_neg (by rw [this]; simp)]
        refine ⟨fun h => absurd h (by simp), ?_⟩
        rintro ⟨x', ⟨a, -⟩, c⟩
        rw [hq] at a; cases a; exact absurd hx0 c
      have : (Option.some x).any isTrue = true := by
        simp only [Option.any_some, isTrue, bne_iff_ne, ne_eq]; exact hx0
      rw [if_pos this]
      rw [hB]
      cases hd : s.t.get v with
      | none =>
        have ht : isTrue x = true := by simp only [isTrue, bne_iff_ne, ne_eq]; exact hx0
        simp [either, ewLess, ht, hx0]
      | some z =>
        simp only [either, ewLess, Option.map_some, id, Option.some.injEq]
        rw [ITy.lessT_eq (hr v x hq).2.2 (hov.1 v z hd), decide_eq_true_iff]
        constructor
        · intro h1; exact ⟨hx0, fun z' hz' => by rw [← hz']; exact h1⟩
        · intro h1; exact h1.2 z rfl
  have hbi : ∀ v, mem bi v ↔ ∃ x, Better s.t.get req.get v x ∧ x ≠ 0 ∧ lo ≤ x ∧ x < hi := by
    intro v
    rcases Nat.lt_or_ge v G.nrows with hv | hv
    · unfold mem
      rw [b3 v (by rw [k.bi.2]; exact hv)]
      constructor
      · intro h'
        split at h'
        · rename_i ha
          have hl : less.get v = some true := by
            cases hl : less.get v with
            | none => rw [hl] at ha; cases ha
            | some b => rw [hl] at ha; cases b <;> simp_all
          obtain ⟨x, hx, hx0⟩ := (hless v hv).1 hl
          rw [hx.1] at h'
          simp only [Option.map_some, id, Option.some.injEq] at h'
          exact ⟨x, hx, hx0, inRange_iff.1 h'⟩
        · cases h'
      · rintro ⟨x, hx, hx0, hr'⟩
        rw [(hless v hv).2 ⟨x, hx, hx0⟩, hx.1]
        simp [inRange_iff.2 hr']
    · unfold mem
      rw [b1.get_none (by rw [b2']; exact hv)]
      constructor
      · intro h; cases h
      · rintro ⟨x, hx, -⟩
        rw [Better, q.1.get_none (by rw [q.2]; exact hv)] at hx
        cases hx.1
  have hss : ∀ v, mem ss v ↔ mem s.s v ∨ mem s.bi v := by
    intro v
    unfold mem
    rcases Nat.lt_or_ge v G.nrows with hv | hv
    · rw [s3 v (by rw [k.done.2]; exact hv)]
      cases ha : s.s.get v with
      | none => cases hb : s.bi.get v <;> simp [either, ewOr]
      | some a => cases hb : s.bi.get v <;> cases a <;> simp [either, ewOr]
    · rw [s1.get_none (by rw [s2, k.done.2]; exact hv), k.done.1.get_none (by rw [k.done.2]; exact hv),
        k.bi.1.get_none (by rw [k.bi.2]; exact hv)]
      simp
  have htent : Tentative (deadEnds G.get src) src B G.nrows d.get :=
    k.tent.step h.ws (fun u v w hw => by
      have := (edge_lt h.graph (u := u) (v := v) (by simp [Edge, (deadEnds_some.1 hw).1])).2
      have := h.square
      omega) hask hmerge
  refine ⟨{ s with t := d, tm := tm, req := req, bi := bi, less := less, s := ss }, ?_,
    ⟨⟨d1, m1, q, ⟨b1, b2'⟩, k.comp, ⟨l1, l2'⟩, ⟨s1, s2.trans k.done.2⟩, htent⟩, hmask,
      hb.step h.ws (deadEnds_set _ _).no hask hmerge (fun v x hx => (hzero v x hx).2) hbi hss, hi'⟩, hmerge, fun v x hx => ?_, fun v hv => ?_⟩
  · rw [deltaInner, e1, exec_done, prog_bind_ok, e2, exec_done, prog_bind_ok, e3, exec_done, prog_bind_ok,
      e4, exec_done, prog_bind_ok, e5, exec_done, prog_bind_ok, e6, exec_done, prog_bind_ok]
  · have := hr v x hx; exact ⟨by omega, this.2.1⟩
  · obtain ⟨x, hx, -⟩ := (hbi v).1 hv
    exact ⟨x, hx⟩

/-- The inner loop ends, with an empty bucket. -/
theorem inner_loop {t : ITy} {ov : Int → Int → Int} {G AL : Lil Int} {delta lo hi : Int} {src : Nat}
    {paths : BVec Int} {B : Nat} (h : DeltaInput0 t G delta src paths B) (hAL : AL.WF)
    (h1 : AL.nrows = G.nrows) (h2 : AL.ncols = G.nrows) (hp : part G.get (· ≤ delta) AL.get) {i : Nat} {s : DeltaSt}
    (hlt : lo < hi) (hlo : 0 ≤ lo) (hs : InnerOK G src B delta lo hi i s) {fuel : Nat} (hf : G.nrows * (G.nrows * B + 1) + 1 ≤ fuel) :
    ∃ s', loop (fun s => decide (0 < s.tm.nvals)) (deltaInner t ov AL lo hi) fuel s = .ok s' ∧
      InnerOK G src B delta lo hi i s' ∧ ∀ u, ¬ mem s'.bi u := by
  have hK : ∀ {s : DeltaSt}, InnerOK G src B delta lo hi i s → ∀ v x, s.t.get v = some x →
      x ≤ (G.nrows * B + 1 : Nat) := by
    intro s hs v x hx
    have := hs.ok.tent.le hx
    omega
  have hany : ∀ {s : DeltaSt}, InnerOK G src B delta lo hi i s → 0 < s.tm.nvals → ∃ v, v < G.nrows ∧ mem s.bi v := by
    intro s hs hn
    obtain ⟨v, x, hv, hx⟩ := nonempty_of_nvals hs.ok.tm.1 hn
    rw [hs.masked v] at hx
    split at hx
    · exact ⟨v, by rw [← hs.ok.tm.2]; exact hv, by assumption⟩
    · cases hx
  obtain ⟨s', e, hs', hc⟩ := loop_rule (c := fun s : DeltaSt => decide (0 < s.tm.nvals))
    (b := deltaInner t ov AL lo hi) (InnerOK G src B delta lo hi i)
    (fun s => potential (G.nrows * B + 1) s.t.get G.nrows + if 0 < s.tm.nvals then 1 else 0)
    (by
      intro s hs hc
      obtain ⟨s', e, hs', hm, hr, hb⟩ := deltaInner_spec (ov := ov) h hAL h1 h2 hp hlt hlo hs
      refine ⟨s', e, hs', ?_⟩
      obtain ⟨p1, p2⟩ := potential_step (K := G.nrows * B + 1) (n := G.nrows) hm
        (fun v x hx => by have := hr v x hx; exact ⟨this.1, by omega⟩) hs.ok.tent.nonneg
      have hc : 0 < s.tm.nvals := by simpa using hc
      rw [if_pos hc]
      split
      · rename_i hc'
        obtain ⟨v, hv, hv'⟩ := hany hs' hc'
        obtain ⟨x, hx⟩ := hb v hv'
        have := p2 ⟨v, x, hv, hx⟩
        omega
      · omega) fuel s hs (by
      have := potential_le (n := G.nrows) (hK hs)
      show _ + (if 0 < s.tm.nvals then 1 else 0) ≤ fuel
      split <;> omega)
  refine ⟨s', e, hs', ?_⟩
  intro u hu
  obtain ⟨y, hy, -⟩ := hs'.bucket.bi_in u hu
  have hn : s'.tm.nvals = 0 := by
    have : ¬ 0 < s'.tm.nvals := by simpa using hc
    omega
  have := none_of_nvals hs'.ok.tm.1 hn u
  rw [hs'.masked u, if_pos (show s'.bi.get u = some true from hu), hy] at this
  cases this

/-- The invariant of the outer loop: everything below the bucket is settled, and `tcomp`
tells what is left. -/
structure OuterOK (G : Lil Int) (src B : Nat) (delta : Int) (s : DeltaSt) : Prop where
  ok : DeltaOK G src B s
  settled : Settled (deadEnds G.get src) (s.i * delta) s.t.get
  first : s.i = 0 → ∀ v, dead G.get src v → s.t.get v = none
  left : ∀ v, (s.comp.get v ≠ none ↔ ∃ x, s.t.get v = some x ∧ s.i * delta ≤ x)

/-- The vertices at distance `lo` or more. -/
theorem deltaComp_spec {t : ITy} {ov : Int → Int → Int} {G : Lil Int} {delta : Int} {src : Nat}
    {B : Nat} {s : DeltaSt} (ht : ∀ v x, s.t.get v = some x → t.Has x)
    (hs : DeltaOK G src B s) {lo : Int} (hlo : bucketLo t ov delta s.i = lo) (hl : t.Has lo)
    {outp : Outp} (ho : outp = .replace ∨ ∀ v x, s.t.get v = some x → lo ≤ x) :
    ∃ c, deltaComp t ov delta outp s = .ok { s with comp := c } ∧ (c.WF ∧ c.size = G.nrows) ∧
      ∀ v, (c.get v ≠ none ↔ ∃ x, s.t.get v = some x ∧ lo ≤ x) := by
  obtain ⟨c1, e1, y1⟩ := C15_apply_vector (o := vPlain id s.comp) (f := fun x => t.geT x lo) (u := s.t)
    (vPlain_wf hs.comp.1) hs.t.1 ⟨noMaskFits, hs.comp.2.trans hs.t.2.symm⟩
  obtain ⟨p1, p2, p3⟩ := plain_yields y1
  obtain ⟨c2, e2, y2⟩ := C15_apply_vector (o := vMasked id c1 .plain id c1 outp) (f := id) (u := c1)
    ⟨p1, maskOK p1⟩ p1 ⟨maskFits rfl, rfl⟩
  have hsz : c2.size = G.nrows := y2.size.trans (p2.trans hs.comp.2)
  refine ⟨c2, ?_, ⟨y2.wf, hsz⟩, ?_⟩
  · simp only [deltaComp, hlo]
    rw [e1, exec_done, prog_bind_ok, e2, exec_done, prog_bind_ok]
  · intro v
    rcases Nat.lt_or_ge v G.nrows with hv | hv
    · have hc1 : c1.get v = (s.t.get v).map fun x => decide (lo ≤ x) := by
        rw [p3 v (by rw [hs.comp.2]; exact hv), Option.map_id]
        cases hd : s.t.get v with
        | none => rfl
        | some x =>
          simp only [Option.map_some]
          rw [ITy.geT_eq (ht v x hd) hl]
          rfl
      have hv1 : v < c1.size := by rw [p2, hs.comp.2]; exact hv
      have hg := y2.get v hv1
      rw [hg]
      rcases ho with ho | ho
      · subst ho
        cases hd : s.t.get v with
        | none => simp [vMasked, VMask.allows, Spec.write, Spec.accum, Spec.allows, hc1, hd]
        | some x =>
          by_cases hx : lo ≤ x <;>
          simp [vMasked, VMask.allows, Spec.write, Spec.accum, Spec.allows, hc1, hd, hx]
      · cases hd : s.t.get v with
        | none => cases outp <;> simp [vMasked, VMask.allows, Spec.write, Spec.accum, Spec.allows, hc1, hd]
        | some x =>
          have hx := ho v x hd
          simp [vMasked, VMask.allows, Spec.write, Spec.accum, Spec.allows, hc1, hd, hx]
    · rw [y2.wf.get_none (by rw [hsz]; exact hv), hs.t.1.get_none (by rw [hs.t.2]; exact hv)]
      simp

/-- The start of a bucket. -/
theorem deltaStart_spec {G : Lil Int} {delta lo hi : Int} {src B : Nat} {s : DeltaSt}
    (hs : DeltaOK G src B s) (hl : Settled (deadEnds G.get src) lo s.t.get)
    (hD : ∀ u y, dead G.get src u → s.t.get u = some y → y < lo) :
    ∃ s', deltaStart lo hi s = .ok s' ∧ InnerOK G src B delta lo hi s.i s' := by
  obtain ⟨b1, e1, y1⟩ := C15_apply_vector (o := vPlain id s.bi) (f := inRange lo hi) (u := s.t)
    (vPlain_wf hs.bi.1) hs.t.1 ⟨noMaskFits, hs.bi.2.trans hs.t.2.symm⟩
  obtain ⟨p1, p2, p3⟩ := plain_yields y1
  have p2' : b1.size = G.nrows := p2.trans hs.bi.2
  obtain ⟨b2, e2, y2⟩ := C15_apply_vector (o := vMasked isTrue b1 .plain id b1 .replace) (f := ofBool) (u := b1)
    ⟨p1, maskOK p1⟩ p1 ⟨maskFits rfl, rfl⟩
  obtain ⟨q1, q2, q3⟩ := vMasked_replace y2
  have q2' : b2.size = G.nrows := q2.trans p2'
  obtain ⟨tm, e3, m1, hmask⟩ := maskedCopy_spec hs.tm hs.t ⟨q1, q2'⟩
  have hb : ∀ u, mem b2 u ↔ ∃ y, s.t.get u = some y ∧ lo ≤ y ∧ y < hi := by
    intro u
    unfold mem
    rcases Nat.lt_or_ge u G.nrows with hu | hu
    · rw [q3 u (by rw [p2']; exact hu), p3 u (by rw [hs.bi.2]; exact hu)]
      cases hd : s.t.get u with
      | none => simp
      | some y =>
        cases hr : inRange lo hi y with
        | true =>
          have := inRange_iff.1 hr
          simp [hr, ofBool, isTrue, this]
        | false =>
          have : ¬ (lo ≤ y ∧ y < hi) := fun h => by rw [inRange_iff.2 h] at hr; cases hr
          simp [hr]
          omega
    · rw [q1.get_none (by rw [q2']; exact hu), hs.t.1.get_none (by rw [hs.t.2]; exact hu)]
      simp
  refine ⟨{ s with bi := b2, tm := tm, s := s.s.clear }, ?_,
    ⟨⟨hs.t, m1, hs.req, ⟨q1, q2'⟩, hs.comp, hs.less, ⟨BVec.clear_wf hs.done.1.vlen, hs.done.2⟩, hs.tent⟩, hmask,
      Bucket.start hl hb ?_ hD, rfl⟩⟩
  · rw [deltaStart, e1, exec_done, prog_bind_ok, e2, exec_done, prog_bind_ok, e3, exec_done, prog_bind_ok]
  · intro u hu
    unfold mem at hu
    rw [BVec.get_clear] at hu
    cases hu

/-- The heavy edges. -/
theorem deltaHeavy_spec {t : ITy} {ov : Int → Int → Int} {G AH : Lil Int} {delta lo hi : Int} {src : Nat}
    {paths : BVec Int} {B : Nat} (h : DeltaInput0 t G delta src paths B) (hAH : AH.WF)
    (h1 : AH.nrows = G.nrows) (h2 : AH.ncols = G.nrows) (hp : part G.get (delta < ·) AH.get) {i : Nat} {s : DeltaSt}
    (hs : InnerOK G src B delta lo hi i s) (hhi : hi = lo + delta) (hbi : ∀ u, ¬ mem s.bi u) :
    ∃ s', deltaHeavy t ov AH s = .ok s' ∧ DeltaOK G src B s' ∧ Settled (deadEnds G.get src) hi s'.t.get ∧ s'.i = i := by
  obtain ⟨k, -, hb, hi'⟩ := hs
  obtain ⟨tm, e1, m1, hmask⟩ := maskedCopy_spec k.tm k.t k.done
  obtain ⟨req, e2, q, hreq⟩ := requests_spec (t := t) (ov := ov) hAH h1 h2 k.req m1 hmask (h.noOver k.tent hp)
  have hask := asks_of hp hreq fun u hu => hb.alive u (.inr hu)
  obtain ⟨d, e3, d1, hmerge⟩ := merged_spec (t := t) k.t q (h.noOver k.tent hp).1
    fun v x hx => (h.req k.tent hp hreq hx).2.2
  have htent : Tentative (deadEnds G.get src) src B G.nrows d.get :=
    k.tent.step h.ws (fun u v w hw => by
      have := (edge_lt h.graph (u := u) (v := v) (by simp [Edge, (deadEnds_some.1 hw).1])).2
      have := h.square
      omega) hask hmerge
  refine ⟨{ s with t := d, tm := tm, req := req }, ?_,
    ⟨d1, m1, q, k.bi, k.comp, k.less, k.done, htent⟩, hb.finish h.ws hhi (deadEnds_set _ _).no hbi hask hmerge, hi'⟩
  rw [deltaHeavy, e1, exec_done, prog_bind_ok, e2, exec_done, prog_bind_ok, e3, exec_done, prog_bind_ok]

theorem DeltaInput0.lo {t : ITy} {G : Lil Int} {delta : Int} {src : Nat} {paths : BVec Int} {B : Nat}
    (h : DeltaInput0 t G delta src paths B) (ov : Int → Int → Int) {i : Nat}
    (hi : i * delta ≤ (G.nrows * B : Nat) + delta) :
    bucketLo t ov delta i = i * delta ∧ t.Has (i * delta) ∧ t.Has i := by
  have hd := h.width
  have h0 : (0 : Int) ≤ i * delta := Int.mul_nonneg (by omega) (by omega)
  have h1 : (i : Int) ≤ i * delta := by
    have := Int.mul_le_mul_of_nonneg_left (show (1 : Int) ≤ delta by omega) (show (0 : Int) ≤ i by omega)
    omega
  have hi1 : t.Has i := h.has (by omega) (by omega)
  have hi2 : t.Has (i * delta) := h.has h0 hi
  refine ⟨?_, hi2, hi1⟩
  rw [bucketLo, ITy.conv_id hi1, ITy.timesT_eq ov hi1 (h.has (by omega) (by omega)) hi2]

theorem ITy.has_lt {t : ITy} {i : Nat} (h : t.Has i) : i < 2 ^ 64 := by
  have := h.2
  cases t <;> simp [ITy.maxVal] at this <;> omega

/-- One iteration of the outer loop. -/
theorem deltaOuter_spec {t : ITy} {ov : Int → Int → Int} {G AL AH : Lil Int} {delta : Int} {src : Nat}
    {paths : BVec Int} {B : Nat} (h : DeltaInput0 t G delta src paths B)
    (hAL : AL.WF ∧ AL.nrows = G.nrows ∧ AL.ncols = G.nrows ∧ part G.get (· ≤ delta) AL.get)
    (hAH : AH.WF ∧ AH.nrows = G.nrows ∧ AH.ncols = G.nrows ∧ part G.get (delta < ·) AH.get)
    {fuel : Nat} (hf : G.nrows * (G.nrows * B + 1) + 1 ≤ fuel) {s : DeltaSt}
    (hs : OuterOK G src B delta s) (hc : 0 < s.comp.nvals) :
    ∃ s', deltaOuter fuel t ov AL AH delta s = .ok s' ∧ OuterOK G src B delta s' ∧ s'.i = s.i + 1 ∧
      s.i ≤ G.nrows * B := by
  obtain ⟨v, b, -, hb⟩ := nonempty_of_nvals hs.ok.comp.1 hc
  obtain ⟨x, hx, hlx⟩ := (hs.left v).1 (by rw [hb]; simp)
  have hxle := hs.ok.tent.le hx
  have hd := h.width
  have hsucc : ((s.i + 1 : Nat) : Int) * delta = s.i * delta + delta := by
    rw [Int.natCast_add, Int.add_mul]; simp
  obtain ⟨l1, l2, l3⟩ := h.lo ov (i := s.i) (by omega)
  obtain ⟨l4, l5, l6⟩ := h.lo ov (i := s.i + 1) (by omega)
  have hmod : (s.i + 1) % 2 ^ 64 = s.i + 1 := Nat.mod_eq_of_lt (ITy.has_lt l6)
  obtain ⟨s1, e1, hs1⟩ := deltaStart_spec (delta := delta) (hi := ((s.i + 1 : Nat) : Int) * delta) hs.ok hs.settled (by
    intro u y hu hy
    rcases Nat.eq_zero_or_pos s.i with h0 | h0
    · rw [hs.first h0 u hu] at hy; cases hy
    · have hpos : (0 : Int) < s.i * delta := Int.mul_pos (by omega) hd
      obtain ⟨z, z1, z2⟩ := hs.ok.tent.start
      have z3 := hs.ok.tent.nonneg src z z1
      have hz : z = 0 := by omega
      subst hz
      obtain ⟨q, q1, q2⟩ := hs.settled src u 0 0 z1 hpos (((deadEnds_set _ _).zero u hu.1).2 hu)
      rw [hy] at q1; cases q1
      omega)
  obtain ⟨s2, e2, hs2, hbi⟩ := inner_loop (ov := ov) h hAL.1 hAL.2.1 hAL.2.2.1 hAL.2.2.2 (by omega) (Int.mul_nonneg (by omega) (by omega)) hs1 hf
  obtain ⟨s3, e3, k3, hset, hi3⟩ := deltaHeavy_spec (ov := ov) h hAH.1 hAH.2.1 hAH.2.2.1 hAH.2.2.2 hs2 hsucc hbi
  obtain ⟨c, e4, c1, c2⟩ := deltaComp_spec (ov := ov) (s := { s3 with i := s.i + 1 }) (h.tent k3.tent)
    ⟨k3.t, k3.tm, k3.req, k3.bi, k3.comp, k3.less, k3.done, k3.tent⟩ l4 l5 (outp := .replace) (.inl rfl)
  refine ⟨{ s3 with i := s.i + 1, comp := c }, ?_,
    ⟨⟨k3.t, k3.tm, k3.req, k3.bi, c1, k3.less, k3.done, k3.tent⟩, hset, fun h => absurd h (by show s.i + 1 ≠ 0; omega), c2⟩,
    rfl, ?_⟩
  · simp only [deltaOuter]
    rw [l1, hmod, l4, e1, prog_bind_ok, e2, prog_bind_ok, e3, prog_bind_ok, hi3, hmod, e4]
  · have h1 : (s.i : Int) ≤ s.i * delta := by
      have := Int.mul_le_mul_of_nonneg_left (show (1 : Int) ≤ delta by omega) (show (0 : Int) ≤ s.i by omega)
      omega
    omega

/-- The source alone. -/
theorem tentative_source {W : Mat Int} {src B n : Nat} (h : src < n) : Tentative W src B n (source src) := by
  have hd0 : ∀ v x, source src v = some x → v = src ∧ x = 0 := by
    intro v x hx
    rw [source] at hx
    split at hx
    · exact ⟨by assumption, by cases hx; rfl⟩
    · cases hx
  have hcount : 1 ≤ Vec.count n (source src) := by
    have := count_lt (n := n) (f := fun _ => (none : Option Int)) (g := source src) (fun i _ hi => by cases hi)
      h rfl (by rw [source, if_pos rfl]; rfl)
    omega
  refine ⟨fun v x hx => ⟨0, hx⟩, ⟨0, by rw [source, if_pos rfl], Int.le_refl _⟩, ?_, ?_, ?_⟩
  · intro v x hx; have := (hd0 v x hx).2; omega
  · intro v x hx
    have h1 := (hd0 v x hx).2
    have h2 : 1 * B ≤ Vec.count n (source src) * B := Nat.mul_le_mul_right _ hcount
    omega
  · intro v x hx; rw [(hd0 v x hx).1]; exact h

/-- C54, what `sssp_delta_step` returns when weights may be zero, whatever the bucket width: the
distances in the graph in which the vertices that an edge of weight zero leads to from the
source have no edges out of them. -/
theorem C54_delta_step_actual {t : ITy} (ov : Int → Int → Int) {G : Lil Int} {delta : Int} {src : Nat}
    {paths : BVec Int} {B : Nat} (h : DeltaInput0 t G delta src paths B) {fuel : Nat}
    (hf : G.nrows * (G.nrows * B + 1) + 1 ≤ fuel) :
    ∃ p, deltaStep fuel t ov G delta src paths = .ok p ∧ p.WF ∧ p.size = G.nrows ∧
      ∀ v x, p.get v = some x ↔ IsDist (deadEnds G.get src) (source src) v x := by
  have hn : G.nrows ≠ 0 := by have := h.source; omega
  obtain ⟨d0, a1, a2, a3, a4⟩ := BVec.new_spec (α := Int) hn
  obtain ⟨b0, b1, b2, b3, b4⟩ := BVec.new_spec (α := Bool) hn
  obtain ⟨d, e0, d1, d2, d3⟩ := BVec.setElement_spec a2 (i := src) (by rw [a3]; exact h.source) 0
  have hdel : t.Has delta := h.has (by have := h.width; omega) (by omega)
  have hwt : ∀ u v w, G.get u v = some w → t.Has w := by
    intro u v w hw
    have := h.weights u v w hw
    have : B ≤ G.nrows * B := Nat.le_mul_of_pos_left _ (by omega)
    exact h.has (by omega) (by have := h.width; omega)
  obtain ⟨AL, e1, L1, L2, L3, L4⟩ := edgesWhere_spec h.graph h.square (fun w => t.leT w delta)
  obtain ⟨AH, e2, H1, H2, H3, H4⟩ := edgesWhere_spec h.graph h.square (fun w => t.gtT w delta)
  have L5 : part G.get (· ≤ delta) AL.get := by
    intro u v w
    rw [L4 u v w]
    refine and_congr_right fun hw => ?_
    show t.leT w delta = true ↔ w ≤ delta
    rw [ITy.leT_eq (hwt u v w hw) hdel, decide_eq_true_iff]
  have H5 : part G.get (delta < ·) AH.get := by
    intro u v w
    rw [H4 u v w]
    refine and_congr_right fun hw => ?_
    show t.gtT w delta = true ↔ delta < w
    rw [ITy.gtT_eq (hwt u v w hw) hdel, decide_eq_true_iff]
  have htent : Tentative (deadEnds G.get src) src B G.nrows d.get := by
    rw [show d.get = source src from funext fun v => by rw [d3 v, a4]; rfl]
    exact tentative_source h.source
  have hok : DeltaOK G src B { t := d, tm := d0, req := d0, bi := b0, comp := b0, less := b0, s := b0, i := 0 } :=
    ⟨⟨d1, d2.trans a3⟩, ⟨a2, a3⟩, ⟨a2, a3⟩, ⟨b2, b3⟩, ⟨b2, b3⟩, ⟨b2, b3⟩, ⟨b2, b3⟩, htent⟩
  obtain ⟨l1, l2, -⟩ := h.lo ov (i := 0) (by have := h.width; have : (0 : Int) ≤ (G.nrows * B : Nat) := Int.natCast_nonneg _; rw [Int.natCast_zero, Int.zero_mul]; omega)
  obtain ⟨c, e3, c1, c2⟩ := deltaComp_spec (ov := ov) (h.tent htent) hok (lo := 0) (by rw [l1]; simp) (ITy.has_zero t)
    (outp := .merge) (.inr htent.nonneg)
  have hout : OuterOK G src B delta { t := d, tm := d0, req := d0, bi := b0, comp := c, less := b0, s := b0, i := 0 } := by
    refine ⟨⟨⟨d1, d2.trans a3⟩, ⟨a2, a3⟩, ⟨a2, a3⟩, ⟨b2, b3⟩, c1, ⟨b2, b3⟩, ⟨b2, b3⟩, htent⟩, ?_, ?_, ?_⟩
    · intro u v y w h1 h2 _
      have := htent.nonneg u y h1
      simp at h2
      omega
    · intro _ v hv
      show d.get v = none
      rw [d3 v, a4]
      exact if_neg hv.1
    · intro v
      rw [c2 v]
      simp
  obtain ⟨s, e4, hs, hc⟩ := loop_rule (c := fun s : DeltaSt => decide (0 < s.comp.nvals))
    (b := deltaOuter fuel t ov AL AH delta) (OuterOK G src B delta)
    (fun s => G.nrows * B + 1 - s.i) (by
      intro s hs hc
      obtain ⟨s', e, hs', hi, hle⟩ := deltaOuter_spec (ov := ov) h ⟨L1, L2, L3, L5⟩ ⟨H1, H2, H3, H5⟩ hf hs
        (by simpa using hc)
      exact ⟨s', e, hs', by omega⟩) fuel _ hout (by
      have : G.nrows * B + 1 ≤ G.nrows * (G.nrows * B + 1) := Nat.le_mul_of_pos_left _ (by omega)
      show G.nrows * B + 1 - 0 ≤ fuel
      omega)
  have hn0 : s.comp.nvals = 0 := by
    have : ¬ 0 < s.comp.nvals := by simpa using hc
    omega
  have hall : ∀ v x, s.t.get v = some x → x < s.i * delta := by
    intro v x hx
    rcases Int.lt_or_le x (s.i * delta) with h1 | h1
    · exact h1
    · exact absurd (none_of_nvals hs.ok.comp.1 hn0 v) ((hs.left v).2 ⟨x, hx, h1⟩)
  have hpc : paths.clear.size = G.nrows := h.psize
  obtain ⟨p, e5, y5⟩ := C15_apply_vector (o := vPlain id paths.clear) (f := id) (u := s.t)
    (vPlain_wf (BVec.clear_wf h.pwf.vlen)) hs.ok.t.1 ⟨noMaskFits, hpc.trans hs.ok.t.2.symm⟩
  obtain ⟨p1, p2, p3⟩ := plain_yields y5
  refine ⟨p, ?_, p1, p2.trans hpc, ?_⟩
  · simp only [deltaStep]
    rw [a1, lift_ok, prog_bind_ok, prog_bind_ok, prog_bind_ok, b1, lift_ok, prog_bind_ok, prog_bind_ok, prog_bind_ok,
      prog_bind_ok, e0, method_ok, lift_ok, prog_bind_ok, e1, prog_bind_ok, e2, prog_bind_ok, e3, prog_bind_ok, e4,
      prog_bind_ok, e5, exec_done]
  · intro v x
    rw [← hs.ok.tent.dist hs.settled hall v x]
    rcases Nat.lt_or_ge v G.nrows with hv | hv
    · rw [p3 v (by rw [hpc]; exact hv)]
      simp
    · rw [p1.get_none (by rw [p2, hpc]; exact hv), hs.ok.t.1.get_none (by rw [hs.ok.t.2]; exact hv)]

/-- C54 (partial: no edge of weight zero from the source to another vertex). `sssp_delta_step`
returns, and the result holds the minimum weight of a walk from the source for exactly the
vertices that can be reached, whatever the bucket width. -/
theorem C54_delta_step_nonneg_partial {t : ITy} (ov : Int → Int → Int) {G : Lil Int} {delta : Int} {src : Nat}
    {paths : BVec Int} {B : Nat} (h : DeltaInput0 t G delta src paths B) {fuel : Nat}
    (hf : G.nrows * (G.nrows * B + 1) + 1 ≤ fuel) (h0 : ∀ v, v ≠ src → G.get src v ≠ some 0) :
    ∃ p, deltaStep fuel t ov G delta src paths = .ok p ∧ p.WF ∧ p.size = G.nrows ∧
      ∀ v x, p.get v = some x ↔ IsDist G.get (source src) v x := by
  have := C54_delta_step_actual (t := t) ov h hf
  rwa [deadEnds_id h0] at this

/-- C54 (partial: positive weights). -/
theorem C54_delta_step_partial {t : ITy} (ov : Int → Int → Int) {G : Lil Int} {delta : Int} {src : Nat}
    {paths : BVec Int} {B : Nat} (h : DeltaInput t G delta src paths B) {fuel : Nat}
    (hf : G.nrows * (G.nrows * B + 1) + 1 ≤ fuel) :
    ∃ p, deltaStep fuel t ov G delta src paths = .ok p ∧ p.WF ∧ p.size = G.nrows ∧
      ∀ v x, p.get v = some x ↔ IsDist G.get (source src) v x :=
  C54_delta_step_nonneg_partial ov h.nonneg hf fun v _ e => by
    have := (h.weights src v 0 e).1
    omega

/-- C54: without a check of the bucket width. With width zero `sssp_delta_step` runs
forever, on every graph. -/
theorem C54_zero_width_forever {t : ITy} (ov : Int → Int → Int) {G : Lil Int} {src : Nat} {paths : BVec Int}
    (hG : G.WF) (hsq : G.nrows = G.ncols) (hsrc : src < G.nrows)
    (hw : ∀ u v w, G.get u v = some w → t.Has w) (fuel : Nat) :
    deltaStep fuel t ov G 0 src paths = .error .running := by
  have hn : G.nrows ≠ 0 := by omega
  obtain ⟨d0, a1, a2, a3, a4⟩ := BVec.new_spec (α := Int) hn
  obtain ⟨b0, b1, b2, b3, b4⟩ := BVec.new_spec (α := Bool) hn
  obtain ⟨d, e0, d1, d2, d3⟩ := BVec.setElement_spec a2 (i := src) (by rw [a3]; exact hsrc) 0
  obtain ⟨AL, e1, -⟩ := edgesWhere_spec hG hsq (fun w => t.leT w 0)
  obtain ⟨AH, e2, H1, H2, H3, H4⟩ := edgesWhere_spec hG hsq (fun w => t.gtT w 0)
  have hd : d.get = source src := funext fun v => by rw [d3 v, a4]; rfl
  have hlo : ∀ i : Nat, bucketLo t ov 0 i = 0 := by
    intro i
    have h1 := ITy.has_conv t i
    have h2 : t.Has (t.conv i * 0) := by rw [Int.mul_zero]; exact ITy.has_zero t
    rw [bucketLo, ITy.timesT_eq ov h1 (ITy.has_zero t) h2, Int.mul_zero]
  have hsome : ∀ v x, source src v = some x → v = src ∧ x = 0 := by
    intro v x hx
    rw [source] at hx
    split at hx
    · exact ⟨by assumption, by cases hx; rfl⟩
    · cases hx
  have hhas : ∀ v x, source src v = some x → t.Has x := by
    intro v x hx
    rw [(hsome v x hx).2]; exact ITy.has_zero t
  have hcomp : ∀ {s : DeltaSt}, DeltaOK G src 0 s → s.t.get = source src → ∀ {outp : Outp},
      (outp = .replace ∨ outp = .merge) →
      ∃ s', deltaComp t ov 0 outp s = .ok s' ∧ DeltaOK G src 0 s' ∧ s'.t.get = source src ∧
        s'.comp.get src ≠ none := by
    intro s hs ht outp _
    obtain ⟨c, e, c1, c2⟩ := deltaComp_spec (t := t) (ov := ov) (delta := 0) (s := s) (by rw [ht]; exact hhas) hs
      (hlo s.i) (ITy.has_zero t) (outp := outp) (.inr fun v x hx => by
        rw [ht] at hx; have := (hsome v x hx).2; omega)
    refine ⟨_, e, ⟨hs.t, hs.tm, hs.req, hs.bi, c1, hs.less, hs.done, hs.tent⟩, ht, ?_⟩
    exact (c2 src).2 ⟨0, by rw [ht, source, if_pos rfl], Int.le_refl _⟩
  obtain ⟨s0, e3, k0, t0, c0⟩ := hcomp (s := { t := d, tm := d0, req := d0, bi := b0, comp := b0, less := b0, s := b0, i := 0 })
    ⟨⟨d1, d2.trans a3⟩, ⟨a2, a3⟩, ⟨a2, a3⟩, ⟨b2, b3⟩, ⟨b2, b3⟩, ⟨b2, b3⟩, ⟨b2, b3⟩, by
      show Tentative (deadEnds G.get src) src 0 G.nrows d.get
      rw [hd]; exact tentative_source hsrc⟩ hd (outp := .merge) (.inr rfl)
  have hloop : loop (fun s => decide (0 < s.comp.nvals)) (deltaOuter fuel t ov AL AH 0) fuel s0 = .error .running := by
    refine loop_forever (fun s => DeltaOK G src 0 s ∧ s.t.get = source src ∧ s.comp.get src ≠ none) ?_ fuel s0
      ⟨k0, t0, c0⟩
    rintro s ⟨hs, ht, hc⟩
    constructor
    · rcases Nat.eq_zero_or_pos s.comp.nvals with h0 | h0
      · exact absurd (none_of_nvals hs.comp.1 h0 src) hc
      · simpa using h0
    · obtain ⟨s1, f1, hs1⟩ := deltaStart_spec (delta := 0) (lo := 0) (hi := 0) hs (by
        intro u v y w h1 h2 _
        have := hs.tent.nonneg u y h1
        omega) (by
        intro u y hu hy
        rw [ht] at hy
        exact absurd (hsome u y hy).1 hu.1)
      have hbi : ∀ u, ¬ mem s1.bi u := by
        intro u hu
        obtain ⟨y, -, h1, h2⟩ := hs1.bucket.bi_in u hu
        omega
      have hs1t : s1.t = s.t ∧ ∀ u, s1.s.get u = none := by
        rw [deltaStart] at f1
        obtain ⟨x1, x2, x3⟩ : ∃ x1 x2, s1 = { s with bi := x1, tm := x2, s := s.s.clear } := by
          revert f1
          cases exec (applyV (vPlain id s.bi) (inRange 0 0) s.t) with
          | error e => intro h; cases h
          | ok y1 =>
            rw [prog_bind_ok]
            cases exec (applyV (vMasked isTrue y1 .plain id y1 .replace) ofBool y1) with
            | error e => intro h; cases h
            | ok y2 =>
              rw [prog_bind_ok]
              cases exec (applyV (vMasked id s.tm .plain id y2 .replace) id s.t) with
              | error e => intro h; cases h
              | ok y3 =>
                rw [prog_bind_ok]
                intro h; cases h
                exact ⟨_, _, rfl⟩
        rw [x3]
        exact ⟨rfl, fun u => BVec.get_clear _ _⟩
      have htm : s1.tm.nvals = 0 := by
        rcases Nat.eq_zero_or_pos s1.tm.nvals with h0 | h0
        · exact h0
        · obtain ⟨v, x, -, hx⟩ := nonempty_of_nvals hs1.ok.tm.1 h0
          rw [hs1.masked v, if_neg (show ¬ s1.bi.get v = some true from hbi v)] at hx
          cases hx
      have f2 : loop (fun s => decide (0 < s.tm.nvals)) (deltaInner t ov AL 0 0) fuel s1 = .ok s1 := by
        cases fuel <;> simp [loop, htm]
      obtain ⟨tm, f3, m1, hmask⟩ := maskedCopy_spec hs1.ok.tm hs1.ok.t hs1.ok.done
      obtain ⟨req, f4, q, hreq⟩ := requests_spec (t := t) (ov := ov) H1 H2 H3 hs1.ok.req m1 hmask (by
        rw [hs1t.1, ht]
        refine ⟨hhas, ?_⟩
        intro u v y w h1 h2
        have h3 := hw u v w ((H4 u v w).1 h2).1
        rw [(hsome u y h1).2, Int.zero_add]
        exact ⟨h3, h3⟩)
      have hnone : ∀ v, req.get v = none := by
        intro v
        cases hr : req.get v with
        | none => rfl
        | some x =>
          obtain ⟨u, y, w, hu, -⟩ := hreq.from_ v x hr
          rw [hs1t.2 u] at hu
          cases hu
      obtain ⟨d', f5, d1', hmerge⟩ := merged_spec (t := t) hs1.ok.t q (by rw [hs1t.1, ht]; exact hhas)
        (fun v x hx => by rw [hnone v] at hx; cases hx)
      have hd' : d'.get = source src := by
        funext v
        rw [hmerge v, hnone v, hs1t.1, ht]
        cases source src v <;> rfl
      obtain ⟨s2, f6, k6, t6, c6⟩ := hcomp
        (s := { s1 with t := d', tm := tm, req := req, i := (s1.i + 1) % 2 ^ 64 })
        ⟨d1', m1, q, hs1.ok.bi, hs1.ok.comp, hs1.ok.less, hs1.ok.done, by
          show Tentative (deadEnds G.get src) src 0 G.nrows d'.get
          rw [hd']; exact tentative_source hsrc⟩ hd' (outp := .replace) (.inl rfl)
      refine ⟨s2, ?_, k6, t6, c6⟩
      simp only [deltaOuter]
      rw [hlo, hlo, f1, prog_bind_ok, f2, prog_bind_ok, deltaHeavy, f3, exec_done, prog_bind_ok, f4, exec_done,
        prog_bind_ok, f5, exec_done, prog_bind_ok, prog_bind_ok]
      exact f6
  simp only [deltaStep]
  rw [a1, lift_ok, prog_bind_ok, prog_bind_ok, prog_bind_ok, b1, lift_ok, prog_bind_ok, prog_bind_ok, prog_bind_ok,
    prog_bind_ok, e0, method_ok, lift_ok, prog_bind_ok, e1, prog_bind_ok, e2, prog_bind_ok, e3, prog_bind_ok, hloop,
    prog_bind_error]

namespace Ex

/-- 0 →(1) 1 →(2) 2 →(9) 3, 0 →(7) 2, 3 →(1) 0; vertex 4 cannot be reached. -/
def dsGraph : Lil Int :=
  { nrows := 5, ncols := 5, nvals := 5, rows := [[(1, 1), (2, 7)], [(2, 2)], [(3, 9)], [(0, 1)], []] }
/-- Overwritten. -/
def dsOut : BVec Int := { size := 5, nvals := 1, vals := [0, 8, 0, 0, 0], bitmap := [false, true, false, false, false] }

theorem ds_input {delta : Int} (h : 0 < delta) (h' : delta ≤ 100) : DeltaInput .i32 dsGraph delta 0 dsOut 9 := by
  refine ⟨Lil.wf_chk (by decide), rfl, by decide, ⟨rfl, rfl, rfl⟩, rfl, ?_, h, ?_⟩
  · intro u v w hw
    exact get_chk (Lil.wf_chk (by decide)) (P := fun w => 0 < w ∧ w ≤ (9 : Nat)) (by decide) hw
  · constructor
    · show (-2147483648 : Int) ≤ 45 + delta; omega
    · show 45 + delta ≤ (2147483647 : Int); omega

/-- 0 →(0) 1 →(1) 2. -/
def dsZero : Lil Int := { nrows := 3, ncols := 3, nvals := 2, rows := [[(1, 0)], [(2, 1)], []] }

end Ex

example : DeltaInput .i32 Ex.dsGraph 3 0 Ex.dsOut 9 ∧ deltaStep 9 .i32 (fun _ _ => 0) Ex.dsGraph 3 0 Ex.dsOut =
    .ok ⟨5, 4, [0, 1, 3, 12, 0], [true, true, true, true, false]⟩ :=
  ⟨Ex.ds_input (by decide) (by decide), by decide +kernel⟩

/-- More iterations do not change a result. -/
theorem deltaStep_more {t : ITy} {ov : Int → Int → Int} {G : Lil Int} {delta : Int} {src : Nat}
    {paths p : BVec Int} {fuel d : Nat} (h : deltaStep fuel t ov G delta src paths = .ok p) :
    deltaStep (fuel + d) t ov G delta src paths = .ok p := by
  unfold deltaStep at h ⊢
  simp only at h ⊢
  iterate 11 refine prog_bind_imp h fun _ h => ?_
  revert h
  cases hl : loop _ _ fuel _ with
  | error e => intro h; cases h
  | ok q =>
    intro h
    rw [loop_mono (b' := deltaOuter (fuel + d) t ov _ _ delta) (fun s r hb => ?_) hl]
    · exact h
    · unfold deltaOuter at hb ⊢
      simp only at hb ⊢
      refine prog_bind_imp hb fun _ hb => ?_
      revert hb
      cases hl : loop _ _ fuel _ with
      | error e => intro h; cases h
      | ok q => intro h; rw [loop_more hl]; exact h

/-- The graph with the edge of weight zero meets the hypotheses of `C54_delta_step_actual`. -/
example : DeltaInput0 .i32 Ex.dsZero 3 0 ⟨3, 0, [0, 0, 0], [false, false, false]⟩ 1 ∧
    deltaStep 13 .i32 (fun _ _ => 0) Ex.dsZero 3 0 ⟨3, 0, [0, 0, 0], [false, false, false]⟩ =
      .ok ⟨3, 2, [0, 0, 0], [true, true, false]⟩ := by
  refine ⟨⟨Lil.wf_chk (by decide), rfl, by decide, ⟨rfl, rfl, rfl⟩, rfl, ?_, by decide, by decide⟩, by decide +kernel⟩
  intro u v w hw
  exact Ex.get_chk (Lil.wf_chk (by decide)) (P := fun w => 0 ≤ w ∧ w ≤ (1 : Nat)) (by decide) hw

/-- C54, the general statement is false: an edge of weight zero. The second vertex gets its
distance zero, but the edges out of it are never relaxed. -/
theorem C54_zero_weight_wrong :
    ∃ (G : Lil Int) (paths p : BVec Int), G.WF ∧ paths.WF ∧ (∀ u v w, G.get u v = some w → 0 ≤ w ∧ w ≤ 1) ∧
      (∀ fuel, deltaStep (fuel + 1) .i32 (fun _ _ => 0) G 3 0 paths = .ok p) ∧
      IsDist G.get (source 0) 2 1 ∧ p.get 2 = none := by
  refine ⟨Ex.dsZero, ⟨3, 0, [0, 0, 0], [false, false, false]⟩, ⟨3, 2, [0, 0, 0], [true, true, false]⟩,
    Lil.wf_chk (by decide), ⟨rfl, rfl, rfl⟩, ?_, ?_, ?_, by decide⟩
  · intro u v w hw
    exact Ex.get_chk (Lil.wf_chk (by decide)) (P := fun w => 0 ≤ w ∧ w ≤ 1) (by decide) hw
  · intro fuel
    rw [show fuel + 1 = 1 + fuel by omega]
    exact deltaStep_more (by decide +kernel)
  · have hnn : ∀ k v x, WWalk Ex.dsZero.get (source 0) k v x → 0 ≤ x := by
      intro k
      induction k with
      | zero =>
        intro v x h
        have h : (if v = 0 then some (0 : Int) else none) = some x := h
        split at h
        · cases h; exact Int.le_refl _
        · cases h
      | succ k ih =>
        rintro v x ⟨u, y, w, h1, h2, rfl⟩
        have := ih u y h1
        have : 0 ≤ w := Ex.get_chk (Lil.wf_chk (by decide)) (P := fun w => 0 ≤ w) (by decide) h2
        omega
    refine ⟨⟨2, 1, 0, 1, ⟨0, 0, 0, rfl, by decide, rfl⟩, by decide, rfl⟩, ?_⟩
    intro k x h
    match k, h with
    | 0, h => exact absurd (show (none : Option Int) = some x from h) (by simp)
    | k + 1, ⟨u, y, w, h1, h2, e⟩ =>
      have := hnn k u y h1
      obtain ⟨hu, -⟩ := edge_lt (G := Ex.dsZero) (Lil.wf_chk (by decide)) (u := u) (v := 2) (by simp [Edge, h2])
      have hu : u < 3 := hu
      have hw : w = 1 := by
        have : u = 0 ∨ u = 1 ∨ u = 2 := by omega
        rcases this with rfl | rfl | rfl
        · exact absurd (show (none : Option Int) = some w from h2) (by simp)
        · exact (Option.some.inj (show some (1 : Int) = some w from h2)).symm
        · exact absurd (show (none : Option Int) = some w from h2) (by simp)
      omega

end GBTL

import Verif.Props.Sssp
import Verif.Spec.Filtered
/-
**C36** What `filtered_sssp` returns when walks may have weight zero.
-/
namespace GBTL
open Spec

/-- A walk along which every vertex was reached anew or better than before: `p t` is the
vertex after `t` edges and `x t` the weight so far. -/
structure Improving (W : Mat Int) (S d : Vec Int) (i : Nat) (p : Nat → Nat) (x : Nat → Int) : Prop where
  start : S (p 0) = some (x 0)
  edges : ∀ t, t < i → ∃ w, W (p t) (p (t + 1)) = some w ∧ x (t + 1) = x t + w
  kept : ∀ t, t ≤ i → ∃ z, d (p t) = some z ∧ z ≤ x t
  better : ∀ a b, a < b → b ≤ i → p a = p b → x b < x a

/-- An edge along which `d` might be better but which was not used: it leads to a vertex that
is not a start vertex, at a distance that is not negative. -/
def Missed (S d : Vec Int) (v : Nat) (x : Int) : Prop :=
  S v = none ∧ 0 ≤ x ∧ ∀ z, d v = some z → 0 < z

/-- Between the rounds, `i` rounds done. -/
structure FiltBase (W : Mat Int) (S : Vec Int) (n i : Nat) (s : FiltSt) : Prop where
  dwf : s.dist.WF
  dsize : s.dist.size = n
  nwf : s.newDist.WF
  nsize : s.newDist.size = n
  fwf : s.flags.WF
  fsize : s.flags.size = n
  walk : ∀ v x, s.dist.get v = some x → ∃ j, j ≤ i ∧ WWalk W S j v x
  sub : ∀ v x, s.newDist.get v = some x → s.dist.get v = some x

/-- After the probing half of a round. -/
structure FiltProbed (W : Mat Int) (s s' : FiltSt) : Prop where
  same : s'.dist = s.dist
  left : s'.left = s.left
  nwf : s'.newDist.WF
  nsize : s'.newDist.size = s.dist.size
  fwf : s'.flags.WF
  fsize : s'.flags.size = s.dist.size
  from_ : ∀ v x, s'.newDist.get v = some x →
    (∃ u y w, s.newDist.get u = some y ∧ W u v = some w ∧ x = y + w) ∧ (∀ y, s.dist.get v = some y → x < y) ∧
    (s.dist.get v = none → x ≠ 0) ∧ ∀ u y w, s.newDist.get u = some y → W u v = some w → x ≤ y + w
  edge : ∀ u v y w, s.newDist.get u = some y → W u v = some w →
    (∃ z, s.dist.get v = some z ∧ z ≤ y + w) ∨ (∃ z, s'.newDist.get v = some z ∧ z ≤ y + w) ∨
    (s.dist.get v = none ∧ 0 ≤ y + w ∧ ∃ u' y' w', s.newDist.get u' = some y' ∧ W u' v = some w' ∧ y' + w' = 0)

/-- The updating half of a round. -/
structure FiltUpdated (s s' r : FiltSt) : Prop where
  new : r.newDist = s'.newDist
  left : r.left = s.left - 1
  keep : ∀ v x, s.dist.get v = some x → ∃ y, r.dist.get v = some y ∧ y ≤ x
  get : ∀ v, r.dist.get v = either min id id (s'.newDist.get v) (s.dist.get v)
  back : ∀ v, s'.newDist.get v = none → r.dist.get v = s.dist.get v

theorem FiltBase.noOver {t : ITy} {G : Lil Int} {dist : BVec Int} (h : PathInput t G dist) {i : Nat} (hi : i < dist.size) {s : FiltSt}
    (hs : FiltBase G.get dist.get dist.size i s) : NoOver t s.dist.get G.get := by
  refine ⟨?_, ?_⟩
  · intro v x hx
    obtain ⟨j, hj, hj2⟩ := hs.walk v x hx
    exact h.walks j v x (by omega) hj2
  · intro u v y w hu he
    obtain ⟨j, hj, hj2⟩ := hs.walk u y hu
    exact ⟨h.weights u v w he, h.walks (j + 1) v (y + w) (by omega) ⟨u, y, w, hj2, he, rfl⟩⟩

theorem filtProbe_any {t : ITy} {ov : Int → Int → Int} {G : Lil Int} {dist : BVec Int}
    (h : PathInput t G dist) {i : Nat} (hi : i < dist.size) {s : FiltSt} (hs : FiltBase G.get dist.get dist.size i s) :
    ∃ s', filtProbe t ov G s = .ok s' ∧ FiltProbed G.get s s' := by
  have hov := hs.noOver h hi
  have hovN : NoOver t s.newDist.get G.get :=
    ⟨fun v x hx => hov.1 v x (hs.sub v x hx), fun u v y w hu => hov.2 u v y w (hs.sub u y hu)⟩
  obtain ⟨nd, e1, y1⟩ := C11_vxm (o := vPlain id s.newDist) (sr := minPlusT t ov) (u := s.newDist)
    (A := .plain G) (vPlain_wf hs.nwf) hs.nwf h.graph
    ⟨noMaskFits, by show s.newDist.size = G.ncols; rw [hs.nsize, h.cols],
      by show s.newDist.size = G.nrows; rw [hs.nsize, h.rows]⟩
  obtain ⟨n1, n2, n3⟩ := plain_yields y1
  have n2' : nd.size = dist.size := n2.trans hs.nsize
  have n3' : ∀ v, v < dist.size → nd.get v = Spec.vxm dist.size t.minT (t.plusT ov) s.newDist.get G.get v := by
    intro v hv
    rw [n3 v (by rw [hs.nsize]; exact hv), Option.map_id, hs.nsize]
    rfl
  obtain ⟨fl, e2, y2⟩ := C13_eWiseAdd_vector (o := flagOut s.flags nd) (f := ewLess t) (u := nd) (v := s.dist)
    ⟨hs.fwf, maskOK n1⟩ n1 hs.dwf
    ⟨maskFits (n2'.trans hs.fsize.symm), hs.fsize.trans n2'.symm, n2'.trans hs.dsize.symm⟩
  have f2 : fl.size = dist.size := y2.size.trans hs.fsize
  have f3 : ∀ v, v < dist.size → fl.get v =
      match nd.get v with
      | none => none
      | some x => some (match s.dist.get v with | none => isTrue x | some y => t.lessT x y) := by
    intro v hv
    have := y2.get v (by show v < s.flags.size; rw [hs.fsize]; exact hv)
    rw [this]
    cases hn : nd.get v with
    | none => simp [flagOut, VMask.allows, Spec.write, Spec.accum, Spec.allows, hn]
    | some x =>
      cases hd : s.dist.get v <;>
        simp [flagOut, VMask.allows, Spec.write, Spec.accum, Spec.allows, hn, hd, either, ewLess]
  obtain ⟨nd', e3, y3⟩ := C15_apply_vector (o := keepOut nd fl) (f := id) (u := nd) ⟨n1, maskOK y2.wf⟩ n1
    ⟨maskFits (f2.trans n2'.symm), rfl⟩
  have g3 : ∀ v, v < dist.size → nd'.get v = if fl.get v = some true then nd.get v else none := by
    intro v hv
    have := y3.get v (by show v < nd.size; rw [n2']; exact hv)
    rw [this]
    cases hf : fl.get v with
    | none => simp [keepOut, VMask.allows, Spec.write, Spec.accum, Spec.allows, hf]
    | some b => cases b <;> simp [keepOut, VMask.allows, Spec.write, Spec.accum, Spec.allows, hf]
  have g2 : nd'.size = dist.size := y3.size.trans n2'
  have hlt : ∀ v x, nd'.get v = some x → v < dist.size := by
    intro v x hx
    rw [← g2]; exact vec_some_lt y3.wf (by rw [hx]; simp)
  have hnd : ∀ v x, v < dist.size → nd.get v = some x →
      (∃ u y w, s.newDist.get u = some y ∧ G.get u v = some w ∧ x = y + w) ∧ t.Has x := by
    intro v x hv hx
    rw [n3' v hv] at hx
    obtain ⟨⟨u, y, w, -, a, b, c⟩, d⟩ := (minplus_spec hovN).1 x hx
    exact ⟨⟨u, y, w, a, b, c⟩, d⟩
  refine ⟨{ s with newDist := nd', flags := fl }, ?_, ⟨rfl, rfl, y3.wf, g2.trans hs.dsize.symm, y2.wf,
    f2.trans hs.dsize.symm, ?_, ?_⟩⟩
  · rw [filtProbe, e1, exec_done, prog_bind_ok, e2, exec_done, prog_bind_ok, e3, exec_done, prog_bind_ok]
  · intro v x hx
    have hv := hlt v x hx
    rw [show ({ s with newDist := nd', flags := fl } : FiltSt).newDist.get v = nd'.get v from rfl, g3 v hv] at hx
    split at hx
    · rename_i hf
      obtain ⟨hfrom, hhas⟩ := hnd v x hv hx
      refine ⟨hfrom, ?_, ?_, ?_⟩
      · intro z hz'
        rw [f3 v hv, hx, hz'] at hf
        simp only [Option.some.injEq] at hf
        rw [ITy.lessT_eq hhas (hov.1 v z hz')] at hf
        exact of_decide_eq_true hf
      · intro hd
        rw [f3 v hv, hx, hd] at hf
        simp only [Option.some.injEq, isTrue, bne_iff_ne, ne_eq] at hf
        exact hf
      · intro u y w hu hw
        obtain ⟨z, z1, z2⟩ := (minplus_spec (ov := ov) (n := dist.size) hovN).2 u y w
          (h.verts.2 u v (by rw [hw]; simp)).1 hu hw
        rw [← n3' v hv, hx] at z1
        cases z1; exact z2
    · cases hx
  · intro u v y w hN hw
    have hv : v < dist.size := (h.verts.2 u v (by rw [hw]; simp)).2
    have hun : u < dist.size := (h.verts.2 u v (by rw [hw]; simp)).1
    obtain ⟨z, z1, z2⟩ := (minplus_spec (ov := ov) (n := dist.size) hovN).2 u y w hun hN hw
    rw [← n3' v hv] at z1
    obtain ⟨⟨u', y', w', k1, k2, k3⟩, hhas⟩ := hnd v z hv z1
    cases hd : s.dist.get v with
    | none =>
      right
      by_cases hz0 : z = 0
      · exact Or.inr ⟨rfl, by omega, u', y', w', k1, k2, by omega⟩
      · left
        refine ⟨z, ?_, z2⟩
        show nd'.get v = some z
        rw [g3 v hv, f3 v hv, z1, hd, if_pos]
        simp only [Option.some.injEq, isTrue, bne_iff_ne, ne_eq]
        exact hz0
    | some q =>
      rcases Int.lt_or_le z q with hlt' | hge
      · right; left
        refine ⟨z, ?_, z2⟩
        show nd'.get v = some z
        rw [g3 v hv, f3 v hv, z1, hd, if_pos]
        simp only [Option.some.injEq]
        rw [ITy.lessT_eq hhas (hov.1 v q hd)]
        exact decide_eq_true hlt'
      · exact Or.inl ⟨q, rfl, by omega⟩

theorem filtUpdate_any {t : ITy} {G : Lil Int} {dist : BVec Int}
    (h : PathInput t G dist) {i : Nat} (hi : i < dist.size) {s s' : FiltSt}
    (hs : FiltBase G.get dist.get dist.size i s) (p : FiltProbed G.get s s') :
    ∃ r, filtUpdate t s' = .ok r ∧ FiltBase G.get dist.get dist.size (i + 1) r ∧ FiltUpdated s s' r := by
  have hov := hs.noOver h hi
  have hh : ∀ v x, s'.newDist.get v = some x → t.Has x := by
    intro v x hx
    obtain ⟨⟨u, y, w, a, b, rfl⟩, -⟩ := p.from_ v x hx
    exact (hov.2 u v y w (hs.sub u y a) b).2
  obtain ⟨d, e, y⟩ := C13_eWiseAdd_vector (o := vPlain id s'.dist) (f := ewMin t) (u := s'.newDist)
    (v := s'.dist) (vPlain_wf (by rw [p.same]; exact hs.dwf)) p.nwf (by rw [p.same]; exact hs.dwf)
    ⟨noMaskFits, by show s'.dist.size = _; rw [p.same, p.nsize], by rw [p.same, p.nsize]⟩
  obtain ⟨d1, d2, d3⟩ := plain_yields y
  rw [p.same] at d2 d3
  have d2' : d.size = dist.size := d2.trans hs.dsize
  have d3' : ∀ v, d.get v = either min id id (s'.newDist.get v) (s.dist.get v) := by
    intro v
    rcases Nat.lt_or_ge v dist.size with hv | hv
    · rw [d3 v (by rw [hs.dsize]; exact hv), Option.map_id]
      cases hn : s'.newDist.get v with
      | none => cases s.dist.get v <;> rfl
      | some x =>
        cases hd : s.dist.get v with
        | none => rfl
        | some y =>
          show some (t.minT x y) = some (min x y)
          rw [ITy.minT_eq (hh v x hn) (hov.1 v y hd)]
    · rw [d1.get_none (by omega), p.nwf.get_none (by rw [p.nsize, hs.dsize]; exact hv),
        hs.dwf.get_none (by rw [hs.dsize]; exact hv)]
      rfl
  have hkeep : ∀ v x, s.dist.get v = some x → ∃ y, d.get v = some y ∧ y ≤ x := by
    intro v x hx
    rw [d3', hx]
    cases s'.newDist.get v with
    | none => exact ⟨x, rfl, Int.le_refl _⟩
    | some z => exact ⟨min z x, rfl, by omega⟩
  have hsub : ∀ v x, s'.newDist.get v = some x → d.get v = some x := by
    intro v x hx
    rw [d3', hx]
    cases hd : s.dist.get v with
    | none => rfl
    | some y =>
      have := (p.from_ v x hx).2.1 y hd
      show some (min x y) = some x
      congr 1; omega
  have hback : ∀ v, s'.newDist.get v = none → d.get v = s.dist.get v := by
    intro v hv
    rw [d3', hv]
    cases s.dist.get v <;> rfl
  refine ⟨{ s' with dist := d, left := s'.left - 1 }, by rw [filtUpdate, e, exec_done, prog_bind_ok], ?_,
    ⟨rfl, by show s'.left - 1 = _; rw [p.left], hkeep, d3', hback⟩⟩
  refine ⟨d1, d2', p.nwf, p.nsize.trans hs.dsize, p.fwf, p.fsize.trans hs.dsize, ?_, hsub⟩
  intro v x hx
  have hx : d.get v = some x := hx
  cases hn : s'.newDist.get v with
  | none =>
    rw [hback v hn] at hx
    obtain ⟨j, j1, j2⟩ := hs.walk v x hx
    exact ⟨j, by omega, j2⟩
  | some z =>
    have := hsub v z hn
    rw [this] at hx; cases hx
    obtain ⟨⟨u, y, w, a, b, c⟩, -⟩ := p.from_ v x hn
    obtain ⟨j, j1, j2⟩ := hs.walk u y (hs.sub u y a)
    exact ⟨j + 1, by omega, u, y, w, j2, b, c⟩

/-! ### any weights -/

/-- Between the rounds, `i` rounds done. -/
structure FiltInv (W : Mat Int) (S : Vec Int) (n i : Nat) (s : FiltSt) : Prop extends FiltBase W S n i s where
  start : ∀ v x, S v = some x → ∃ z, s.dist.get v = some z ∧ z ≤ x
  chain : ∀ v x, s.newDist.get v = some x → ∃ p y, p i = v ∧ y i = x ∧ Improving W S s.dist.get i p y
  settled : ∀ u v y w, s.dist.get u = some y → s.newDist.get u = none → W u v = some w →
    (∃ z, s.dist.get v = some z ∧ z ≤ y + w) ∨ Missed S s.dist.get v (y + w)

theorem FiltInv.edge {W : Mat Int} {S : Vec Int} {n i : Nat} {s s' : FiltSt} (hs : FiltInv W S n i s)
    (p : FiltProbed W s s') {u v : Nat} {y w : Int} (hu : s.dist.get u = some y) (hw : W u v = some w) :
    (∃ z, s.dist.get v = some z ∧ z ≤ y + w) ∨ (∃ z, s'.newDist.get v = some z ∧ z ≤ y + w) ∨
      Missed S s.dist.get v (y + w) := by
  cases hN : s.newDist.get u with
  | none =>
    rcases hs.settled u v y w hu hN hw with h1 | h1
    · exact Or.inl h1
    · exact Or.inr (Or.inr h1)
  | some y' =>
    have := hs.sub u y' hN
    rw [hu] at this; cases this
    rcases p.edge u v y w hN hw with h1 | h1 | ⟨h1, h2, -⟩
    · exact Or.inl h1
    · exact Or.inr (Or.inl h1)
    · refine Or.inr (Or.inr ⟨?_, h2, fun q hq => by rw [h1] at hq; cases hq⟩)
      cases hsv : S v with
      | none => rfl
      | some q =>
        obtain ⟨q', q1, -⟩ := hs.start v q hsv
        rw [h1] at q1; cases q1

theorem FiltInv.step {W : Mat Int} {S : Vec Int} {n i : Nat} {s s' r : FiltSt} (hs : FiltInv W S n i s)
    (p : FiltProbed W s s') (hb : FiltBase W S n (i + 1) r) (q : FiltUpdated s s' r) : FiltInv W S n (i + 1) r := by
  have hsub : ∀ v x, s'.newDist.get v = some x → r.dist.get v = some x := by
    intro v x hx
    exact hb.sub v x (by rw [q.new]; exact hx)
  refine ⟨hb, ?_, ?_, ?_⟩
  · intro v x hx
    obtain ⟨z, z1, z2⟩ := hs.start v x hx
    obtain ⟨y, y1, y2⟩ := q.keep v z z1
    exact ⟨y, y1, by omega⟩
  · intro v x hx
    rw [q.new] at hx
    obtain ⟨⟨u, y, w, a, b, c⟩, hlt, -⟩ := p.from_ v x hx
    obtain ⟨P, X, e1, e2, e3⟩ := hs.chain u y a
    refine ⟨fun t => if t ≤ i then P t else v, fun t => if t ≤ i then X t else x,
      if_neg (by omega), if_neg (by omega), ?_⟩
    refine ⟨by simpa using e3.start, ?_, ?_, ?_⟩
    · intro t ht
      by_cases h1 : t + 1 ≤ i
      · simp only [if_pos h1, if_pos (show t ≤ i by omega)]
        exact e3.edges t (by omega)
      · have : t = i := by omega
        subst this
        simp only [if_neg h1, Nat.le_refl, if_true, e1, e2]
        exact ⟨w, b, c⟩
    · intro t ht
      by_cases h1 : t ≤ i
      · simp only [if_pos h1]
        obtain ⟨z, z1, z2⟩ := e3.kept t h1
        obtain ⟨y, y1, y2⟩ := q.keep _ z z1
        exact ⟨y, y1, by omega⟩
      · simp only [if_neg h1]
        exact ⟨x, hsub v x hx, Int.le_refl _⟩
    · intro k l hkl hl he
      have hk : k ≤ i := by omega
      by_cases h1 : l ≤ i
      · simp only [if_pos h1, if_pos hk] at he ⊢
        exact e3.better k l hkl h1 he
      · simp only [if_neg h1, if_pos hk] at he ⊢
        obtain ⟨z, z1, z2⟩ := e3.kept k hk
        rw [he] at z1
        have := hlt z z1
        omega
  · intro u v y w hu hn hw
    rw [q.new] at hn
    rw [q.back u hn] at hu
    rcases hs.edge p hu hw with ⟨z, z1, z2⟩ | ⟨z, z1, z2⟩ | ⟨m1, m2, m3⟩
    · obtain ⟨k, k1, k2⟩ := q.keep v z z1
      exact Or.inl ⟨k, k1, by omega⟩
    · exact Or.inl ⟨z, hsub v z z1, z2⟩
    · cases hn' : s'.newDist.get v with
      | none =>
        refine Or.inr ⟨m1, m2, ?_⟩
        rw [q.back v hn']
        exact m3
      | some z =>
        rcases Int.lt_or_le 0 z with hz | hz
        · refine Or.inr ⟨m1, m2, ?_⟩
          intro z' hz'
          rw [hsub v z hn'] at hz'; cases hz'
          exact hz
        · exact Or.inl ⟨z, hsub v z hn', by omega⟩

/-- A walk of as many edges as there are vertices on which every return is an improvement
goes round a negative cycle. -/
theorem Improving.negCycle {W : Mat Int} {S d : Vec Int} {n : Nat} {p : Nat → Nat} {x : Nat → Int} (hn : Verts W S n)
    (h : Improving W S d n p x) : NegCycle W S := by
  obtain ⟨i, j, hij, hj, e⟩ := pigeonhole n p (fun i hi => (seq_prefix h.start h.edges hi).lt hn)
  refine ⟨p i, ⟨i, x i, seq_prefix h.start h.edges (by omega)⟩, j - i, x j - x i, ?_, ?_⟩
  · have := seq_between h.edges (Nat.le_of_lt hij) hj
    rwa [← e] at this
  · have := h.better i j hij hj e
    omega

/-- What is known at the end. -/
structure FiltEnd (W : Mat Int) (S d : Vec Int) (done : Prop) : Prop where
  walk : ∀ v x, d v = some x → ∃ k, WWalk W S k v x
  start : ∀ v x, S v = some x → ∃ z, d v = some z ∧ z ≤ x
  yes : done → ∀ u v y w, d u = some y → W u v = some w → (∃ z, d v = some z ∧ z ≤ y + w) ∨ Missed S d v (y + w)
  no : ¬ done → NegCycle W S

theorem filtLoop_any {t : ITy} {ov : Int → Int → Int} {G : Lil Int} {dist : BVec Int} (h : PathInput t G dist) :
    ∀ (k i : Nat) (s : FiltSt), i + k = dist.size → s.left = k → 0 < dist.size →
      FiltInv G.get dist.get dist.size i s → (k = 0 → ∃ v, s.newDist.get v ≠ none) →
      ∃ r, filtLoop t ov G k s = .ok r ∧ r.dist.WF ∧ r.dist.size = dist.size ∧
        FiltEnd G.get dist.get r.dist.get (0 < r.left) := by
  intro k
  induction k with
  | zero =>
    intro i s hi hl h0 hs hc
    refine ⟨s, rfl, hs.dwf, hs.dsize, ?_, hs.start, by intro h; omega, ?_⟩
    · intro v x hx
      obtain ⟨j, -, hj⟩ := hs.walk v x hx
      exact ⟨j, hj⟩
    · intro _
      obtain ⟨v, hv⟩ := hc rfl
      obtain ⟨x, hx⟩ := Option.ne_none_iff_exists'.1 hv
      obtain ⟨p, y, -, -, h1⟩ := hs.chain v x hx
      have : i = dist.size := by omega
      subst this
      exact h1.negCycle h.verts
  | succ k ih =>
    intro i s hik hl h0 hs _
    obtain ⟨s', e, p⟩ := filtProbe_any (ov := ov) h (by omega) hs.toFiltBase
    rw [filtLoop, e, prog_bind_ok]
    by_cases hn : s'.newDist.nvals = 0
    · rw [if_pos hn]
      have hnone := none_of_nvals p.nwf hn
      refine ⟨s', rfl, by rw [p.same]; exact hs.dwf, by rw [p.same]; exact hs.dsize, ?_⟩
      rw [p.same]
      refine ⟨?_, hs.start, ?_, by rw [p.left]; omega⟩
      · intro v x hx
        obtain ⟨j, -, hj⟩ := hs.walk v x hx
        exact ⟨j, hj⟩
      · intro _ u v y w hu hw
        rcases hs.edge p hu hw with h1 | ⟨z, z1, -⟩ | h1
        · exact Or.inl h1
        · rw [hnone v] at z1; cases z1
        · exact Or.inr h1
    · rw [if_neg hn]
      obtain ⟨r, e2, hr, hu⟩ := filtUpdate_any (t := t) h (by omega) hs.toFiltBase p
      rw [e2, prog_bind_ok]
      refine ih (i + 1) r (by omega) (by rw [hu.left]; omega) h0 (hs.step p hr hu) ?_
      intro _
      obtain ⟨v, x, -, hx⟩ := nonempty_of_nvals p.nwf (Nat.pos_of_ne_zero hn)
      exact ⟨v, by rw [hu.new, hx]; simp⟩

/-- **C36**, what `filtered_sssp` returns whatever the weights. Every distance it gives is the
weight of a walk to that vertex, and no start vertex is lost or made worse. If it returns
`false`, a negative cycle can be reached. If it returns `true`, the distances are final but
for the edges it missed: each edge either cannot improve the distance of its end, or leads to a
vertex that is not a start vertex, at a distance that is not negative, while no distance or a
positive one is returned for that vertex. -/
theorem C36_filtered_sssp_actual {t : ITy} {ov : Int → Int → Int} {G : Lil Int} {dist : BVec Int}
    (h : PathInput t G dist) (h0 : 0 < dist.size) :
    ∃ b d, filteredSssp t ov G dist = .ok (b, d) ∧ d.WF ∧ d.size = dist.size ∧
      (∀ v x, d.get v = some x → ∃ k, WWalk G.get dist.get k v x) ∧
      (∀ v x, dist.get v = some x → ∃ z, d.get v = some z ∧ z ≤ x) ∧
      (b = false → NegCycle G.get dist.get) ∧
      (b = true → ∀ u v y w, d.get u = some y → G.get u v = some w →
        (∃ z, d.get v = some z ∧ z ≤ y + w) ∨
        (dist.get v = none ∧ 0 ≤ y + w ∧ ∀ z, d.get v = some z → 0 < z)) := by
  obtain ⟨fl, g1, g2, g3, g4⟩ := BVec.new_spec (α := Bool) (n := dist.size) (by omega)
  obtain ⟨r, e, r1, r2, r3⟩ := filtLoop_any (ov := ov) h dist.size 0
    { dist := dist, newDist := dist, flags := fl, left := dist.size } (by omega) rfl h0
    { dwf := h.start, dsize := rfl, nwf := h.start, nsize := rfl, fwf := g2, fsize := g3
      walk := fun v x hx => ⟨0, Nat.le_refl _, hx⟩
      sub := fun v x hx => hx
      start := fun v x hx => ⟨x, hx, Int.le_refl _⟩
      chain := fun v x hx => ⟨fun _ => v, fun _ => x, rfl, rfl, hx, fun t ht => absurd ht (by omega),
        fun t _ => ⟨x, hx, Int.le_refl _⟩, fun a b hab hb => absurd hb (by omega)⟩
      settled := fun u v y w h1 h2 => by rw [show dist.get u = none from h2] at h1; cases h1 } (by intro h; omega)
  refine ⟨decide (0 < r.left), r.dist, ?_, r1, r2, r3.walk, r3.start, ?_, ?_⟩
  · rw [filteredSssp, if_neg (by rw [h.rows, h.cols]; simp), g1, lift_ok, prog_bind_ok, h.rows, e,
      prog_bind_ok]
  · intro hb
    exact r3.no (of_decide_eq_false hb)
  · intro hb
    exact r3.yes (of_decide_eq_true hb)

/-! ### no negative weights -/

theorem withoutZero_some {W : Mat Int} {S : Vec Int} {u v : Nat} {w : Int} :
    withoutZero W S u v = some w ↔
      W u v = some w ∧ ¬ (S u ≠ none ∧ S v = none ∧ ∃ s, S s ≠ none ∧ W s v = some 0) := by
  unfold withoutZero
  by_cases h : S u ≠ none ∧ S v = none ∧ ∃ s, S s ≠ none ∧ W s v = some 0
  · rw [if_pos h]
    exact ⟨fun h => (by cases h), fun h' => absurd h h'.2⟩
  · rw [if_neg h]
    exact ⟨fun h' => ⟨h', h⟩, fun h' => h'.1⟩

/-- Between the rounds, `i` rounds done, when no weight is negative. -/
structure FiltPos (W : Mat Int) (S : Vec Int) (n i : Nat) (s : FiltSt) : Prop extends FiltBase W S n i s where
  start : ∀ v, S v ≠ none → s.dist.get v = some 0
  cut : ∀ v x, s.dist.get v = some x → ∃ k, WWalk (withoutZero W S) S k v x
  pos : ∀ v x, S v = none → s.dist.get v = some x → 0 < x
  first : i = 0 → ∀ v, s.newDist.get v = S v
  later : 0 < i → ∀ v x, s.newDist.get v = some x → S v = none
  settled : ∀ u v y w, s.dist.get u = some y → s.newDist.get u = none → withoutZero W S u v = some w →
    ∃ z, s.dist.get v = some z ∧ z ≤ y + w

theorem FiltPos.edge {W : Mat Int} {S : Vec Int} {n i : Nat} {s s' : FiltSt} (hW : ∀ u v w, W u v = some w → 0 ≤ w)
    (hs : FiltPos W S n i s) (p : FiltProbed W s s') {u v : Nat} {y w : Int} (hu : s.dist.get u = some y)
    (hw : withoutZero W S u v = some w) :
    (∃ z, s.dist.get v = some z ∧ z ≤ y + w) ∨ ∃ z, s'.newDist.get v = some z ∧ z ≤ y + w := by
  cases hN : s.newDist.get u with
  | none => exact Or.inl (hs.settled u v y w hu hN hw)
  | some y' =>
    have := hs.sub u y' hN
    rw [hu] at this; cases this
    obtain ⟨hw1, hw2⟩ := withoutZero_some.1 hw
    rcases p.edge u v y w hN hw1 with h1 | h1 | ⟨h1, h2, u', y', w', a, b, c⟩
    · exact Or.inl h1
    · exact Or.inr h1
    · exfalso
      have hw' := hW u' v w' b
      rcases Nat.eq_zero_or_pos i with h0 | h0
      · have su' : S u' ≠ none := by rw [← hs.first h0, a]; simp
        have := hs.sub u' y' a
        rw [hs.start u' su'] at this; cases this
        refine hw2 ⟨by rw [← hs.first h0, hN]; simp, ?_, u', su', by rw [b]; congr 1; omega⟩
        cases hsv : S v with
        | none => rfl
        | some q =>
          have := hs.start v (by rw [hsv]; simp)
          rw [h1] at this; cases this
      · have := hs.pos u' y' (hs.later h0 u' y' a) (hs.sub u' y' a)
        omega

theorem FiltPos.step {W : Mat Int} {S : Vec Int} {n i : Nat} {s s' r : FiltSt} (hW : ∀ u v w, W u v = some w → 0 ≤ w)
    (hs : FiltPos W S n i s) (p : FiltProbed W s s') (hb : FiltBase W S n (i + 1) r) (q : FiltUpdated s s' r) :
    FiltPos W S n (i + 1) r := by
  have hsub : ∀ v x, s'.newDist.get v = some x → r.dist.get v = some x := by
    intro v x hx
    exact hb.sub v x (by rw [q.new]; exact hx)
  have hnn : ∀ v x, s.dist.get v = some x → 0 ≤ x := by
    intro v x hx
    cases hsv : S v with
    | none => have := hs.pos v x hsv hx; omega
    | some k =>
      rw [hs.start v (by rw [hsv]; simp)] at hx
      cases hx; omega
  have hnew : ∀ v x, s'.newDist.get v = some x → S v = none ∧ 0 < x ∧ ∃ k, WWalk (withoutZero W S) S k v x := by
    intro v x hx
    obtain ⟨⟨u, y, w, a, b, c⟩, hlt, hz, hmin⟩ := p.from_ v x hx
    have hy := hnn u y (hs.sub u y a)
    have hw := hW u v w b
    have hv : S v = none := by
      cases hsv : S v with
      | none => rfl
      | some k =>
        have := hlt 0 (hs.start v (by rw [hsv]; simp))
        omega
    have hx0 : 0 < x := by
      rcases Int.lt_or_le 0 x with h1 | h1
      · exact h1
      · exfalso
        have hd : s.dist.get v ≠ none := fun hd => hz hd (by omega)
        rcases Nat.eq_zero_or_pos i with h0 | h0
        · obtain ⟨z, z1⟩ := Option.ne_none_iff_exists'.1 hd
          obtain ⟨j, j1, j2⟩ := hs.walk v z z1
          have : j = 0 := by omega
          subst this
          rw [show S v = some z from j2] at hv; cases hv
        · have := hs.pos u y (hs.later h0 u y a) (hs.sub u y a)
          omega
    refine ⟨hv, hx0, ?_⟩
    obtain ⟨k, hk⟩ := hs.cut u y (hs.sub u y a)
    refine ⟨k + 1, u, y, w, hk, withoutZero_some.2 ⟨b, ?_⟩, c⟩
    rintro ⟨k1, -, s0, k2, k3⟩
    rcases Nat.eq_zero_or_pos i with h0 | h0
    · have e0 := hs.start s0 k2
      cases hN : s.newDist.get s0 with
      | some y0 =>
        have := hs.sub s0 y0 hN
        rw [e0] at this; cases this
        have := hmin s0 0 0 hN k3
        omega
      | none => exact k2 (by rw [← hs.first h0]; exact hN)
    · exact k1 (hs.later h0 u y a)
  refine ⟨hb, ?_, ?_, ?_, by intro h; omega, ?_, ?_⟩
  · intro v hv
    cases hn : s'.newDist.get v with
    | none => rw [q.back v hn]; exact hs.start v hv
    | some x => exact absurd (hnew v x hn).1 hv
  · intro v x hx
    cases hn : s'.newDist.get v with
    | none => rw [q.back v hn] at hx; exact hs.cut v x hx
    | some z =>
      rw [hsub v z hn] at hx; cases hx
      exact (hnew v x hn).2.2
  · intro v x hv hx
    cases hn : s'.newDist.get v with
    | none => rw [q.back v hn] at hx; exact hs.pos v x hv hx
    | some z =>
      rw [hsub v z hn] at hx; cases hx
      exact (hnew v x hn).2.1
  · intro _ v x hx
    rw [q.new] at hx
    exact (hnew v x hx).1
  · intro u v y w hu hn hw
    rw [q.new] at hn
    rw [q.back u hn] at hu
    rcases hs.edge hW p hu hw with ⟨z, z1, z2⟩ | ⟨z, z1, z2⟩
    · obtain ⟨k, k1, k2⟩ := q.keep v z z1
      exact ⟨k, k1, by omega⟩
    · exact ⟨z, hsub v z z1, z2⟩

theorem filtLoop_pos {t : ITy} {ov : Int → Int → Int} {G : Lil Int} {dist : BVec Int} (h : PathInput t G dist)
    (hW : ∀ u v w, G.get u v = some w → 0 ≤ w) :
    ∀ (k i : Nat) (s : FiltSt), i + k = dist.size → s.left = k → FiltPos G.get dist.get dist.size i s →
      ∃ r, filtLoop t ov G k s = .ok r ∧ (0 < r.left →
        (∀ v x, r.dist.get v = some x → ∃ k, WWalk (withoutZero G.get dist.get) dist.get k v x) ∧
        (∀ v, dist.get v ≠ none → r.dist.get v = some 0) ∧
        ∀ u v y w, r.dist.get u = some y → withoutZero G.get dist.get u v = some w →
          ∃ z, r.dist.get v = some z ∧ z ≤ y + w) := by
  intro k
  induction k with
  | zero =>
    intro i s _ hl _
    exact ⟨s, rfl, by intro h; omega⟩
  | succ k ih =>
    intro i s hik hl hs
    obtain ⟨s', e, p⟩ := filtProbe_any (ov := ov) h (by omega) hs.toFiltBase
    rw [filtLoop, e, prog_bind_ok]
    by_cases hn : s'.newDist.nvals = 0
    · rw [if_pos hn]
      have hnone := none_of_nvals p.nwf hn
      refine ⟨s', rfl, fun _ => ?_⟩
      rw [p.same]
      refine ⟨hs.cut, hs.start, ?_⟩
      intro u v y w hu hw
      rcases hs.edge hW p hu hw with h1 | ⟨z, z1, -⟩
      · exact h1
      · rw [hnone v] at z1; cases z1
    · rw [if_neg hn]
      obtain ⟨r, e2, hr, hu⟩ := filtUpdate_any (t := t) h (by omega) hs.toFiltBase p
      rw [e2, prog_bind_ok]
      exact ih (i + 1) r (by omega) (by rw [hu.left]; omega) (hs.step hW p hr hu)

theorem no_negCycle {W : Mat Int} {S : Vec Int} (hW : ∀ u v w, W u v = some w → 0 ≤ w) : ¬ NegCycle W S := by
  rintro ⟨v, -, k, c, h1, h2⟩
  have key : ∀ k u c, WWalk W (source v) k u c → 0 ≤ c := by
    intro k
    induction k with
    | zero =>
      intro u c h
      have h : source v u = some c := h
      unfold source at h
      split at h
      · cases h; omega
      · cases h
    | succ k ih =>
      rintro u c ⟨u', y, w, h1, h2, rfl⟩
      have := ih u' y h1
      have := hW u' u w h2
      omega
  have := key k v c h1
  omega

/-- **C36**, exactly what `filtered_sssp` computes if it starts at distance zero and no weight is
negative: it returns `true`, and the distances in the graph without some of the edges
that leave the start vertices. Left out are all edges from start vertices to a vertex that is not
one and to which some start vertex has an edge of weight zero. -/
theorem C36_filtered_sssp_nonneg {t : ITy} {ov : Int → Int → Int} {G : Lil Int} {dist : BVec Int}
    (h : PathInput t G dist) (h0 : 0 < dist.size) (hS : ∀ v x, dist.get v = some x → x = 0)
    (hW : ∀ u v w, G.get u v = some w → 0 ≤ w) :
    ∃ d, filteredSssp t ov G dist = .ok (true, d) ∧ d.WF ∧ d.size = dist.size ∧
      ∀ v, (d.get v = none ↔ ¬ WReach (withoutZero G.get dist.get) dist.get v) ∧
        ∀ x, d.get v = some x ↔ IsDist (withoutZero G.get dist.get) dist.get v x := by
  obtain ⟨b, d, e, d1, d2, -, -, d3, -⟩ := C36_filtered_sssp_actual (ov := ov) h h0
  have hb : b = true := by
    cases b with
    | true => rfl
    | false => exact absurd (d3 rfl) (no_negCycle hW)
  subst hb
  obtain ⟨fl, g1, g2, g3, g4⟩ := BVec.new_spec (α := Bool) (n := dist.size) (by omega)
  have hz : ∀ v, dist.get v ≠ none → dist.get v = some 0 := by
    intro v hv
    obtain ⟨x, hx⟩ := Option.ne_none_iff_exists'.1 hv
    rw [hx, hS v x hx]
  obtain ⟨r, e', hr⟩ := filtLoop_pos (ov := ov) h hW dist.size 0
    { dist := dist, newDist := dist, flags := fl, left := dist.size } (by omega) rfl
    { dwf := h.start, dsize := rfl, nwf := h.start, nsize := rfl, fwf := g2, fsize := g3
      walk := fun v x hx => ⟨0, Nat.le_refl _, hx⟩
      sub := fun v x hx => hx
      start := hz
      cut := fun v x hx => ⟨0, hx⟩
      pos := fun v x h1 h2 => by rw [h1] at h2; cases h2
      first := fun _ v => rfl
      later := fun h => absurd h (by omega)
      settled := fun u v y w h1 h2 => by rw [show dist.get u = none from h2] at h1; cases h1 }
  have e2 : filteredSssp t ov G dist = .ok (decide (0 < r.left), r.dist) := by
    rw [filteredSssp, if_neg (by rw [h.rows, h.cols]; simp), g1, lift_ok, prog_bind_ok, h.rows, e',
      prog_bind_ok]
  rw [e] at e2
  injection e2 with e3
  injection e3 with e4 e5
  obtain ⟨r1, r2, r3⟩ := hr (of_decide_eq_true e4.symm)
  rw [← e5] at r1 r2 r3
  have least : ∀ k v x, WWalk (withoutZero G.get dist.get) dist.get k v x → ∃ z, d.get v = some z ∧ z ≤ x := by
    intro k
    induction k with
    | zero =>
      intro v x hx
      have hx : dist.get v = some x := hx
      exact ⟨0, r2 v (by rw [hx]; simp), by rw [hS v x hx]; exact Int.le_refl _⟩
    | succ k ih =>
      rintro v x ⟨u, y, w, h1, h2, rfl⟩
      obtain ⟨z, z1, z2⟩ := ih u y h1
      obtain ⟨q, q1, q2⟩ := r3 u v z w z1 h2
      exact ⟨q, q1, by omega⟩
  refine ⟨d, e, d1, d2, fun v => ⟨⟨?_, ?_⟩, fun x => ⟨?_, ?_⟩⟩⟩
  · rintro hn ⟨k, x, hk⟩
    obtain ⟨z, z1, -⟩ := least k v x hk
    rw [hn] at z1; cases z1
  · intro hn
    cases hd : d.get v with
    | none => rfl
    | some x =>
      obtain ⟨k, hk⟩ := r1 v x hd
      exact absurd ⟨k, x, hk⟩ hn
  · intro hd
    refine ⟨r1 v x hd, ?_⟩
    intro k x' hk
    obtain ⟨z, z1, z2⟩ := least k v x' hk
    rw [hd] at z1; cases z1
    exact z2
  · rintro ⟨⟨k, hk⟩, hmin⟩
    obtain ⟨z, z1, z2⟩ := least k v x hk
    obtain ⟨k', hk'⟩ := r1 v z z1
    have := hmin k' z hk'
    rw [z1]; congr 1; omega

/-- The path 0 →(0) 1 →(3) 2 beside 0 →(7) 2, from vertex 0. -/
def exFG : Lil Int := ⟨3, 3, 3, [[(1, 0), (2, 7)], [(2, 3)], []]⟩
def exFD : BVec Int := ⟨3, 1, [0, 0, 0], [true, false, false]⟩

/-- It meets the hypotheses of both theorems. -/
theorem exF_input : PathInput .i32 exFG exFD ∧ (∀ v x, exFD.get v = some x → x = 0) ∧
    ∀ u v w, exFG.get u v = some w → 0 ≤ w := by
  have hS : ∀ v x, exFD.get v = some x → x = 0 := by
    intro v x h
    match v with
    | 0 => simp [BVec.get, exFD] at h; exact h.symm
    | 1 => simp [BVec.get, exFD] at h
    | 2 => simp [BVec.get, exFD] at h
    | v + 3 => simp [BVec.get, exFD] at h
  refine ⟨PathInput.of_small (Lil.wf_chk (by decide)) ⟨rfl, rfl, rfl⟩ rfl rfl (by decide) hS 7 ?_ ?_, hS, ?_⟩
  · intro u v w h
    exact Ex.get_chk (Lil.wf_chk (by decide)) (P := fun w => -(7 : Nat) ≤ w ∧ w ≤ (7 : Nat) ∧ ITy.Has .i32 w)
      (by decide) h
  · intro x h1 h2
    have h1 : -(21 : Nat) ≤ x := h1
    have h2 : x ≤ (21 : Nat) := h2
    exact ⟨by show (-2147483648 : Int) ≤ x; omega, by show x ≤ (2147483647 : Int); omega⟩
  · intro u v w h
    exact Ex.get_chk (Lil.wf_chk (by decide)) (P := fun w => 0 ≤ w) (by decide) h

/-- Vertex 1 is left out, and vertex 2 is reported at 7 where the distance is 3. -/
example : filteredSssp .i32 (fun _ _ => 0) exFG exFD = .ok (true, ⟨3, 2, [0, 0, 7], [true, false, true]⟩) := by
  decide +kernel

end GBTL

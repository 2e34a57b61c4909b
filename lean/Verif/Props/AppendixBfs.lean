import Verif.Model.AppendixBfs
import Verif.Props.Bfs
/-
C55: the breadth-first searches `bfs_level_appendixB1`, `bfs_level_appendixB2` and
`bfs_parent_appendixB3` give hop distances plus one, and parents on shortest paths.
-/
namespace GBTL
open Spec (Vec Edge HopDist Reachable IsParent)

variable {α γ : Type}

/-- One step of the wavefront over the logical semiring of `bool`. -/
theorem waveB_next {gtrue : α → Bool} {G : Lil α} (hG : G.WF) {n : Nat} (hr : G.nrows = n)
    (hc : G.ncols = n) (ht : ∀ u v x, G.get u v = some x → gtrue x = true)
    {truthy : γ → Bool} {wave : BVec Bool} (w1 : wave.WF) (w2 : wave.size = n)
    (w3 : ∀ u x, wave.get u = some x → x = true) {lev : BVec γ} (l1 : lev.WF) (l2 : lev.size = n) :
    ∃ wave', vxm (waveOut id truthy wave lev) (logicalWave gtrue) wave (.plain G) = .done wave' ∧
      wave'.WF ∧ wave'.size = n ∧
      (∀ v, v < n → (lev.get v).any truthy = true → wave'.get v = none) ∧
      (∀ v, v < n → lev.get v = none → (∃ u, wave.get u = some true ∧ Edge G.get u v) →
        wave'.get v = some true) ∧
      (∀ v, v < n → lev.get v = none → (¬ ∃ u, wave.get u = some true ∧ Edge G.get u v) →
        wave'.get v = none) := by
  obtain ⟨wave', e2, y2⟩ := C11_vxm (o := waveOut id truthy wave lev) (sr := logicalWave gtrue)
    (u := wave) (A := .plain G) ⟨w1, maskOK l1⟩ w1 hG
    ⟨maskFits (by show lev.size = wave.size; rw [l2, w2]), by show wave.size = G.ncols; rw [w2, hc],
      by show wave.size = G.nrows; rw [w2, hr]⟩
  obtain ⟨hp, hq⟩ := forall_and.1 fun v => wave_vxm (G := G) w1
    (add := fun x y => x || y) (one := true) (mult := fun b a => b && gtrue a) (one' := true)
    w3 (fun u v x h => by simp [ht u v x h]) rfl v
  refine ⟨wave', e2, y2.wf, y2.size.trans w2, ?_, ?_, ?_⟩
  all_goals
    intro v hv hl
    have := y2.get v (by show v < wave.size; rw [w2]; exact hv)
    rw [this]
    simp only [waveOut, VMask.allows, Spec.write, Spec.accum, Spec.allows, hl, logicalWave, Operand.get]
  · simp
  · intro he
    rw [hp v he]; simp
  · intro he
    rw [hq v he]; simp

theorem b1Body_spec {gtrue : α → Bool} {G : Lil α} (hG : G.WF) {n : Nat} (hr : G.nrows = n)
    (hc : G.ncols = n) (ht : ∀ u v x, G.get u v = some x → gtrue x = true) {L : LevTy γ}
    (hL : L.Fits n) {S : Nat → Prop} {s : BfsSt γ Bool}
    (hs : BfsOK (Edge G.get) S n true L.ofIx s) (hne : 0 < s.wave.nvals) :
    ∃ s', b1Body gtrue G L s = .ok s' ∧ BfsOK (Edge G.get) S n true L.ofIx s' ∧
      n - Vec.count n s'.levels.get < n - Vec.count n s.levels.get := by
  obtain ⟨lev, e1, y1⟩ := C20_assign_const_vector_partial (o := b1Out L s.levels s.wave)
    (keep := id) (x := s.depth + 1) (ix := .all) ⟨hs.lwf, maskOK hs.wwf⟩
    ⟨maskFits (by show s.wave.size = s.levels.size; rw [hs.lsize, hs.wsize]), Nat.le_refl _⟩
    trivial trivial
  have hls : lev.size = n := y1.size.trans hs.lsize
  obtain ⟨wave, e2, w1, w2, w3, w4, w5⟩ := waveB_next hG hr hc ht (truthy := L.truthy) hs.wwf
    hs.wsize (fun u x h => (hs.inv.wave_some h).2) y1.wf hls
  refine ⟨{ depth := s.depth + 1, wave := wave, levels := lev },
    by simp only [b1Body, e1, e2, exec_done, prog_bind_ok], ?_⟩
  refine hs.round hne hL.truthy y1.wf hls ?_ ?_ w1 w2 w3 w4 w5 hG hc
  · intro v hv hw hl
    have := y1.get v (by show v < s.levels.size; rw [hs.lsize]; exact hv)
    rw [this]
    simp [b1Out, VMask.allows, Spec.write, Spec.accum, hw, Spec.allows, Spec.assignAt,
      Spec.selected, Spec.posOf, Idx.sel, hs.lsize, hv]
  · intro v hv hw
    have := y1.get v (by show v < s.levels.size; rw [hs.lsize]; exact hv)
    rw [this]
    simp [b1Out, VMask.allows, Spec.write, hw, Spec.allows]

theorem b2Body_spec {gtrue : α → Bool} {G : Lil α} (hG : G.WF) {n : Nat} (hr : G.nrows = n)
    (hc : G.ncols = n) (ht : ∀ u v x, G.get u v = some x → gtrue x = true) {L : LevTy γ}
    (hL : L.Fits n) {S : Nat → Prop} {s : BfsSt γ Bool}
    (hs : BfsOK (Edge G.get) S n true L.ofIx s) (hne : 0 < s.wave.nvals) :
    ∃ s', b2Body gtrue G L s = .ok s' ∧ BfsOK (Edge G.get) S n true L.ofIx s' ∧
      n - Vec.count n s'.levels.get < n - Vec.count n s.levels.get := by
  obtain ⟨lev, e1, y1⟩ := C15_apply_vector (o := b2Out L s.levels)
    (f := fun b : Bool => b.toNat * (s.depth + 1)) (u := s.wave) ⟨hs.lwf, noMaskOK⟩ hs.wwf
    ⟨noMaskFits, by show s.levels.size = s.wave.size; rw [hs.lsize, hs.wsize]⟩
  have hls : lev.size = n := y1.size.trans hs.lsize
  obtain ⟨wave, e2, w1, w2, w3, w4, w5⟩ := waveB_next hG hr hc ht (truthy := L.truthy) hs.wwf
    hs.wsize (fun u x h => (hs.inv.wave_some h).2) y1.wf hls
  refine ⟨{ depth := s.depth + 1, wave := wave, levels := lev },
    by simp only [b2Body, e1, e2, exec_done, prog_bind_ok], ?_⟩
  refine hs.round hne hL.truthy y1.wf hls ?_ ?_ w1 w2 w3 w4 w5 hG hc
  · intro v hv hw hl
    have := y1.get v (by show v < s.levels.size; rw [hs.lsize]; exact hv)
    rw [this]
    simp [b2Out, VMask.allows, Spec.write, Spec.accum, hw, hl]
  · intro v hv hw
    have := y1.get v (by show v < s.levels.size; rw [hs.lsize]; exact hv)
    rw [this]
    simp only [b2Out, VMask.allows, Spec.write, Spec.accum, hw, Option.map_none]
    cases hl : s.levels.get v with
    | none => simp
    | some x =>
      obtain ⟨k, hk, -, rfl⟩ := hs.inv.lev_some hl
      have := hs.inv.count
      have := count_le n s.levels.get
      simp [hL.ix (k + 1) (by omega) (by omega)]

/-- A `do … while` level search with a given body. -/
theorem bfs_do_loop {G : Lil α} {n source : Nat} {mk : Nat → γ}
    {body : BfsSt γ Bool → Prog (BfsSt γ Bool)} {levels : BVec γ} (hsrc : source < n)
    (hb : ∀ s, BfsOK (Edge G.get) (· = source) n true mk s → 0 < s.wave.nvals →
      ∃ s', body s = .ok s' ∧ BfsOK (Edge G.get) (· = source) n true mk s' ∧
        n - Vec.count n s'.levels.get < n - Vec.count n s.levels.get)
    (hl : levels.WF) (hls : levels.size = n) (hle : ∀ v, levels.get v = none)
    {fuel : Nat} (hf : n ≤ fuel) :
    ∃ w0 w s1 s2, BVec.new n = .ok w0 ∧ w0.setElement source true = (.ok (), w) ∧
      body { depth := 0, wave := w, levels := levels } = .ok s1 ∧
      loop (fun s => decide (0 < s.wave.nvals)) body fuel s1 = .ok s2 ∧
      s2.levels.WF ∧ s2.levels.size = n ∧ IsLevels (Edge G.get) (· = source) mk s2.levels.get := by
  obtain ⟨w0, e0, w1, w2, w3⟩ := BVec.new_spec (α := Bool) (n := n) (by omega)
  obtain ⟨w, e1, v1, v2, v3⟩ := BVec.setElement_spec w1 (i := source) (by omega) true
  have h0 : BfsOK (Edge G.get) (· = source) n true mk { depth := 0, wave := w, levels := levels } :=
    bfs_start v1 (v2.trans w2) hl hls hle
      (by intro v hv; rw [v3, if_pos hv]) (by intro v hv; rw [v3, if_neg hv, w3])
  have hne : 0 < w.nvals := by
    rcases Nat.eq_zero_or_pos w.nvals with h | h
    · have := none_of_nvals v1 h source
      rw [v3, if_pos rfl] at this; cases this
    · exact h
  obtain ⟨s1, e2, h1, -⟩ := hb _ h0 hne
  obtain ⟨s2, e3, r1, r2, r3⟩ := bfs_loop hb h1 hf
  exact ⟨w0, w, s1, s2, e0, e1, e2, e3, r1, r2, r3⟩

/-- **C55**, `bfs_level_appendixB1(v, A, src)`: on a square graph whose stored elements
convert to `true`, with an empty `v`, it returns, and every reachable vertex has its hop
distance from the source plus one as level, the others none. -/
theorem C55_level_B1 (gtrue : α → Bool) (G : Lil α) (source : Nat) (L : LevTy γ) (levels : BVec γ)
    (hG : G.WF) (hsq : G.nrows = G.ncols) (hsrc : source < G.nrows)
    (ht : ∀ u v x, G.get u v = some x → gtrue x = true)
    (hl : levels.WF) (hls : levels.size = G.nrows) (hle : ∀ v, levels.get v = none)
    (hL : L.Fits G.nrows) (fuel : Nat) (hf : G.nrows ≤ fuel) :
    ∃ levels', bfsB1 fuel gtrue G source L levels = .ok levels' ∧
      levels'.WF ∧ levels'.size = G.nrows ∧
      (∀ v d, HopDist (Edge G.get) (· = source) v d → levels'.get v = some (L.ofIx (d + 1))) ∧
      (∀ v, ¬ Reachable (Edge G.get) (· = source) v → levels'.get v = none) := by
  obtain ⟨w0, w, s1, s2, e0, e1, e2, e3, r1, r2, r3⟩ := bfs_do_loop (G := G) (mk := L.ofIx)
    (body := b1Body gtrue G L) hsrc
    (fun s hs hne => b1Body_spec hG rfl hsq.symm ht hL hs hne) hl hls hle hf
  exact ⟨s2.levels, by simp only [bfsB1, e0, e1, e2, e3, lift_ok, method_ok, prog_bind_ok],
    r1, r2, r3.reached, r3.unreached⟩

/-- **C55**, `bfs_level_appendixB2(v, A, src)`: the same levels. -/
theorem C55_level_B2 (gtrue : α → Bool) (G : Lil α) (source : Nat) (L : LevTy γ) (levels : BVec γ)
    (hG : G.WF) (hsq : G.nrows = G.ncols) (hsrc : source < G.nrows)
    (ht : ∀ u v x, G.get u v = some x → gtrue x = true)
    (hl : levels.WF) (hls : levels.size = G.nrows) (hle : ∀ v, levels.get v = none)
    (hL : L.Fits G.nrows) (fuel : Nat) (hf : G.nrows ≤ fuel) :
    ∃ levels', bfsB2 fuel gtrue G source L levels = .ok levels' ∧
      levels'.WF ∧ levels'.size = G.nrows ∧
      (∀ v d, HopDist (Edge G.get) (· = source) v d → levels'.get v = some (L.ofIx (d + 1))) ∧
      (∀ v, ¬ Reachable (Edge G.get) (· = source) v → levels'.get v = none) := by
  obtain ⟨w0, w, s1, s2, e0, e1, e2, e3, r1, r2, r3⟩ := bfs_do_loop (G := G) (mk := L.ofIx)
    (body := b2Body gtrue G L) hsrc
    (fun s hs hne => b2Body_spec hG rfl hsq.symm ht hL hs hne) hl hls hle hf
  exact ⟨s2.levels, by simp only [bfsB2, e0, e1, e2, e3, lift_ok, method_ok, prog_bind_ok],
    r1, r2, r3.reached, r3.unreached⟩

example : Ex.bG.WF ∧ Ex.bG.nrows = Ex.bG.ncols ∧ Ex.bLev.WF ∧ (ITy.i32.lev).Fits 4 ∧
    bfsB1 4 isTrue Ex.bG 0 ITy.i32.lev Ex.bLev =
      .ok { size := 4, nvals := 3, vals := [1, 2, 2, 9], bitmap := [true, true, true, false] } ∧
    bfsB2 4 isTrue Ex.bG 3 ITy.i32.lev Ex.bLev =
      .ok { size := 4, nvals := 4, vals := [2, 3, 3, 1], bitmap := [true, true, true, true] } :=
  ⟨Ex.bG_wf, rfl, Ex.bLev_wf, ITy.lev_fits _ _ (by decide) (by decide), by decide +kernel,
    by decide +kernel⟩

/-- A source that is no vertex is refused. -/
theorem C55_no_vertex (gtrue : α → Bool) (G : Lil α) (source : Nat) (L : LevTy γ) (levels : BVec γ)
    (h0 : 0 < G.nrows) (hsrc : G.nrows ≤ source) (fuel : Nat) :
    bfsB1 fuel gtrue G source L levels = .error (.err .indexOutOfBounds) ∧
    bfsB2 fuel gtrue G source L levels = .error (.err .indexOutOfBounds) := by
  obtain ⟨w0, e0, w1, w2, w3⟩ := BVec.new_spec (α := Bool) (n := G.nrows) (by omega)
  have e1 : w0.setElement source true = (.error .indexOutOfBounds, w0) := by
    simp [BVec.setElement, w2, hsrc]
  simp only [bfsB1, bfsB2, e0, e1, lift_ok, prog_bind_ok]
  exact ⟨rfl, rfl⟩

/-- **C55**, `bfs_parent_appendixB3(parents, A, src)`: the source is its own parent; every
other reachable vertex has as parent the smallest-numbered in-neighbour among the vertices
one hop closer; unreachable vertices have none. -/
theorem C55_parent_B3 (G : Lil α) (source : Nat) (parents : BVec Nat) (hG : G.WF)
    (hsq : G.nrows = G.ncols) (hsrc : source < G.nrows) (hp : parents.WF)
    (hps : parents.size = G.nrows) (fuel : Nat) (hf : G.nrows ≤ fuel) :
    ∃ parents', bfsB3 fuel G source parents = .ok parents' ∧ parents'.WF ∧
      parents'.size = G.nrows ∧ parents'.get source = some source ∧
      (∀ v, Reachable (Edge G.get) (· = source) v → v ≠ source →
        ∃ p, parents'.get v = some p ∧ IsParent (Edge G.get) (· = source) v p) ∧
      (∀ v, ¬ Reachable (Edge G.get) (· = source) v → parents'.get v = none) := by
  obtain ⟨parents', e, r⟩ := C33_bfs_parents G source parents hG hsq hsrc hp hps fuel hf
  refine ⟨parents', ?_, r⟩
  rw [← e]
  obtain ⟨ramp, er, -⟩ := indexRamp_spec (n := G.nrows) (by omega)
  obtain ⟨w0, e0, w1, w2, w3⟩ := BVec.new_spec (α := Nat) (n := G.nrows) (by omega)
  obtain ⟨w, e1, -⟩ := BVec.setElement_spec w1 (i := source) (by omega) 1
  obtain ⟨p, e2, -⟩ := BVec.setElement_spec (BVec.clear_wf hp.vlen) (i := source)
    (by show source < parents.size; omega) source
  have hb : b3Body G ramp = bfsBody G ramp := rfl
  simp only [bfsB3, bfsParents, er, e0, e1, e2, lift_ok, method_ok, prog_bind_ok, hb]

example : Ex.bG.WF ∧ bfsB3 4 Ex.bG 3
    { size := 4, nvals := 1, vals := [7, 7, 7, 7], bitmap := [false, true, false, false] } =
      .ok { size := 4, nvals := 4, vals := [3, 0, 0, 3], bitmap := [true, true, true, true] } :=
  ⟨Ex.bG_wf, by decide +kernel⟩

end GBTL

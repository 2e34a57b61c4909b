import Verif.Lemmas.BfsBatch
import Verif.Props.Apsp
/-
C48: level BFS on matrices, one traversal per row. C49: parent BFS from wavefronts.
-/
namespace GBTL
open Spec

variable {α γ ω : Type}

theorem maskOKM {k : MaskKind} {M : Lil γ} (hM : M.WF) : MMask.WF (some (k, M)) := by
  intro k' v' e; cases e; exact hM
theorem maskFitsM {k : MaskKind} {M : Lil γ} {m n : Nat} (h1 : M.nrows = m) (h2 : M.ncols = n) :
    MMask.Fits (some (k, M)) m n := by
  intro k' v' e; cases e; exact ⟨h1, h2⟩

/-- The consistent states of a batch level BFS: in every row a level BFS after `depth`
rounds. -/
structure BatchOK (E : Nat → Nat → Prop) (S : Nat → Nat → Prop) (R n : Nat) (one : ω) (mk : Nat → γ)
    (s : BatchSt γ ω) : Prop where
  wwf : s.waves.WF
  wrows : s.waves.nrows = R
  wcols : s.waves.ncols = n
  lwf : s.levels.WF
  lrows : s.levels.nrows = R
  lcols : s.levels.ncols = n
  inv : ∀ r, r < R → LevelsAt E (S r) s.depth one mk (s.waves.get r) (s.levels.get r)

section
variable {gIx : α → Nat} {G : Lil α} {R n : Nat} {W : WaveTy ω} {L : LevTy γ} {S : Nat → Nat → Prop}
  {s : BatchSt γ ω}

theorem BatchOK.wave_one {one : ω} {mk : Nat → γ} {E : Nat → Nat → Prop}
    (hs : BatchOK E S R n one mk s) {r u : Nat} {x : ω} (h : s.waves.get r u = some x) : x = one := by
  have := some_lt hs.wwf (show s.waves.get r u ≠ none by rw [h]; simp)
  exact ((hs.inv r (by rw [← hs.wrows]; exact this.1)).wave_some h).2

theorem BatchOK.depth_lt {one : ω} {mk : Nat → γ} (hG : G.WF) (hc : G.ncols = n)
    (hS : ∀ r v, S r v → v < n)
    (hs : BatchOK (Edge G.get) S R n one mk s) (hne : 0 < s.waves.nvals) : s.depth < n := by
  obtain ⟨r, v, x, h1, h2, hx⟩ := nonempty_of_nvalsM hs.wwf hne
  exact hopDist_lt (fun u v e => by rw [← hc]; exact (edge_lt hG e).2) (hS r)
    ((hs.inv r (by rw [← hs.wrows]; exact h1)).wave_some hx).1

/-- Writing the levels of the wavefronts. -/
theorem levels_next (hW : W.Fits) (hL : L.Fits n) (hn : n < 2 ^ 32) {E : Nat → Nat → Prop}
    (hs : BatchOK E S R n (W.ofIx 1) L.ofIx s) (hd : s.depth + 1 ≤ n)
    {f : ω → Nat} (hf : f (W.ofIx 1) = s.depth + 1) :
    ∃ lev, applyM (levOutM L s.levels) f (.plain s.waves) = .done lev ∧
      lev.WF ∧ lev.nrows = R ∧ lev.ncols = n ∧ ∀ r v,
        (s.waves.get r v = some (W.ofIx 1) → s.levels.get r v = none →
          lev.get r v = some (L.ofIx (s.depth + 1))) ∧
        (s.waves.get r v = none → lev.get r v = s.levels.get r v) := by
  obtain ⟨lev, e1, y1⟩ := C15_apply_matrix (o := levOutM L s.levels) (f := f) (A := .plain s.waves)
    ⟨hs.lwf, noMaskOKM⟩ hs.wwf
    ⟨noMaskFitsM, by show s.levels.ncols = s.waves.ncols; rw [hs.lcols, hs.wcols],
      by show s.levels.nrows = s.waves.nrows; rw [hs.lrows, hs.wrows]⟩
  have h2 : lev.nrows = R := y1.nrows.trans hs.lrows
  have h3 : lev.ncols = n := y1.ncols.trans hs.lcols
  refine ⟨lev, e1, y1.wf, h2, h3, ?_⟩
  intro r v
  by_cases hin : r < R ∧ v < n
  · have := y1.get r v (by show r < s.levels.nrows; rw [hs.lrows]; exact hin.1)
      (by show v < s.levels.ncols; rw [hs.lcols]; exact hin.2)
    rw [this]
    constructor
    · intro hw hl
      simp only [levOutM, MMask.allows, Spec.write, Spec.accum, hw, hl, Option.map_some, if_true, hf, u32,
        Operand.get]
      rw [Nat.mod_eq_of_lt (by omega), hL.same _ (by omega) hd]
    · intro hw
      simp only [levOutM, MMask.allows, Spec.write, Spec.accum, hw, Option.map_none, Operand.get]
      cases hl : s.levels.get r v with
      | none => simp
      | some x =>
        obtain ⟨k, hk, -, rfl⟩ := (hs.inv r hin.1).lev_some hl
        rw [← hL.same (k + 1) (by omega) (by omega)]
        simp [hL.u (k + 1) (by omega) (by omega)]
  · have hout : r ≥ R ∨ v ≥ n := by omega
    constructor
    · intro hw
      have := some_lt hs.wwf (show s.waves.get r v ≠ none by rw [hw]; simp)
      rw [hs.wrows, hs.wcols] at this
      exact absurd this hin
    · intro _
      rw [y1.wf.toWFr.get_none (by rw [h2, h3]; exact hout),
        hs.lwf.toWFr.get_none (by rw [hs.lrows, hs.lcols]; exact hout)]

/-- The next wavefronts, inside the matrix. -/
theorem BatchOK.next (hG : G.WF) (hc : G.ncols = n) (hL : L.Fits n)
    (hs : BatchOK (Edge G.get) S R n (W.ofIx 1) L.ofIx s) (hd : s.depth + 1 ≤ n)
    {lev : Lil γ} (l1 : lev.WF) (l2 : lev.nrows = R) (l3 : lev.ncols = n)
    (l4 : ∀ r v, (s.waves.get r v = some (W.ofIx 1) → s.levels.get r v = none →
          lev.get r v = some (L.ofIx (s.depth + 1))) ∧
        (s.waves.get r v = none → lev.get r v = s.levels.get r v))
    {wv : Lil ω} (w1 : wv.WF) (w2 : wv.nrows = R) (w3 : wv.ncols = n)
    (w4 : ∀ r v, r < R → v < n → (lev.get r v).any L.truthy = true → wv.get r v = none)
    (w5 : ∀ r v, r < R → v < n → lev.get r v = none →
      (∃ u, s.waves.get r u = some (W.ofIx 1) ∧ Edge G.get u v) → wv.get r v = some (W.ofIx 1))
    (w6 : ∀ r v, r < R → v < n → lev.get r v = none →
      (¬ ∃ u, s.waves.get r u = some (W.ofIx 1) ∧ Edge G.get u v) → wv.get r v = none) :
    BatchOK (Edge G.get) S R n (W.ofIx 1) L.ofIx { depth := s.depth + 1, waves := wv, levels := lev } := by
  refine ⟨w1, w2, w3, l1, l2, l3, ?_⟩
  intro r hr
  have hi := hs.inv r hr
  have hlt : ∀ v, lev.get r v ≠ none → (lev.get r v).any L.truthy = true := by
    intro v hv
    cases hw : s.waves.get r v with
    | some x =>
      obtain rfl := hs.wave_one hw
      have := (l4 r v).1 hw (hi.fresh (hi.wave_some hw).1)
      rw [this]
      exact hL.truthy _ (by omega) hd
    | none =>
      have := (l4 r v).2 hw
      rw [this] at hv ⊢
      cases hl : s.levels.get r v with
      | none => exact absurd hl hv
      | some x =>
        obtain ⟨k, hk, -, rfl⟩ := hi.lev_some hl
        exact hL.truthy _ (by omega) (by omega)
  have hout : ∀ v, ¬ v < n → wv.get r v = none := fun v hv =>
    w1.toWFr.get_none (by rw [w3]; exact .inr (by omega))
  refine hi.step (fun v => (l4 r v).1) (fun v => (l4 r v).2) ?_ ?_ ?_
  · intro v hv
    by_cases h : v < n
    · exact w4 r v hr h (hlt v hv)
    · exact hout v h
  · intro v hv he
    obtain ⟨u, hu, e⟩ := he
    exact w5 r v hr (by rw [← hc]; exact (edge_lt hG e).2) hv ⟨u, hu, e⟩
  · intro v hv he
    by_cases h : v < n
    · exact w6 r v hr h hv he
    · exact hout v h

/-- The product of the wavefronts with the graph. -/
theorem waves_prod (ht : ∀ u v x, G.get u v = some x → gIx x ≠ 0) (hW : W.Fits)
    {waves : Lil ω} (w1 : waves.WF) (h1 : ∀ r u x, waves.get r u = some x → x = W.ofIx 1) (r v : Nat) :
    ((∃ u, waves.get r u = some (W.ofIx 1) ∧ Edge G.get u v) →
      Spec.mxm waves.ncols (logicalIx W gIx).add (logicalIx W gIx).mult waves.get G.get r v = some 1) ∧
    ((¬ ∃ u, waves.get r u = some (W.ofIx 1) ∧ Edge G.get u v) →
      Spec.mxm waves.ncols (logicalIx W gIx).add (logicalIx W gIx).mult waves.get G.get r v = none) :=
  wave_prod (n := waves.ncols) (wave := waves.get r) (A := G.get) (add := orIx)
    (mult := fun w a => andIx (W.toIx w) (gIx a)) (one' := 1) (one := W.ofIx 1)
    (fun u hu => (some_lt w1 hu).2) (h1 r)
    (fun u v x h => by simp [andIx, hW.ix, ht u v x h]) rfl v

theorem batchBody_spec (hG : G.WF) (hr : G.nrows = n) (hc : G.ncols = n)
    (ht : ∀ u v x, G.get u v = some x → gIx x ≠ 0) (hW : W.Fits) (hL : L.Fits n) (hn : n < 2 ^ 32)
    (hS : ∀ r v, S r v → v < n)
    (hs : BatchOK (Edge G.get) S R n (W.ofIx 1) L.ofIx s) (hne : 0 < s.waves.nvals) :
    ∃ s', batchBody gIx G W L s = .ok s' ∧ BatchOK (Edge G.get) S R n (W.ofIx 1) L.ofIx s' ∧
      n - s'.depth < n - s.depth := by
  have hd : s.depth + 1 ≤ n := hs.depth_lt hG hc hS hne
  obtain ⟨lev, e1, l1, l2, l3, l4⟩ := levels_next hW hL hn hs hd
    (f := fun x => (s.depth + 1) * W.toIx x) (by simp [hW.ix])
  obtain ⟨wv, e2, y2⟩ := C09_mxm (o := waveOutM W.ofIx L.truthy s.waves lev) (sr := logicalIx W gIx)
    (via := id) (A := s.waves) (B := G) ⟨hs.wwf, maskOKM l1⟩ hs.wwf hG
    ⟨maskFitsM (by rw [l2]; exact hs.wrows.symm) (by rw [l3]; exact hs.wcols.symm), rfl,
      by show s.waves.ncols = G.ncols; rw [hs.wcols, hc], by show s.waves.ncols = G.nrows; rw [hs.wcols, hr]⟩
  have w2 : wv.nrows = R := y2.nrows.trans hs.wrows
  have w3 : wv.ncols = n := y2.ncols.trans hs.wcols
  refine ⟨{ depth := s.depth + 1, waves := wv, levels := lev },
    by simp only [batchBody, e1, e2, exec_done, prog_bind_ok], ?_, by show n - (s.depth + 1) < _; omega⟩
  refine hs.next hG hc hL hd l1 l2 l3 l4 y2.wf w2 w3 ?_ ?_ ?_
  all_goals
    intro r v hrR hv hl
    have := y2.get r v (by show r < s.waves.nrows; rw [hs.wrows]; exact hrR)
      (by show v < s.waves.ncols; rw [hs.wcols]; exact hv)
    rw [this]
    simp only [waveOutM, MMask.allows, Spec.write, Spec.accum, Spec.allows, hl]
  · simp
  · intro he
    rw [(waves_prod ht hW hs.wwf (fun _ _ _ => hs.wave_one) r v).1 he]; simp
  · intro he
    rw [(waves_prod ht hW hs.wwf (fun _ _ _ => hs.wave_one) r v).2 he]; simp

theorem cullBody_spec (hG : G.WF) (hr : G.nrows = n) (hc : G.ncols = n)
    (ht : ∀ u v x, G.get u v = some x → gIx x ≠ 0) (hW : W.Fits) (hL : L.Fits n) (hn : n < 2 ^ 32)
    (hS : ∀ r v, S r v → v < n)
    (hs : BatchOK (Edge G.get) S R n (W.ofIx 1) L.ofIx s) (hne : 0 < s.waves.nvals) :
    ∃ s', cullBody gIx G W L s = .ok s' ∧ BatchOK (Edge G.get) S R n (W.ofIx 1) L.ofIx s' ∧
      n - s'.depth < n - s.depth := by
  have hd : s.depth + 1 ≤ n := hs.depth_lt hG hc hS hne
  have hu : u32 (s.depth + 1) = s.depth + 1 := Nat.mod_eq_of_lt (by omega)
  obtain ⟨lev, e1, l1, l2, l3, l4⟩ := levels_next hW hL hn hs hd
    (f := fun x => u32 ((s.depth + 1) * W.toIx x)) (by simp only [hW.ix, Nat.mul_one, hu])
  obtain ⟨wv, e2, y2⟩ := C09_mxm (o := waveOutAll W.ofIx s.waves) (sr := logicalIx W gIx)
    (via := id) (A := s.waves) (B := G) ⟨hs.wwf, noMaskOKM⟩ hs.wwf hG
    ⟨noMaskFitsM, rfl,
      by show s.waves.ncols = G.ncols; rw [hs.wcols, hc], by show s.waves.ncols = G.nrows; rw [hs.wcols, hr]⟩
  have w2 : wv.nrows = R := y2.nrows.trans hs.wrows
  have w3 : wv.ncols = n := y2.ncols.trans hs.wcols
  obtain ⟨wc, e3, y3⟩ := C15_apply_matrix (o := waveOutM id L.truthy wv lev) (f := id) (A := .plain wv)
    ⟨y2.wf, maskOKM l1⟩ y2.wf
    ⟨maskFitsM (by rw [l2]; exact w2.symm) (by rw [l3]; exact w3.symm), rfl, rfl⟩
  refine ⟨{ depth := s.depth + 1, waves := wc, levels := lev },
    by simp only [cullBody, hu, e1, e2, e3, exec_done, prog_bind_ok], ?_,
    by show n - (s.depth + 1) < _; omega⟩
  refine hs.next hG hc hL hd l1 l2 l3 l4 y3.wf (y3.nrows.trans w2) (y3.ncols.trans w3) ?_ ?_ ?_
  all_goals
    intro r v hrR hv hl
    have h3 := y3.get r v (by show r < wv.nrows; rw [w2]; exact hrR)
      (by show v < wv.ncols; rw [w3]; exact hv)
    have h2 := y2.get r v (by show r < s.waves.nrows; rw [hs.wrows]; exact hrR)
      (by show v < s.waves.ncols; rw [hs.wcols]; exact hv)
    rw [h3]
    simp only [waveOutM, MMask.allows, Spec.write, Spec.accum, Spec.allows, hl, Operand.get, h2, waveOutAll]
  · simp
  · intro he
    rw [(waves_prod ht hW hs.wwf (fun _ _ _ => hs.wave_one) r v).1 he]; simp
  · intro he
    rw [(waves_prod ht hW hs.wwf (fun _ _ _ => hs.wave_one) r v).2 he]; simp

/-- The batch level BFSs with a given body. -/
theorem batch_loop {body : BatchSt γ ω → Prog (BatchSt γ ω)} {one : ω} {mk : Nat → γ}
    {E : Nat → Nat → Prop}
    (hb : ∀ s, BatchOK E S R n one mk s → 0 < s.waves.nvals →
      ∃ s', body s = .ok s' ∧ BatchOK E S R n one mk s' ∧ n - s'.depth < n - s.depth)
    (hs : BatchOK E S R n one mk s) {fuel : Nat} (hf : n ≤ fuel) :
    ∃ s', loop (fun s => decide (0 < s.waves.nvals)) body fuel s = .ok s' ∧
      s'.levels.WF ∧ s'.levels.nrows = R ∧ s'.levels.ncols = n ∧
      ∀ r, r < R → IsLevels E (S r) mk (s'.levels.get r) := by
  obtain ⟨s', e, h, hc⟩ := loop_rule (c := fun s => decide (0 < s.waves.nvals)) (b := body)
    (BatchOK E S R n one mk) (fun s => n - s.depth)
    (fun s hs hc => hb s hs (of_decide_eq_true hc)) fuel s hs (by omega)
  refine ⟨s', e, h.lwf, h.lrows, h.lcols, ?_⟩
  intro r hr
  refine (h.inv r hr).final ?_
  have : s'.waves.nvals = 0 := by
    have := of_decide_eq_false hc
    omega
  exact fun v => h.wwf.get_none_of_nvals this r v

theorem batch_start {waves : Lil ω} {levels : Lil γ} {one : ω} {mk : Nat → γ} {E : Nat → Nat → Prop}
    (w1 : waves.WF) (w2 : waves.ncols = n) (w3 : ∀ r v x, waves.get r v = some x → x = one)
    (l1 : levels.WF) (l2 : levels.nrows = waves.nrows) (l3 : levels.ncols = n)
    (l4 : ∀ r v, levels.get r v = none) :
    BatchOK E (fun r v => waves.get r v ≠ none) waves.nrows n one mk
      { depth := 0, waves := waves, levels := levels } := by
  refine ⟨w1, rfl, w2, l1, l2, l3, ?_⟩
  intro r _
  refine ⟨?_, ?_, ?_, fun v _ => l4 r v⟩
  · intro v hv
    have hv := hopDist_zero.1 hv
    show waves.get r v = some one
    cases hx : waves.get r v with
    | none => exact absurd hx hv
    | some x => rw [w3 r v x hx]
  · intro v hv
    exact Classical.not_not.1 (fun h => hv (hopDist_zero.2 h))
  · intro v k hk; exact absurd hk (Nat.not_lt_zero _)

end

/-- **C48**, `batch_bfs_level_masked(graph, wavefronts, levels)`: row `r` of the levels
holds one plus the hop distance from the stored elements of row `r` of the wavefronts. -/
theorem C48_batch_bfs_level (gIx : α → Nat) (G : Lil α) (W : WaveTy ω) (waves : Lil ω) (L : LevTy γ)
    (levels : Lil γ) (hG : G.WF) (hsq : G.nrows = G.ncols)
    (ht : ∀ u v x, G.get u v = some x → gIx x ≠ 0)
    (hW : W.Fits) (hw : waves.WF) (hws : waves.ncols = G.nrows)
    (hw1 : ∀ r v x, waves.get r v = some x → x = W.ofIx 1)
    (hl : levels.WF) (hlr : levels.nrows = waves.nrows) (hlc : levels.ncols = G.nrows)
    (hle : ∀ r v, levels.get r v = none)
    (hL : L.Fits G.nrows) (hn : G.nrows < 2 ^ 32) (fuel : Nat) (hf : G.nrows ≤ fuel) :
    ∃ levels', batchBfsLevel fuel gIx G W waves L levels = .ok levels' ∧
      levels'.WF ∧ levels'.nrows = waves.nrows ∧ levels'.ncols = G.nrows ∧
      ∀ r, r < waves.nrows →
        (∀ v d, HopDist (Edge G.get) (fun s => waves.get r s ≠ none) v d →
          levels'.get r v = some (L.ofIx (d + 1))) ∧
        (∀ v, ¬ Reachable (Edge G.get) (fun s => waves.get r s ≠ none) v → levels'.get r v = none) := by
  obtain ⟨s', e, r1, r2, r3, r4⟩ := batch_loop (body := batchBody gIx G W L)
    (fun s hs hne => batchBody_spec hG rfl hsq.symm ht hW hL hn
      (fun r v h => by rw [← hws]; exact (some_lt hw h).2) hs hne)
    (batch_start hw hws hw1 hl hlr hlc hle) hf
  refine ⟨s'.levels, ?_, r1, r2, r3, fun r hr => ⟨(r4 r hr).reached, (r4 r hr).unreached⟩⟩
  simp only [batchBfsLevel, e, prog_bind_ok, hws, hsq, ne_eq, not_true_eq_false, or_self, if_false]

/-- A graph that is not square, or wavefronts that do not fit it, are rejected. -/
theorem C48_batch_rejects (gIx : α → Nat) (G : Lil α) (W : WaveTy ω) (waves : Lil ω) (L : LevTy γ)
    (levels : Lil γ) (fuel : Nat) (h : G.nrows ≠ G.ncols ∨ waves.ncols ≠ G.nrows) :
    batchBfsLevel fuel gIx G W waves L levels = .error (.err .dimension) := by
  rw [batchBfsLevel, if_pos h]

/-- **C48**, `bfs_level(graph, wavefront, levels)` on matrices. -/
theorem C48_bfs_level_matrix (gU : α → Nat) (G : Lil α) (W : WaveTy ω) (waves : Lil ω) (L : LevTy γ)
    (levels : Lil γ) (hG : G.WF) (hsq : G.nrows = G.ncols)
    (ht : ∀ u v x, G.get u v = some x → gU x ≠ 0)
    (hW : W.Fits) (hw : waves.WF) (hws : waves.ncols = G.nrows)
    (hw1 : ∀ r v x, waves.get r v = some x → x = W.ofIx 1)
    (hl : levels.WF) (hlr : levels.nrows = waves.nrows) (hlc : levels.ncols = G.nrows)
    (hle : ∀ r v, levels.get r v = none)
    (hL : L.Fits G.nrows) (hn : G.nrows < 2 ^ 32) (fuel : Nat) (hf : G.nrows ≤ fuel) :
    ∃ levels', bfsLevelM fuel gU G W waves L levels = .ok levels' ∧
      levels'.WF ∧ levels'.nrows = waves.nrows ∧ levels'.ncols = G.nrows ∧
      ∀ r, r < waves.nrows →
        (∀ v d, HopDist (Edge G.get) (fun s => waves.get r s ≠ none) v d →
          levels'.get r v = some (L.ofIx (d + 1))) ∧
        (∀ v, ¬ Reachable (Edge G.get) (fun s => waves.get r s ≠ none) v → levels'.get r v = none) := by
  obtain ⟨s', e, r1, r2, r3, r4⟩ := batch_loop (body := cullBody gU G W L)
    (fun s hs hne => cullBody_spec hG rfl hsq.symm ht hW hL hn
      (fun r v h => by rw [← hws]; exact (some_lt hw h).2) hs hne)
    (batch_start hw hws hw1 hl hlr hlc hle) hf
  refine ⟨s'.levels, ?_, r1, r2, r3, fun r hr => ⟨(r4 r hr).reached, (r4 r hr).unreached⟩⟩
  simp only [bfsLevelM, e, prog_bind_ok]

/-! Concrete case: the two traversals of the graph 0 → 1 → 2, 0 → 2, 3 → 0 from 1 and 3. -/

namespace Ex

def bWaves : Lil Int := { nrows := 2, ncols := 4, nvals := 2, rows := [[(1, 1)], [(3, 1)]] }
def bLevs : Lil Int := { nrows := 2, ncols := 4, nvals := 0, rows := [[], []] }

theorem bWaves_wf : bWaves.WF := Lil.wf_chk (by decide)
theorem bLevs_wf : bLevs.WF := Lil.wf_chk (by decide)

end Ex

example : Ex.bG.WF ∧ Ex.bWaves.WF ∧ Ex.bLevs.WF ∧ Ex.bW.Fits ∧ (ITy.i32.lev).Fits 4 ∧
    (∀ r v x, Ex.bWaves.get r v = some x → x = Ex.bW.ofIx 1) ∧
    (∀ u v x, Ex.bG.get u v = some x → (ITy.conv .u64 x).toNat ≠ 0) ∧
    batchBfsLevel 4 (fun x => (ITy.conv .u64 x).toNat) Ex.bG Ex.bW Ex.bWaves ITy.i32.lev Ex.bLevs =
      .ok { nrows := 2, ncols := 4, nvals := 6, rows := [[(1, 1), (2, 2)], [(0, 2), (1, 3), (2, 3), (3, 1)]] } ∧
    bfsLevelM 4 (fun x => (ITy.conv .u64 x).toNat) Ex.bG Ex.bW Ex.bWaves ITy.i32.lev Ex.bLevs =
      .ok { nrows := 2, ncols := 4, nvals := 6, rows := [[(1, 1), (2, 2)], [(0, 2), (1, 3), (2, 3), (3, 1)]] } :=
  ⟨Ex.bG_wf, Ex.bWaves_wf, Ex.bLevs_wf, ⟨by decide, by decide⟩, ITy.lev_fits _ _ (by decide) (by decide),
    fun r v x h => Ex.get_chk Ex.bWaves_wf (P := fun x => x = 1)
      (by decide : ∀ r ∈ Ex.bWaves.rows, ∀ p ∈ r, p.2 = 1) h,
    fun u v x h => Ex.get_chk Ex.bG_wf (P := fun x => (ITy.conv .u64 x).toNat ≠ 0)
      (by decide : ∀ r ∈ Ex.bG.rows, ∀ p ∈ r, (ITy.conv .u64 p.2).toNat ≠ 0) h,
    by decide +kernel, by decide +kernel⟩

/-! ### C49 -/

section
variable {t w : ITy} {ov : Int → Int → Int} {G : Lil Int} {n : Nat}

theorem indexRampI_spec (hn : n ≠ 0) :
    ∃ r, indexRampI n = .ok r ∧ r.WF ∧ r.size = n ∧ ∀ i, i < n → r.get i = some (i : Int) := by
  obtain ⟨r0, e0, h1, h2, h3⟩ := BVec.new_spec (α := Int) hn
  obtain ⟨r, e, a, b, c⟩ := forP_inv (b := fun i (r : BVec Int) => lift (method (r.setElement i i)))
    (fun k r => r.WF ∧ r.size = n ∧ ∀ i : Nat, i < k → r.get i = some (i : Int)) n r0
    ⟨h1, h2, fun i hi => absurd hi (Nat.not_lt_zero _)⟩
    (by
      rintro i r hi ⟨a, b, c⟩
      obtain ⟨r', e, a', b', c'⟩ := BVec.setElement_spec a (i := i) (by omega) (i : Int)
      refine ⟨r', by simp only [e, method_ok, lift_ok], a', b'.trans b, ?_⟩
      intro j hj
      rw [c']
      split
      · rename_i h; rw [h]
      · exact c j (by omega))
  refine ⟨r, ?_, a, b, c⟩
  simp only [indexRampI, e0, lift_ok, prog_bind_ok, e]

/-- `eWiseMult(out, NoMask(), NoAccumulate(), First<IndexType>(), index_ramp, u)`. -/
theorem renumber {c : ITy} {ramp : BVec Int} (r1 : ramp.WF) (r2 : ramp.size = n)
    (r3 : ∀ i, i < n → ramp.get i = some (i : Int)) (hc : ∀ k : Nat, k < n → c.Has k)
    {out u : BVec Int} (o1 : out.WF) (o2 : out.size = n) (u1 : u.WF) (u2 : u.size = n) :
    ∃ w, eWiseMultV (vPlain c.conv out) ewFirstI ramp u = .done w ∧ w.WF ∧ w.size = n ∧
      ∀ v, w.get v = if u.get v = none then none else some (v : Int) := by
  obtain ⟨w1, e1, y1⟩ := C14_eWiseMult_vector (o := vPlain c.conv out) (f := ewFirstI) (u := ramp)
    (v := u) (vPlain_wf o1) r1 u1
    ⟨noMaskFits, by show out.size = ramp.size; rw [r2, o2], by rw [r2, u2]⟩
  obtain ⟨w1a, w1b, w1c⟩ := plain_yields y1
  rw [o2] at w1b w1c
  refine ⟨w1, e1, w1a, w1b, ?_⟩
  intro v
  rcases Nat.lt_or_ge v n with hv | hv
  · rw [w1c v hv, r3 v hv]
    cases u.get v with
    | none => rfl
    | some x => simp [both, ewFirstI, ITy.conv_id (hc v hv)]
  · rw [w1a.get_none (by omega), if_pos (u1.get_none (by rw [u2]; exact hv))]

/-- The consistent states of `bfs(graph, wavefront, parent_list)`. -/
structure WaveOK (E : Nat → Nat → Prop) (S : Nat → Prop) (n d : Nat) (s : ParSt2) : Prop where
  wwf : s.wave.WF
  wsize : s.wave.size = n
  pwf : s.parents.WF
  psize : s.parents.size = n
  inv : ParAt E S n d s.wave.get s.parents.get

theorem bfsWaveBody_spec (hG : G.WF) (hr : G.nrows = n) (hc : G.ncols = n)
    (ht : ∀ k : Nat, k < n → t.Has k) (hw : ∀ k : Nat, k < n → w.Has k)
    {ramp : BVec Int} (r1 : ramp.WF) (r2 : ramp.size = n) (r3 : ∀ i, i < n → ramp.get i = some (i : Int))
    {S : Nat → Prop} {d : Nat} {s : ParSt2} (hs : WaveOK (Edge G.get) S n d s) :
    ∃ s', bfsWaveBody t w ov G ramp s = .ok s' ∧ WaveOK (Edge G.get) S n (d + 1) s' := by
  obtain ⟨w1, e1, w1a, w1b, hw1⟩ := renumber r1 r2 r3 hw hs.wwf hs.wsize hs.wwf hs.wsize
  obtain ⟨w2, e2, y2⟩ := C11_vxm (o := waveOutP w w1 s.parents) (sr := minFirstT t) (u := w1)
    (A := .plain G) ⟨w1a, maskOK hs.pwf⟩ w1a hG
    ⟨maskFits (by show s.parents.size = w1.size; rw [hs.psize, w1b]),
      by show w1.size = G.ncols; rw [w1b, hc], by show w1.size = G.nrows; rw [w1b, hr]⟩
  have w2s : w2.size = n := y2.size.trans w1b
  obtain ⟨par, e3, y3⟩ := C15_apply_vector (o := parOutT t ov s.parents) (f := t.conv) (u := w2)
    ⟨hs.pwf, noMaskOK⟩ y2.wf
    ⟨noMaskFits, by show s.parents.size = w2.size; rw [hs.psize, w2s]⟩
  have ps : par.size = n := y3.size.trans hs.psize
  have hp := fun v (hv : v < n) => y3.get v (by show v < s.parents.size; rw [hs.psize]; exact hv)
  refine ⟨{ wave := w2, parents := par },
    by simp only [bfsWaveBody, e1, e2, e3, exec_done, prog_bind_ok], y2.wf, w2s, y3.wf, ps, ?_⟩
  refine hs.inv.round (t := t) (w := w) (w1 := w1.get)
    (fun u v e => by rw [← hc]; exact (edge_lt hG e).2)
    (fun u hu => by rw [← hs.wsize]; exact vec_some_lt hs.wwf hu) ht hw hw1 ?_ ?_ ?_ ?_ ?_
  · intro v hv
    have := y2.get v (by show v < w1.size; rw [w1b]; exact hv)
    rw [this, w1b]
    cases h : s.parents.get v with
    | none => simp [waveOutP, VMask.allows, Spec.write, Spec.accum, Spec.allows, Operand.get, h, minFirstT]
    | some x => simp [waveOutP, VMask.allows, Spec.write, Spec.accum, Spec.allows, h]
  · intro v hv
    exact y2.wf.get_none (by rw [w2s]; omega)
  · intro v hv hn
    have hn : w2.get v = none := hn
    show par.get v = _
    rw [hp v hv]
    cases h : s.parents.get v <;> simp [parOutT, VMask.allows, Spec.write, Spec.accum, h, hn]
  · intro v x hv hx hn
    have hx : w2.get v = some x := hx
    show par.get v = _
    rw [hp v hv]
    simp [parOutT, VMask.allows, Spec.write, Spec.accum, hx, show s.parents.get v = none from hn]
  · intro v hv
    exact ⟨hs.pwf.get_none (by rw [hs.psize]; omega), y3.wf.get_none (by rw [ps]; omega)⟩

/-- **C49**, `bfs(graph, wavefront, parent_list)`, when the scalar types of the graph and
of the wavefront represent all vertex numbers: it returns; the vertices stored in the
wavefront are their own parents; every other vertex reachable from them has as parent the
smallest-numbered in-neighbour among the vertices one hop closer; the others have none.
Missing: other scalar types, for which it is false (`C49_narrow_graph_wrong`). -/
theorem C49_bfs_wave_partial (t w : ITy) (ov : Int → Int → Int) (G : Lil Int) (wave parents : BVec Int)
    (hG : G.WF) (hsq : G.nrows = G.ncols) (h0 : 0 < G.nrows)
    (ht : ∀ k : Nat, k < G.nrows → t.Has k) (hw : ∀ k : Nat, k < G.nrows → w.Has k)
    (hwf : wave.WF) (hws : wave.size = G.nrows) (hp : parents.WF) (hps : parents.size = G.nrows)
    (fuel : Nat) (hf : G.nrows ≤ fuel) :
    ∃ parents', bfsWave fuel t w ov G wave parents = .ok parents' ∧ parents'.WF ∧
      parents'.size = G.nrows ∧
      (∀ v, wave.get v ≠ none → parents'.get v = some (v : Int)) ∧
      (∀ v, Reachable (Edge G.get) (fun s => wave.get s ≠ none) v → wave.get v = none →
        ∃ p : Nat, parents'.get v = some (p : Int) ∧
          IsParent (Edge G.get) (fun s => wave.get s ≠ none) v p) ∧
      (∀ v, ¬ Reachable (Edge G.get) (fun s => wave.get s ≠ none) v → parents'.get v = none) := by
  obtain ⟨ramp, er, r1, r2, r3⟩ := indexRampI_spec (n := G.nrows) (by omega)
  have hu : ∀ k : Nat, k < G.nrows → ITy.Has .u64 k := fun k hk => ITy.has_u64 (ht k hk)
  obtain ⟨p1, e1, a1, a2, a3⟩ := renumber (c := .u64) r1 r2 r3 hu hp hps hwf hws
  obtain ⟨p2, e2, b1, b2, b3⟩ := renumber (c := .u64) r1 r2 r3 hu a1 a2 a1 a2
  have hsome : ∀ v, wave.get v ≠ none → p2.get v = some (v : Int) := by
    intro v hv
    have : p1.get v ≠ none := by rw [a3, if_neg hv]; simp
    rw [b3, if_neg this]
  have hnone : ∀ v, ¬ wave.get v ≠ none → p2.get v = none := by
    intro v hv
    have : p1.get v = none := by rw [a3, if_pos (Classical.not_not.1 hv)]
    rw [b3, if_pos this]
  have hlt : ∀ v, wave.get v ≠ none → v < G.nrows := fun v hv => by
    rw [← hws]; exact vec_some_lt hwf hv
  have hstart : WaveOK (Edge G.get) (fun s => wave.get s ≠ none) G.nrows 0 { wave := wave, parents := p2 } :=
    ⟨hwf, hws, b1, b2, ParAt.start hlt (fun v => Iff.rfl) hsome hnone⟩
  obtain ⟨d, s', e, h, hc⟩ := loop_count (c := fun s : ParSt2 => decide (0 < s.wave.nvals))
    (b := bfsWaveBody t w ov G ramp) (WaveOK (Edge G.get) (fun s => wave.get s ≠ none) G.nrows) G.nrows
    (by
      intro k s hs hc
      refine ⟨?_, bfsWaveBody_spec hG rfl hsq.symm ht hw r1 r2 r3 hs⟩
      obtain ⟨i, x, -, hx⟩ := nonempty_of_nvals hs.wwf (of_decide_eq_true hc)
      refine hopDist_lt (E := Edge G.get) (v := i) (fun u v e => by rw [hsq]; exact (edge_lt hG e).2) hlt ?_
      apply Classical.byContradiction
      intro hd
      rw [hs.inv.outW i hd] at hx
      cases hx)
    fuel 0 _ hstart (by omega)
  have hnv : s'.wave.nvals = 0 := by
    have := of_decide_eq_false hc
    omega
  obtain ⟨f1, f2, f3⟩ := h.inv.final (none_of_nvals h.wwf hnv)
  refine ⟨s'.parents, ?_, h.pwf, h.psize, f1, fun v hv hn => f2 v hv (fun h => h hn), f3⟩
  simp only [bfsWave, er, e1, e2, e, exec_done, prog_bind_ok]

/-! Batch. -/

theorem indexRampM_spec (n : Nat) :
    ∃ r, indexRampM n = .ok r ∧ r.WF ∧ r.nrows = n ∧ r.ncols = n ∧
      ∀ i j, r.get i j = if i = j ∧ i < n then some (i : Int) else none := by
  obtain ⟨r, e, a, b, b', c⟩ := forP_inv (b := fun i (r : Lil Int) => lift (method (r.setElement i i i)))
    (fun k r => r.WF ∧ r.nrows = n ∧ r.ncols = n ∧
      ∀ i j, r.get i j = if i = j ∧ i < k then some (i : Int) else none) n (Lil.new n n)
    ⟨Lil.new_wf _ _, rfl, rfl, fun i j => by rw [if_neg (by omega)]; exact Lil.get_new _ _ _ _⟩
    (by
      rintro i r hi ⟨a, b, b', c⟩
      obtain ⟨r', e, a', b1, b2, c'⟩ := Lil.setElement_spec a (i := i) (j := i) (by omega) (by omega) (i : Int)
      refine ⟨r', by simp only [e, method_ok, lift_ok], a', b1.trans b, b2.trans b', ?_⟩
      intro x y
      rw [c', c]
      by_cases h1 : x = i ∧ y = i
      · rw [if_pos h1, if_pos (by omega)]; rw [h1.1]
      · rw [if_neg h1]
        by_cases h2 : x = y ∧ x < i
        · rw [if_pos h2, if_pos (by omega)]
        · rw [if_neg h2, if_neg (by omega)])
  exact ⟨r, e, a, b, b', c⟩

/-- `mxm(out, NoMask(), NoAccumulate(), MinSecondSemiring<T>(), u, index_ramp)`. -/
theorem renumberM {c : ITy} {ramp : Lil Int} (r1 : ramp.WF) (r2 : ramp.nrows = n) (r2' : ramp.ncols = n)
    (r3 : ∀ i j, ramp.get i j = if i = j ∧ i < n then some (i : Int) else none)
    (ht : ∀ k : Nat, k < n → t.Has k) (hc : ∀ k : Nat, k < n → c.Has k)
    {out u : Lil Int} {R : Nat} (o1 : out.WF) (o2 : out.nrows = R) (o3 : out.ncols = n) (u1 : u.WF)
    (u2 : u.nrows = R) (u3 : u.ncols = n) :
    ∃ w, mxm (mPlain c.conv out) (minSecondT t) id (.plain u) (.plain ramp) = .done w ∧ w.WF ∧
      w.nrows = R ∧ w.ncols = n ∧ ∀ r v, w.get r v = if u.get r v = none then none else some (v : Int) := by
  obtain ⟨w1, e1, y1⟩ := C09_mxm (o := mPlain c.conv out) (sr := minSecondT t) (via := id) (A := u) (B := ramp)
    ⟨o1, noMaskOKM⟩ u1 r1 ⟨noMaskFitsM, by show out.nrows = u.nrows; rw [o2, u2],
      by show out.ncols = ramp.ncols; rw [o3, r2'], by show u.ncols = ramp.nrows; rw [u3, r2]⟩
  obtain ⟨p1, p2, p3, p4⟩ := plain_yieldsM y1
  rw [o2] at p2; rw [o3] at p3
  refine ⟨w1, e1, p1, p2, p3, ?_⟩
  intro r v
  by_cases hin : r < R ∧ v < n
  · rw [p4 r v (by omega) (by omega)]
    have hk : ∀ k, k ≠ v → both (minSecondT t).mult (u.get r k) (ramp.get k v) = none := by
      intro k hkv
      rw [r3, if_neg (by omega)]
      cases u.get r k <;> rfl
    have hv : both (minSecondT t).mult (u.get r v) (ramp.get v v) =
        if u.get r v = none then none else some (v : Int) := by
      rw [r3, if_pos ⟨rfl, hin.2⟩]
      cases u.get r v with
      | none => rfl
      | some x => simp [both, minSecondT, ITy.conv_id (ht v hin.2)]
    cases hx : u.get r v with
    | none =>
      rw [hx] at hv
      rw [show Spec.mxm u.ncols (minSecondT t).add (minSecondT t).mult u.get ramp.get r v = none from
        osum_range_none.2 (fun k _ => by
          by_cases hkv : k = v
          · subst hkv; rw [hx]; exact hv
          · exact hk k hkv)]
      rfl
    | some x =>
      rw [hx] at hv
      have : Spec.mxm u.ncols (minSecondT t).add (minSecondT t).mult u.get ramp.get r v = some (v : Int) := by
        refine osum_const ?_ ?_ ⟨v, by rw [u3]; exact hin.2, by rw [hx]; exact hv⟩
        · show t.minT v v = v
          rw [ITy.minT_eq (ht v hin.2) (ht v hin.2)]; omega
        · intro k _
          by_cases hkv : k = v
          · subst hkv; right; rw [hx]; exact hv
          · exact .inl (hk k hkv)
      rw [this]
      simp [ITy.conv_id (hc v hin.2)]
  · rw [p1.toWFr.get_none (by omega), if_pos (u1.toWFr.get_none (by omega))]

/-- The consistent states of `bfs_batch`. -/
structure WavesOK (E : Nat → Nat → Prop) (S : Nat → Nat → Prop) (R n d : Nat) (s : ParStM) : Prop where
  wwf : s.waves.WF
  wrows : s.waves.nrows = R
  wcols : s.waves.ncols = n
  pwf : s.parents.WF
  prows : s.parents.nrows = R
  pcols : s.parents.ncols = n
  inv : ∀ r, r < R → ParAt E (S r) n d (s.waves.get r) (s.parents.get r)

theorem bfsBatchBody_spec (hG : G.WF) (hr : G.nrows = n) (hc : G.ncols = n)
    (ht : ∀ k : Nat, k < n → t.Has k) (hw : ∀ k : Nat, k < n → w.Has k)
    {ramp : Lil Int} (r1 : ramp.WF) (r2 : ramp.nrows = n) (r2' : ramp.ncols = n)
    (r3 : ∀ i j, ramp.get i j = if i = j ∧ i < n then some (i : Int) else none)
    {S : Nat → Nat → Prop} {R d : Nat} {s : ParStM} (hs : WavesOK (Edge G.get) S R n d s) :
    ∃ s', bfsBatchBody t w ov G ramp s = .ok s' ∧ WavesOK (Edge G.get) S R n (d + 1) s' := by
  obtain ⟨w1, e1, w1a, w1b, w1c, hw1⟩ := renumberM r1 r2 r2' r3 ht hw hs.wwf hs.wrows hs.wcols
    hs.wwf hs.wrows hs.wcols
  obtain ⟨w2, e2, y2⟩ := C09_mxm (o := waveOutPM w w1 s.parents) (sr := minFirstT t) (via := id) (A := w1)
    (B := G) ⟨w1a, maskOKM hs.pwf⟩ w1a hG
    ⟨maskFitsM (by show s.parents.nrows = w1.nrows; rw [hs.prows, w1b])
        (by show s.parents.ncols = w1.ncols; rw [hs.pcols, w1c]),
      rfl, by show w1.ncols = G.ncols; rw [w1c, hc], by show w1.ncols = G.nrows; rw [w1c, hr]⟩
  have w2r : w2.nrows = R := y2.nrows.trans w1b
  have w2c : w2.ncols = n := y2.ncols.trans w1c
  obtain ⟨par, e3, y3⟩ := C15_apply_matrix (o := parOutTM t ov s.parents) (f := t.conv) (A := .plain w2)
    ⟨hs.pwf, noMaskOKM⟩ y2.wf
    ⟨noMaskFitsM, by show s.parents.ncols = w2.ncols; rw [hs.pcols, w2c],
      by show s.parents.nrows = w2.nrows; rw [hs.prows, w2r]⟩
  have pr : par.nrows = R := y3.nrows.trans hs.prows
  have pc : par.ncols = n := y3.ncols.trans hs.pcols
  have hp := fun r v (hr : r < R) (hv : v < n) => y3.get r v
    (by show r < s.parents.nrows; rw [hs.prows]; exact hr) (by show v < s.parents.ncols; rw [hs.pcols]; exact hv)
  refine ⟨{ waves := w2, parents := par },
    by simp only [bfsBatchBody, e1, e2, e3, exec_done, prog_bind_ok], y2.wf, w2r, w2c, y3.wf, pr, pc, ?_⟩
  intro r hrR
  refine (hs.inv r hrR).round (t := t) (w := w) (w1 := w1.get r)
    (fun u v e => by rw [← hc]; exact (edge_lt hG e).2)
    (fun u hu => by rw [← hs.wcols]; exact (some_lt hs.wwf hu).2) ht hw (hw1 r) ?_ ?_ ?_ ?_ ?_
  · intro v hv
    have := y2.get r v (by show r < w1.nrows; rw [w1b]; exact hrR) (by show v < w1.ncols; rw [w1c]; exact hv)
    rw [this, w1c]
    cases h : s.parents.get r v with
    | none => simp [waveOutPM, MMask.allows, Spec.write, Spec.accum, Spec.allows, h, minFirstT, Spec.mxm, Spec.vxm]
    | some x => simp [waveOutPM, MMask.allows, Spec.write, Spec.accum, Spec.allows, h]
  · intro v hv
    exact y2.wf.toWFr.get_none (by rw [w2c]; omega)
  · intro v hv hn
    have hn : w2.get r v = none := hn
    show par.get r v = _
    rw [hp r v hrR hv]
    cases h : s.parents.get r v <;> simp [parOutTM, MMask.allows, Spec.write, Spec.accum, h, hn, Operand.get]
  · intro v x hv hx hn
    have hx : w2.get r v = some x := hx
    show par.get r v = _
    rw [hp r v hrR hv]
    simp [parOutTM, MMask.allows, Spec.write, Spec.accum, show s.parents.get r v = none from hn, hx, Operand.get]
  · intro v hv
    exact ⟨hs.pwf.toWFr.get_none (by rw [hs.pcols]; omega), y3.wf.toWFr.get_none (by rw [pc]; omega)⟩

/-- **C49**, `bfs_batch(graph, wavefronts, parent_list)`: row `r` of the parents belongs
to the traversal from the vertices stored in row `r` of the wavefronts. Missing: scalar
types of the graph or of the wavefronts that do not represent all vertex numbers, for
which it is false (`C49_narrow_graph_wrong`). -/
theorem C49_bfs_batch_partial (t w : ITy) (ov : Int → Int → Int) (G waves parents : Lil Int)
    (hG : G.WF) (hsq : G.nrows = G.ncols)
    (ht : ∀ k : Nat, k < G.nrows → t.Has k) (hw : ∀ k : Nat, k < G.nrows → w.Has k)
    (hwf : waves.WF) (hwc : waves.ncols = G.nrows) (hp : parents.WF) (hpr : parents.nrows = waves.nrows)
    (hpc : parents.ncols = G.nrows) (fuel : Nat) (hf : G.nrows ≤ fuel) :
    ∃ parents', bfsBatch fuel t w ov G waves parents = .ok parents' ∧ parents'.WF ∧
      parents'.nrows = waves.nrows ∧ parents'.ncols = G.nrows ∧
      ∀ r, r < waves.nrows →
      (∀ v, waves.get r v ≠ none → parents'.get r v = some (v : Int)) ∧
      (∀ v, Reachable (Edge G.get) (fun s => waves.get r s ≠ none) v → waves.get r v = none →
        ∃ p : Nat, parents'.get r v = some (p : Int) ∧
          IsParent (Edge G.get) (fun s => waves.get r s ≠ none) v p) ∧
      (∀ v, ¬ Reachable (Edge G.get) (fun s => waves.get r s ≠ none) v → parents'.get r v = none) := by
  obtain ⟨ramp, er, r1, r2, r2', r3⟩ := indexRampM_spec G.nrows
  have hu : ∀ k : Nat, k < G.nrows → ITy.Has .u64 k := fun k hk => ITy.has_u64 (ht k hk)
  obtain ⟨p1, e1, a1, a2, a2', a3⟩ := renumberM (c := .u64) r1 r2 r2' r3 ht hu hp hpr hpc hwf rfl hwc
  have hlt : ∀ r v, waves.get r v ≠ none → v < G.nrows := fun r v hv => by
    rw [← hwc]; exact (some_lt hwf hv).2
  have hstart : WavesOK (Edge G.get) (fun r s => waves.get r s ≠ none) waves.nrows G.nrows 0
      { waves := waves, parents := p1 } := by
    refine ⟨hwf, rfl, hwc, a1, a2, a2', fun r _ => ParAt.start (hlt r) (fun v => Iff.rfl) ?_ ?_⟩
    · intro v hv
      show p1.get r v = _
      rw [a3, if_neg hv]
    · intro v hv
      show p1.get r v = _
      rw [a3, if_pos (Classical.not_not.1 hv)]
  obtain ⟨d, s', e, h, hc⟩ := loop_count (c := fun s : ParStM => decide (0 < s.waves.nvals))
    (b := bfsBatchBody t w ov G ramp)
    (WavesOK (Edge G.get) (fun r s => waves.get r s ≠ none) waves.nrows G.nrows) G.nrows
    (by
      intro k s hs hc
      refine ⟨?_, bfsBatchBody_spec hG rfl hsq.symm ht hw r1 r2 r2' r3 hs⟩
      obtain ⟨r, i, x, hr, -, hx⟩ := nonempty_of_nvalsM hs.wwf (of_decide_eq_true hc)
      refine hopDist_lt (E := Edge G.get) (v := i) (fun u v e => by rw [hsq]; exact (edge_lt hG e).2) (hlt r) ?_
      apply Classical.byContradiction
      intro hd
      rw [(hs.inv r (by rw [← hs.wrows]; exact hr)).outW i hd] at hx
      cases hx)
    fuel 0 _ hstart (by omega)
  have hnv : s'.waves.nvals = 0 := by
    have := of_decide_eq_false hc
    omega
  refine ⟨s'.parents, ?_, h.pwf, h.prows, h.pcols, ?_⟩
  · simp only [bfsBatch, er, e1, e, exec_done, prog_bind_ok]
  · intro r hr
    obtain ⟨f1, f2, f3⟩ := (h.inv r hr).final (fun v => h.wwf.get_none_of_nvals hnv r v)
    exact ⟨f1, fun v hv hn => f2 v hv (fun h => h hn), f3⟩

end

namespace Ex

/-- The graph `bG` as a graph of `bool`, and the edge 2 → 3. -/
def nG : Lil Int := { nrows := 4, ncols := 4, nvals := 1, rows := [[], [], [(3, 1)], []] }
def nWave : BVec Int := { size := 4, nvals := 1, vals := [0, 0, 1, 0], bitmap := [false, false, true, false] }
def nPar : BVec Int := { size := 4, nvals := 0, vals := [0, 0, 0, 0], bitmap := [false, false, false, false] }

end Ex

example : Ex.bG.WF ∧ (∀ k : Nat, k < Ex.bG.nrows → ITy.Has .i32 k) ∧ Ex.bWave.WF ∧
    bfsWave 4 .i32 .i32 (fun _ _ => 0) Ex.bG { Ex.nWave with bitmap := [false, false, false, true] } Ex.nPar =
      .ok { size := 4, nvals := 4, vals := [3, 0, 0, 3], bitmap := [true, true, true, true] } ∧
    bfsBatch 4 .i32 .i32 (fun _ _ => 0) Ex.bG Ex.bWaves Ex.bLevs =
      .ok { nrows := 2, ncols := 4, nvals := 6, rows := [[(1, 1), (2, 1)], [(0, 3), (1, 0), (2, 0), (3, 3)]] } :=
  ⟨Ex.bG_wf, by decide, Ex.bWave_wf, by decide +kernel, by decide +kernel⟩

/-- The parents are computed in the scalar type of the graph: in a graph of `bool` with the
single edge 2 → 3, the traversal from 2 gives 2 and 3 the parent 1, which is not even
reachable. -/
theorem C49_narrow_graph_wrong (ov : Int → Int → Int) : ∃ (G : Lil Int) (wave parents : BVec Int),
    G.WF ∧ G.nrows = G.ncols ∧ (∀ u v x, G.get u v = some x → ITy.Has .bool x) ∧
    wave.WF ∧ wave.size = G.nrows ∧ parents.WF ∧ parents.size = G.nrows ∧
    ¬ Reachable (Edge G.get) (fun s => wave.get s ≠ none) 1 ∧
    ∃ parents', bfsWave G.nrows .bool .u64 ov G wave parents = .ok parents' ∧
      wave.get 2 ≠ none ∧ parents'.get 2 = some 1 ∧ parents'.get 3 = some 1 := by
  have hw : Ex.nG.WF := Lil.wf_chk (by decide)
  have hE : ∀ u v, Edge Ex.nG.get u v → v = 3 := by
    intro u v e
    have := edge_lt hw e
    have h4 : u < 4 ∧ v < 4 := this
    have hall : ∀ u, u < 4 → ∀ v, v < 4 → (Ex.nG.get u v).isSome = true → v = 3 := by decide
    exact hall u h4.1 v h4.2 e
  refine ⟨Ex.nG, Ex.nWave, Ex.nPar, hw, rfl, ?_, ⟨rfl, rfl, rfl⟩, rfl, ⟨rfl, rfl, rfl⟩, rfl, ?_, ?_⟩
  · intro u v x h
    exact Ex.get_chk hw (P := fun x => ITy.Has .bool x)
      (by decide : ∀ r ∈ Ex.nG.rows, ∀ p ∈ r, ITy.Has .bool p.2) h
  · rintro ⟨k, hk⟩
    cases k with
    | zero => exact absurd (rfl : Ex.nWave.get 1 = none) hk
    | succ k =>
      obtain ⟨u, -, e⟩ := hk
      exact absurd (hE u 1 e) (by decide)
  · refine ⟨{ size := 4, nvals := 2, vals := [0, 0, 1, 1], bitmap := [false, false, true, true] }, ?_, ?_, rfl, rfl⟩
    · with_unfolding_all rfl
    · decide

end GBTL

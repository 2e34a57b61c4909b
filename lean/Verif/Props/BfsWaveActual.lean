import Verif.Lemmas.BfsWaveActual
import Verif.Props.BfsBatch
/-
C49: what the parent BFS from wavefronts stores for any integer scalar types of the graph
and of the wavefront.
-/
namespace GBTL
open Spec

section
variable {t w : ITy} {ov : Int → Int → Int} {G : Lil Int} {n : Nat}

/-- `eWiseMult(out, NoMask(), NoAccumulate(), First<IndexType>(), index_ramp, u)`. -/
theorem renumberAs {c : ITy} {ramp : BVec Int} (r1 : ramp.WF) (r2 : ramp.size = n)
    (r3 : ∀ i, i < n → ramp.get i = some (i : Int))
    {out u : BVec Int} (o1 : out.WF) (o2 : out.size = n) (u1 : u.WF) (u2 : u.size = n) :
    ∃ w, eWiseMultV (vPlain c.conv out) ewFirstI ramp u = .done w ∧ w.WF ∧ w.size = n ∧
      ∀ v, w.get v = if u.get v = none then none else some (c.conv (v : Nat)) := by
  obtain ⟨w1, e1, y1⟩ := C14_eWiseMult_vector (o := vPlain c.conv out) (f := ewFirstI) (u := ramp)
    (v := u) (vPlain_wf o1) r1 u1
    ⟨noMaskFits, by show out.size = ramp.size; rw [r2, o2], by rw [r2, u2]⟩
  obtain ⟨w1a, w1b, w1c⟩ := plain_yields y1
  rw [o2] at w1b w1c
  refine ⟨w1, e1, w1a, w1b, ?_⟩
  intro v
  rcases Nat.lt_or_ge v n with hv | hv
  · rw [w1c v hv, r3 v hv]
    cases u.get v with
    | none => rfl
    | some x => simp [both, ewFirstI]
  · rw [w1a.get_none (by omega), if_pos (u1.get_none (by rw [u2]; exact hv))]

/-- `mxm(out, NoMask(), NoAccumulate(), MinSecondSemiring<T>(), u, index_ramp)`. -/
theorem renumberAsM {c : ITy} {ramp : Lil Int} (r1 : ramp.WF) (r2 : ramp.nrows = n) (r2' : ramp.ncols = n)
    (r3 : ∀ i j, ramp.get i j = if i = j ∧ i < n then some (i : Int) else none)
    {out u : Lil Int} {R : Nat} (o1 : out.WF) (o2 : out.nrows = R) (o3 : out.ncols = n) (u1 : u.WF)
    (u2 : u.nrows = R) (u3 : u.ncols = n) :
    ∃ w, mxm (mPlain c.conv out) (minSecondT t) id (.plain u) (.plain ramp) = .done w ∧ w.WF ∧
      w.nrows = R ∧ w.ncols = n ∧
      ∀ r v, w.get r v = if u.get r v = none then none else some (c.conv (t.conv (v : Nat))) := by
  obtain ⟨w1, e1, y1⟩ := C09_mxm (o := mPlain c.conv out) (sr := minSecondT t) (via := id) (A := u) (B := ramp)
    ⟨o1, noMaskOKM⟩ u1 r1 ⟨noMaskFitsM, by show out.nrows = u.nrows; rw [o2, u2],
      by show out.ncols = ramp.ncols; rw [o3, r2'], by show u.ncols = ramp.nrows; rw [u3, r2]⟩
  obtain ⟨p1, p2, p3, p4⟩ := plain_yieldsM y1
  rw [o2] at p2; rw [o3] at p3
  refine ⟨w1, e1, p1, p2, p3, ?_⟩
  intro r v
  by_cases hin : r < R ∧ v < n
  · rw [p4 r v (by omega) (by omega)]
    have hk : ∀ k, k ≠ v → both (minSecondT t).mult (u.get r k) (ramp.get k v) = none := by
      intro k hkv
      rw [r3, if_neg (by omega)]
      cases u.get r k <;> rfl
    have hv : both (minSecondT t).mult (u.get r v) (ramp.get v v) =
        if u.get r v = none then none else some (t.conv (v : Nat)) := by
      rw [r3, if_pos ⟨rfl, hin.2⟩]
      cases u.get r v with
      | none => rfl
      | some x => simp [both, minSecondT]
    cases hx : u.get r v with
    | none =>
      rw [hx] at hv
      rw [show Spec.mxm u.ncols (minSecondT t).add (minSecondT t).mult u.get ramp.get r v = none from
        osum_range_none.2 (fun k _ => by
          by_cases hkv : k = v
          · subst hkv; rw [hx]; exact hv
          · exact hk k hkv)]
      rfl
    | some x =>
      rw [hx] at hv
      have : Spec.mxm u.ncols (minSecondT t).add (minSecondT t).mult u.get ramp.get r v =
          some (t.conv (v : Nat)) := by
        refine osum_const ?_ ?_ ⟨v, by rw [u3]; exact hin.2, by rw [hx]; exact hv⟩
        · show t.minT (t.conv v) (t.conv v) = t.conv v
          rw [ITy.minT_eq (ITy.has_conv t _) (ITy.has_conv t _)]; omega
        · intro k _
          by_cases hkv : k = v
          · subst hkv; right; rw [hx]; exact hv
          · exact .inl (hk k hkv)
      rw [this]
      simp
  · rw [p1.toWFr.get_none (by omega), if_pos (u1.toWFr.get_none (by omega))]

/-- The consistent states of `bfs(graph, wavefront, parent_list)`. -/
structure LabOK (t w : ITy) (E : Nat → Nat → Prop) (S : Nat → Prop) (n d : Nat) (s : ParSt2) : Prop where
  wwf : s.wave.WF
  wsize : s.wave.size = n
  pwf : s.parents.WF
  psize : s.parents.size = n
  inv : LabAt E S (fun u => t.conv (w.conv (u : Nat))) (fun x => ITy.conv .u64 (t.conv x)) w.conv d
    s.wave.get s.parents.get

theorem bfsWaveBody_actual (hG : G.WF) (hr : G.nrows = n) (hc : G.ncols = n)
    {ramp : BVec Int} (r1 : ramp.WF) (r2 : ramp.size = n) (r3 : ∀ i, i < n → ramp.get i = some (i : Int))
    {S : Nat → Prop} {d : Nat} {s : ParSt2} (hs : LabOK t w (Edge G.get) S n d s) :
    ∃ s', bfsWaveBody t w ov G ramp s = .ok s' ∧ LabOK t w (Edge G.get) S n (d + 1) s' := by
  obtain ⟨w1, e1, w1a, w1b, hw1⟩ := renumberAs (c := w) r1 r2 r3 hs.wwf hs.wsize hs.wwf hs.wsize
  obtain ⟨w2, e2, y2⟩ := C11_vxm (o := waveOutP w w1 s.parents) (sr := minFirstT t) (u := w1)
    (A := .plain G) ⟨w1a, maskOK hs.pwf⟩ w1a hG
    ⟨maskFits (by show s.parents.size = w1.size; rw [hs.psize, w1b]),
      by show w1.size = G.ncols; rw [w1b, hc], by show w1.size = G.nrows; rw [w1b, hr]⟩
  have w2s : w2.size = n := y2.size.trans w1b
  obtain ⟨par, e3, y3⟩ := C15_apply_vector (o := parOutT t ov s.parents) (f := t.conv) (u := w2)
    ⟨hs.pwf, noMaskOK⟩ y2.wf
    ⟨noMaskFits, by show s.parents.size = w2.size; rw [hs.psize, w2s]⟩
  have ps : par.size = n := y3.size.trans hs.psize
  have hp := fun v (hv : v < n) => y3.get v (by show v < s.parents.size; rw [hs.psize]; exact hv)
  refine ⟨{ wave := w2, parents := par },
    by simp only [bfsWaveBody, e1, e2, e3, exec_done, prog_bind_ok], y2.wf, w2s, y3.wf, ps, ?_⟩
  refine hs.inv.round (n := n) (t := t) (w := w) (num := fun u => w.conv (u : Nat)) (w1 := w1.get)
    (fun u v e => by rw [← hc]; exact (edge_lt hG e).2)
    (fun u hu => by rw [← hs.wsize]; exact vec_some_lt hs.wwf hu) hw1 ?_ ?_ ?_ ?_ ?_
  · intro v hv
    have := y2.get v (by show v < w1.size; rw [w1b]; exact hv)
    rw [this, w1b]
    cases h : s.parents.get v with
    | none => simp [waveOutP, VMask.allows, Spec.write, Spec.accum, Spec.allows, Operand.get, h, minFirstT]
    | some x => simp [waveOutP, VMask.allows, Spec.write, Spec.accum, Spec.allows, h]
  · intro v hv
    exact y2.wf.get_none (by rw [w2s]; omega)
  · intro v hv hn
    have hn : w2.get v = none := hn
    show par.get v = _
    rw [hp v hv]
    cases h : s.parents.get v <;> simp [parOutT, VMask.allows, Spec.write, Spec.accum, h, hn]
  · intro v x hv hx hn
    have hx : w2.get v = some x := hx
    show par.get v = _
    rw [hp v hv]
    simp [parOutT, VMask.allows, Spec.write, Spec.accum, hx, show s.parents.get v = none from hn]
  · intro v hv
    exact ⟨hs.pwf.get_none (by rw [hs.psize]; omega), y3.wf.get_none (by rw [ps]; omega)⟩

/-- **C49**, what `bfs(graph, wavefront, parent_list)` stores for any integer scalar types `t`
of the graph and `w` of the wavefront: it returns, and gives a parent to exactly the
reachable vertices. A vertex is known to its out-neighbours by its number converted to `w`
and then to `t`; a reachable vertex that is not in the wavefront stores the smallest of
these among its in-neighbours one hop closer, after the conversions to `w`, `t` and
`IndexType`; a vertex of the wavefront stores its own number after the conversions to `t`
and `IndexType`. -/
theorem C49_bfs_wave_actual (t w : ITy) (ov : Int → Int → Int) (G : Lil Int) (wave parents : BVec Int)
    (hG : G.WF) (hsq : G.nrows = G.ncols) (h0 : 0 < G.nrows) (h64 : G.nrows ≤ 2 ^ 64)
    (hwf : wave.WF) (hws : wave.size = G.nrows) (hp : parents.WF) (hps : parents.size = G.nrows)
    (fuel : Nat) (hf : G.nrows ≤ fuel) :
    ∃ parents', bfsWave fuel t w ov G wave parents = .ok parents' ∧ parents'.WF ∧
      parents'.size = G.nrows ∧
      (∀ v : Nat, wave.get v ≠ none → parents'.get v = some (ITy.conv .u64 (t.conv v))) ∧
      (∀ v, Reachable (Edge G.get) (fun s => wave.get s ≠ none) v → wave.get v = none →
        ∃ m, parents'.get v = some (ITy.conv .u64 (t.conv (w.conv m))) ∧
          IsLeastLabel (Edge G.get) (fun s => wave.get s ≠ none) (fun u : Nat => t.conv (w.conv u)) v m) ∧
      (∀ v, ¬ Reachable (Edge G.get) (fun s => wave.get s ≠ none) v → parents'.get v = none) := by
  obtain ⟨ramp, er, r1, r2, r3⟩ := indexRampI_spec (n := G.nrows) (by omega)
  have hu : ∀ k : Nat, k < G.nrows → ITy.Has .u64 k := fun k hk => by
    refine ⟨by show (0 : Int) ≤ k; omega, ?_⟩
    show (k : Int) ≤ 18446744073709551615
    omega
  obtain ⟨p1, e1, a1, a2, a3⟩ := renumber (c := .u64) r1 r2 r3 hu hp hps hwf hws
  obtain ⟨p2, e2, b1, b2, b3⟩ := renumber (c := .u64) r1 r2 r3 hu a1 a2 a1 a2
  have hsome : ∀ v, wave.get v ≠ none → p2.get v = some (v : Int) := by
    intro v hv
    have : p1.get v ≠ none := by rw [a3, if_neg hv]; simp
    rw [b3, if_neg this]
  have hnone : ∀ v, ¬ wave.get v ≠ none → p2.get v = none := by
    intro v hv
    have : p1.get v = none := by rw [a3, if_pos (Classical.not_not.1 hv)]
    rw [b3, if_pos this]
  have hlt : ∀ v, wave.get v ≠ none → v < G.nrows := fun v hv => by
    rw [← hws]; exact vec_some_lt hwf hv
  have hstart : LabOK t w (Edge G.get) (fun s => wave.get s ≠ none) G.nrows 0 { wave := wave, parents := p2 } :=
    ⟨hwf, hws, b1, b2, LabAt.start (fun v => Iff.rfl) (fun v hv => ⟨v, hsome v hv, rfl⟩) hnone⟩
  obtain ⟨d, s', e, h, hc⟩ := loop_count (c := fun s : ParSt2 => decide (0 < s.wave.nvals))
    (b := bfsWaveBody t w ov G ramp) (LabOK t w (Edge G.get) (fun s => wave.get s ≠ none) G.nrows) G.nrows
    (by
      intro k s hs hc
      refine ⟨?_, bfsWaveBody_actual hG rfl hsq.symm r1 r2 r3 hs⟩
      obtain ⟨i, x, -, hx⟩ := nonempty_of_nvals hs.wwf (of_decide_eq_true hc)
      refine hopDist_lt (E := Edge G.get) (v := i) (fun u v e => by rw [hsq]; exact (edge_lt hG e).2) hlt ?_
      apply Classical.byContradiction
      intro hd
      rw [hs.inv.outW i hd] at hx
      cases hx)
    fuel 0 _ hstart (by omega)
  have hnv : s'.wave.nvals = 0 := by
    have := of_decide_eq_false hc
    omega
  obtain ⟨f1, f2, f3⟩ := h.inv.final (none_of_nvals h.wwf hnv)
  refine ⟨s'.parents, ?_, h.pwf, h.psize, f1, fun v hv hn => f2 v hv (fun h => h hn), f3⟩
  simp only [bfsWave, er, e1, e2, e, exec_done, prog_bind_ok]

/-- The consistent states of `bfs_batch`. -/
structure LabsOK (t w : ITy) (E : Nat → Nat → Prop) (S : Nat → Nat → Prop) (R n d : Nat) (s : ParStM) :
    Prop where
  wwf : s.waves.WF
  wrows : s.waves.nrows = R
  wcols : s.waves.ncols = n
  pwf : s.parents.WF
  prows : s.parents.nrows = R
  pcols : s.parents.ncols = n
  inv : ∀ r, r < R → LabAt E (S r) (fun u => t.conv (w.conv (t.conv (u : Nat))))
    (fun x => ITy.conv .u64 (t.conv x)) w.conv d (s.waves.get r) (s.parents.get r)

theorem bfsBatchBody_actual (hG : G.WF) (hr : G.nrows = n) (hc : G.ncols = n)
    {ramp : Lil Int} (r1 : ramp.WF) (r2 : ramp.nrows = n) (r2' : ramp.ncols = n)
    (r3 : ∀ i j, ramp.get i j = if i = j ∧ i < n then some (i : Int) else none)
    {S : Nat → Nat → Prop} {R d : Nat} {s : ParStM} (hs : LabsOK t w (Edge G.get) S R n d s) :
    ∃ s', bfsBatchBody t w ov G ramp s = .ok s' ∧ LabsOK t w (Edge G.get) S R n (d + 1) s' := by
  obtain ⟨w1, e1, w1a, w1b, w1c, hw1⟩ := renumberAsM (t := t) (c := w) r1 r2 r2' r3 hs.wwf hs.wrows hs.wcols
    hs.wwf hs.wrows hs.wcols
  obtain ⟨w2, e2, y2⟩ := C09_mxm (o := waveOutPM w w1 s.parents) (sr := minFirstT t) (via := id) (A := w1)
    (B := G) ⟨w1a, maskOKM hs.pwf⟩ w1a hG
    ⟨maskFitsM (by show s.parents.nrows = w1.nrows; rw [hs.prows, w1b])
        (by show s.parents.ncols = w1.ncols; rw [hs.pcols, w1c]),
      rfl, by show w1.ncols = G.ncols; rw [w1c, hc], by show w1.ncols = G.nrows; rw [w1c, hr]⟩
  have w2r : w2.nrows = R := y2.nrows.trans w1b
  have w2c : w2.ncols = n := y2.ncols.trans w1c
  obtain ⟨par, e3, y3⟩ := C15_apply_matrix (o := parOutTM t ov s.parents) (f := t.conv) (A := .plain w2)
    ⟨hs.pwf, noMaskOKM⟩ y2.wf
    ⟨noMaskFitsM, by show s.parents.ncols = w2.ncols; rw [hs.pcols, w2c],
      by show s.parents.nrows = w2.nrows; rw [hs.prows, w2r]⟩
  have pr : par.nrows = R := y3.nrows.trans hs.prows
  have pc : par.ncols = n := y3.ncols.trans hs.pcols
  have hp := fun r v (hr : r < R) (hv : v < n) => y3.get r v
    (by show r < s.parents.nrows; rw [hs.prows]; exact hr) (by show v < s.parents.ncols; rw [hs.pcols]; exact hv)
  refine ⟨{ waves := w2, parents := par },
    by simp only [bfsBatchBody, e1, e2, e3, exec_done, prog_bind_ok], y2.wf, w2r, w2c, y3.wf, pr, pc, ?_⟩
  intro r hrR
  refine (hs.inv r hrR).round (n := n) (t := t) (w := w) (num := fun u => w.conv (t.conv (u : Nat)))
    (w1 := w1.get r) (fun u v e => by rw [← hc]; exact (edge_lt hG e).2)
    (fun u hu => by rw [← hs.wcols]; exact (some_lt hs.wwf hu).2) (hw1 r) ?_ ?_ ?_ ?_ ?_
  · intro v hv
    have := y2.get r v (by show r < w1.nrows; rw [w1b]; exact hrR) (by show v < w1.ncols; rw [w1c]; exact hv)
    rw [this, w1c]
    cases h : s.parents.get r v with
    | none => simp [waveOutPM, MMask.allows, Spec.write, Spec.accum, Spec.allows, h, minFirstT, Spec.mxm, Spec.vxm]
    | some x => simp [waveOutPM, MMask.allows, Spec.write, Spec.accum, Spec.allows, h]
  · intro v hv
    exact y2.wf.toWFr.get_none (by rw [w2c]; omega)
  · intro v hv hn
    have hn : w2.get r v = none := hn
    show par.get r v = _
    rw [hp r v hrR hv]
    cases h : s.parents.get r v <;> simp [parOutTM, MMask.allows, Spec.write, Spec.accum, h, hn, Operand.get]
  · intro v x hv hx hn
    have hx : w2.get r v = some x := hx
    show par.get r v = _
    rw [hp r v hrR hv]
    simp [parOutTM, MMask.allows, Spec.write, Spec.accum, show s.parents.get r v = none from hn, hx, Operand.get]
  · intro v hv
    exact ⟨hs.pwf.toWFr.get_none (by rw [hs.pcols]; omega), y3.wf.toWFr.get_none (by rw [pc]; omega)⟩

/-- **C49**, what `bfs_batch(graph, wavefronts, parent_list)` stores for any integer scalar
types: in every row as `bfs`, except that a vertex is known to its out-neighbours by its
number converted to `t`, `w` and `t`. -/
theorem C49_bfs_batch_actual (t w : ITy) (ov : Int → Int → Int) (G waves parents : Lil Int)
    (hG : G.WF) (hsq : G.nrows = G.ncols)
    (hwf : waves.WF) (hwc : waves.ncols = G.nrows) (hp : parents.WF) (hpr : parents.nrows = waves.nrows)
    (hpc : parents.ncols = G.nrows) (fuel : Nat) (hf : G.nrows ≤ fuel) :
    ∃ parents', bfsBatch fuel t w ov G waves parents = .ok parents' ∧ parents'.WF ∧
      parents'.nrows = waves.nrows ∧ parents'.ncols = G.nrows ∧
      ∀ r, r < waves.nrows →
      (∀ v : Nat, waves.get r v ≠ none → parents'.get r v = some (ITy.conv .u64 (t.conv v))) ∧
      (∀ v, Reachable (Edge G.get) (fun s => waves.get r s ≠ none) v → waves.get r v = none →
        ∃ m, parents'.get r v = some (ITy.conv .u64 (t.conv (w.conv m))) ∧
          IsLeastLabel (Edge G.get) (fun s => waves.get r s ≠ none)
            (fun u : Nat => t.conv (w.conv (t.conv u))) v m) ∧
      (∀ v, ¬ Reachable (Edge G.get) (fun s => waves.get r s ≠ none) v → parents'.get r v = none) := by
  obtain ⟨ramp, er, r1, r2, r2', r3⟩ := indexRampM_spec G.nrows
  obtain ⟨p1, e1, a1, a2, a2', a3⟩ := renumberAsM (t := t) (c := .u64) r1 r2 r2' r3 hp hpr hpc hwf rfl hwc
  have hlt : ∀ r v, waves.get r v ≠ none → v < G.nrows := fun r v hv => by
    rw [← hwc]; exact (some_lt hwf hv).2
  have hstart : LabsOK t w (Edge G.get) (fun r s => waves.get r s ≠ none) waves.nrows G.nrows 0
      { waves := waves, parents := p1 } := by
    refine ⟨hwf, rfl, hwc, a1, a2, a2', fun r _ => LabAt.start (fun v => Iff.rfl) ?_ ?_⟩
    · intro v hv
      refine ⟨_, ?_, ITy.conv_u64_idem t _⟩
      show p1.get r v = _
      rw [a3, if_neg hv]
    · intro v hv
      show p1.get r v = _
      rw [a3, if_pos (Classical.not_not.1 hv)]
  obtain ⟨d, s', e, h, hc⟩ := loop_count (c := fun s : ParStM => decide (0 < s.waves.nvals))
    (b := bfsBatchBody t w ov G ramp)
    (LabsOK t w (Edge G.get) (fun r s => waves.get r s ≠ none) waves.nrows G.nrows) G.nrows
    (by
      intro k s hs hc
      refine ⟨?_, bfsBatchBody_actual hG rfl hsq.symm r1 r2 r2' r3 hs⟩
      obtain ⟨r, i, x, hr, -, hx⟩ := nonempty_of_nvalsM hs.wwf (of_decide_eq_true hc)
      refine hopDist_lt (E := Edge G.get) (v := i) (fun u v e => by rw [hsq]; exact (edge_lt hG e).2) (hlt r) ?_
      apply Classical.byContradiction
      intro hd
      rw [(hs.inv r (by rw [← hs.wrows]; exact hr)).outW i hd] at hx
      cases hx)
    fuel 0 _ hstart (by omega)
  have hnv : s'.waves.nvals = 0 := by
    have := of_decide_eq_false hc
    omega
  refine ⟨s'.parents, ?_, h.pwf, h.prows, h.pcols, ?_⟩
  · simp only [bfsBatch, er, e1, e, exec_done, prog_bind_ok]
  · intro r hr
    obtain ⟨f1, f2, f3⟩ := (h.inv r hr).final (fun v => h.wwf.get_none_of_nvals hnv r v)
    exact ⟨f1, fun v hv hn => f2 v hv (fun h => h hn), f3⟩

end

/-! Concrete case: the graph of `C49_narrow_graph_wrong`, whose scalar type is `bool`. -/

example : Ex.nG.WF ∧ Ex.nWave.WF ∧ Ex.nPar.WF ∧ Ex.nG.nrows = 4 ∧
    bfsWave 4 .bool .u64 (fun _ _ => 0) Ex.nG Ex.nWave Ex.nPar =
      .ok { size := 4, nvals := 2, vals := [0, 0, 1, 1], bitmap := [false, false, true, true] } :=
  ⟨Lil.wf_chk (by decide), ⟨rfl, rfl, rfl⟩, ⟨rfl, rfl, rfl⟩, rfl, by decide +kernel⟩

example : IsLeastLabel (Edge Ex.nG.get) (fun s => Ex.nWave.get s ≠ none)
    (fun u : Nat => ITy.conv .bool (ITy.conv .u64 u)) 3 1 := by
  have hw : Ex.nG.WF := Lil.wf_chk (by decide)
  have h2 : HopDist (Edge Ex.nG.get) (fun s => Ex.nWave.get s ≠ none) 2 0 :=
    hopDist_zero.2 (by decide)
  have hE : Edge Ex.nG.get 2 3 := by show (Ex.nG.get 2 3).isSome = true; decide
  refine ⟨0, hopDist_succ.2 ⟨⟨2, h2, hE⟩, ?_⟩, ⟨2, h2, hE, by decide⟩, ?_⟩
  · intro k hk hd
    have : k = 0 := by omega
    subst this
    exact absurd (hopDist_zero.1 hd) (by decide)
  · intro u hu he
    have h4 : u < 4 := (edge_lt hw he).1
    have hall : ∀ u : Nat, u < 4 → (Ex.nG.get u 3).isSome = true → (1 : Int) ≤ ITy.conv .bool (ITy.conv .u64 u) := by
      decide
    exact hall u h4 he

end GBTL

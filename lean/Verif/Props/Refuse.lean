import Verif.Lemmas.Refuse
import Verif.Model.BfsBatch
/-
C97: graph algorithms refuse arguments whose shapes do not fit.
-/
namespace GBTL
open Spec (Outp MaskKind Accum)

variable {α γ ω : Type}

/-! ### Breadth-first traversals -/

/-- `bfs_level(graph, source, levels)`. -/
theorem C97_bfs_level {fuel : Nat} {gtrue : α → Bool} {G : Lil α} {source : Nat} {L : LevTy γ}
    {levels : BVec γ} (hG : G.WF) (hl : levels.WF) (hf : 0 < fuel)
    (h : ¬ (G.nrows = G.ncols ∧ source < G.nrows ∧ levels.size = G.nrows)) :
    Throws (bfsLevel fuel gtrue G source L levels) := by
  apply Ends.throws
  unfold bfsLevel
  refine (BVec.new_ends _).bind fun wave ⟨h1, h2, _⟩ => ?_
  refine (BVec.setElement_ends h1 source true).bind fun wave ⟨w1, w2, w3, w4⟩ => ?_
  refine Ends.loop_bind hf (by exact decide_eq_true (BVec.nvals_pos w1 w4)) ?_
  unfold bfsLevelBody
  refine (VCall.ends (.apply _ wave) (VOut.WF.of0 (o := levOut L levels) hl rfl) w1).bind
    fun lev ⟨l1, l2, _, l4⟩ => ?_
  refine (VCall.ends (.mxv _ (.tr G) wave) (VOut.WF.of1 (o := waveOut id L.truthy wave lev) w1 rfl l1)
    ⟨hG, w1⟩).bind fun _ ⟨_, _, m3, m4, m5⟩ => ?_
  refine h ⟨?_, ?_, ?_⟩ <;> simp only [levOut, waveOut, Operand.nrows, Operand.ncols, VCall.Accepts] at * <;> omega

/-- `bfs_level_masked(graph, wavefront, levels)`: a graph that is not square or a wavefront of
another size. -/
theorem C97_bfs_level_masked {fuel : Nat} {gIx : α → Nat} {G : Lil α} {W : WaveTy ω} {wave : BVec ω}
    {L : LevTy γ} {levels : BVec γ} (h : ¬ (G.nrows = G.ncols ∧ wave.size = G.nrows)) :
    bfsLevelMasked fuel gIx G W wave L levels = .error (.err .dimension) ∧
    bfsLevelMaskedV2 fuel gIx G W wave L levels = .error (.err .dimension) := by
  have h' : G.nrows ≠ G.ncols ∨ wave.size ≠ G.nrows := by omega
  exact ⟨by rw [bfsLevelMasked, if_pos h'], by rw [bfsLevelMaskedV2, if_pos h']⟩

/-- `bfs_level_masked`: levels of another size, for a wavefront with elements. -/
theorem C97_bfs_level_masked_levels {fuel : Nat} {gIx : α → Nat} {G : Lil α} {W : WaveTy ω} {wave : BVec ω}
    {L : LevTy γ} {levels : BVec γ} (hG : G.WF) (hw : wave.WF) (hl : levels.WF) (hf : 0 < fuel)
    (hn : 0 < wave.nvals) (h : levels.size ≠ G.nrows) :
    Throws (bfsLevelMasked fuel gIx G W wave L levels) := by
  apply Ends.throws
  unfold bfsLevelMasked
  split
  · exact Ends.err (by simp)
  · next hs =>
    refine Ends.loop_bind hf (by exact decide_eq_true hn) ?_
    unfold bfsMaskedBody
    refine (VCall.ends (.apply _ wave) (VOut.WF.of0 (o := levOutU L levels) hl rfl) hw).bind
      fun lev ⟨l1, l2, _, l4⟩ => ?_
    simp only [levOutU, VCall.Accepts] at l4
    omega

/-- `bfs_level_masked_v2`: levels of another size, for a wavefront with elements. -/
theorem C97_bfs_level_masked_v2_levels {fuel : Nat} {gIx : α → Nat} {G : Lil α} {W : WaveTy ω}
    {wave : BVec ω} {L : LevTy γ} {levels : BVec γ} (hG : G.WF) (hw : wave.WF) (hl : levels.WF)
    (hf : 0 < fuel) (hn : 0 < wave.nvals) (h : levels.size ≠ G.nrows) :
    Throws (bfsLevelMaskedV2 fuel gIx G W wave L levels) := by
  apply Ends.throws
  unfold bfsLevelMaskedV2
  split
  · exact Ends.err (by simp)
  · next hs =>
    refine Ends.loop_bind hf (by exact decide_eq_true hn) ?_
    unfold bfsMaskedV2Body
    refine (VCall.ends (.assignConst id _ .all) (VOut.WF.of1 (o := levOutV2 L W levels wave) hl rfl hw)
      trivial).bind fun lev ⟨l1, l2, l3, l4⟩ => ?_
    have := l3.size
    simp only [levOutV2] at this
    omega

/-- `batch_bfs_level_masked(graph, wavefronts, levels)`. -/
theorem C97_batch_bfs_level {fuel : Nat} {gIx : α → Nat} {G : Lil α} {W : WaveTy ω} {waves : Lil ω}
    {L : LevTy γ} {levels : Lil γ} (h : ¬ (G.nrows = G.ncols ∧ waves.ncols = G.nrows)) :
    batchBfsLevel fuel gIx G W waves L levels = .error (.err .dimension) := by
  rw [batchBfsLevel, if_pos (by omega)]

theorem C97_batch_bfs_level_levels {fuel : Nat} {gIx : α → Nat} {G : Lil α} {W : WaveTy ω} {waves : Lil ω}
    {L : LevTy γ} {levels : Lil γ} (hw : waves.WF) (hl : levels.WF) (hf : 0 < fuel)
    (hn : 0 < waves.nvals) (h : ¬ (levels.nrows = waves.nrows ∧ levels.ncols = waves.ncols)) :
    Throws (batchBfsLevel fuel gIx G W waves L levels) := by
  apply Ends.throws
  unfold batchBfsLevel
  split
  · exact Ends.err (by simp)
  · next hs =>
    refine Ends.loop_bind hf (by exact decide_eq_true hn) ?_
    unfold batchBody
    refine (MCall.ends (.apply _ (.plain waves)) (MOut.WF.of0 (o := levOutM L levels) hl rfl) hw).bind
      fun lev ⟨l1, l2, l3, _, l4⟩ => ?_
    exact (h l4).elim

/-- `bfs_level(graph, wavefronts, levels)` on matrices, which tests nothing itself. -/
theorem C97_bfs_level_matrix {fuel : Nat} {gU : α → Nat} {G : Lil α} {W : WaveTy ω} {waves : Lil ω}
    {L : LevTy γ} {levels : Lil γ} (hG : G.WF) (hw : waves.WF) (hl : levels.WF) (hf : 0 < fuel)
    (hn : 0 < waves.nvals) (h : ¬ (G.nrows = G.ncols ∧ waves.ncols = G.nrows ∧
      levels.nrows = waves.nrows ∧ levels.ncols = waves.ncols)) :
    Throws (bfsLevelM fuel gU G W waves L levels) := by
  apply Ends.throws
  unfold bfsLevelM
  refine Ends.loop_bind hf (by exact decide_eq_true hn) ?_
  unfold cullBody
  refine (MCall.ends (.apply _ (.plain waves)) (MOut.WF.of0 (o := levOutM L levels) hl rfl) hw).bind
    fun lev ⟨l1, l2, l3, _, l4⟩ => ?_
  refine (MCall.ends (.mxm _ id (.plain waves) (.plain G))
    (MOut.WF.of0 (o := waveOutAll W.ofIx waves) hw rfl) ⟨hw, hG⟩).bind
    fun _ ⟨_, _, _, _, m⟩ => ?_
  simp only [MCall.Accepts, waveOutAll, levOutM, Operand.nrows, Operand.ncols] at *
  omega

/-- `bfs(graph, source, parent_list)`. -/
theorem C97_bfs_parents {fuel : Nat} {G : Lil α} {source : Nat} {parents : BVec Nat} (hG : G.WF)
    (hp : parents.WF) (hf : 0 < fuel)
    (h : ¬ (G.nrows = G.ncols ∧ source < G.nrows ∧ parents.size = G.nrows)) :
    Throws (bfsParents fuel G source parents) := by
  apply Ends.throws
  unfold bfsParents
  refine (indexRamp_ends _).bind fun ramp ⟨r1, r2, _⟩ => ?_
  refine (BVec.new_ends _).bind fun wave ⟨h1, h2, _⟩ => ?_
  refine (BVec.setElement_ends h1 source _).bind fun wave ⟨w1, w2, w3, w4⟩ => ?_
  refine (BVec.setElement_ends (BVec.clear_wf hp.vlen) source _).bind fun par ⟨p1, p2, p3, p4⟩ => ?_
  refine Ends.loop_bind hf (by exact decide_eq_true (BVec.nvals_pos w1 w4)) ?_
  unfold bfsBody
  refine (VCall.ends (.eWiseMult _ ramp wave) (VOut.WF.of0 (o := vPlain id wave) w1 rfl) ⟨r1, w1⟩).bind
    fun wave2 ⟨e1, e2, _, e4⟩ => ?_
  refine (VCall.ends (.vxm _ wave2 (.plain G)) (VOut.WF.of1 (o := waveOutS wave2 par) e1 rfl p1)
    ⟨e1, hG⟩).bind fun _ ⟨_, _, m3, m4, m5⟩ => ?_
  have := m3.size
  have hc : parents.clear.size = parents.size := rfl
  simp only [vPlain, waveOutS, Operand.nrows, Operand.ncols, VCall.Accepts] at *
  omega

/-- `bfs(graph, wavefront, parent_list)`: a wavefront or a parent list of another size. -/
theorem C97_bfs_wavefront {fuel : Nat} {t w : ITy} {ov : Int → Int → Int} {G : Lil Int}
    {wave parents : BVec Int} (hw : wave.WF) (hp : parents.WF)
    (h : ¬ (wave.size = G.nrows ∧ parents.size = G.nrows)) :
    Throws (bfsWave fuel t w ov G wave parents) := by
  apply Ends.throws
  unfold bfsWave
  refine (indexRampI_ends _).bind fun ramp ⟨r1, r2, _⟩ => ?_
  refine (VCall.ends (.eWiseMult _ ramp wave) (VOut.WF.of0 (o := vPlain _ parents) hp rfl) ⟨r1, hw⟩).bind
    fun wave2 ⟨e1, e2, _, e4⟩ => ?_
  simp only [vPlain, VCall.Accepts] at *
  omega

/-- The same for a graph that is not square, for a wavefront with elements. -/
theorem C97_bfs_wavefront_graph {fuel : Nat} {t w : ITy} {ov : Int → Int → Int} {G : Lil Int}
    {wave parents : BVec Int} (hG : G.WF) (hw : wave.WF) (hp : parents.WF) (hf : 0 < fuel)
    (hn : 0 < wave.nvals) (h : G.nrows ≠ G.ncols) :
    Throws (bfsWave fuel t w ov G wave parents) := by
  apply Ends.throws
  unfold bfsWave
  refine (indexRampI_ends _).bind fun ramp ⟨r1, r2, _⟩ => ?_
  refine (VCall.ends (.eWiseMult _ ramp wave) (VOut.WF.of0 (o := vPlain _ parents) hp rfl) ⟨r1, hw⟩).bind
    fun par ⟨e1, e2, _, e4⟩ => ?_
  refine (VCall.ends (.eWiseMult _ ramp par) (VOut.WF.of0 (o := vPlain _ par) e1 rfl) ⟨r1, e1⟩).bind
    fun par2 ⟨f1, f2, _, f4⟩ => ?_
  refine Ends.loop_bind hf (by exact decide_eq_true hn) ?_
  unfold bfsWaveBody
  refine (VCall.ends (.eWiseMult _ ramp wave) (VOut.WF.of0 (o := vPlain _ wave) hw rfl) ⟨r1, hw⟩).bind
    fun wave2 ⟨g1, g2, _, g4⟩ => ?_
  refine (VCall.ends (.vxm _ wave2 (.plain G)) (VOut.WF.of1 (o := waveOutP w wave2 par2) g1 rfl f1)
    ⟨g1, hG⟩).bind fun _ ⟨_, _, m3, m4, m5⟩ => ?_
  simp only [vPlain, waveOutP, Operand.nrows, Operand.ncols, VCall.Accepts] at *
  omega

/-- `bfs_batch(graph, wavefronts, parent_list)`: wavefronts or parents of another shape. -/
theorem C97_bfs_batch {fuel : Nat} {t w : ITy} {ov : Int → Int → Int} {G waves parents : Lil Int}
    (hw : waves.WF) (hp : parents.WF)
    (h : ¬ (waves.ncols = G.nrows ∧ parents.nrows = waves.nrows ∧ parents.ncols = waves.ncols)) :
    Throws (bfsBatch fuel t w ov G waves parents) := by
  apply Ends.throws
  unfold bfsBatch
  refine (indexRampM_ends _).bind fun ramp ⟨r1, r2, r3⟩ => ?_
  refine (MCall.ends (.mxm _ id (.plain waves) (.plain ramp)) (MOut.WF.of0 (o := mPlain _ parents) hp rfl)
    ⟨hw, r1⟩).bind fun _ ⟨_, _, _, _, m⟩ => ?_
  simp only [MCall.Accepts, mPlain, Operand.nrows, Operand.ncols] at *
  omega

/-- The same for a graph that is not square, for wavefronts with elements. -/
theorem C97_bfs_batch_graph {fuel : Nat} {t w : ITy} {ov : Int → Int → Int} {G waves parents : Lil Int}
    (hG : G.WF) (hw : waves.WF) (hp : parents.WF) (hf : 0 < fuel) (hn : 0 < waves.nvals)
    (h : G.nrows ≠ G.ncols) : Throws (bfsBatch fuel t w ov G waves parents) := by
  apply Ends.throws
  unfold bfsBatch
  refine (indexRampM_ends _).bind fun ramp ⟨r1, r2, r3⟩ => ?_
  refine (MCall.ends (.mxm _ id (.plain waves) (.plain ramp)) (MOut.WF.of0 (o := mPlain _ parents) hp rfl)
    ⟨hw, r1⟩).bind fun par ⟨p1, p2, p3, _, m⟩ => ?_
  refine Ends.loop_bind hf (by exact decide_eq_true hn) ?_
  unfold bfsBatchBody
  refine (MCall.ends (.mxm _ id (.plain waves) (.plain ramp)) (MOut.WF.of0 (o := mPlain _ waves) hw rfl)
    ⟨hw, r1⟩).bind fun waves2 ⟨q1, q2, q3, _, n⟩ => ?_
  refine (MCall.ends (.mxm _ id (.plain waves2) (.plain G)) (MOut.WF.of1 (o := waveOutPM w waves2 par) q1 rfl p1)
    ⟨q1, hG⟩).bind fun _ ⟨_, _, _, _, n2⟩ => ?_
  simp only [MCall.Accepts, mPlain, waveOutPM, Operand.nrows, Operand.ncols] at *
  omega

/-! ### Calls with arguments that do not fit -/

namespace Ex

/-- A graph with one edge and a column too many. -/
def wideI : Lil Int := ⟨2, 3, 1, [[(2, 1)], []]⟩
theorem wideI_wf : wideI.WF := Lil.wf_chk (by decide +kernel)
/-- A graph of two vertices and one edge. -/
def edgeI : Lil Int := ⟨2, 2, 1, [[(1, 1)], []]⟩
theorem edgeI_wf : edgeI.WF := Lil.wf_chk (by decide +kernel)
/-- Vectors with an element, of two sizes. -/
def two : BVec Int := ⟨2, 1, [1, 0], [true, false]⟩
theorem two_wf : two.WF := ⟨rfl, rfl, rfl⟩
def three : BVec Int := ⟨3, 1, [1, 0, 0], [true, false, false]⟩
theorem three_wf : three.WF := ⟨rfl, rfl, rfl⟩
def noTwo : BVec Nat := ⟨2, 0, [0, 0], [false, false]⟩
theorem noTwo_wf : noTwo.WF := ⟨rfl, rfl, rfl⟩
/-- Wavefronts with an element, of two widths. -/
def rowTwo : Lil Int := ⟨1, 2, 1, [[(0, 1)]]⟩
theorem rowTwo_wf : rowTwo.WF := Lil.wf_chk (by decide +kernel)
def rowThree : Lil Int := ⟨1, 3, 1, [[(0, 1)]]⟩
theorem rowThree_wf : rowThree.WF := Lil.wf_chk (by decide +kernel)

variable (L : LevTy Int) (W : WaveTy Int) (g : Int → Bool) (k : Int → Nat) (ov : Int → Int → Int) (t w : ITy)

example : Throws (bfsLevel 5 g wideI 0 L two) := C97_bfs_level wideI_wf two_wf (by decide) (by decide)
example : Throws (bfsLevel 5 g edgeI 2 L two) := C97_bfs_level edgeI_wf two_wf (by decide) (by decide)
example : Throws (bfsLevel 5 g edgeI 0 L three) := C97_bfs_level edgeI_wf three_wf (by decide) (by decide)
example : bfsLevelMasked 5 k wideI W two L two = .error (.err .dimension) := (C97_bfs_level_masked (by decide)).1
example : Throws (bfsLevelMasked 5 k edgeI W two L three) :=
  C97_bfs_level_masked_levels edgeI_wf two_wf three_wf (by decide) (by decide) (by decide)
example : Throws (bfsLevelMaskedV2 5 k edgeI W two L three) :=
  C97_bfs_level_masked_v2_levels edgeI_wf two_wf three_wf (by decide) (by decide) (by decide)
example : batchBfsLevel 5 k edgeI W rowThree L rowThree = .error (.err .dimension) :=
  C97_batch_bfs_level (by decide)
example : Throws (batchBfsLevel 5 k edgeI W rowTwo L rowThree) :=
  C97_batch_bfs_level_levels rowTwo_wf rowThree_wf (by decide) (by decide) (by decide)
example : Throws (bfsLevelM 5 k wideI W rowTwo L rowTwo) :=
  C97_bfs_level_matrix wideI_wf rowTwo_wf rowTwo_wf (by decide) (by decide) (by decide)
example : Throws (bfsParents 5 edgeI 2 noTwo) := C97_bfs_parents edgeI_wf noTwo_wf (by decide) (by decide)
example : Throws (bfsWave 5 t w ov edgeI three two) := C97_bfs_wavefront three_wf two_wf (by decide)
example : Throws (bfsWave 5 t w ov wideI two two) :=
  C97_bfs_wavefront_graph wideI_wf two_wf two_wf (by decide) (by decide) (by decide)
example : Throws (bfsBatch 5 t w ov edgeI rowThree rowThree) := C97_bfs_batch rowThree_wf rowThree_wf (by decide)
example : Throws (bfsBatch 5 t w ov wideI rowTwo rowTwo) :=
  C97_bfs_batch_graph wideI_wf rowTwo_wf rowTwo_wf (by decide) (by decide) (by decide)

end Ex

end GBTL

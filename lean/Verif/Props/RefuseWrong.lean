import Verif.Props.RefuseMore
import Verif.Props.Mis
/-
C97: arguments that do not fit and are accepted all the same.
-/
namespace GBTL
open Spec (Outp MaskKind Accum)

variable {α γ ω : Type}

/-! ### Late -/

/-- The variables of the loops of `sssp_delta_step`. -/
structure DeltaWF (n : Nat) (q : DeltaSt) : Prop where
  t : q.t.WF
  tm : q.tm.WF
  req : q.req.WF
  bi : q.bi.WF
  comp : q.comp.WF
  less : q.less.WF
  s : q.s.WF
  size : q.t.size = n

theorem edgesWhere_ret {G : Lil Int} {test : Int → Bool} (hG : G.WF) : Ret (edgesWhere G test) Lil.WF := by
  unfold edgesWhere
  refine (MCall.ret (.apply _ (.plain G)) (mPlain ofBool (Lil.new G.nrows G.nrows))
    (MOut.WF.of0 (Lil.new_wf _ _) rfl) hG).bind fun P ⟨p1, _⟩ => ?_
  exact (MCall.ret (.apply _ (.plain G)) (selfMaskM P) (MOut.WF.of1 p1 rfl p1) hG).imp fun _ h => h.1

theorem deltaComp_ret {t : ITy} {ov : Int → Int → Int} {delta : Int} {outp : Outp} {s : DeltaSt} {n : Nat}
    (h : DeltaWF n s) : Ret (deltaComp t ov delta outp s) (DeltaWF n) := by
  unfold deltaComp
  refine (VCall.ret (.apply _ s.t) (vPlain id s.comp) (VOut.WF.of0 h.comp rfl) h.t).bind fun c ⟨c1, _⟩ => ?_
  refine (VCall.ret (.apply _ c) (vMasked id c .plain id c outp) (VOut.WF.of1 c1 rfl c1) c1).bind
    fun c ⟨c2, _⟩ => ?_
  exact Ret.ok ⟨h.t, h.tm, h.req, h.bi, c2, h.less, h.s, h.size⟩

theorem deltaInner_ret {t : ITy} {ov : Int → Int → Int} {AL : Lil Int} {lo hi : Int} {s : DeltaSt} {n : Nat}
    (hA : AL.WF) (h : DeltaWF n s) : Ret (deltaInner t ov AL lo hi s) (DeltaWF n) := by
  unfold deltaInner
  refine (VCall.ret (.vxm _ s.tm (.plain AL)) (vPlain id s.req) (VOut.WF.of0 h.req rfl) ⟨h.tm, hA⟩).bind
    fun req ⟨r1, _⟩ => ?_
  refine (VCall.ret (.eWiseAdd _ s.s s.bi) (vPlain id s.s) (VOut.WF.of0 h.s rfl) ⟨h.s, h.bi⟩).bind
    fun ss ⟨s1, _⟩ => ?_
  refine (VCall.ret (.eWiseAdd _ req s.t) (vMasked id s.less .plain isTrue req .replace)
    (VOut.WF.of1 h.less rfl r1) ⟨r1, h.t⟩).bind fun less ⟨l1, _⟩ => ?_
  refine (VCall.ret (.apply _ req) (vMasked id s.bi .plain id less .replace)
    (VOut.WF.of1 h.bi rfl l1) r1).bind fun bi ⟨b1, _⟩ => ?_
  refine (VCall.ret (.eWiseAdd _ s.t req) (vPlain id s.t) (VOut.WF.of0 h.t rfl) ⟨h.t, r1⟩).bind
    fun d ⟨d1, d2⟩ => ?_
  refine (VCall.ret (.apply _ d) (vMasked id s.tm .plain id bi .replace)
    (VOut.WF.of1 h.tm rfl b1) d1).bind fun tm ⟨t1, _⟩ => ?_
  exact Ret.ok ⟨d1, t1, r1, b1, h.comp, l1, s1, d2.trans h.size⟩

theorem deltaOuter_ret {fuel : Nat} {t : ITy} {ov : Int → Int → Int} {AL AH : Lil Int} {delta : Int}
    {s : DeltaSt} {n : Nat} (hA : AL.WF) (hH : AH.WF) (h : DeltaWF n s) :
    Ret (deltaOuter fuel t ov AL AH delta s) (DeltaWF n) := by
  unfold deltaOuter
  refine Ret.bind (P := DeltaWF n) ?_ fun s h => ?_
  · unfold deltaStart
    refine (VCall.ret (.apply _ s.t) (vPlain id s.bi) (VOut.WF.of0 h.bi rfl) h.t).bind fun b ⟨b1, _⟩ => ?_
    refine (VCall.ret (.apply _ b) (vMasked isTrue b .plain id b .replace) (VOut.WF.of1 b1 rfl b1) b1).bind
      fun b ⟨b2, _⟩ => ?_
    refine (VCall.ret (.apply _ s.t) (vMasked id s.tm .plain id b .replace) (VOut.WF.of1 h.tm rfl b2) h.t).bind
      fun tm ⟨t1, _⟩ => ?_
    exact Ret.ok ⟨h.t, t1, h.req, b2, h.comp, h.less, BVec.clear_wf h.s.vlen, h.size⟩
  refine (loop_ret (DeltaWF n) (fun s h => deltaInner_ret hA h) fuel h).bind fun s h => ?_
  refine Ret.bind (P := DeltaWF n) ?_ fun s h => ?_
  · unfold deltaHeavy
    refine (VCall.ret (.apply _ s.t) (vMasked id s.tm .plain id s.s .replace) (VOut.WF.of1 h.tm rfl h.s) h.t).bind
      fun tm ⟨t1, _⟩ => ?_
    refine (VCall.ret (.vxm _ tm (.plain AH)) (vPlain id s.req) (VOut.WF.of0 h.req rfl) ⟨t1, hH⟩).bind
      fun req ⟨r1, _⟩ => ?_
    refine (VCall.ret (.eWiseAdd _ s.t req) (vPlain id s.t) (VOut.WF.of0 h.t rfl) ⟨h.t, r1⟩).bind
      fun d ⟨d1, d2⟩ => ?_
    exact Ret.ok ⟨d1, t1, r1, h.bi, h.comp, h.less, h.s, d2.trans h.size⟩
  exact deltaComp_ret ⟨h.t, h.tm, h.req, h.bi, h.comp, h.less, h.s, h.size⟩

/-- `sssp_delta_step` with paths of another size: the copy at the end is refused, so nothing is
returned. (The distances are computed first, which may take forever.) -/
theorem C97_delta_step_paths {fuel : Nat} {t : ITy} {ov : Int → Int → Int} {G : Lil Int} {delta : Int}
    {src : Nat} {paths : BVec Int} (hG : G.WF) (hp : paths.WF) (h : paths.size ≠ G.nrows) (r : BVec Int) :
    deltaStep fuel t ov G delta src paths ≠ .ok r := by
  suffices Ret (deltaStep fuel t ov G delta src paths) fun _ => False from fun e => this r e
  unfold deltaStep
  have hnew : ∀ (β : Type) [Inhabited β], Ret (lift (BVec.new (α := β) G.nrows)) fun v => v.WF ∧ v.size = G.nrows :=
    fun β _ v e => by
      have := BVec.new_ends (α := β) G.nrows
      rw [e] at this
      exact ⟨this.1, this.2.1⟩
  refine (hnew _).bind fun d0 ⟨a1, a2⟩ => ?_
  refine (hnew _).bind fun tm ⟨b1, _⟩ => ?_
  refine (hnew _).bind fun req ⟨c1, _⟩ => ?_
  refine (hnew _).bind fun bi ⟨e1, _⟩ => ?_
  refine (hnew _).bind fun comp ⟨f1, _⟩ => ?_
  refine (hnew _).bind fun less ⟨g1, _⟩ => ?_
  refine (hnew _).bind fun ss ⟨h1, _⟩ => ?_
  refine Ret.bind (P := fun d => d.WF ∧ d.size = G.nrows) (fun d e => ?_) fun d ⟨d1, d2⟩ => ?_
  · have := BVec.setElement_ends a1 src (0 : Int)
    rw [e] at this
    exact ⟨this.1, this.2.1.trans a2⟩
  refine (edgesWhere_ret hG).bind fun AL hA => (edgesWhere_ret hG).bind fun AH hH => ?_
  refine (deltaComp_ret (n := G.nrows) ⟨d1, b1, c1, e1, f1, g1, h1, d2⟩).bind fun s hs => ?_
  refine (loop_ret (DeltaWF G.nrows) (fun s h => deltaOuter_ret hA hH h) fuel hs).bind fun s hs => ?_
  intro x e
  have := VCall.ends (.apply id s.t) (o := vPlain id paths.clear) (VOut.WF.of0 (BVec.clear_wf hp.vlen) rfl) hs.t
  change exec (VCall.run (.apply id s.t) (vPlain id paths.clear)) = _ at e
  rw [e] at this
  have h2 : paths.size = s.t.size := this.2.2.2
  exact h (h2.trans hs.size)

/-! ### Never -/

theorem loop_stops {σ : Type} {c : σ → Bool} {b : σ → Prog σ} {fuel : Nat} {s : σ} (h : c s = false) :
    loop c b fuel s = .ok s := by
  cases fuel <;> simp [loop, h]

/-- `maxflow_push_relabel` accepts a sink that is not a vertex. Here nothing can flow out of
the network at all, and it returns 3, what the last vertex takes. -/
theorem C97_push_relabel_sink_wrong :
    ¬ ∀ (fuel : Nat) (t : ITy) (ov : Int → Int → Int) (C : Lil Int) (source sink : Nat), C.WF →
      ¬ sink < C.nrows → Throws (maxflowPushRelabel fuel t ov C source sink) := by
  intro h
  obtain ⟨e, -, he⟩ := h 300 .i32 (fun _ _ => 0) ⟨3, 3, 2, [[(1, 5)], [(2, 3)], []]⟩ 0 7
    (Lil.wf_chk (by decide +kernel)) (by decide)
  have : maxflowPushRelabel 300 .i32 (fun _ _ => 0) ⟨3, 3, 2, [[(1, 5)], [(2, 3)], []]⟩ 0 7 = .ok 3 := by
    decide +kernel
  rw [this] at he
  cases he

/-- `maxflow_push_relabel` accepts a graph with more columns than rows. -/
theorem C97_push_relabel_wrong :
    ¬ ∀ (fuel : Nat) (t : ITy) (ov : Int → Int → Int) (C : Lil Int) (source sink : Nat), C.WF →
      C.nrows ≠ C.ncols → Throws (maxflowPushRelabel fuel t ov C source sink) := by
  intro h
  obtain ⟨e, -, he⟩ := h 300 .i32 (fun _ _ => 0) ⟨2, 3, 1, [[(1, 5)], []]⟩ 0 1
    (Lil.wf_chk (by decide +kernel)) (by decide)
  have : maxflowPushRelabel 300 .i32 (fun _ _ => 0) ⟨2, 3, 1, [[(1, 5)], []]⟩ 0 1 = .ok 5 := by
    decide +kernel
  rw [this] at he
  cases he

/-- `mis_appendixB6` accepts a graph that is not square if it has no edges. -/
theorem C97_mis_B6_wrong :
    ¬ ∀ (fuel : Nat) (R : MisTy Int Int Int) (G : Lil Int) (draw : Nat → Nat → Int) (iset : BVec Bool), G.WF →
      G.nrows ≠ G.ncols → Throws (misB6 fuel R G draw iset) := by
  intro h
  obtain ⟨e, -, he⟩ := h 5 Ex.misR ⟨2, 3, 0, [[], []]⟩ (fun _ v => v) ⟨2, 0, [false, false], [false, false]⟩
    (Lil.wf_chk (by decide +kernel)) (by decide)
  have : misB6 5 Ex.misR (⟨2, 3, 0, [[], []]⟩ : Lil Int) (fun _ v => v) ⟨2, 0, [false, false], [false, false]⟩
      = .ok ⟨2, 2, [true, true], [true, true]⟩ := by decide +kernel
  rw [this] at he
  cases he

/-- `triangle_count_masked(L, U)` accepts a first part that is not square. -/
theorem C97_triangle_masked_wrong :
    ¬ ∀ (t : ITy) (ov : Int → Int → Int) (L U : Lil Int), L.WF → U.WF → L.nrows ≠ L.ncols →
      Throws (triangleCountMasked t ov L U) := by
  intro h
  obtain ⟨e, -, he⟩ := h .i32 (fun _ _ => 0) ⟨2, 3, 2, [[(1, 1), (2, 1)], []]⟩ ⟨3, 3, 1, [[], [(2, 1)], []]⟩
    (Lil.wf_chk (by decide +kernel)) (Lil.wf_chk (by decide +kernel)) (by decide)
  have : triangleCountMasked .i32 (fun _ _ => 0) ⟨2, 3, 2, [[(1, 1), (2, 1)], []]⟩ ⟨3, 3, 1, [[], [(2, 1)], []]⟩
      = .ok 1 := by decide +kernel
  rw [this] at he
  cases he

/-- With nothing in the wavefronts, the traversals on matrices look at nothing else: they return
the levels they were given, of whatever shape. -/
theorem C97_bfs_level_matrix_actual {fuel : Nat} {gU : α → Nat} {G : Lil α} {W : WaveTy ω} {waves : Lil ω}
    {L : LevTy γ} {levels : Lil γ} (h : waves.nvals = 0) :
    bfsLevelM fuel gU G W waves L levels = .ok levels := by
  rw [bfsLevelM, loop_stops (by simp [h])]
  rfl

/-- The same for the masked traversals, once the graph is square and fits the wavefront. -/
theorem C97_bfs_level_masked_actual {fuel : Nat} {gIx : α → Nat} {G : Lil α} {W : WaveTy ω} {wave : BVec ω}
    {L : LevTy γ} {levels : BVec γ} (h : wave.nvals = 0) (hs : G.nrows = G.ncols ∧ wave.size = G.nrows) :
    bfsLevelMasked fuel gIx G W wave L levels = .ok levels ∧
    bfsLevelMaskedV2 fuel gIx G W wave L levels = .ok levels := by
  constructor
  · rw [bfsLevelMasked, if_neg (by omega), loop_stops (by simp [h])]; rfl
  · rw [bfsLevelMaskedV2, if_neg (by omega), loop_stops (by simp [h])]; rfl

example : bfsLevelM 3 (fun n : Nat => n) (⟨2, 3, 1, [[(2, 1)], []]⟩ : Lil Nat) ⟨fun w : Nat => w, id, fun w => w != 0⟩
    ⟨1, 4, 0, [[]]⟩ ⟨id, id, id, id, fun x : Nat => x != 0⟩ ⟨5, 1, 1, [[(0, 9)], [], [], [], []]⟩
    = .ok ⟨5, 1, 1, [[(0, 9)], [], [], [], []]⟩ := C97_bfs_level_matrix_actual rfl

example (r : BVec Int) : deltaStep 9 .i32 (fun _ _ => 0) ⟨2, 2, 1, [[(1, 5)], []]⟩ 3 0
    ⟨3, 0, [0, 0, 0], [false, false, false]⟩ ≠ .ok r :=
  C97_delta_step_paths (Lil.wf_chk (by decide +kernel)) ⟨rfl, rfl, rfl⟩ (by decide) r

end GBTL

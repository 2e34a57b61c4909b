import Verif.Lemmas.AlgoOpt
import Verif.Props.Agree
import Verif.Props.BetweennessApp
import Verif.Props.EdgeBetweenness
/-
C83: the algorithms that call `mxm` give the same results on both CPU backends
(`Opt.f` is `f` on the `optimized_sequential` one), whatever the graph.
-/
namespace GBTL
open Spec (Outp MaskKind Accum)

variable {α β γ ω τ T : Type}

/-! ### Triangle counting -/

theorem C83_triangle_count (t : ITy) (ov : Int → Int → Int) (G : Lil Int) (hG : G.WF) :
    Opt.triangleCount t ov G = triangleCount t ov G := by
  unfold Opt.triangleCount triangleCount
  refine bind_eq _ rfl (split_ret G _ _ (Lil.new_wf _ _) (Lil.new_wf _ _)) fun ⟨L, U⟩ ⟨hL, hU⟩ => ?_
  have ho := MOut.WF.of0 (o := mPlain (id : Int → Int) (Lil.new G.nrows G.ncols)) (Lil.new_wf _ _) rfl
  exact bind_eq Lil.WF (congrArg exec (Opt.mxm_eq (o := mPlain id (Lil.new G.nrows G.ncols)) (A := .plain (.obj L))
    (B := .plain (.obj U)) rfl rfl ho hL hU .plain)) (mxm_ret ho hL hU) fun _ _ => rfl

theorem byL_wf2 {B L : Lil Int} (hB : B.WF) (hL : L.WF) : (byL B L).WF := .of1 hB rfl hL

theorem C83_triangle_count_masked (t : ITy) (ov : Int → Int → Int) (L U : Lil Int) (hL : L.WF) (hU : U.WF) :
    Opt.triangleCountMasked t ov L U = triangleCountMasked t ov L U := by
  unfold Opt.triangleCountMasked triangleCountMasked
  have ho := byL_wf2 (Lil.new_wf L.nrows L.ncols) hL
  exact bind_eq Lil.WF (congrArg exec (Opt.mxm_eq (o := byL (Lil.new L.nrows L.ncols) L) (A := .plain (.obj L))
    (B := .plain (.obj U)) rfl rfl ho hL hU .plain)) (mxm_ret ho hL hU) fun _ _ => rfl

theorem C83_triangle_count_masked_T (t : ITy) (ov : Int → Int → Int) (L : Lil Int) (hL : L.WF) :
    Opt.triangleCountMaskedT t ov L = triangleCountMaskedT t ov L := by
  unfold Opt.triangleCountMaskedT triangleCountMaskedT
  have ho := byL_wf2 (Lil.new_wf L.nrows L.ncols) hL
  exact bind_eq Lil.WF (congrArg exec (Opt.mxm_eq (o := byL (Lil.new L.nrows L.ncols) L) (A := .plain (.obj L))
    (B := .tr (.obj L)) rfl rfl ho hL hL (.masked (by intro h; cases h)))) (mxm_ret ho hL hL) fun _ _ => rfl

theorem C83_triangle_count_masked_noT (t : ITy) (ov : Int → Int → Int) (L : Lil Int) (hL : L.WF) :
    Opt.triangleCountMaskedNoT t ov L = triangleCountMaskedNoT t ov L := by
  unfold Opt.triangleCountMaskedNoT triangleCountMaskedNoT
  have ho := byL_wf2 (Lil.new_wf L.nrows L.ncols) hL
  exact bind_eq Lil.WF (congrArg exec (Opt.mxm_eq (o := byL (Lil.new L.nrows L.ncols) L) (A := .plain (.obj L))
    (B := .plain (.obj L)) rfl rfl ho hL hL .plain)) (mxm_ret ho hL hL) fun _ _ => rfl

theorem C83_triangle_count_new (t : ITy) (ov : Int → Int → Int) (L U : Lil Int) (hL : L.WF) (hU : U.WF) :
    Opt.triangleCountNew t ov L U = triangleCountNew t ov L U := by
  unfold Opt.triangleCountNew triangleCountNew
  have ho := MOut.WF.of0 (o := mPlain (id : Int → Int) (Lil.new L.nrows L.ncols)) (Lil.new_wf _ _) rfl
  exact bind_eq Lil.WF (congrArg exec (Opt.mxm_eq (o := mPlain id (Lil.new L.nrows L.ncols)) (A := .plain (.obj L))
    (B := .plain (.obj U)) rfl rfl ho hL hU .plain)) (mxm_ret ho hL hU) fun _ _ => rfl

theorem C83_triangle_count_B7 (ov : Int → Int → Int) (L : Lil Int) (hL : L.WF) :
    Opt.triangleCountB7 ov L = triangleCountB7 ov L := by
  unfold Opt.triangleCountB7 triangleCountB7
  have ho := byL_wf2 (Lil.new_wf L.nrows L.nrows) hL
  exact bind_eq Lil.WF (congrArg exec (Opt.mxm_eq (o := byL (Lil.new L.nrows L.nrows) L) (A := .plain (.obj L))
    (B := .tr (.obj L)) rfl rfl ho hL hL (.masked (by intro h; cases h)))) (mxm_ret ho hL hL) fun _ _ => rfl

/-! ### Shortest paths -/

theorem relaxM_opt (t : ITy) (ov : Int → Int → Int) (G D : Lil Int) (hG : G.WF) (hD : D.WF) :
    Opt.relaxM t ov G D = relaxM t ov G D ∧ Ret (relaxM t ov G D) Lil.WF := by
  have ho := MOut.WF.of0 (o := minOutM t D) hD rfl
  exact ⟨congrArg exec (Opt.mxmAcc_eq (o := minOutM t D) (A := .plain .same) (B := .plain (.obj G)) rfl rfl rfl ho hD hG
    .plain), mxm_ret ho hD hG⟩

theorem C83_batch_sssp (t : ITy) (ov : Int → Int → Int) (G D : Lil Int) (hG : G.WF) (hD : D.WF) :
    Opt.batchSssp t ov G D = batchSssp t ov G D := by
  unfold Opt.batchSssp batchSssp
  split
  · rfl
  · refine bind_eq Lil.WF (forP_eq Lil.WF (fun _ s hs => (relaxM_opt t ov G s hG hs).1)
      (fun _ s hs => (relaxM_opt t ov G s hG hs).2) hD) (forP_ret Lil.WF (fun _ s hs => (relaxM_opt t ov G s hG hs).2) hD)
      fun D' hD' => ?_
    exact bind_eq Lil.WF (relaxM_opt t ov G D' hG hD').1 (relaxM_opt t ov G D' hG hD').2 fun _ _ => rfl

/-- The matrices of `apsp` are consistent. -/
def ApspSt.Fine (s : ApspSt) : Prop := s.dist.WF ∧ s.col.WF ∧ s.row.WF

theorem apspBody_opt (t : ITy) (ov : Int → Int → Int) (k : Nat) (s : ApspSt) (hs : s.Fine) :
    Opt.apspBody t ov k s = apspBody t ov k s ∧ Ret (apspBody t ov k s) ApspSt.Fine := by
  obtain ⟨h1, h2, h3⟩ := hs
  have hr := extractM_ret (o := mPlain (id : Int → Int) s.row) (A := .plain s.dist) (ri := .list [k]) (ci := .all)
    (.of0 h3 rfl) h1
  have hc := extractM_ret (o := mPlain (id : Int → Int) s.col) (A := .plain s.dist) (ri := .all) (ci := .list [k])
    (.of0 h2 rfl) h1
  have ho := MOut.WF.of0 (o := minOutM t s.dist) h1 rfl
  constructor
  · unfold Opt.apspBody apspBody
    refine bind_eq Lil.WF rfl hr fun row h3 => bind_eq Lil.WF rfl hc fun col h2 => ?_
    exact bind_eq Lil.WF (congrArg exec (Opt.mxmAcc_eq (o := minOutM t s.dist) (A := .plain (.obj col))
      (B := .plain (.obj row)) rfl rfl rfl ho h2 h3 .plain)) (mxm_ret ho h2 h3) fun _ _ => rfl
  · exact hr.bind fun row h3 => hc.bind fun col h2 =>
      (mxm_ret (A := .plain col) (B := .plain row) ho h2 h3).bind fun _ h1 => Ret.ok ⟨h1, h2, h3⟩

theorem C83_apsp (t : ITy) (ov : Int → Int → Int) (G : Lil Int) (hG : G.WF) : Opt.apsp t ov G = apsp t ov G := by
  unfold Opt.apsp apsp
  split
  · rfl
  · refine bind_eq Lil.WF rfl (scaledIdentity_ret _ _) fun D hD => ?_
    refine bind_eq Lil.WF rfl (eWiseAddM_ret (.of0 hD rfl) hD hG) fun D hD => ?_
    exact bind_eq (fun _ => True) (forP_eq ApspSt.Fine (fun k s hs => (apspBody_opt t ov k s hs).1)
      (fun k s hs => (apspBody_opt t ov k s hs).2) ⟨hD, Lil.new_wf _ _, Lil.new_wf _ _⟩) (fun _ _ => trivial) fun _ _ => rfl

/-! ### Breadth-first search -/

/-- The matrices of a level search are consistent. -/
def BatchSt.Fine (s : BatchSt γ ω) : Prop := s.waves.WF ∧ s.levels.WF

theorem batchBody_opt [Inhabited ω] (gIx : α → Nat) (G : Lil α) (hG : G.WF) (W : WaveTy ω) (L : LevTy γ) (s : BatchSt γ ω)
    (hs : s.Fine) : Opt.batchBody gIx G W L s = batchBody gIx G W L s ∧ Ret (batchBody gIx G W L s) BatchSt.Fine := by
  obtain ⟨h1, h2⟩ := hs
  have hl := applyM_ret (o := levOutM L s.levels) (f := fun x => (s.depth + 1) * W.toIx x) (A := .plain s.waves) (.of0 h2 rfl) h1
  have ho : ∀ lv : Lil γ, lv.WF → (waveOutM W.ofIx L.truthy s.waves lv).WF := fun lv h => .of1 h1 rfl h
  constructor
  · unfold Opt.batchBody batchBody
    refine bind_eq Lil.WF rfl hl fun lv h2 => ?_
    exact bind_eq Lil.WF (congrArg exec (Opt.mxm_eq (o := waveOutM W.ofIx L.truthy s.waves lv) (A := .plain .same)
      (B := .plain (.obj G)) rfl rfl (ho lv h2) h1 hG .plain)) (mxm_ret (ho lv h2) h1 hG) fun _ _ => rfl
  · exact hl.bind fun lv h2 => (mxm_ret (A := .plain s.waves) (B := .plain G) (ho lv h2) h1 hG).bind fun _ h =>
      Ret.ok ⟨h, h2⟩

theorem C83_batch_bfs_level [Inhabited ω] (fuel : Nat) (gIx : α → Nat) (G : Lil α) (W : WaveTy ω) (waves : Lil ω)
    (L : LevTy γ) (levels : Lil γ) (hG : G.WF) (hw : waves.WF) (hl : levels.WF) :
    Opt.batchBfsLevel fuel gIx G W waves L levels = batchBfsLevel fuel gIx G W waves L levels := by
  unfold Opt.batchBfsLevel batchBfsLevel
  split
  · rfl
  · exact bind_eq (fun _ => True) (loop_eq BatchSt.Fine (fun s hs => (batchBody_opt gIx G hG W L s hs).1)
      (fun s hs => (batchBody_opt gIx G hG W L s hs).2) fuel ⟨hw, hl⟩) (fun _ _ => trivial) fun _ _ => rfl

theorem cullBody_opt [Inhabited ω] (gU : α → Nat) (G : Lil α) (hG : G.WF) (W : WaveTy ω) (L : LevTy γ) (s : BatchSt γ ω)
    (hs : s.Fine) : Opt.cullBody gU G W L s = cullBody gU G W L s ∧ Ret (cullBody gU G W L s) BatchSt.Fine := by
  obtain ⟨h1, h2⟩ := hs
  have hl := applyM_ret (o := levOutM L s.levels) (f := fun x => u32 (u32 (s.depth + 1) * W.toIx x)) (A := .plain s.waves)
    (.of0 h2 rfl) h1
  have ho : (waveOutAll W.ofIx s.waves).WF := .of0 h1 rfl
  have hm := mxm_ret (sr := logicalIx W gU) (via := id) (A := .plain s.waves) (B := .plain G) ho h1 hG
  constructor
  · unfold Opt.cullBody cullBody
    refine bind_eq Lil.WF rfl hl fun lv h2 => ?_
    exact bind_eq Lil.WF (congrArg exec (Opt.mxm_eq (o := waveOutAll W.ofIx s.waves) (A := .plain .same)
      (B := .plain (.obj G)) rfl rfl ho h1 hG .plain)) hm fun _ _ => rfl
  · exact hl.bind fun lv h2 => hm.bind fun wv h1 =>
      (applyM_ret (A := .plain wv) (.of1 h1 rfl h2) h1).bind fun _ h => Ret.ok ⟨h, h2⟩

theorem C83_bfs_level_matrix [Inhabited ω] (fuel : Nat) (gU : α → Nat) (G : Lil α) (W : WaveTy ω) (waves : Lil ω)
    (L : LevTy γ) (levels : Lil γ) (hG : G.WF) (hw : waves.WF) (hl : levels.WF) :
    Opt.bfsLevelM fuel gU G W waves L levels = bfsLevelM fuel gU G W waves L levels :=
  bind_eq (fun _ => True) (loop_eq BatchSt.Fine (fun s hs => (cullBody_opt gU G hG W L s hs).1)
    (fun s hs => (cullBody_opt gU G hG W L s hs).2) fuel ⟨hw, hl⟩) (fun _ _ => trivial) fun _ _ => rfl

/-- The matrices of a parent search are consistent. -/
def ParStM.Fine (s : ParStM) : Prop := s.waves.WF ∧ s.parents.WF

theorem bfsBatchBody_opt (t w : ITy) (ov : Int → Int → Int) (G ramp : Lil Int) (hG : G.WF) (hr : ramp.WF) (s : ParStM)
    (hs : s.Fine) : Opt.bfsBatchBody t w ov G ramp s = bfsBatchBody t w ov G ramp s ∧
      Ret (bfsBatchBody t w ov G ramp s) ParStM.Fine := by
  obtain ⟨h1, h2⟩ := hs
  have ho : (mPlain w.conv s.waves).WF := .of0 h1 rfl
  have hm := mxm_ret (sr := minSecondT t) (via := id) (A := .plain s.waves) (B := .plain ramp) ho h1 hr
  have ho' : ∀ wv : Lil Int, wv.WF → (waveOutPM w wv s.parents).WF := fun wv h => .of1 h rfl h2
  have hm' : ∀ wv : Lil Int, wv.WF → Ret (exec (mxm (waveOutPM w wv s.parents) (minFirstT t) id (.plain wv) (.plain G))) Lil.WF :=
    fun wv h => mxm_ret (ho' wv h) h hG
  constructor
  · unfold Opt.bfsBatchBody bfsBatchBody
    refine bind_eq Lil.WF (congrArg exec (Opt.mxm_eq (o := mPlain w.conv s.waves) (A := .plain .same)
      (B := .plain (.obj ramp)) rfl rfl ho h1 hr .plain)) hm fun wv h => ?_
    exact bind_eq Lil.WF (congrArg exec (Opt.mxm_eq (o := waveOutPM w wv s.parents) (A := .plain .same)
      (B := .plain (.obj G)) rfl rfl (ho' wv h) h hG .plain)) (hm' wv h) fun _ _ => rfl
  · exact hm.bind fun wv h => (hm' wv h).bind fun wv h =>
      (applyM_ret (A := .plain wv) (.of0 h2 rfl) h).bind fun _ h2 => Ret.ok ⟨h, h2⟩

theorem C83_bfs_batch (fuel : Nat) (t w : ITy) (ov : Int → Int → Int) (G waves parents : Lil Int) (hG : G.WF)
    (hw : waves.WF) (hp : parents.WF) :
    Opt.bfsBatch fuel t w ov G waves parents = bfsBatch fuel t w ov G waves parents := by
  unfold Opt.bfsBatch bfsBatch
  refine bind_eq Lil.WF rfl (forP_ret Lil.WF (fun i r h => setElement_ret r i i _ h) (Lil.new_wf _ _)) fun ramp hr => ?_
  have ho : (mPlain (ITy.conv .u64) parents).WF := .of0 hp rfl
  refine bind_eq Lil.WF (congrArg exec (Opt.mxm_eq (o := mPlain (ITy.conv .u64) parents) (A := .plain (.obj waves))
    (B := .plain (.obj ramp)) rfl rfl ho hw hr .plain)) (mxm_ret ho hw hr) fun ps hp => ?_
  exact bind_eq (fun _ => True) (loop_eq ParStM.Fine (fun s hs => (bfsBatchBody_opt t w ov G ramp hG hr s hs).1)
    (fun s hs => (bfsBatchBody_opt t w ov G ramp hG hr s hs).2) fuel ⟨hw, hp⟩) (fun _ _ => trivial) fun _ _ => rfl

/-! ### Trusses -/

/-- The matrices of `k_truss2` are consistent. -/
def TrussSt.Fine (s : TrussSt) : Prop := s.A.WF ∧ s.mask.WF ∧ s.support.WF

theorem trussBody_opt (t : ITy) (ov : Int → Int → Int) (k : Nat) (s : TrussSt) (hs : s.Fine) :
    Opt.trussBody t ov k s = trussBody t ov k s ∧ Ret (trussBody t ov k s) TrussSt.Fine := by
  obtain ⟨h1, h2, h3⟩ := hs
  have ho : (supportOut s).WF := .of1 h3 rfl h1
  have hm := mxm_ret (sr := arithT t ov) (via := id) (A := .tr s.A) (B := .plain s.A) ho h1 h1
  constructor
  · unfold Opt.trussBody trussBody
    exact bind_eq Lil.WF (congrArg exec (Opt.mxm_eq (o := supportOut s) (A := .tr (.obj s.A))
      (B := .plain (.obj s.A)) rfl rfl ho h1 h1 .plain)) hm fun _ _ => rfl
  · exact hm.bind fun S h3 => (applyM_ret (A := .plain S) (.of0 h2 rfl) h3).bind fun M h2 =>
      (applyM_ret (A := .plain s.A) (.of1 h1 rfl h2) h1).bind fun _ h1 => Ret.ok ⟨h1, h2, h3⟩

theorem C83_k_truss2 (t : ITy) (ov : Int → Int → Int) (fuel : Nat) (A : Lil Int) (k : Nat) (hA : A.WF) :
    Opt.kTruss2 t ov fuel A k = kTruss2 t ov fuel A k := by
  have h0 := trussBody_opt t ov k ⟨A, Lil.new A.ncols A.ncols, Lil.new A.ncols A.ncols, 0, A.nvals⟩
    ⟨hA, Lil.new_wf _ _, Lil.new_wf _ _⟩
  refine bind_eq TrussSt.Fine h0.1 h0.2 fun s hs => ?_
  exact bind_eq (fun _ => True) (loop_eq TrussSt.Fine (fun s hs => (trussBody_opt t ov k s hs).1)
    (fun s hs => (trussBody_opt t ov k s hs).2) fuel hs) (fun _ _ => trivial) fun _ _ => rfl

theorem findEdges_ret (t : ITy) (test : Int → Bool) (m : Nat) (s : BVec Int) (hs : s.WF) :
    Ret (findEdges t test m s) BVec.WF :=
  (BVec.new_ret m).bind fun _ hx => (applyV_ret (.of0 hx rfl) hs).bind fun _ hx => applyV_ret (.of1 hx rfl hx) hx

theorem supports_ret (t : ITy) (ov : Int → Int → Int) (m : Nat) (R : Lil Int) (ones : BVec Int) (hR : R.WF)
    (ho : ones.WF) : Ret (supports t ov m R ones) BVec.WF :=
  (BVec.new_ret m).bind fun _ hx => mxv_ret (A := .plain R) (.of0 hx rfl) hR ho

/-- The containers of `k_truss` are consistent. -/
def TrussInc.Fine (q : TrussInc) : Prop := q.E.WF ∧ q.R.WF ∧ q.s.WF ∧ q.x.WF

theorem trussIncBody_opt (t : ITy) (ov : Int → Int → Int) (n k : Nat) (D : Lil Bool) (ones : BVec Int) (hD : D.WF)
    (h1 : ones.WF) (q : TrussInc) (hq : q.Fine) :
    Opt.trussIncBody t ov n k D ones q = trussIncBody t ov n k D ones q ∧
      Ret (trussIncBody t ov n k D ones q) TrussInc.Fine := by
  obtain ⟨hE, hR, hs, hx⟩ := hq
  have ext : ∀ (X : Lil Int) (m : Nat) (is : List Nat), X.WF →
      Ret (exec (extractM (plainReplace (Lil.new m n)) (.plain X) (.list is) .all)) Lil.WF :=
    fun X m is h => extractM_ret (.of0 (Lil.new_wf _ _) rfl) h
  have ho : (offDiag (Lil.new n n) D).WF := .of1 (Lil.new_wf _ _) rfl hD
  have hm : ∀ X : Lil Int, X.WF →
      Ret (exec (mxm (offDiag (Lil.new n n) D) (arithT t ov) id (.tr X) (.plain X))) Lil.WF := fun X h => mxm_ret ho h h
  have ho' : ∀ R : Lil Int, R.WF → (minusOut t ov R).WF := fun R h => .of0 h rfl
  have hm' : ∀ R E P : Lil Int, R.WF → E.WF → P.WF →
      Ret (exec (mxm (minusOut t ov R) (arithT t ov) id (.plain E) (.plain P))) Lil.WF :=
    fun R E P h h1 h2 => mxm_ret (ho' R h) h1 h2
  constructor
  · unfold Opt.trussIncBody trussIncBody
    refine bind_eq (fun _ => True) rfl (fun _ _ => trivial) fun xs _ => ?_
    refine bind_eq (fun _ => True) rfl (fun _ _ => trivial) fun xc _ => ?_
    refine bind_eq (fun _ => True) rfl (fun _ _ => trivial) fun xcs _ => ?_
    refine bind_eq Lil.WF rfl (ext _ _ _ hE) fun Ex hEx => ?_
    refine bind_eq Lil.WF rfl (ext _ _ _ hE) fun E hE => ?_
    split
    · rfl
    · refine bind_eq Lil.WF rfl (ext _ _ _ hR) fun R hR => ?_
      refine bind_eq Lil.WF (congrArg exec (Opt.mxm_eq (o := offDiag (Lil.new n n) D) (A := .tr (.obj Ex))
        (B := .plain (.obj Ex)) rfl rfl ho hEx hEx .plain)) (hm Ex hEx) fun P hP => ?_
      exact bind_eq Lil.WF (congrArg exec (Opt.mxmAcc_eq (o := minusOut t ov R) (A := .plain (.obj E))
        (B := .plain (.obj P)) rfl rfl rfl (ho' R hR) hE hP .plain)) (hm' R E P hR hE hP) fun _ _ => rfl
  · unfold trussIncBody
    refine Ret.bind (P := fun _ => True) (fun _ _ => trivial) fun xs _ => ?_
    refine Ret.bind (P := fun _ => True) (fun _ _ => trivial) fun xc _ => ?_
    refine Ret.bind (P := fun _ => True) (fun _ _ => trivial) fun xcs _ => ?_
    refine (ext _ _ _ hE).bind fun Ex hEx => (ext _ _ _ hE).bind fun E hE => ?_
    split
    · exact Ret.ok ⟨hE, hR, hs, hx⟩
    · exact (ext _ _ _ hR).bind fun R hR => (hm Ex hEx).bind fun P hP => (hm' R E P hR hE hP).bind fun R hR =>
        (supports_ret t ov _ R ones hR h1).bind fun s hs => (findEdges_ret t _ _ s hs).bind fun x hx =>
        Ret.ok ⟨hE, hR, hs, hx⟩

theorem diagMask_ret (n : Nat) : Ret (diagMask n) Lil.WF :=
  forP_ret Lil.WF (fun i r h => setElement_ret r i i _ h) (Lil.new_wf _ _)

theorem C83_k_truss (fuel : Nat) (t : ITy) (ov : Int → Int → Int) (E : Lil Int) (k : Nat) (hE : E.WF) :
    Opt.kTruss fuel t ov E k = kTruss fuel t ov E k := by
  unfold Opt.kTruss kTruss
  refine bind_eq Lil.WF rfl (diagMask_ret _) fun D hD => ?_
  have ho : (offDiag (Lil.new E.ncols E.ncols) D).WF := .of1 (Lil.new_wf _ _) rfl hD
  refine bind_eq Lil.WF (congrArg exec (Opt.mxm_eq (o := offDiag (Lil.new E.ncols E.ncols) D) (A := .tr (.obj E))
    (B := .plain (.obj E)) rfl rfl ho hE hE .plain)) (mxm_ret ho hE hE) fun A hA => ?_
  have ho : (mPlain (id : Int → Int) (Lil.new E.nrows E.ncols)).WF := .of0 (Lil.new_wf _ _) rfl
  refine bind_eq Lil.WF (congrArg exec (Opt.mxm_eq (o := mPlain id (Lil.new E.nrows E.ncols)) (A := .plain (.obj E))
    (B := .plain (.obj A)) rfl rfl ho hE hA .plain)) (mxm_ret ho hE hA) fun R hR => ?_
  refine bind_eq BVec.WF rfl (BVec.new_ret _) fun ones h1 => ?_
  refine bind_eq BVec.WF rfl (assignConstV_ret (.of0 h1 rfl) List.pairwise_lt_range) fun ones h1 => ?_
  refine bind_eq BVec.WF rfl (supports_ret t ov _ R ones hR h1) fun s hs => ?_
  refine bind_eq BVec.WF rfl (findEdges_ret t _ _ s hs) fun x hx => ?_
  exact bind_eq (fun _ => True) (loop_eq TrussInc.Fine (fun q hq => (trussIncBody_opt t ov _ k D ones hD h1 q hq).1)
    (fun q hq => (trussIncBody_opt t ov _ k D ones hD h1 q hq).2) fuel ⟨hE, hR, hs, hx⟩) (fun _ _ => trivial) fun _ _ => rfl

/-! ### Normalisation and clustering -/

theorem C83_normalize_rows [Inhabited T] (o : NormOps T) (A : Lil T) (hA : A.WF) :
    Opt.normalizeRows o A = normalizeRows o A ∧ Ret (normalizeRows o A) Lil.WF := by
  have ho : (mPlain (id : T → T) A).WF := .of0 hA rfl
  constructor
  · unfold Opt.normalizeRows normalizeRows
    refine bind_eq (fun _ => True) rfl (fun _ _ => trivial) fun w _ => ?_
    refine bind_eq (fun _ => True) rfl (fun _ _ => trivial) fun w _ => ?_
    refine bind_eq (fun _ => True) rfl (fun _ _ => trivial) fun w _ => ?_
    refine bind_eq Lil.WF rfl (diag_ret id w) fun D hD => ?_
    exact congrArg exec (Opt.mxm_eq (o := mPlain id A) (A := .plain (.obj D)) (B := .plain .same) rfl rfl ho hD hA .plain)
  · unfold normalizeRows
    refine Ret.bind (P := fun _ => True) (fun _ _ => trivial) fun w _ => ?_
    refine Ret.bind (P := fun _ => True) (fun _ _ => trivial) fun w _ => ?_
    refine Ret.bind (P := fun _ => True) (fun _ _ => trivial) fun w _ => ?_
    exact (diag_ret id w).bind fun D hD => mxm_ret ho hD hA

theorem C83_normalize_cols [Inhabited T] (o : NormOps T) (A : Lil T) (hA : A.WF) :
    Opt.normalizeCols o A = normalizeCols o A ∧ Ret (normalizeCols o A) Lil.WF := by
  have ho : (mPlain (id : T → T) A).WF := .of0 hA rfl
  constructor
  · unfold Opt.normalizeCols normalizeCols
    refine bind_eq (fun _ => True) rfl (fun _ _ => trivial) fun w _ => ?_
    refine bind_eq (fun _ => True) rfl (fun _ _ => trivial) fun w _ => ?_
    refine bind_eq (fun _ => True) rfl (fun _ _ => trivial) fun w _ => ?_
    refine bind_eq Lil.WF rfl (diag_ret id w) fun D hD => ?_
    exact congrArg exec (Opt.mxm_eq (o := mPlain id A) (A := .plain .same) (B := .plain (.obj D)) rfl rfl ho hA hD .plain)
  · unfold normalizeCols
    refine Ret.bind (P := fun _ => True) (fun _ _ => trivial) fun w _ => ?_
    refine Ret.bind (P := fun _ => True) (fun _ _ => trivial) fun w _ => ?_
    refine Ret.bind (P := fun _ => True) (fun _ _ => trivial) fun w _ => ?_
    exact (diag_ret id w).bind fun D hD => mxm_ret ho hA hD

/-- The containers of the peer-pressure loop are consistent. -/
def PpSt.Fine (q : PpSt) : Prop := q.C.WF ∧ q.m.WF ∧ q.Cf.WF ∧ q.Tally.WF

theorem ppColMax_opt (m : BVec Rat) (Cf : Lil Bool) (Tally : Lil Rat) (hm : m.WF) (hC : Cf.WF) (hT : Tally.WF) :
    Opt.ppColMax m Cf Tally = ppColMax m Cf Tally ∧ Ret (ppColMax m Cf Tally) fun q => q.1.WF ∧ q.2.WF := by
  have hr := reduceMV_ret (o := vPlain (id : Rat → Rat) m) (r := .of ratMax id) (A := .tr Tally) (.of0 hm rfl) hT
    (fun _ _ => rfl)
  have ho : (mPlain (id : Bool → Bool) Cf).WF := .of0 hC rfl
  constructor
  · refine bind_eq BVec.WF rfl hr fun m hm => bind_eq Lil.WF rfl (diag_ret id m) fun D hD => ?_
    exact bind_eq (fun _ => True) (congrArg exec (Opt.mxm_eq (o := mPlain id Cf) (A := .plain (.obj Tally))
      (B := .plain (.obj D)) rfl rfl ho hT hD .plain)) (fun _ _ => trivial) fun _ _ => rfl
  · exact hr.bind fun m hm => (diag_ret id m).bind fun D hD =>
      (mxm_ret (A := .plain Tally) (B := .plain D) ho hT hD).bind fun _ h => Ret.ok ⟨hm, h⟩

theorem ppBody_opt [Inhabited α] (conv : α → Rat) (A : Lil α) (N : Lil Nat) (hA : A.WF) (hN : N.WF) (q : PpSt) (hq : q.Fine) :
    Opt.ppBody conv A N q = ppBody conv A N q ∧ Ret (ppBody conv A N q) PpSt.Fine := by
  obtain ⟨h1, h2, h3, h4⟩ := hq
  have ho : (mPlain (id : Rat → Rat) q.Tally).WF := .of0 h4 rfl
  have ho' : ∀ (T : Lil Rat) (Cf : Lil Bool), T.WF → Cf.WF → (mMasked T .plain id Cf).WF := fun T Cf h h' => .of1 h rfl h'
  constructor
  · unfold Opt.ppBody ppBody
    refine bind_eq Lil.WF (congrArg exec (Opt.mxm_eq (o := mPlain id q.Tally) (A := .plain (.obj q.C))
      (B := .plain (.obj A)) rfl rfl ho h1 hA .plain)) (mxm_ret ho h1 hA) fun T hT => ?_
    refine bind_eq _ (ppColMax_opt q.m q.Cf T h2 h3 hT).1 (ppColMax_opt q.m q.Cf T h2 h3 hT).2 fun ⟨m, Cf⟩ ⟨hm, hC⟩ => ?_
    refine bind_eq Lil.WF (congrArg exec (Opt.mxm_eq (o := mMasked T .plain id Cf) (A := .plain (.obj N))
      (B := .plain (.obj Cf)) rfl rfl (ho' T Cf hT hC) hN hC .plain)) (mxm_ret (ho' T Cf hT hC) hN hC) fun T hT => ?_
    exact bind_eq (fun _ => True) (ppColMax_opt m Cf T hm hC hT).1 (fun _ _ => trivial) fun _ _ => rfl
  · unfold ppBody
    refine (mxm_ret (A := .plain q.C) (B := .plain A) ho h1 hA).bind fun T hT => ?_
    refine (ppColMax_opt q.m q.Cf T h2 h3 hT).2.bind fun ⟨m, Cf⟩ ⟨hm, hC⟩ => ?_
    refine (mxm_ret (A := .plain N) (B := .plain Cf) (ho' T Cf hT hC) hN hC).bind fun T hT => ?_
    refine (ppColMax_opt m Cf T hm hC hT).2.bind fun ⟨m, Cf⟩ ⟨hm, hC⟩ => ?_
    refine (applyM_ret (A := .plain Cf) (.of1 hC rfl hC) hC).bind fun Cf hC => ?_
    split
    · exact Ret.ok ⟨h1, hm, hC, hT⟩
    · exact Ret.ok ⟨hC, hm, hC, hT⟩

theorem ppLoop_opt [Inhabited α] (conv : α → Rat) (A : Lil α) (N : Lil Nat) (n : Nat) (C : Lil Bool) (maxIters : Nat)
    (hA : A.WF) (hN : N.WF) (hC : C.WF) : Opt.ppLoop conv A N n C maxIters = ppLoop conv A N n C maxIters := by
  refine bind_eq BVec.WF rfl (BVec.new_ret _) fun m hm => ?_
  refine bind_eq (fun _ => True) (forP_eq PpSt.Fine (fun _ q hq => ?_) (fun _ q hq => ?_)
    ⟨hC, hm, Lil.new_wf _ _, Lil.new_wf _ _⟩) (fun _ _ => trivial) fun _ _ => rfl
  · split
    · rfl
    · exact (ppBody_opt conv A N hA hN q hq).1
  · split
    · exact Ret.ok hq
    · exact (ppBody_opt conv A N hA hN q hq).2

theorem clusterNum_ret (n : Nat) : Ret (clusterNum n) Lil.WF :=
  forP_ret Lil.WF (fun i r h => setElement_ret r i i _ h) (Lil.new_wf _ _)

theorem C83_peer_pressure (conv : α → Rat) (G : Lil α) (C : Lil Bool) (maxIters : Nat) (hG : G.WF) (hC : C.WF) :
    Opt.peerPressure conv G C maxIters = peerPressure conv G C maxIters := by
  unfold Opt.peerPressure peerPressure
  split
  · rfl
  · split
    · rfl
    · refine bind_eq Lil.WF rfl (clusterNum_ret _) fun N hN => ?_
      refine bind_eq Lil.WF rfl (applyM_ret (.of0 (Lil.new_wf _ _) rfl) hG) fun A hA => ?_
      refine bind_eq Lil.WF (C83_normalize_rows .rat A hA).1 (C83_normalize_rows .rat A hA).2 fun A hA => ?_
      exact ppLoop_opt id A N _ C maxIters hA hN hC

theorem C83_peer_pressure_id (conv : α → Rat) (G : Lil α) (maxIters : Nat) (hG : G.WF) :
    Opt.peerPressureId conv G maxIters = peerPressureId conv G maxIters :=
  bind_eq Lil.WF rfl (scaledIdentity_ret _ _) fun C hC => C83_peer_pressure conv G C maxIters hG hC

theorem C83_peer_pressure_v2 [Inhabited α] (conv : α → Rat) (G : Lil α) (C : Lil Bool) (maxIters : Nat) (hG : G.WF)
    (hC : C.WF) : Opt.peerPressureV2 conv G C maxIters = peerPressureV2 conv G C maxIters := by
  unfold Opt.peerPressureV2 peerPressureV2
  split
  · rfl
  · split
    · rfl
    · refine bind_eq Lil.WF rfl (clusterNum_ret _) fun N hN => ?_
      refine bind_eq Lil.WF rfl (applyM_ret (.of0 (Lil.new_wf _ _) rfl) hG) fun A hA => ?_
      exact ppLoop_opt conv A N _ C maxIters hA hN hC

theorem mclExpand_opt (e : Nat) (A : Lil Rat) (hA : A.WF) :
    Opt.mclExpand e A = mclExpand e A ∧ Ret (mclExpand e A) Lil.WF := by
  have ho : ∀ P : Lil Rat, P.WF → (mMasked P .plain (fun x => x != 0) P).WF := fun P h => .of1 h rfl h
  constructor
  · exact forP_eq Lil.WF (fun _ P hP => congrArg exec (Opt.mxm_eq (o := mMasked P .plain (fun x => x != 0) P)
      (A := .plain .same) (B := .plain (.obj A)) rfl rfl (ho P hP) hP hA .plain))
      (fun _ P hP => mxm_ret (A := .plain P) (B := .plain A) (ho P hP) hP hA) hA
  · exact forP_ret Lil.WF (fun _ P hP => mxm_ret (A := .plain P) (B := .plain A) (ho P hP) hP hA) hA

theorem mclInflate_opt (r : Nat) (P : Lil Rat) (hP : P.WF) :
    Opt.mclInflate r P = mclInflate r P ∧ Ret (mclInflate r P) Lil.WF := by
  have h : Ret (forP (ixPred r) P fun _ I => exec (eWiseMultM (mMasked I .plain (fun x => x != 0) I)
      ⟨(· * ·), id, id, id, (· * ·), id⟩ (.plain I) (.plain P))) Lil.WF :=
    forP_ret Lil.WF (fun _ I hI => eWiseMultM_ret (A := .plain I) (B := .plain P) (.of1 hI rfl hI) hI hP) hP
  exact ⟨bind_eq Lil.WF rfl h fun I hI => (C83_normalize_cols .rat I hI).1,
    h.bind fun I hI => (C83_normalize_cols .rat I hI).2⟩

theorem mclBody_opt (n e r : Nat) (threshold : Rat) (q : MclSt) (hq : q.A.WF) :
    Opt.mclBody n e r threshold q = mclBody n e r threshold q ∧ Ret (mclBody n e r threshold q) fun q => q.A.WF := by
  have h1 := mclExpand_opt e q.A hq
  constructor
  · refine bind_eq Lil.WF h1.1 h1.2 fun P hP => ?_
    exact bind_eq (fun _ => True) (mclInflate_opt r P hP).1 (fun _ _ => trivial) fun _ _ => rfl
  · unfold mclBody
    refine h1.2.bind fun P hP => (mclInflate_opt r P hP).2.bind fun I hI => ?_
    refine Ret.bind (P := fun _ => True) (fun _ _ => trivial) fun _ _ => ?_
    refine Ret.bind (P := fun _ => True) (fun _ _ => trivial) fun _ _ => ?_
    exact Ret.bind (P := fun _ => True) (fun _ _ => trivial) fun _ _ => Ret.ok hI

theorem C83_markov_cluster (conv : α → Rat) (G : Lil α) (e r : Nat) (threshold : Rat) (maxIters : Nat) (hG : G.WF) :
    Opt.markovCluster conv G e r threshold maxIters = markovCluster conv G e r threshold maxIters := by
  unfold Opt.markovCluster markovCluster
  split
  · rfl
  · refine bind_eq Lil.WF rfl (applyM_ret (.of0 (Lil.new_wf _ _) rfl) hG) fun A hA => ?_
    refine bind_eq Lil.WF (C83_normalize_cols .rat A hA).1 (C83_normalize_cols .rat A hA).2 fun A hA => ?_
    refine bind_eq (fun _ => True) (forP_eq (fun q => q.A.WF) (fun _ q hq => ?_) (fun _ q hq => ?_) hA)
      (fun _ _ => trivial) fun _ _ => rfl
    · split
      · rfl
      · exact (mclBody_opt _ e r threshold q hq).1
    · split
      · exact Ret.ok hq
      · exact (mclBody_opt _ e r threshold q hq).2

/-! ### Betweenness centrality -/

/-- The matrices of the breadth-first phase are consistent. -/
def BcSt.Fine (q : BcSt) : Prop := q.F.WF ∧ q.P.WF ∧ ∀ S ∈ q.S, S.WF

theorem fine_snoc {S : List (Lil τ)} {X : Lil τ} (h : ∀ S' ∈ S, S'.WF) (hX : X.WF) : ∀ S' ∈ S ++ [X], S'.WF := by
  intro S' h'
  rcases List.mem_append.1 h' with h' | h'
  · exact h _ h'
  · rw [List.mem_singleton.1 h']; exact hX

theorem bcSigma_ret (r c : Nat) (F : Lil Int) (hF : F.WF) : Ret (bcSigma r c F) Lil.WF :=
  applyM_ret (A := .plain F) (.of0 (Lil.new_wf _ _) rfl) hF

theorem bcCount_ret (ov : Int → Int → Int) (P F : Lil Int) (hP : P.WF) (hF : F.WF) : Ret (bcCount ov P F) Lil.WF :=
  eWiseAddM_ret (A := .plain P) (B := .plain F) (.of0 hP rfl) hP hF

theorem bcInv_ret (r c : Nat) (outp : Outp) (P : Lil Int) (hP : P.WF) : Ret (bcInv r c outp P) Lil.WF :=
  applyM_ret (A := .plain P) (.of0 (Lil.new_wf _ _) rfl) hP

theorem bcOnes_ret (r c : Nat) (outp : Outp) : Ret (bcOnes r c outp) Lil.WF :=
  assignConstM_ret (.of0 (Lil.new_wf _ _) rfl)

theorem bcScale_ret (W : Lil Rat) (S : Lil Bool) (inv U : Lil Rat) (hW : W.WF) (hS : S.WF) (hi : inv.WF) (hU : U.WF) :
    Ret (bcScale W S inv U) Lil.WF := eWiseMultM_ret (A := .plain inv) (B := .plain U) (.of1 hW rfl hS) hi hU

theorem bcAdd_ret (U W : Lil Rat) (P : Lil Int) (hU : U.WF) (hW : W.WF) (hP : P.WF) : Ret (bcAdd U W P) Lil.WF :=
  eWiseMultM_ret (A := .plain W) (B := .plain P) (.of0 hU rfl) hW hP

theorem sigmaAt_ret {S : List (Lil τ)} (h : ∀ S' ∈ S, S'.WF) (i : Nat) : Ret (sigmaAt S i) Lil.WF := by
  unfold sigmaAt
  split
  · rename_i x e; exact Ret.ok (h _ (List.mem_of_getElem? e))
  · exact Ret.error

theorem bcBuild_ret (r c : Nat) (is js : List Nat) : Ret (bcBuild r c is js) Lil.WF :=
  buildArrays_ret _ _ _ _ _ (Lil.new_wf _ _)

theorem bcBack_opt {mul mul' : Lil Rat → Lil Bool → Prog (Lil Rat)}
    (hm : ∀ W S, W.WF → S.WF → mul W S = mul' W S ∧ Ret (mul' W S) Lil.WF) (S : List (Lil Bool)) (inv : Lil Rat)
    (P : Lil Int) (U W : Lil Rat) (hS : ∀ S' ∈ S, S'.WF) (hi : inv.WF) (hP : P.WF) (hU : U.WF) (hW : W.WF) :
    bcBack mul S inv P U W = bcBack mul' S inv P U W := by
  refine bind_eq (fun _ => True) (forP_eq (fun q => q.1.WF ∧ q.2.WF) (fun j q hq => ?_) (fun j q hq => ?_) ⟨hU, hW⟩)
    (fun _ _ => trivial) fun _ _ => rfl
  · refine bind_eq Lil.WF rfl (sigmaAt_ret hS _) fun S1 h1 => ?_
    refine bind_eq Lil.WF rfl (bcScale_ret _ _ _ _ hq.2 h1 hi hq.1) fun W hW => ?_
    refine bind_eq Lil.WF rfl (sigmaAt_ret hS _) fun S0 h0 => ?_
    exact bind_eq (fun _ => True) (hm W S0 hW h0).1 (fun _ _ => trivial) fun _ _ => rfl
  · refine (sigmaAt_ret hS _).bind fun S1 h1 => (bcScale_ret _ _ _ _ hq.2 h1 hi hq.1).bind fun W hW => ?_
    exact (sigmaAt_ret hS _).bind fun S0 h0 => (hm W S0 hW h0).2.bind fun W hW =>
      (bcAdd_ret _ _ _ hq.1 hW hP).bind fun U hU => Ret.ok ⟨hU, hW⟩

section
variable [Inhabited α] (ov : Int → Int → Int) (gI : α → Int) (gF : α → Rat) (A : Lil α) (hA : A.WF)
include hA

theorem frontAF_opt (F P : Lil Int) (hF : F.WF) (hP : P.WF) :
    exec (Opt.mxm (mMasked F .comp nonzero P) (pathsAF ov gI) id (.tr (.obj A)) (.plain .same))
      = exec (mxm (mMasked F .comp nonzero P) (pathsAF ov gI) id (.tr A) (.plain F)) ∧
    Ret (exec (mxm (mMasked F .comp nonzero P) (pathsAF ov gI) id (.tr A) (.plain F))) Lil.WF := by
  have ho : (mMasked F .comp nonzero P).WF := .of1 hF rfl hP
  exact ⟨congrArg exec (Opt.mxm_eq (o := mMasked F .comp nonzero P) (A := .tr (.obj A)) (B := .plain .same) rfl rfl ho hA
    hF .plain), mxm_ret (A := .tr A) (B := .plain F) ho hA hF⟩

theorem frontFA_opt (F P : Lil Int) (hF : F.WF) (hP : P.WF) :
    exec (Opt.mxm (mMasked F .comp nonzero P) (pathsFA ov gI) id (.plain .same) (.plain (.obj A)))
      = exec (mxm (mMasked F .comp nonzero P) (pathsFA ov gI) id (.plain F) (.plain A)) ∧
    Ret (exec (mxm (mMasked F .comp nonzero P) (pathsFA ov gI) id (.plain F) (.plain A))) Lil.WF := by
  have ho : (mMasked F .comp nonzero P).WF := .of1 hF rfl hP
  exact ⟨congrArg exec (Opt.mxm_eq (o := mMasked F .comp nonzero P) (A := .plain .same) (B := .plain (.obj A)) rfl rfl ho
    hF hA .plain), mxm_ret (A := .plain F) (B := .plain A) ho hF hA⟩

theorem flowAW_opt (W : Lil Rat) (S : Lil Bool) (hW : W.WF) (hS : S.WF) :
    exec (Opt.mxm (mMasked W .plain id S) (flowAW gF) id (.plain (.obj A)) (.plain .same))
      = exec (mxm (mMasked W .plain id S) (flowAW gF) id (.plain A) (.plain W)) ∧
    Ret (exec (mxm (mMasked W .plain id S) (flowAW gF) id (.plain A) (.plain W))) Lil.WF := by
  have ho : (mMasked W .plain id S).WF := .of1 hW rfl hS
  exact ⟨congrArg exec (Opt.mxm_eq (o := mMasked W .plain id S) (A := .plain (.obj A)) (B := .plain .same) rfl rfl ho hA
    hW .plain), mxm_ret (A := .plain A) (B := .plain W) ho hA hW⟩

theorem flowWA_opt (W : Lil Rat) (S : Lil Bool) (hW : W.WF) (hS : S.WF) :
    exec (Opt.mxm (mMasked W .plain id S) (flowWA gF) id (.plain .same) (.tr (.obj A)))
      = exec (mxm (mMasked W .plain id S) (flowWA gF) id (.plain W) (.tr A)) ∧
    Ret (exec (mxm (mMasked W .plain id S) (flowWA gF) id (.plain W) (.tr A))) Lil.WF := by
  have ho : (mMasked W .plain id S).WF := .of1 hW rfl hS
  exact ⟨congrArg exec (Opt.mxm_eq (o := mMasked W .plain id S) (A := .plain .same) (B := .tr (.obj A)) rfl rfl ho hW
    hA .same), mxm_ret (A := .plain W) (B := .tr A) ho hW hA⟩

theorem bcBatchBody_opt (n nsver : Nat) (q : BcSt) (hq : q.Fine) :
    Opt.bcBatchBody ov gI A n nsver q = bcBatchBody ov gI A n nsver q ∧ Ret (bcBatchBody ov gI A n nsver q) BcSt.Fine := by
  obtain ⟨h1, h2, h3⟩ := hq
  have hf := frontAF_opt ov gI A hA q.F q.P h1 h2
  exact ⟨bind_eq (fun _ => True) hf.1 (fun _ _ => trivial) fun _ _ => rfl,
    hf.2.bind fun F hF => (bcSigma_ret _ _ F hF).bind fun S hS => (bcCount_ret ov _ F h2 hF).bind fun P hP =>
      Ret.ok ⟨hF, hP, fine_snoc h3 hS⟩⟩

theorem bcAltBody_opt (n nsver : Nat) (q : BcSt) (hq : q.Fine) :
    Opt.bcAltBody ov gI A n nsver q = bcAltBody ov gI A n nsver q ∧ Ret (bcAltBody ov gI A n nsver q) BcSt.Fine := by
  obtain ⟨h1, h2, h3⟩ := hq
  constructor
  · refine bind_eq (fun _ => True) rfl (fun _ _ => trivial) fun _ _ => ?_
    refine bind_eq Lil.WF rfl (bcCount_ret ov _ _ h2 h1) fun P hP => ?_
    exact bind_eq (fun _ => True) (frontAF_opt ov gI A hA q.F P h1 hP).1 (fun _ _ => trivial) fun _ _ => rfl
  · exact (bcSigma_ret _ _ _ h1).bind fun S hS => (bcCount_ret ov _ _ h2 h1).bind fun P hP =>
      (frontAF_opt ov gI A hA q.F P h1 hP).2.bind fun F hF => Ret.ok ⟨hF, hP, fine_snoc h3 hS⟩

theorem bcTransBody_opt (n nsver : Nat) (q : BcSt) (hq : q.Fine) :
    Opt.bcTransBody ov gI A n nsver q = bcTransBody ov gI A n nsver q ∧ Ret (bcTransBody ov gI A n nsver q) BcSt.Fine := by
  obtain ⟨h1, h2, h3⟩ := hq
  constructor
  · refine bind_eq (fun _ => True) rfl (fun _ _ => trivial) fun _ _ => ?_
    refine bind_eq Lil.WF rfl (bcCount_ret ov _ _ h2 h1) fun P hP => ?_
    exact bind_eq (fun _ => True) (frontFA_opt ov gI A hA q.F P h1 hP).1 (fun _ _ => trivial) fun _ _ => rfl
  · exact (bcSigma_ret _ _ _ h1).bind fun S hS => (bcCount_ret ov _ _ h2 h1).bind fun P hP =>
      (frontFA_opt ov gI A hA q.F P h1 hP).2.bind fun F hF => Ret.ok ⟨hF, hP, fine_snoc h3 hS⟩

theorem C83_bc_batch (fuel : Nat) (s : List Nat) : Opt.bcBatch fuel ov gI gF A s = bcBatch fuel ov gI gF A s := by
  unfold Opt.bcBatch bcBatch
  split
  · rfl
  · dsimp only
    split
    · rfl
    · refine bind_eq Lil.WF rfl (bcBuild_ret _ _ _ _) fun F hF => ?_
      have hb := bcBatchBody_opt ov gI A hA A.ncols s.length
      have h0 : BcSt.Fine { F := F, P := F, S := [] } := ⟨hF, hF, by simp⟩
      refine bind_eq BcSt.Fine (loop_eq BcSt.Fine (fun q hq => (hb q hq).1) (fun q hq => (hb q hq).2) fuel h0)
        (loop_ret BcSt.Fine (fun q hq => (hb q hq).2) fuel h0) fun q hq => ?_
      refine bind_eq Lil.WF rfl (bcInv_ret _ _ _ _ hq.2.1) fun inv hi => ?_
      refine bind_eq Lil.WF rfl (bcOnes_ret _ _ _) fun U hU => ?_
      exact bind_eq (fun _ => True) (bcBack_opt (fun W S hW hS => flowAW_opt gF A hA W S hW hS) q.S inv q.P U _ hq.2.2 hi
        hq.2.1 hU (Lil.new_wf _ _)) (fun _ _ => trivial) fun _ _ => rfl

theorem C83_bc_alt (fuel : Nat) (s : List Nat) : Opt.bcAlt fuel ov gI gF A s = bcAlt fuel ov gI gF A s := by
  unfold Opt.bcAlt bcAlt
  split
  · rfl
  · dsimp only
    split
    · rfl
    · refine bind_eq Lil.WF rfl (extractM_ret (.of0 (Lil.new_wf _ _) rfl) hA) fun F hF => ?_
      refine bind_eq Lil.WF rfl (bcBuild_ret _ _ _ _) fun P hP => ?_
      have hb := bcAltBody_opt ov gI A hA A.ncols s.length
      have h0 : BcSt.Fine { F := F, P := P, S := [] } := ⟨hF, hP, by simp⟩
      refine bind_eq BcSt.Fine (loop_eq BcSt.Fine (fun q hq => (hb q hq).1) (fun q hq => (hb q hq).2) fuel h0)
        (loop_ret BcSt.Fine (fun q hq => (hb q hq).2) fuel h0) fun q hq => ?_
      refine bind_eq Lil.WF rfl (bcInv_ret _ _ _ _ hq.2.1) fun inv hi => ?_
      refine bind_eq Lil.WF rfl (bcOnes_ret _ _ _) fun U hU => ?_
      exact bind_eq (fun _ => True) (bcBack_opt (fun W S hW hS => flowAW_opt gF A hA W S hW hS) q.S inv q.P U _ hq.2.2 hi
        hq.2.1 hU (Lil.new_wf _ _)) (fun _ _ => trivial) fun _ _ => rfl

theorem C83_bc_alt_trans (fuel : Nat) (s : List Nat) :
    Opt.bcAltTrans fuel ov gI gF A s = bcAltTrans fuel ov gI gF A s := by
  unfold Opt.bcAltTrans bcAltTrans
  split
  · rfl
  · dsimp only
    split
    · rfl
    · refine bind_eq Lil.WF rfl (extractM_ret (.of0 (Lil.new_wf _ _) rfl) hA) fun F hF => ?_
      refine bind_eq Lil.WF rfl (bcBuild_ret _ _ _ _) fun P hP => ?_
      have hb := bcTransBody_opt ov gI A hA A.ncols s.length
      have h0 : BcSt.Fine { F := F, P := P, S := [] } := ⟨hF, hP, by simp⟩
      refine bind_eq BcSt.Fine (loop_eq BcSt.Fine (fun q hq => (hb q hq).1) (fun q hq => (hb q hq).2) fuel h0)
        (loop_ret BcSt.Fine (fun q hq => (hb q hq).2) fuel h0) fun q hq => ?_
      refine bind_eq Lil.WF rfl (bcInv_ret _ _ _ _ hq.2.1) fun inv hi => ?_
      refine bind_eq Lil.WF rfl (bcOnes_ret _ _ _) fun U hU => ?_
      exact bind_eq (fun _ => True) (bcBack_opt (fun W S hW hS => flowWA_opt gF A hA W S hW hS) q.S inv q.P U _ hq.2.2 hi
        hq.2.1 hU (Lil.new_wf _ _)) (fun _ _ => trivial) fun _ _ => rfl

theorem C83_bc_alt_trans_v2 (fuel : Nat) (s : List Nat) :
    Opt.bcAltTransV2 fuel ov gI gF A s = bcAltTransV2 fuel ov gI gF A s := by
  unfold Opt.bcAltTransV2 bcAltTransV2
  split
  · rfl
  · dsimp only
    split
    · rfl
    · refine bind_eq Lil.WF rfl (extractM_ret (.of0 (Lil.new_wf _ _) rfl) hA) fun F hF => ?_
      refine bind_eq Lil.WF rfl (bcBuild_ret _ _ _ _) fun P hP => ?_
      have hb := bcTransBody_opt ov gI A hA A.ncols s.length
      have h0 : BcSt.Fine { F := F, P := P, S := [] } := ⟨hF, hP, by simp⟩
      refine bind_eq BcSt.Fine (loop_eq BcSt.Fine (fun q hq => (hb q hq).1) (fun q hq => (hb q hq).2) fuel h0)
        (loop_ret BcSt.Fine (fun q hq => (hb q hq).2) fuel h0) fun q hq => ?_
      refine bind_eq Lil.WF rfl (bcInv_ret _ _ _ _ hq.2.1) fun inv hi => ?_
      refine bind_eq Lil.WF rfl (bcOnes_ret _ _ _) fun U hU => ?_
      exact bind_eq (fun _ => True) (bcBack_opt (fun W S hW hS => flowWA_opt gF A hA W S hW hS) q.S inv q.P U _ hq.2.2 hi
        hq.2.1 hU (Lil.new_wf _ _)) (fun _ _ => trivial) fun _ _ => rfl

end

/-! ### The older betweenness program, the one of the appendix and edge betweenness -/

/-- The matrices of the older program's breadth-first phase are consistent. -/
def BcOldSt.Fine (q : BcOldSt) : Prop := q.F.WF ∧ q.P.WF ∧ ∀ S ∈ q.S, S.WF

section
variable [Inhabited α] (ov : Int → Int → Int) (gI : α → Int) (gF : α → Rat) (A : Lil α) (hA : A.WF)
include hA

theorem bcOldBody_opt (q : BcOldSt) (hq : q.Fine) :
    Opt.bcOldBody ov gI A q = bcOldBody ov gI A q ∧ Ret (bcOldBody ov gI A q) BcOldSt.Fine := by
  obtain ⟨h1, h2, h3⟩ := hq
  have hc := eWiseAddM_ret (o := mWhole (id : Int → Int) q.P .merge) (f := ⟨ITy.i32.plusT ov, id, id, id, ITy.i32.plusT ov, id⟩)
    (A := .plain q.F) (B := .plain q.P) (.of0 h2 rfl) h1 h2
  constructor
  · refine bind_eq Lil.WF rfl hc fun P hP => ?_
    exact bind_eq (fun _ => True) (frontFA_opt ov gI A hA q.F P h1 hP).1 (fun _ _ => trivial) fun _ _ => rfl
  · exact hc.bind fun P hP => (frontFA_opt ov gI A hA q.F P h1 hP).2.bind fun F hF => Ret.ok ⟨hF, hP, fine_snoc h3 h1⟩

theorem bcOldBackBody_opt (S : List (Lil Int)) (P : Lil Int) (hS : ∀ S' ∈ S, S'.WF) (hP : P.WF) (i : Nat)
    (q : Lil Rat × Lil Rat) (hq : q.1.WF ∧ q.2.WF) :
    Opt.bcOldBackBody gF A S P i q = bcOldBackBody gF A S P i q ∧
      Ret (bcOldBackBody gF A S P i q) (fun q => q.1.WF ∧ q.2.WF) := by
  have hf : ∀ W : Lil Rat, W.WF →
      exec (Opt.mxm (mWhole id W .replace) (flowWA gF) id (.plain .same) (.tr (.obj A)))
        = exec (mxm (mWhole id W .replace) (flowWA gF) id (.plain W) (.tr A)) ∧
      Ret (exec (mxm (mWhole id W .replace) (flowWA gF) id (.plain W) (.tr A))) Lil.WF := fun W hW => by
    have ho : (mWhole (id : Rat → Rat) W .replace).WF := .of0 hW rfl
    exact ⟨congrArg exec (Opt.mxm_eq (o := mWhole (id : Rat → Rat) W .replace) (A := .plain .same) (B := .tr (.obj A)) rfl
      rfl ho hW hA .same), mxm_ret (A := .plain W) (B := .tr A) ho hW hA⟩
  constructor
  · refine bind_eq Lil.WF rfl (sigmaAt_ret hS _) fun S1 h1 => ?_
    refine bind_eq Lil.WF rfl (eWiseMultM_ret (A := .plain q.1) (B := .plain P) (.of1 hq.2 rfl h1) hq.1 hP) fun W hW => ?_
    exact bind_eq (fun _ => True) (hf W hW).1 (fun _ _ => trivial) fun _ _ => rfl
  · refine (sigmaAt_ret hS _).bind fun S1 h1 => ?_
    refine (eWiseMultM_ret (A := .plain q.1) (B := .plain P) (.of1 hq.2 rfl h1) hq.1 hP).bind fun W hW => ?_
    refine (hf W hW).2.bind fun W hW => (sigmaAt_ret hS _).bind fun S0 h0 => ?_
    refine (eWiseMultM_ret (A := .plain W) (B := .plain P) (.of1 hW rfl h0) hW hP).bind fun W hW => ?_
    exact (eWiseAddM_ret (A := .plain q.1) (B := .plain W) (.of0 hq.1 rfl) hq.1 hW).bind fun U hU => Ret.ok ⟨hU, hW⟩

theorem C83_bc_old (fuel : Nat) (s : List Nat) : Opt.bcOld fuel ov gI gF A s = bcOld fuel ov gI gF A s := by
  unfold Opt.bcOld bcOld
  dsimp only
  split
  · rfl
  · split
    · rfl
    · refine bind_eq Lil.WF rfl (bcBuild_ret _ _ _ _) fun P hP => ?_
      refine bind_eq Lil.WF rfl (extractM_ret (.of0 (Lil.new_wf _ _) rfl) hA) fun F hF => ?_
      have hb := bcOldBody_opt ov gI A hA
      have h0 : BcOldSt.Fine { F := F, P := P, S := [] } := ⟨hF, hP, by simp⟩
      refine bind_eq BcOldSt.Fine (loop_eq BcOldSt.Fine (fun q hq => (hb q hq).1) (fun q hq => (hb q hq).2) fuel h0)
        (loop_ret BcOldSt.Fine (fun q hq => (hb q hq).2) fuel h0) fun q hq => ?_
      refine bind_eq Lil.WF rfl (bcOnes_ret _ _ _) fun U hU => ?_
      have hk := bcOldBackBody_opt gF A hA q.S q.P hq.2.2 hq.2.1
      exact bind_eq (fun _ => True) (forP_eq (fun q => q.1.WF ∧ q.2.WF) (fun j r hr => (hk _ r hr).1)
        (fun j r hr => (hk _ r hr).2) ⟨hU, Lil.new_wf _ _⟩) (fun _ _ => trivial) fun _ _ => rfl

theorem b5Body_opt (n nsver : Nat) (q : BcSt) (hq : q.Fine) :
    Opt.b5Body ov gI A n nsver q = b5Body ov gI A n nsver q ∧ Ret (b5Body ov gI A n nsver q) BcSt.Fine := by
  obtain ⟨h1, h2, h3⟩ := hq
  constructor
  · refine bind_eq (fun _ => True) rfl (fun _ _ => trivial) fun _ _ => ?_
    refine bind_eq Lil.WF rfl (bcCount_ret ov _ _ h2 h1) fun P hP => ?_
    exact bind_eq (fun _ => True) (frontAF_opt ov gI A hA q.F P h1 hP).1 (fun _ _ => trivial) fun _ _ => rfl
  · exact (bcSigma_ret _ _ _ h1).bind fun S hS => (bcCount_ret ov _ _ h2 h1).bind fun P hP =>
      (frontAF_opt ov gI A hA q.F P h1 hP).2.bind fun F hF => Ret.ok ⟨hF, hP, fine_snoc h3 hS⟩

theorem b5BackBody_opt (S : List (Lil Bool)) (inv : Lil Rat) (P : Lil Int) (hS : ∀ S' ∈ S, S'.WF) (hi : inv.WF) (hP : P.WF)
    (i : Nat) (q : Lil Rat × Lil Rat) (hq : q.1.WF ∧ q.2.WF) :
    Opt.b5BackBody gF A S inv P i q = b5BackBody gF A S inv P i q ∧
      Ret (b5BackBody gF A S inv P i q) (fun q => q.1.WF ∧ q.2.WF) := by
  constructor
  · refine bind_eq Lil.WF rfl (sigmaAt_ret hS _) fun S1 h1 => ?_
    refine bind_eq Lil.WF rfl (bcScale_ret _ _ _ _ hq.2 h1 hq.1 hi) fun W hW => ?_
    refine bind_eq Lil.WF rfl (sigmaAt_ret hS _) fun S0 h0 => ?_
    exact bind_eq (fun _ => True) (flowAW_opt gF A hA W S0 hW h0).1 (fun _ _ => trivial) fun _ _ => rfl
  · refine (sigmaAt_ret hS _).bind fun S1 h1 => (bcScale_ret _ _ _ _ hq.2 h1 hq.1 hi).bind fun W hW => ?_
    exact (sigmaAt_ret hS _).bind fun S0 h0 => (flowAW_opt gF A hA W S0 hW h0).2.bind fun W hW =>
      (bcAdd_ret _ _ _ hq.1 hW hP).bind fun U hU => Ret.ok ⟨hU, hW⟩

theorem C83_bc_B5 (fuel : Nat) (delta : BVec Rat) (src : List Nat) :
    Opt.bcB5 fuel ov gI gF delta A src = bcB5 fuel ov gI gF delta A src := by
  unfold Opt.bcB5 bcB5
  dsimp only
  refine bind_eq Lil.WF rfl (bcBuild_ret _ _ _ _) fun P hP => ?_
  refine bind_eq Lil.WF rfl (extractM_ret (.of1 (Lil.new_wf _ _) rfl hP) hA) fun F hF => ?_
  have hb := b5Body_opt ov gI A hA A.nrows src.length
  have h0 : BcSt.Fine { F := F, P := P, S := [] } := ⟨hF, hP, by simp⟩
  refine bind_eq BcSt.Fine (loop_eq BcSt.Fine (fun q hq => (hb q hq).1) (fun q hq => (hb q hq).2) fuel h0)
    (loop_ret BcSt.Fine (fun q hq => (hb q hq).2) fuel h0) fun q hq => ?_
  refine bind_eq Lil.WF rfl (bcInv_ret _ _ _ _ hq.2.1) fun inv hi => ?_
  refine bind_eq Lil.WF rfl (bcOnes_ret _ _ _) fun U hU => ?_
  have hk := b5BackBody_opt gF A hA q.S inv q.P hq.2.2 hi hq.2.1
  exact bind_eq (fun _ => True) (forP_eq (fun q => q.1.WF ∧ q.2.WF) (fun j r hr => (hk _ r hr).1)
    (fun j r hr => (hk _ r hr).2) ⟨hU, Lil.new_wf _ _⟩) (fun _ _ => trivial) fun _ _ => rfl

end

theorem setElementV_ret (v : BVec α) (i : Nat) (x : α) (hv : v.WF) : Ret (lift (method (v.setElement i x))) BVec.WF := by
  refine Ret.method ?_
  by_cases h : i < v.size
  · obtain ⟨w, e, hw, _⟩ := BVec.setElement_spec hv h x
    rw [e]; exact hw
  · rw [BVec.setElement, if_pos (Nat.not_lt.1 h)]; exact hv

theorem sigmaAtV_ret {S : List (BVec τ)} (h : ∀ S' ∈ S, S'.WF) (i : Nat) : Ret (sigmaAt S i) BVec.WF := by
  unfold sigmaAt
  split
  · rename_i x e; exact Ret.ok (h _ (List.mem_of_getElem? e))
  · exact Ret.error

/-- The vectors of the breadth-first phase are consistent. -/
def VbcSt.Fine (q : VbcSt T) : Prop := q.f.WF ∧ q.p.WF ∧ ∀ S ∈ q.S, S.WF

/-- The matrices and the vector of the backward phase are consistent. -/
def EbcBack.Fine (q : EbcBack T) : Prop := q.score.WF ∧ q.update.WF ∧ q.flow.WF

section
variable [Inhabited T] (o : EbcOps T) (A : Lil T) (hA : A.WF)
include hA

theorem ebcBody_ret (n : Nat) (q : VbcSt T) (hq : q.Fine) : Ret (ebcBody o A n q) VbcSt.Fine := by
  obtain ⟨h1, h2, h3⟩ := hq
  refine (BVec.new_ret n).bind fun S hS => ?_
  refine (applyV_ret (.of0 hS rfl) h1).bind fun S hS => ?_
  refine (eWiseAddV_ret (.of0 h2 rfl) h2 h1).bind fun p hp => ?_
  refine (vxm_ret (A := .plain A) (.of1 h1 rfl hp) h1 hA).bind fun f hf => Ret.ok ⟨hf, hp, ?_⟩
  intro S' h'
  rcases List.mem_append.1 h' with h' | h'
  · exact h3 _ h'
  · rw [List.mem_singleton.1 h']; exact hS

theorem ebcBackBody_opt (n : Nat) (S : List (BVec Bool)) (p : BVec T) (hS : ∀ S' ∈ S, S'.WF) (hp : p.WF) (d : Nat)
    (q : EbcBack T) (hq : q.Fine) :
    Opt.ebcBackBody o A n S p d q = ebcBackBody o A n S p d q ∧ Ret (ebcBackBody o A n S p d q) EbcBack.Fine := by
  obtain ⟨h1, h2, h3⟩ := hq
  have f1 : ∀ D : Lil T, D.WF →
      exec (Opt.mxm (mPlain id q.update) ⟨o.add, o.times, o.times⟩ id (.plain (.obj A)) (.plain (.obj D)))
        = exec (mxm (mPlain id q.update) ⟨o.add, o.times, o.times⟩ id (.plain A) (.plain D)) ∧
      Ret (exec (mxm (mPlain id q.update) ⟨o.add, o.times, o.times⟩ id (.plain A) (.plain D))) Lil.WF := fun D hD => by
    have ho : (mPlain (id : T → T) q.update).WF := .of0 h2 rfl
    exact ⟨congrArg exec (Opt.mxm_eq (o := mPlain (id : T → T) q.update) (A := .plain (.obj A)) (B := .plain (.obj D)) rfl
      rfl ho hA hD .plain), mxm_ret (A := .plain A) (B := .plain D) ho hA hD⟩
  have f2 : ∀ D up : Lil T, D.WF → up.WF →
      exec (Opt.mxm (mPlain id up) ⟨o.add, o.times, o.times⟩ id (.plain (.obj D)) (.plain .same))
        = exec (mxm (mPlain id up) ⟨o.add, o.times, o.times⟩ id (.plain D) (.plain up)) ∧
      Ret (exec (mxm (mPlain id up) ⟨o.add, o.times, o.times⟩ id (.plain D) (.plain up))) Lil.WF := fun D up hD hu => by
    have ho : (mPlain (id : T → T) up).WF := .of0 hu rfl
    exact ⟨congrArg exec (Opt.mxm_eq (o := mPlain (id : T → T) up) (A := .plain (.obj D)) (B := .plain .same) rfl rfl ho hD
      hu .plain), mxm_ret (A := .plain D) (B := .plain up) ho hD hu⟩
  constructor
  · refine bind_eq BVec.WF rfl (BVec.new_ret n) fun w hw => ?_
    refine bind_eq BVec.WF rfl (sigmaAtV_ret hS _) fun S1 hS1 => ?_
    refine bind_eq BVec.WF rfl (eWiseMultV_ret (.of1 hw rfl hS1) h3 hp) fun w hw => ?_
    refine bind_eq BVec.WF rfl (eWiseAddV_ret (.of0 hw rfl) hw hS1) fun w hw => ?_
    refine bind_eq Lil.WF rfl (diag_ret _ _) fun D hD => ?_
    refine bind_eq Lil.WF (f1 D hD).1 (f1 D hD).2 fun up hup => ?_
    refine bind_eq BVec.WF rfl (sigmaAtV_ret hS _) fun S0 hS0 => ?_
    refine bind_eq (fun _ => True) rfl (fun _ _ => trivial) fun w hw => ?_
    refine bind_eq Lil.WF rfl (diag_ret _ _) fun D hD => ?_
    exact bind_eq (fun _ => True) (f2 D up hD hup).1 (fun _ _ => trivial) fun _ _ => rfl
  · refine (BVec.new_ret n).bind fun w hw => (sigmaAtV_ret hS _).bind fun S1 hS1 => ?_
    refine (eWiseMultV_ret (.of1 hw rfl hS1) h3 hp).bind fun w hw => ?_
    refine (eWiseAddV_ret (.of0 hw rfl) hw hS1).bind fun w hw => (diag_ret _ _).bind fun D hD => ?_
    refine (f1 D hD).2.bind fun up hup => (sigmaAtV_ret hS _).bind fun S0 hS0 => ?_
    refine (applyV_ret (.of1 hw rfl hS0) hp).bind fun w hw => (diag_ret _ _).bind fun D hD => ?_
    refine (f2 D up hD hup).2.bind fun up hup => ?_
    refine (eWiseAddM_ret (A := .plain q.score) (B := .plain up) (.of0 h1 rfl) h1 hup).bind fun sc hsc => ?_
    exact (reduceMV_ret (A := .plain up) (.of0 h3 rfl) hup (fun _ _ => rfl)).bind fun fl hfl => Ret.ok ⟨hsc, hup, hfl⟩

theorem ebcRoot_opt (fuel n root : Nat) (score : Lil T) (hs : score.WF) :
    Opt.ebcRoot fuel o A n root score = ebcRoot fuel o A n root score ∧ Ret (ebcRoot fuel o A n root score) Lil.WF := by
  constructor
  · refine bind_eq BVec.WF rfl (BVec.new_ret n) fun f hf => ?_
    refine bind_eq BVec.WF rfl (extractC_ret (A := .tr A) (.of0 hf rfl) hA) fun f hf => ?_
    refine bind_eq BVec.WF rfl (BVec.new_ret n) fun p hp => ?_
    refine bind_eq BVec.WF rfl (setElementV_ret _ _ _ hp) fun p hp => ?_
    refine bind_eq BVec.WF rfl (BVec.new_ret n) fun fl hfl => ?_
    refine bind_eq BVec.WF rfl (BVec.new_ret n) fun S hS => ?_
    refine bind_eq BVec.WF rfl (setElementV_ret _ _ _ hS) fun S hS => ?_
    refine bind_eq VbcSt.Fine rfl (loop_ret VbcSt.Fine (fun q hq => ebcBody_ret o A hA n q hq) fuel
      ⟨hf, hp, by intro S' h'; rw [List.mem_singleton.1 h']; exact hS⟩) fun q hq => ?_
    have hb := ebcBackBody_opt o A hA n q.S q.p hq.2.2 hq.2.1
    exact bind_eq (fun _ => True) (forP_eq EbcBack.Fine (fun j r hr => (hb _ r hr).1) (fun j r hr => (hb _ r hr).2)
      ⟨hs, Lil.new_wf _ _, hfl⟩) (fun _ _ => trivial) fun _ _ => rfl
  · refine (BVec.new_ret n).bind fun f hf => (extractC_ret (A := .tr A) (.of0 hf rfl) hA).bind fun f hf => ?_
    refine (BVec.new_ret n).bind fun p hp => (setElementV_ret _ _ _ hp).bind fun p hp => ?_
    refine (BVec.new_ret n).bind fun fl hfl => (BVec.new_ret n).bind fun S hS => ?_
    refine (setElementV_ret _ _ _ hS).bind fun S hS => ?_
    refine (loop_ret VbcSt.Fine (fun q hq => ebcBody_ret o A hA n q hq) fuel
      ⟨hf, hp, by intro S' h'; rw [List.mem_singleton.1 h']; exact hS⟩).bind fun q hq => ?_
    exact (forP_ret EbcBack.Fine (fun j r hr => (ebcBackBody_opt o A hA n q.S q.p hq.2.2 hq.2.1 _ r hr).2)
      ⟨hs, Lil.new_wf _ _, hfl⟩).bind fun r hr => Ret.ok hr.1

theorem C83_edge_bc (fuel : Nat) : Opt.ebc fuel o A = ebc fuel o A := by
  unfold Opt.ebc ebc
  split
  · rfl
  · exact forP_eq Lil.WF (fun j r hr => (ebcRoot_opt o A hA fuel _ j r hr).1)
      (fun j r hr => (ebcRoot_opt o A hA fuel _ j r hr).2) (Lil.new_wf _ _)

end

/-! ### Concrete runs of the algorithms on the optimized backend -/

/-- Counts of an undirected graph with two triangles. -/
example : let L : Lil Int := { nrows := 4, ncols := 4, nvals := 5, rows := [[], [(0, 1)], [(0, 1), (1, 1)], [(1, 1), (2, 1)]] }
    L.WF ∧ Opt.triangleCountMaskedT .i8 (fun _ _ => 0) L = .ok 2 ∧ triangleCountMaskedT .i8 (fun _ _ => 0) L = .ok 2 :=
  ⟨Lil.wf_chk (by decide +kernel), by decide +kernel, by decide +kernel⟩

example : Ex.wg.WF ∧ Ex.starts.WF ∧ Opt.batchSssp .i32 (fun _ _ => 0) Ex.wg Ex.starts
    = .ok (true, { nrows := 2, ncols := 3, nvals := 5, rows := [[(0, 0), (1, -2), (2, 2)], [(1, -4), (2, 0)]] }) :=
  ⟨Lil.wf_chk (by decide +kernel), Lil.wf_chk (by decide +kernel), by decide +kernel⟩

example : Ex.dsGraph.WF ∧
    (Opt.apsp .i32 (fun _ _ => 0) Ex.dsGraph).map (fun D => decide (Ex.dsGraph.nvals < D.nvals)) = .ok true :=
  ⟨Lil.wf_chk (by decide +kernel), by decide +kernel⟩

example : Opt.bcOld 7 Ex56.ov id (fun a : Int => (a : Rat)) Ex56.A [0, 2, 0] = .ok [0, 2, 2, 3, 0, 0, 0] ∧ Ex56.A.WF :=
  ⟨by decide +kernel, Lil.wf_chk (by decide +kernel)⟩

open Ex59 in
example : elems (Opt.ebc 4 (.int .i8 fun _ _ => 0) (Ex56.graph 4 D)) = some [(0, 1, 2), (0, 2, 2), (1, 3, 2), (2, 3, 2)] ∧
    (Ex56.graph 4 D).WF := ⟨by decide +kernel, Lil.wf_chk (by decide +kernel)⟩

end GBTL

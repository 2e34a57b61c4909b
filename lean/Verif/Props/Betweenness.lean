import Verif.Lemmas.BetweennessBatch
import Verif.Props.KTrussInc
/-
**C56**: the batch versions of `vertex_betweenness_centrality` return, for each vertex,
the sum over the sources of the vertex's dependency: `Spec.betweenness`.
-/
namespace GBTL
open Spec

variable {α : Type}

/-- The graph and the sources of a call: a square matrix whose stored elements all convert
to 1, at least one source, all sources vertices, and no more than `2 ^ 31 - 1` shortest
paths from any source (their numbers are kept in `int32_t`). -/
structure BcArgs (gI : α → Int) (gF : α → Rat) (A : Lil α) (s : List Nat) : Prop where
  wf : A.WF
  square : A.nrows = A.ncols
  ones : ∀ u v a, A.get u v = some a → gI a = 1 ∧ gF a = 1
  some_source : s ≠ []
  sources : ∀ x ∈ s, x < A.nrows
  paths : ∀ x ∈ s, pathCount A.nrows (edges A) x ≤ 2 ^ 31 - 1

namespace BcArgs
variable {gI : α → Int} {gF : α → Rat} {A : Lil α} {s : List Nat}

theorem src_mem {j : Nat} (hj : j < s.length) : s.getD j 0 ∈ s := by
  rw [List.getD_eq_getElem?_getD, List.getElem?_eq_getElem hj]
  exact List.getElem_mem hj

theorem sh (h : BcArgs gI gF A s) : Sh A.ncols A.ncols A := ⟨h.wf, h.square, rfl⟩

theorem src (h : BcArgs gI gF A s) (j : Nat) (hj : j < s.length) : s.getD j 0 < A.ncols := by
  rw [← h.square]; exact h.sources _ (src_mem hj)

theorem pos (h : BcArgs gI gF A s) : 0 < s.length := List.length_pos_iff.2 h.some_source

theorem npos (h : BcArgs gI gF A s) : 0 < A.ncols := Nat.lt_of_le_of_lt (Nat.zero_le _) (h.src 0 h.pos)

theorem tot (h : BcArgs gI gF A s) (j : Nat) (hj : j < s.length) :
    totalPaths A.ncols (edges A) (s.getD j 0) ≤ 2 ^ 31 - 1 := by
  rw [← pathCount_eq, ← h.square]; exact h.paths _ (src_mem hj)

end BcArgs

section
variable {gI : α → Int} {gF : α → Rat} {A : Lil α} {s : List Nat} {ov : Int → Int → Int}

theorem range_getD {m k : Nat} (h : k < m) : (List.range m).getD k 0 = k := by
  rw [List.getD_eq_getElem?_getD, List.getElem?_range h]; rfl

/-- The starting matrix, one column for each source. -/
theorem startCols (h : BcArgs gI gF A s) :
    ∃ B, bcBuild A.ncols s.length s (List.range s.length) = .ok B ∧
      FrontM false A.ncols s.length (edges A) (s.getD · 0) 0 B ∧
      NspM false A.ncols s.length (edges A) (s.getD · 0) 0 B := by
  obtain ⟨B, e, hs, hg⟩ := bcBuild_ok (r := A.ncols) (c := s.length) (is := s) (js := List.range s.length) rfl
    (by simp) (fun k hk => ⟨h.src k hk, by rw [range_getD hk]; exact hk⟩)
    (fun k l hk hl _ e => by rw [range_getD hk, range_getD hl] at e; exact e)
  refine ⟨B, e, build_start (t := false) (edges_in h.sh) h.src hs ?_⟩
  intro j v x
  show B.get v j = some x ↔ _
  rw [hg]
  constructor
  · rintro ⟨k, hk, e1, e2, e3⟩
    rw [range_getD hk] at e2
    subst e2
    exact ⟨hk, e1.symm, e3⟩
  · rintro ⟨hj, rfl, rfl⟩
    exact ⟨j, hj, rfl, range_getD hj, rfl⟩

/-- The starting matrix, one row for each source. -/
theorem startRows (h : BcArgs gI gF A s) :
    ∃ B, bcBuild s.length A.ncols (List.range s.length) s = .ok B ∧
      NspM true A.ncols s.length (edges A) (s.getD · 0) 0 B := by
  obtain ⟨B, e, hs, hg⟩ := bcBuild_ok (r := s.length) (c := A.ncols) (is := List.range s.length) (js := s) (by simp)
    rfl (fun k hk => ⟨by rw [range_getD hk]; exact hk, h.src k hk⟩)
    (fun k l hk hl e _ => by rw [range_getD hk, range_getD hl] at e; exact e)
  refine ⟨B, e, (build_start (t := true) (edges_in h.sh) h.src hs ?_).2⟩
  intro j v x
  show B.get j v = some x ↔ _
  rw [hg]
  constructor
  · rintro ⟨k, hk, e1, e2, e3⟩
    rw [range_getD hk] at e1
    subst e1
    exact ⟨hk, e2.symm, e3⟩
  · rintro ⟨hj, rfl, rfl⟩
    exact ⟨j, hj, range_getD hj, rfl, rfl⟩

theorem nbr_val (h : BcArgs gI gF A s) (u v : Nat) :
    (A.get u v).map gI = if edges A u v = true then some (numI 1) else none := by
  cases hg : A.get u v with
  | none => simp [edges, hg]
  | some a => simp [edges, hg, (h.ones u v a hg).1, numI]

/-- The neighbours of the sources, one row for each source. -/
theorem firstRows (h : BcArgs gI gF A s) :
    ∃ F, exec (extractM (mWhole gI (Lil.new s.length A.ncols) .merge) (.plain A) (.list s) .all) = .ok F ∧
      FrontM true A.ncols s.length (edges A) (s.getD · 0) 1 F := by
  obtain ⟨F, e, y⟩ := C18_extract_matrix (o := mWhole gI (Lil.new s.length A.ncols) .merge) (A := .plain A)
    (ri := .list s) (ci := .all) (mWhole_wf (Lil.new_wf _ _)) h.wf noMaskFitsM rfl rfl h.sources trivial
  obtain ⟨hs, hg⟩ := whole_yields (Sh.new s.length A.ncols) y
  refine ⟨F, by rw [e, exec_done], hs, ?_⟩
  intro j hj
  refine Front.first (edges_in h.sh) (h.src j hj) ?_
  intro v
  show F.get j v = _
  rw [← nbr_val h]
  by_cases hv : v < A.ncols
  · rw [hg j v hj hv]
    show (Spec.extractMat A.nrows A.ncols (some s) none A.get j v).map gI = _
    simp [Spec.extractMat, Spec.nth, List.getElem?_eq_getElem hj, hv]
  · rw [hs.out (fun h => hv h.2), h.sh.out (fun h => hv h.2)]; rfl

/-- The neighbours of the sources, one column for each source. -/
theorem firstCols (h : BcArgs gI gF A s) :
    ∃ F, exec (extractM (mWhole gI (Lil.new A.ncols s.length) .merge) (.tr A) .all (.list s)) = .ok F ∧
      FrontM false A.ncols s.length (edges A) (s.getD · 0) 1 F := by
  obtain ⟨F, e, y⟩ := C18_extract_matrix (o := mWhole gI (Lil.new A.ncols s.length) .merge) (A := .tr A)
    (ri := .all) (ci := .list s) (mWhole_wf (Lil.new_wf _ _)) h.wf noMaskFitsM rfl rfl trivial h.sources
  obtain ⟨hs, hg⟩ := whole_yields (Sh.new A.ncols s.length) y
  refine ⟨F, by rw [e, exec_done], hs, ?_⟩
  intro j hj
  refine Front.first (edges_in h.sh) (h.src j hj) ?_
  intro v
  show F.get v j = _
  rw [← nbr_val h]
  by_cases hv : v < A.ncols
  · rw [hg v j hv hj]
    show (Spec.extractMat A.ncols A.nrows none (some s) (fun i j => A.get j i) v j).map gI = _
    simp [Spec.extractMat, Spec.nth, List.getElem?_eq_getElem hj, hv]
  · rw [hs.out (fun h => hv h.1), h.sh.out (fun h => hv h.2)]; rfl

/-! ### The breadth-first phases -/

/-- One round of the versions that start from the neighbours. -/
theorem alt_round (h : BcArgs gI gF A s) {t : Bool} {mulF : Lil Int → Lil Int → Prog (Lil Int)}
    (hm : FrontStep t A.ncols s.length ov gI A mulF) {k : Nat} {q : BcSt}
    (hq : AltOK t A.ncols s.length (edges A) (s.getD · 0) k q) :
    ∃ S P F, bcSigma (if t then s.length else A.ncols) (if t then A.ncols else s.length) q.F = .ok S ∧
      bcCount ov q.P q.F = .ok P ∧ mulF q.F P = .ok F ∧
      AltOK t A.ncols s.length (edges A) (s.getD · 0) (k + 1) { F := F, P := P, S := q.S ++ [S] } := by
  obtain ⟨S, e1, s1, s2⟩ := sigma_round (ov := ov) (edges_in h.sh) h.src h.tot hq.front
  obtain ⟨P, e2, p1⟩ := nsp_round (ov := ov) hq.front hq.nsp
  obtain ⟨F, e3, f1⟩ := front_round h.sh (fun u v a ha => (h.ones u v a ha).1) h.src h.tot hm hq.front p1
  refine ⟨S, P, F, e1, e2, e3, f1, p1, hq.sig.push s1 ?_, ?_⟩
  · rw [hq.len]; exact s2
  · simp [hq.len]

theorem AltOK.end_ {t : Bool} {k : Nat} {q : BcSt}
    (hq : AltOK t A.ncols s.length (edges A) (s.getD · 0) k q)
    (he : ∀ j v, j < s.length → hops A.ncols (edges A) (s.getD j 0) v ≠ some (k + 1)) :
    BfsEnd t A.ncols s.length (edges A) (s.getD · 0) q :=
  ⟨hq.sig, by rw [hq.len]; exact hq.nsp, by rw [hq.len]; exact he⟩

theorem alt_search (h : BcArgs gI gF A s) {t : Bool} {body : BcSt → Prog BcSt}
    (hb : ∀ k q, AltOK t A.ncols s.length (edges A) (s.getD · 0) k q →
      ∃ q', body q = .ok q' ∧ AltOK t A.ncols s.length (edges A) (s.getD · 0) (k + 1) q')
    {q : BcSt} (h0 : AltOK t A.ncols s.length (edges A) (s.getD · 0) 0 q) {fuel : Nat} (hf : A.ncols ≤ fuel) :
    ∃ q', loop (fun q => decide (0 < q.F.nvals)) body fuel q = .ok q' ∧
      BfsEnd t A.ncols s.length (edges A) (s.getD · 0) q' := by
  obtain ⟨k, q', e, hq, hc⟩ := loop_count (AltOK t A.ncols s.length (edges A) (s.getD · 0)) A.ncols
    (by
      intro k q hq hc
      have := hq.front.le h.src (of_decide_eq_true hc)
      exact ⟨this, hb k q hq⟩) fuel 0 q h0 (by omega)
  refine ⟨q', e, hq.end_ ?_⟩
  intro j v hj
  exact hq.front.empty (edges_in h.sh) h.src (of_decide_eq_false hc) hj

/-- With the limit of 10 rounds. -/
theorem alt_search10 (h : BcArgs gI gF A s) {t : Bool} {body : BcSt → Prog BcSt}
    (hb : ∀ k q, AltOK t A.ncols s.length (edges A) (s.getD · 0) k q →
      ∃ q', body q = .ok q' ∧ AltOK t A.ncols s.length (edges A) (s.getD · 0) (k + 1) q')
    (hfar : ∀ j v, j < s.length → hops A.ncols (edges A) (s.getD j 0) v ≠ some 11)
    {q : BcSt} (h0 : AltOK t A.ncols s.length (edges A) (s.getD · 0) 0 q) {fuel : Nat} (hf : A.ncols ≤ fuel) :
    ∃ q', loop (fun q => decide (0 < q.F.nvals) && decide (q.S.length < 10)) body fuel q = .ok q' ∧
      BfsEnd t A.ncols s.length (edges A) (s.getD · 0) q' := by
  obtain ⟨k, q', e, ⟨hk, hq⟩, hc⟩ := loop_count (c := fun q : BcSt => decide (0 < q.F.nvals) && decide (q.S.length < 10)) (b := body)
    (fun k q => k ≤ 10 ∧ AltOK t A.ncols s.length (edges A) (s.getD · 0) k q) A.ncols
    (by
      rintro k q ⟨hk, hq⟩ hc
      rw [Bool.and_eq_true, decide_eq_true_iff, decide_eq_true_iff] at hc
      have := hq.front.le h.src hc.1
      have hl := hq.len
      obtain ⟨q', e, hq'⟩ := hb k q hq
      exact ⟨this, q', e, by omega, hq'⟩) fuel 0 q ⟨by omega, h0⟩ (by omega)
  refine ⟨q', e, hq.end_ ?_⟩
  intro j v hj
  rw [Bool.and_eq_false_iff, decide_eq_false_iff_not, decide_eq_false_iff_not] at hc
  rcases hc with hc | hc
  · exact hq.front.empty (edges_in h.sh) h.src hc hj
  · have hl := hq.len
    have : k = 10 := by omega
    subst this
    exact hfar j v hj

/-- The state before round `k` of the version that starts from the sources. -/
structure BcBatchOK (n m : Nat) (E : Nat → Nat → Bool) (src : Nat → Nat) (k : Nat) (q : BcSt) : Prop where
  front : FrontM false n m E src k q.F
  nsp : NspM false n m E src k q.P
  sig : SigM false n m E src q.S
  len : q.S.length = k

theorem batch_search (h : BcArgs gI gF A s) {B : Lil Int}
    (h1 : FrontM false A.ncols s.length (edges A) (s.getD · 0) 0 B)
    (h2 : NspM false A.ncols s.length (edges A) (s.getD · 0) 0 B) {fuel : Nat} (hf : A.ncols < fuel) :
    ∃ q', loop (fun q => decide (0 < q.F.nvals)) (bcBatchBody ov gI A A.ncols s.length) fuel
        { F := B, P := B, S := [] } = .ok q' ∧
      BfsEnd false A.ncols s.length (edges A) (s.getD · 0) q' := by
  obtain ⟨k, q', e, hq, hc⟩ := loop_count (BcBatchOK A.ncols s.length (edges A) (s.getD · 0)) (A.ncols + 1)
    (b := bcBatchBody ov gI A A.ncols s.length)
    (by
      intro k q hq hc
      have := hq.front.le h.src (of_decide_eq_true hc)
      obtain ⟨F, e3, f1⟩ := front_round h.sh (fun u v a ha => (h.ones u v a ha).1) h.src h.tot
        (frontStepAF (ov := ov) h.sh) hq.front hq.nsp
      obtain ⟨S, e1, s1, s2⟩ := sigma_round (ov := ov) (edges_in h.sh) h.src h.tot f1
      obtain ⟨P, e2, p1⟩ := nsp_round (ov := ov) f1 hq.nsp
      refine ⟨by omega, { F := F, P := P, S := q.S ++ [S] }, ?_, f1, p1, hq.sig.push s1 ?_, ?_⟩
      · unfold bcBatchBody
        rw [e3]
        simp only [prog_bind_ok]
        simp only [Bool.false_eq_true, if_false] at e1
        rw [e1]
        simp only [prog_bind_ok]
        rw [e2]
        rfl
      · rw [hq.len]; exact s2
      · simp [hq.len]) fuel 0 { F := B, P := B, S := [] }
    ⟨h1, h2, nofun, rfl⟩ (by omega)
  refine ⟨q', e, hq.sig, by rw [hq.len]; exact hq.nsp, ?_⟩
  intro j v hj
  rw [hq.len]
  exact hops_none_above (edges_in h.sh) (h.src j hj)
    (fun w => hq.front.empty (edges_in h.sh) h.src (of_decide_eq_false hc) hj) (Nat.le_succ k)

/-! ### The sum -/

theorem sum_dep (n : Nat) (E : Nat → Nat → Bool) (s : List Nat) (v : Nat) :
    rsum s.length (fun j => 1 + dependency n E (s.getD j 0) v) = (s.length : Rat) + betweenness n E s v := by
  rw [rsum_add]
  have e1 : rsum s.length (fun _ => 1) = (s.length : Rat) := by
    generalize s.length = m
    induction m with
    | zero => rfl
    | succ m ih => rw [rsum, ih, Rat.natCast_add]; rfl
  have e2 : rsum s.length (fun j => dependency n E (s.getD j 0) v) = betweenness n E s v := by
    rw [← rsum_eq, betweenness]
    congr 1
    refine List.ext_getElem (by simp) ?_
    intro i g1 g2
    simp at g1
    simp [List.getElem?_eq_getElem g1]
  rw [e1, e2]

/-- From the end of the search to the result. -/
theorem bc_finish (h : BcArgs gI gF A s) {t : Bool} {mulW : Lil Rat → Lil Bool → Prog (Lil Rat)}
    (hm : BackStep t A.ncols s.length gF A mulW) {q : BcSt}
    (hq : BfsEnd t A.ncols s.length (edges A) (s.getD · 0) q) (o1 o2 : Outp) :
    ∃ I U U', bcInv (if t then s.length else A.ncols) (if t then A.ncols else s.length) o1 q.P = .ok I ∧
      bcOnes (if t then s.length else A.ncols) (if t then A.ncols else s.length) o2 = .ok U ∧
      bcBack mulW q.S I q.P U (Lil.new (if t then s.length else A.ncols) (if t then A.ncols else s.length)) = .ok U' ∧
      ShV t A.ncols s.length U' ∧
      ∀ j v, j < s.length → v < A.ncols →
        vw t U' j v = some (1 + dependency A.ncols (edges A) (s.getD j 0) v) := by
  obtain ⟨I, e1, i1, i2⟩ := bcInv_ok (o := o1) hq.nsp.sh
  obtain ⟨U, e2, u1, u2⟩ := bcOnes_ok (r := if t then s.length else A.ncols) (c := if t then A.ncols else s.length) (o := o2)
  obtain ⟨U', e3, u3, u4⟩ := bcBack_ok h.sh (fun u v a ha => (h.ones u v a ha).2) h.src hm hq i1 i2 u1
    (by
      intro j v hj hv
      cases t
      · exact u2 v j hv hj
      · exact u2 j v hj hv) (Sh.new _ _)
  exact ⟨I, U, U', e1, e2, e3, u3, u4⟩

theorem result_eq {n : Nat} {E : Nat → Nat → Bool} {s : List Nat} {w : BVec Rat} (hw : w.WF) (hn : w.size = n)
    (h : ∀ v, v < n → w.get v = some (-1 * (s.length : Rat) + rsum s.length (fun j => 1 + dependency n E (s.getD j 0) v))) :
    bcToStd n w = .ok ((List.range n).map (betweenness n E s)) := by
  refine bcToStd_ok hw hn ?_
  intro v hv
  rw [h v hv, sum_dep]
  congr 1
  grind

end

/-! ### The results -/

section
variable {gI : α → Int} {gF : α → Rat} {A : Lil α} {s : List Nat} {ov : Int → Int → Int}

/-- **C56**, `vertex_betweenness_centrality_batch`. -/
theorem C56_betweenness_batch (h : BcArgs gI gF A s) {fuel : Nat} (hf : A.ncols < fuel) :
    bcBatch fuel ov gI gF A s = .ok ((List.range A.ncols).map (betweenness A.ncols (edges A) s)) := by
  obtain ⟨B, e1, b1, b2⟩ := startCols h
  obtain ⟨q, e2, hq⟩ := batch_search (ov := ov) h b1 b2 hf
  obtain ⟨I, U, U', e3, e4, e5, u1, u2⟩ := bc_finish h (backStepAW h.sh) hq .replace .replace
  obtain ⟨w, e6, w1, w2, w3⟩ := bcSum_ok (B := .plain U') h.npos h.pos u1.wf u1.nr u1.nc
    (g := fun v j => 1 + dependency A.ncols (edges A) (s.getD j 0) v) (fun v j hv hj => u2 j v hj hv)
  unfold bcBatch
  simp only
  rw [if_neg (by have := h.pos; omega), if_neg (fun hn => hn h.square), e1]
  simp only [prog_bind_ok]
  rw [e2]
  simp only [prog_bind_ok]
  simp only [Bool.false_eq_true, if_false] at e3 e4 e5
  rw [e3]
  simp only [prog_bind_ok]
  rw [e4]
  simp only [prog_bind_ok]
  rw [e5]
  simp only [prog_bind_ok]
  rw [e6]
  simp only [prog_bind_ok]
  exact result_eq w1 w2 w3

/-- **C56**, `vertex_betweenness_centrality_batch_alt`. -/
theorem C56_betweenness_batch_alt (h : BcArgs gI gF A s) {fuel : Nat} (hf : A.ncols ≤ fuel) :
    bcAlt fuel ov gI gF A s = .ok ((List.range A.ncols).map (betweenness A.ncols (edges A) s)) := by
  obtain ⟨F, e0, f1⟩ := firstCols h
  obtain ⟨B, e1, -, b2⟩ := startCols h
  obtain ⟨q, e2, hq⟩ := alt_search (body := bcAltBody ov gI A A.ncols s.length) h
    (by
      intro k q hq
      obtain ⟨S, P, F, g1, g2, g3, g4⟩ := alt_round (ov := ov) h (frontStepAF h.sh) hq
      refine ⟨_, ?_, g4⟩
      simp only [Bool.false_eq_true, if_false] at g1
      unfold bcAltBody
      rw [g1]
      simp only [prog_bind_ok]
      rw [g2]
      simp only [prog_bind_ok]
      rw [g3]
      rfl)
    (q := { F := F, P := B, S := [] }) ⟨f1, b2, nofun, rfl⟩ hf
  obtain ⟨I, U, U', e3, e4, e5, u1, u2⟩ := bc_finish h (backStepAW h.sh) hq .replace .replace
  obtain ⟨w, e6, w1, w2, w3⟩ := bcSum_ok (B := .plain U') h.npos h.pos u1.wf u1.nr u1.nc
    (g := fun v j => 1 + dependency A.ncols (edges A) (s.getD j 0) v) (fun v j hv hj => u2 j v hj hv)
  unfold bcAlt
  simp only
  rw [if_neg (by have := h.pos; omega), if_neg (fun hn => hn h.square), e0]
  simp only [prog_bind_ok]
  rw [e1]
  simp only [prog_bind_ok]
  rw [e2]
  simp only [prog_bind_ok]
  simp only [Bool.false_eq_true, if_false] at e3 e4 e5
  rw [e3]
  simp only [prog_bind_ok]
  rw [e4]
  simp only [prog_bind_ok]
  rw [e5]
  simp only [prog_bind_ok]
  rw [e6]
  simp only [prog_bind_ok]
  exact result_eq w1 w2 w3

theorem trans_body (h : BcArgs gI gF A s) (k : Nat) (q : BcSt)
    (hq : AltOK true A.ncols s.length (edges A) (s.getD · 0) k q) :
    ∃ q', bcTransBody ov gI A A.ncols s.length q = .ok q' ∧
      AltOK true A.ncols s.length (edges A) (s.getD · 0) (k + 1) q' := by
  obtain ⟨S, P, F, g1, g2, g3, g4⟩ := alt_round (ov := ov) h (frontStepFA h.sh) hq
  refine ⟨_, ?_, g4⟩
  simp only [if_true] at g1
  unfold bcTransBody
  rw [g1]
  simp only [prog_bind_ok]
  rw [g2]
  simp only [prog_bind_ok]
  rw [g3]
  rfl

/-- **C56**, `vertex_betweenness_centrality_batch_alt_trans`. -/
theorem C56_betweenness_batch_alt_trans (h : BcArgs gI gF A s) {fuel : Nat} (hf : A.ncols ≤ fuel) :
    bcAltTrans fuel ov gI gF A s = .ok ((List.range A.ncols).map (betweenness A.ncols (edges A) s)) := by
  obtain ⟨F, e0, f1⟩ := firstRows h
  obtain ⟨B, e1, b2⟩ := startRows h
  obtain ⟨q, e2, hq⟩ := alt_search (body := bcTransBody ov gI A A.ncols s.length) h (trans_body h)
    (q := { F := F, P := B, S := [] }) ⟨f1, b2, nofun, rfl⟩ hf
  obtain ⟨I, U, U', e3, e4, e5, u1, u2⟩ := bc_finish h (backStepWA h.sh) hq .replace .merge
  obtain ⟨w, e6, w1, w2, w3⟩ := bcSum_ok (B := .tr U') h.npos h.pos u1.wf u1.nc u1.nr
    (g := fun v j => 1 + dependency A.ncols (edges A) (s.getD j 0) v) (fun v j hv hj => u2 j v hj hv)
  unfold bcAltTrans
  simp only
  rw [if_neg (by have := h.pos; omega), if_neg (fun hn => hn h.square), e0]
  simp only [prog_bind_ok]
  rw [e1]
  simp only [prog_bind_ok]
  rw [e2]
  simp only [prog_bind_ok]
  simp only [if_true] at e3 e4 e5
  rw [e3]
  simp only [prog_bind_ok]
  rw [e4]
  simp only [prog_bind_ok]
  rw [e5]
  simp only [prog_bind_ok]
  rw [e6]
  simp only [prog_bind_ok]
  exact result_eq w1 w2 w3

/-- **C56**, `vertex_betweenness_centrality_batch_alt_trans_v2`, which follows paths of at
most 10 edges: right when no vertex is more than 10 edges away from a source. -/
theorem C56_betweenness_batch_v2 (h : BcArgs gI gF A s) {fuel : Nat} (hf : A.ncols ≤ fuel)
    (hfar : ∀ x ∈ s, ∀ v d, HopDist (fun u w => edges A u w = true) (· = x) v d → d ≤ 10) :
    bcAltTransV2 fuel ov gI gF A s = .ok ((List.range A.ncols).map (betweenness A.ncols (edges A) s)) := by
  obtain ⟨F, e0, f1⟩ := firstRows h
  obtain ⟨B, e1, b2⟩ := startRows h
  obtain ⟨q, e2, hq⟩ := alt_search10 (body := bcTransBody ov gI A A.ncols s.length) h (trans_body h)
    (fun j v hj hv => by
      have := hfar _ (BcArgs.src_mem hj) v 11 ((hops_some (edges_in h.sh) (h.src j hj)).1 hv)
      omega)
    (q := { F := F, P := B, S := [] }) ⟨f1, b2, nofun, rfl⟩ hf
  obtain ⟨I, U, U', e3, e4, e5, u1, u2⟩ := bc_finish h (backStepWA h.sh) hq .merge .merge
  obtain ⟨r, e6, r1, r2, -⟩ := BVec.new_spec (α := Rat) (n := A.ncols) (by have := h.npos; omega)
  have hr : r.size = U'.ncols := r2.trans u1.nc.symm
  obtain ⟨w1, e7, y1⟩ := C16_reduce_rows_op (o := vReplace r) (f := fun x y : Rat => x + y) (c := id)
    (A := .tr U') (vReplace_wf r1) u1.wf ⟨noMaskFits, hr⟩
  obtain ⟨z1, z2, z3⟩ := vReplace_yields y1
  obtain ⟨w2, e8, y2⟩ := C15_apply_vector (o := vReplace w1) (f := fun x => x - (s.length : Rat)) (u := w1)
    (vReplace_wf z1) z1 ⟨noMaskFits, rfl⟩
  obtain ⟨z4, z5, z6⟩ := vReplace_yields y2
  unfold bcAltTransV2
  simp only
  rw [if_neg (by have := h.pos; omega), if_neg (fun hn => hn h.square), e0]
  simp only [prog_bind_ok]
  rw [e1]
  simp only [prog_bind_ok]
  rw [e2]
  simp only [prog_bind_ok]
  simp only [if_true] at e3 e4 e5
  rw [e3]
  simp only [prog_bind_ok]
  rw [e4]
  simp only [prog_bind_ok]
  rw [e5]
  simp only [prog_bind_ok]
  rw [e6]
  simp only [lift_ok, prog_bind_ok]
  rw [e7]
  simp only [exec_done, prog_bind_ok]
  rw [e8]
  simp only [exec_done, prog_bind_ok]
  have hsz : w1.size = A.ncols := z2.trans r2
  refine result_eq z4 (z5.trans hsz) ?_
  intro v hv
  have hd : Operand.ncols (.tr U') = s.length := u1.nr
  rw [z6 v (by omega), z3 v (by omega), hd, ofold_rat (h := Operand.get (.tr U') v) h.pos
    (fun j hj => u2 j v hj hv)]
  show some _ = some _
  congr 1
  grind

/-- **C56**, errors: no sources, or a graph that is not square. -/
theorem C56_betweenness_dimension (hbad : s = [] ∨ A.nrows ≠ A.ncols) (fuel : Nat) :
    bcBatch fuel ov gI gF A s = .error (.err .dimension) ∧
    bcAlt fuel ov gI gF A s = .error (.err .dimension) ∧
    bcAltTrans fuel ov gI gF A s = .error (.err .dimension) ∧
    bcAltTransV2 fuel ov gI gF A s = .error (.err .dimension) := by
  unfold bcBatch bcAlt bcAltTrans bcAltTransV2
  simp only
  by_cases h0 : s.length = 0
  · simp [h0]
  · rcases hbad with rfl | hbad
    · exact absurd rfl h0
    · simp [h0, hbad]

end


/-! ### Concrete cases -/

namespace Ex56

/-- A matrix of ones. -/
def graph (n : Nat) (es : List (Nat × Nat)) : Lil Int :=
  (Lil.new n n : Lil Int).build (fun _ y => y) (es.map fun e => (e.1, e.2, 1)) |>.2

/-- Two ways from 0 to 3, then on to 4; a loop at 1; a second component. -/
def A : Lil Int := graph 7 [(0, 1), (0, 2), (1, 3), (2, 3), (3, 4), (1, 1), (5, 6)]

/-- A path of 12 vertices. -/
def P : Lil Int := graph 12 ((List.range 11).map fun i => (i, i + 1))

def ov : Int → Int → Int := fun _ _ => 77

theorem stored_ones {A : Lil Int} (h : ∀ u, u < A.nrows → ∀ v, v < A.ncols → ∀ a ∈ A.get u v, a = 1) (hA : A.WF) :
    ∀ u v a, A.get u v = some a → id a = 1 ∧ ((a : Int) : Rat) = 1 := by
  intro u v a ha
  have hlt := some_lt hA (i := u) (j := v) (by rw [ha]; simp)
  have := h u hlt.1 v hlt.2 a ha
  subst this
  exact ⟨rfl, rfl⟩

theorem args : BcArgs id (fun a : Int => (a : Rat)) A [0, 2, 0] where
  wf := Lil.wf_chk (by decide +kernel)
  square := by decide +kernel
  ones := stored_ones (by decide +kernel) (Lil.wf_chk (by decide +kernel))
  some_source := by decide
  sources := by decide +kernel
  paths := by decide +kernel

theorem argsP : BcArgs id (fun a : Int => (a : Rat)) P [0] where
  wf := Lil.wf_chk (by decide +kernel)
  square := by decide +kernel
  ones := stored_ones (by decide +kernel) (Lil.wf_chk (by decide +kernel))
  some_source := by decide
  sources := by decide +kernel
  paths := by decide +kernel

theorem near : ∀ x ∈ [0, 2, 0], ∀ v d, HopDist (fun u w => edges A u w = true) (· = x) v d → d ≤ 10 := by
  intro x hx v d h
  have hs : x < A.ncols := (show ∀ x ∈ [0, 2, 0], x < A.ncols by decide +kernel) x hx
  have := hops_lt ((hops_some (edges_in args.sh) hs).2 h)
  have hn : A.ncols = 7 := by decide +kernel
  omega

end Ex56

example : BcArgs id (fun a : Int => (a : Rat)) Ex56.A [0, 2, 0] ∧
    bcBatch 8 Ex56.ov id (fun a : Int => (a : Rat)) Ex56.A [0, 2, 0] = .ok [0, 2, 2, 3, 0, 0, 0] ∧
    bcAlt 7 Ex56.ov id (fun a : Int => (a : Rat)) Ex56.A [0, 2, 0] = .ok [0, 2, 2, 3, 0, 0, 0] ∧
    bcAltTrans 7 Ex56.ov id (fun a : Int => (a : Rat)) Ex56.A [0, 2, 0] = .ok [0, 2, 2, 3, 0, 0, 0] ∧
    bcAltTransV2 7 Ex56.ov id (fun a : Int => (a : Rat)) Ex56.A [0, 2, 0] = .ok [0, 2, 2, 3, 0, 0, 0] ∧
    (∀ x ∈ [0, 2, 0], ∀ v d, HopDist (fun u w => edges Ex56.A u w = true) (· = x) v d → d ≤ 10) := by
  refine ⟨Ex56.args, ?_, ?_, ?_, ?_, Ex56.near⟩
  · decide +kernel
  · decide +kernel
  · decide +kernel
  · decide +kernel

/-- **C56**: the bound is sharp. `vertex_betweenness_centrality_batch_alt_trans_v2` on a path of 12
vertices: with the limit of 10 rounds the last vertex is not reached, and every vertex
between loses the path to it. -/
theorem C56_betweenness_batch_v2_limit :
    BcArgs id (fun a : Int => (a : Rat)) Ex56.P [0] ∧
    bcAltTransV2 12 Ex56.ov id (fun a : Int => (a : Rat)) Ex56.P [0] =
      .ok [0, 9, 8, 7, 6, 5, 4, 3, 2, 1, 0, 0] ∧
    (List.range 12).map (betweenness 12 (edges Ex56.P) [0]) = [0, 10, 9, 8, 7, 6, 5, 4, 3, 2, 1, 0] := by
  refine ⟨Ex56.argsP, ?_, ?_⟩
  · decide +kernel
  · decide +kernel

end GBTL

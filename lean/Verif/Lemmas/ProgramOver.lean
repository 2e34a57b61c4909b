import Verif.Spec.ProgramOver
import Verif.Props.Miscount
import Verif.Props.Program
/- Programs with vectors that report too many elements. -/
namespace GBTL
open Spec (Outp MaskKind Accum MatCall VecCall Ans AMat AVec)

variable {tm tv : Nat → Type} {γ ζ τ α ρ μ : Type}

/-- The store with the right counts. -/
def Store.recount (s : Store tm tv) : Store tm tv := ⟨s.mat, fun x => (s.vec x).recount⟩

/-- The matrices of one store and the vectors of another. -/
def Store.withVecs (s t : Store tm tv) : Store tm tv := ⟨t.mat, s.vec⟩

theorem Store.recount_abs (s : Store tm tv) : s.recount.abs = s.abs := rfl

theorem Store.Reports.wf {s : Store tm tv} {d : Nat → Nat} (h : s.Reports d) : s.recount.WF :=
  ⟨h.mat, fun x => ⟨(h.vec x).1.recount_wf, (h.vec x).2⟩⟩

theorem BVec.WF.sized {v : BVec α} (h : v.WF) : v.Sized := ⟨h.vlen, h.blen⟩

theorem Store.WF.reports {s : Store tm tv} (h : s.WF) : s.Reports fun _ => 0 :=
  ⟨h.mat, fun x => ⟨(h.vec x).1.sized, (h.vec x).2⟩, fun x => (h.vec x).1.nvals_eq⟩

theorem setNum_self (d : Nat → Nat) (x : Nat) : setNum d x (d x) = d := by
  funext y
  unfold setNum
  split
  · next h => rw [h]
  · rfl

theorem Store.Reports.setV {s : Store tm tv} {d : Nat → Nat} (h : s.Reports d) {x k : Nat} {v : BVec (tv x)} (hv : v.Sized)
    (h0 : 0 < v.size) (hn : v.nvals = Spec.Vec.count v.size v.get + k) : (s.setV x v).Reports (setNum d x k) := by
  refine ⟨h.mat, fun y => ?_, fun y => ?_⟩
  · by_cases hy : y = x
    · subst hy; simpa [Store.setV, upd] using ⟨hv, h0⟩
    · simpa [Store.setV, upd, hy] using h.vec y
  · by_cases hy : y = x
    · subst hy; simpa [Store.setV, upd, setNum] using hn
    · simpa [Store.setV, upd, setNum, hy] using h.nvals y

theorem Store.Reports.believed {s : Store tm tv} {d : Nat → Nat} (h : s.Reports d) (x : Nat) :
    (s.vec x).believed = (s.vec x).recount ∧ ((s.vec x).nvals = 0 → (s.vec x).clear = (s.vec x).recount) := by
  have key : (s.vec x).nvals = 0 → (s.vec x).clear = (s.vec x).recount := by
    intro h0
    have hc : Spec.Vec.count (s.vec x).size (s.vec x).get = 0 := by have := h.nvals x; omega
    have hw := (h.vec x).1.recount_wf
    have hb : (s.vec x).bitmap = List.replicate (s.vec x).size false := by
      refine List.ext_getElem (by rw [(h.vec x).1.blen, List.length_replicate]) fun i h1 h2 => ?_
      rw [List.getElem_replicate]
      have := (BVec.countBits_eq_count (h.vec x).1.vlen (h.vec x).1.blen).trans hc
      rw [BVec.countBits, List.length_eq_zero_iff, List.filter_eq_nil_iff] at this
      simpa using this _ (List.getElem_mem h1)
    show BVec.mk _ _ _ _ = BVec.mk _ _ _ _
    rw [hc, hb]
  refine ⟨?_, key⟩
  unfold BVec.believed
  split
  · next h0 => exact key h0
  · rfl

/-! ### calls that do not touch vectors -/

theorem observe_map (f : Store tm tv → Store tm tv) (r : Except Err α) (s : Store tm tv) :
    observe r (f s) = (observe r s).map fun p => (p.1, f p.2) := by
  unfold observe
  split <;> rfl

theorem observeOut_map {σ : Type} (f : Store tm tv → Store tm tv) (put : σ → Store tm tv) (r : Outcome σ) :
    observeOut (fun v => f (put v)) r = (observeOut put r).map fun p => (p.1, f p.2) := by
  cases r <;> rfl

theorem observeNew_map {σ : Type} (f : Store tm tv → Store tm tv) (s : Store tm tv) (put : σ → Store tm tv) (r : Except Err σ) :
    observeNew (f s) (fun v => f (put v)) r = (observeNew s put r).map fun p => (p.1, f p.2) := by
  cases r with
  | ok v => rfl
  | error e => exact observe_map f _ s

theorem observeScalar_map (f : Store tm tv → Store tm tv) (s : Store tm tv) (r : Outcome γ) :
    observeScalar (f s) r = (observeScalar s r).map fun p => (p.1, f p.2) := by
  cases r <;> rfl

theorem observe_setM (s : Store tm tv) (x : Nat) (v : Lil (tm x)) (r : Except Err α) :
    observe r (s.setM x v) = (observe r (s.recount.setM x v)).map fun p => (p.1, s.withVecs p.2) :=
  observe_map s.withVecs r (s.recount.setM x v)

theorem observeNew_setM (s : Store tm tv) (x : Nat) (r : Except Err (Lil (tm x))) :
    observeNew s (s.setM x) r = (observeNew s.recount (s.recount.setM x) r).map fun p => (p.1, s.withVecs p.2) :=
  observeNew_map s.withVecs s.recount (s.recount.setM x) r

theorem observeOut_setM (s : Store tm tv) (x : Nat) (r : Outcome (Lil (tm x))) :
    observeOut (s.setM x) r = (observeOut (s.recount.setM x) r).map fun p => (p.1, s.withVecs p.2) :=
  observeOut_map s.withVecs (s.recount.setM x) r

theorem observeScalar_recount (s : Store tm tv) (r : Outcome γ) :
    observeScalar s r = (observeScalar s.recount r).map fun p => (p.1, s.withVecs p.2) :=
  observeScalar_map s.withVecs s.recount r

section
variable [∀ x, Inhabited (tm x)] [∀ x, Inhabited (tv x)]

/-- What is to be shown of a call. -/
def RefinesOver (s : Store tm tv) (d : Nat → Nat) (c : Stmt tm tv α) : Prop :=
  ∃ s', c.exec s = some (c.answer s.abs d, s') ∧ s'.Reports (c.surplus s.abs d (c.answer s.abs d)) ∧
    s'.abs = (c.spec s.abs).2

/-- A call that does with the store what it does with the store with the right counts, and
changes no vector. -/
theorem RefinesOver.same {s : Store tm tv} {d : Nat → Nat} (hs : s.Reports d) {c : Stmt tm tv α}
    (hh : c.handled s.abs) (ho : c.outV = none) (ha : c.answer s.abs d = (c.spec s.abs).1)
    (hd : c.surplus s.abs d (c.answer s.abs d) = d)
    (he : c.exec s = (c.exec s.recount).map fun p => (p.1, s.withVecs p.2)) : RefinesOver s d c := by
  obtain ⟨t, e, hw, h2⟩ := Stmt.refines hs.wf c hh
  refine ⟨s.withVecs t, ?_, ?_, ?_⟩
  · rw [he, e, ha]; rfl
  · rw [hd]; exact ⟨hw.mat, hs.vec, hs.nvals⟩
  · have hf := (C67_frame c _ _ _ e).2
    rw [← s.recount_abs, ← h2]
    show AStore.mk _ _ = AStore.mk _ _
    congr 1
    funext x
    show (⟨(s.vec x).size, (s.vec x).get⟩ : AVec (tv x)) = ⟨(t.vec x).size, (t.vec x).get⟩
    rw [hf x (by rw [ho]; simp)]
    rfl

omit [∀ x, Inhabited (tm x)] [∀ x, Inhabited (tv x)] in
theorem VOp.asSeen_call {s : Store tm tv} {d : Nat → Nat} (hs : s.Reports d) (e : VOp tm tv γ ζ τ) :
    (e.call s).Sized ∧ (e.call s).asSeen = e.call s.recount := by
  have hr : ∀ r : Ref, (r.operand s).WF := fun r => Ref.operand_wf hs.wf r
  cases e with
  | vxm u A sr =>
    refine ⟨⟨(hs.vec u).1, hr A⟩, ?_⟩
    show VCall.vxm _ (s.vec u).believed _ = _
    rw [(hs.believed u).1]; rfl
  | mxv A u sr =>
    refine ⟨⟨(hs.vec u).1, hr A⟩, ?_⟩
    show VCall.mxv _ _ (s.vec u).believed = _
    rw [(hs.believed u).1]; rfl
  | eWiseAdd u v f =>
    refine ⟨⟨(hs.vec u).1, (hs.vec v).1⟩, ?_⟩
    show (if _ then VCall.eWiseAdd _ _ _ else VCall.eWiseAdd _ _ _) = _
    split
    · next h => rw [(hs.believed u).2 h.1, (hs.believed v).2 h.2]; rfl
    · rfl
  | eWiseMult u v f =>
    refine ⟨⟨(hs.vec u).1, (hs.vec v).1⟩, ?_⟩
    show VCall.eWiseMult _ (s.vec u).believed (s.vec v).believed = _
    rw [(hs.believed u).1, (hs.believed v).1]; rfl
  | apply u f =>
    refine ⟨(hs.vec u).1, ?_⟩
    show VCall.apply _ (s.vec u).believed = _
    rw [(hs.believed u).1]; rfl
  | reduce A f c => exact ⟨hr A, rfl⟩
  | extract u ix => exact ⟨(hs.vec u).1, rfl⟩
  | extractCol A ri j => exact ⟨hr A, rfl⟩
  | assign keep u ix => exact ⟨(hs.vec u).1, rfl⟩
  | assignConst keep v ix => exact ⟨trivial, rfl⟩

theorem BVec.reports_bump {v : BVec α} {k : Nat} (h : v.nvals = Spec.Vec.count v.size v.get + k) : v = v.recount.bump k := by
  show BVec.mk _ _ _ _ = BVec.mk _ _ _ _
  rw [h]
  rfl

theorem eqV_over {A : BVec γ} {B : BVec α} (h : α = γ) [DecidableEq γ] (hA : A.Sized) (hB : B.Sized) {k l : Nat}
    (hk : A.nvals = Spec.Vec.count A.size A.get + k) (hl : B.nvals = Spec.Vec.count B.size B.get + l) :
    ∃ r, A.eq (castTo h B) = .ok r ∧ (r = true ↔
      (⟨A.size, A.get⟩ : AVec γ) = castTo (F := AVec) h ⟨B.size, B.get⟩ ∧ k = l) := by
  cases h
  show ∃ r, A.eq B = .ok r ∧ (r = true ↔ (⟨A.size, A.get⟩ : AVec γ) = ⟨B.size, B.get⟩ ∧ k = l)
  unfold BVec.eq
  rw [AVec.mk.injEq]
  split
  · next hn =>
    refine ⟨false, rfl, by simp, fun ⟨⟨h1, h2⟩, h3⟩ => ?_⟩
    rw [hk, hl, h1, h2, h3] at hn
    rcases hn with hn | hn <;> exact absurd rfl hn
  · next hn =>
    have hs : A.size = B.size := Classical.byContradiction fun h => hn (.inl h)
    have hv : A.nvals = B.nvals := Classical.byContradiction fun h => hn (.inr h)
    obtain ⟨r, e, hr⟩ := BVec.eqLoop_spec hA.vlen hA.blen hB.vlen hB.blen (List.range A.size)
      (fun i hi => ⟨List.mem_range.1 hi, hs ▸ List.mem_range.1 hi⟩)
    refine ⟨r, e, hr.trans ⟨fun h => ?_, fun h i _ => by rw [h.1.2]⟩⟩
    have hg : A.get = B.get := by
      funext i
      by_cases hi : i < A.size
      · exact h i (List.mem_range.2 hi)
      · rw [show A.get i = none from hA.recount_wf.get_none (v := A.recount) (by simpa using hi),
          show B.get i = none from hB.recount_wf.get_none (v := B.recount) (by simpa [← hs] using hi)]
    refine ⟨⟨hs, hg⟩, ?_⟩
    rw [hk, hl, hs, hg] at hv
    omega

/-- An operation with a vector as output. -/
theorem RefinesOver.opV {s : Store tm tv} {d : Nat → Nat} (hs : s.Reports d) {x : Nat} {mask : MaskArg tv}
    {acc : Accum (tv x) τ ζ} {castZ : ζ → tv x} {outp : Outp} {e : VOp tm tv (tv x) ζ τ}
    (hh : (Stmt.opV (tm := tm) x mask acc castZ outp e).handled s.abs) (o : VOut (tv x) τ ζ μ) (hw : o.w = s.vec x)
    (he : (Stmt.opV x mask acc castZ outp e).exec s = observeOut (s.setV x) ((e.call s).run o))
    (he' : (Stmt.opV x mask acc castZ outp e).exec s.recount = observeOut (s.recount.setV x) ((e.call s.recount).run o.recount)) :
    RefinesOver s d (Stmt.opV x mask acc castZ outp e) := by
  obtain ⟨t, e1, ht, h2⟩ := Stmt.refines hs.wf _ hh
  obtain ⟨hz, hq⟩ := VOp.asSeen_call hs e
  have hrun := vcall_run_recount (e.call s) o hz
  have hkeep := (C95_every_operation (e.call s.recount) o.recount (VOp.asSeen_call hs.wf.reports e).1).2
  rw [hq] at hrun
  rw [he'] at e1
  rw [s.recount_abs] at e1 h2
  unfold RefinesOver
  rw [he, hrun]
  show ∃ s' : Store tm tv, _ = some ((Stmt.spec s.abs _).1, s') ∧ s'.Reports (Stmt.surplus s.abs d _ (Stmt.spec s.abs _).1) ∧ _
  rw [← h2]
  cases hr : (e.call s.recount).run o.recount with
  | done v =>
    rw [hr] at e1
    injection e1 with e1
    injection e1 with e3 e4
    refine ⟨s.setV x v, by rw [← e3]; rfl, ?_, ?_⟩
    · rw [← e3]
      have hv := ht.vec x
      rw [← e4] at hv
      have hv : v.WF ∧ 0 < v.size := by simpa [Store.setV, upd] using hv
      exact hs.setV hv.1.sized hv.2 hv.1.nvals_eq
    · rw [← e4, Store.abs_setV, Store.abs_setV, s.recount_abs]
  | threw er w =>
    rw [hr] at e1
    injection e1 with e1
    injection e1 with e3 e4
    have hw' : w = s.recount.vec x := by rw [hkeep er w hr]; show o.w.recount = _; rw [hw]; rfl
    rw [hw', Store.setV_self] at e4
    refine ⟨s, ?_, by rw [← e3]; exact hs, by rw [← e4, s.recount_abs]⟩
    rw [← e3, hw]
    show some (_, s.setV x (s.vec x)) = _
    rw [Store.setV_self]
  | midway er => rw [hr] at e1; cases e1
  | ub => rw [hr] at e1; cases e1

/-- Every call that is handled does what its meaning says. -/
theorem Stmt.refinesOver {s : Store tm tv} {d : Nat → Nat} (hs : s.Reports d) (c : Stmt tm tv α) (hh : c.handledOver s.abs) :
    RefinesOver s d c := by
  have quiet : ∀ {β : Type} (c : Stmt tm tv β), (∀ b, c.surplus s.abs d (.ok b) = d) →
      c.surplus s.abs d (c.answer s.abs d) = d := by
    intro β c h
    cases c.answer s.abs d with
    | error e => cases c <;> rfl
    | ok b => exact h b
  cases c with
  | newM x m n => exact .same hs hh rfl rfl (quiet _ fun _ => rfl) rfl
  | denseM x keep rows => exact .same hs hh rfl rfl (quiet _ fun _ => rfl) (observeNew_setM s x _)
  | copyM x y h => exact .same hs hh rfl rfl (quiet _ fun _ => rfl) (observe_setM s x _ _)
  | eqM x y h _ => exact .same hs hh rfl rfl (quiet _ fun _ => rfl) rfl
  | mcall x c => exact .same hs hh rfl rfl (quiet _ fun _ => rfl) (observe_setM s x _ _)
  | buildM x dup ts => exact .same hs hh rfl rfl (quiet _ fun _ => rfl) (observe_setM s x _ _)
  | tuplesM x => exact .same hs hh rfl rfl (quiet _ fun _ => rfl) rfl
  | tuplesV x =>
    refine .same hs hh rfl rfl (quiet _ fun _ => rfl) ?_
    have : (s.recount.vec x).extractTuples = (s.vec x).extractTuples := BVec.getContents_recount _
    show observe _ _ = Option.map _ (observe _ _)
    rw [this]
    exact observe_map s.withVecs _ s.recount
  | opM x mask acc castZ outp e =>
    refine .same hs hh rfl rfl (quiet _ fun _ => rfl) ?_
    rcases mask with _ | ⟨k, z, truthy⟩ <;> exact observeOut_setM s x _
  | assignCol x mask u acc castZ outp keep ri j =>
    refine .same hs hh rfl rfl (quiet _ fun _ => rfl) ?_
    rcases mask with _ | ⟨k, z, truthy⟩
    all_goals
      show observeOut _ _ = _
      rw [(C95_assign_column_row _ keep (s.vec u) ri.idx j).1]
      exact observeOut_setM s x _
  | assignRow x mask u acc castZ outp keep i ci =>
    refine .same hs hh rfl rfl (quiet _ fun _ => rfl) ?_
    rcases mask with _ | ⟨k, z, truthy⟩
    all_goals
      show observeOut _ _ = _
      rw [(C95_assign_column_row _ keep (s.vec u) ci.idx i).2]
      exact observeOut_setM s x _
  | reduceV castZ acc f e val u c =>
    refine .same hs hh rfl rfl (quiet _ fun _ => rfl) ?_
    show observeScalar _ _ = _
    rw [C95_reduce_scalar _ _ _ _ _ (hs.vec u).1, (hs.believed u).1]
    exact observeScalar_recount s _
  | reduceM castZ acc f e val x c =>
    exact .same hs hh rfl rfl (quiet _ fun _ => rfl) (observeScalar_recount s _)
  | opV x mask acc castZ outp e =>
    rcases mask with _ | ⟨k, z, truthy⟩
    · exact .opV hs hh (⟨s.vec x, none, fun _ => true, acc, castZ, outp⟩ : VOut (tv x) _ _ Unit) rfl rfl rfl
    · exact .opV hs hh ⟨s.vec x, some (k, s.vec z), truthy, acc, castZ, outp⟩ rfl rfl rfl
  | newV x n =>
    unfold RefinesOver
    simp only [Stmt.exec, Stmt.answer, Stmt.spec]
    rcases C42_vector_new (α := tv x) n with ⟨h, e⟩ | ⟨v, e, h1, h2, h3, h4⟩
    · rw [if_pos h, e]; exact ⟨_, rfl, hs, rfl⟩
    · have hn : n ≠ 0 := by
        rintro rfl
        simp [BVec.new] at e
      rw [if_neg hn, e]
      exact ⟨_, rfl, hs.setV h1.sized (by omega) h1.nvals_eq, Store.setV_abs ⟨h1, h2, h4⟩⟩
  | denseV x xs =>
    unfold RefinesOver
    simp only [Stmt.exec, Stmt.answer, Stmt.spec]
    by_cases h : xs = []
    · subst h
      rw [if_pos rfl, show BVec.ofDense ([] : List (tv x)) = .error .invalidValue from rfl]
      exact ⟨_, rfl, hs, rfl⟩
    · rw [if_neg h]
      obtain ⟨v, e, h1, h2, h3, h4⟩ := C42_vector_dense xs h
      rw [e]
      exact ⟨_, rfl, hs.setV h1.sized (by rw [h2]; exact List.length_pos_iff.2 h) h1.nvals_eq, Store.setV_abs ⟨h1, h2, h4⟩⟩
  | copyV x y h =>
    unfold RefinesOver
    simp only [Stmt.exec, Stmt.answer, Stmt.spec]
    obtain ⟨h1, h2, -⟩ := copyV_refines (A := s.vec x) (B := s.vec y) h
    by_cases hd : (s.abs.vec x).size ≠ (s.abs.vec y).size
    · rw [if_pos hd, h1 hd]
      exact ⟨_, rfl, by rw [Store.setV_self]; exact hs, by rw [Store.setV_self]⟩
    · rw [if_neg hd, h2 hd]
      refine ⟨_, rfl, ?_, ?_⟩
      · have : ∀ {γ : Type} (h : tv y = γ), (castTo h (s.vec y) : BVec γ).Sized ∧ 0 < (castTo h (s.vec y) : BVec γ).size ∧
            (castTo h (s.vec y) : BVec γ).nvals = Spec.Vec.count (castTo h (s.vec y) : BVec γ).size (castTo h (s.vec y) : BVec γ).get + d y := by
          rintro γ rfl
          exact ⟨(hs.vec y).1, (hs.vec y).2, hs.nvals y⟩
        exact hs.setV (this h).1 (this h).2.1 (this h).2.2
      · rw [Store.abs_setV]
        congr 1
        have : ∀ {γ : Type} (h : tv y = γ), (⟨(castTo h (s.vec y) : BVec γ).size, (castTo h (s.vec y) : BVec γ).get⟩ : AVec γ) =
            castTo h (⟨(s.vec y).size, (s.vec y).get⟩ : AVec (tv y)) := by rintro γ rfl; rfl
        exact this h
  | eqV x y h _ =>
    unfold RefinesOver
    simp only [Stmt.exec, Stmt.answer, Stmt.spec]
    obtain ⟨r, e, hr⟩ := eqV_over (A := s.vec x) (B := s.vec y) h (hs.vec x).1 (hs.vec y).1 (hs.nvals x) (hs.nvals y)
    rw [e]
    refine ⟨s, ?_, hs, rfl⟩
    show some (Except.ok r, s) = _
    congr 3
    exact Bool.eq_iff_iff.2 (hr.trans (@decide_eq_true_iff _ (_)).symm)
  | vcall x c =>
    unfold RefinesOver
    have hb := bump_call (d x) (hs.vec x).1.recount_wf c
    rw [← BVec.reports_bump (hs.nvals x)] at hb
    obtain ⟨h1, h2⟩ := vsim_step (v := (s.vec x).recount) (a := s.abs.vec x) ⟨(hs.vec x).1.recount_wf, rfl, fun _ => rfl⟩ c
    have ha : (Stmt.vcall (tm := tm) x c).answer s.abs d = c.over (d x) ((s.abs.vec x).step c).1 := by cases c <;> rfl
    have hne : (Stmt.vcall (tm := tm) x c).answer s.abs d ≠ .error .ub := by
      rw [ha]
      have := vstep_ne_ub (s.abs.vec x) c
      cases c <;> first | exact this | (intro h; cases h)
    have hsur : (Stmt.vcall (tm := tm) x c).surplus s.abs d ((Stmt.vcall (tm := tm) x c).answer s.abs d) = setNum d x (c.surplus (d x)) := by
      cases c <;> try exact (quiet _ fun _ => rfl).trans (setNum_self d x).symm
      rfl
    refine ⟨s.setV x ((s.vec x).call c).2, ?_, ?_, ?_⟩
    · show observe _ _ = _
      rw [show ((s.vec x).call c).1 = (Stmt.vcall (tm := tm) x c).answer s.abs d by rw [hb, ha, h1]]
      exact observe_of _ hne
    · rw [hsur, hb]
      refine hs.setV ⟨h2.wf.vlen, h2.wf.blen⟩ (vec_call_pos (hs.vec x).1.recount_wf (hs.vec x).2 c).2 ?_
      show _ + _ = _
      rw [h2.wf.nvals_eq]
      rfl
    · rw [Store.abs_setV, hb]
      have := Store.setV_abs (s := s) h2
      rw [Store.abs_setV] at this
      exact this
  | buildV x dup ts =>
    unfold RefinesOver
    simp only [Stmt.exec, Stmt.answer, Stmt.spec]
    by_cases h : ∀ t ∈ ts, t.1 < (s.abs.vec x).size
    · rw [if_pos h]
      obtain ⟨w, e, h1, h2, h3, h4, h5⟩ := BVec.build_spec (s.vec x) dup ts h
      obtain ⟨w', e', -, hle, -⟩ := C95_methods_after_build (s.vec x) dup ts h []
      rw [e] at e'
      cases e'
      have hg : w.get = Spec.combined dup ts := funext h5
      rw [e]
      refine ⟨_, rfl, hs.setV ⟨h2, h3⟩ (by rw [h1]; exact (hs.vec x).2) ?_, ?_⟩
      · rw [h4]
        show _ = _ + (_ - Spec.Vec.count (s.vec x).size (Spec.combined dup ts))
        rw [← hg, ← h1]
        exact (Nat.add_sub_cancel' hle).symm
      · rw [Store.abs_setV, hg, h1]; rfl
    · rw [if_neg h, C03_vector_build_out_of_range (s.vec x) dup ts
        (Classical.byContradiction fun hc => h fun t ht => Classical.byContradiction fun h' =>
          hc ⟨t, ht, Nat.not_lt.1 h'⟩)]
      exact ⟨_, rfl, by rw [Store.setV_self]; exact hs, by rw [Store.setV_self]⟩

end
end GBTL

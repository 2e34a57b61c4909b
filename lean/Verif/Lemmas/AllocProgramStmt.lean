import Verif.Lemmas.AllocProgram
import Verif.Lemmas.AlgoOpt
/- Programs that run out of memory: every call that is not left out. -/
namespace GBTL
open Spec (Outp MaskKind Accum MatCall VecCall Ans AMat AVec)

variable {tm tv : Nat → Type} {γ ζ τ α β ρ μ : Type}

theorem Ref.operand_exactly (s : Store tm tv) (r : Ref) : r.operand s.exactly = (r.operand s).recount := by
  unfold Ref.operand
  cases r.tr <;> rfl

theorem Ref.operand_over {s : Store tm tv} (hs : s.Usable) (r : Ref) : (r.operand s).Over := by
  unfold Ref.operand
  cases r.tr <;> exact hs.mat r.x

theorem MOp.call_exactly (s : Store tm tv) (e : MOp tm γ ζ τ) : e.call s.exactly = (e.call s).recount := by
  cases e <;> simp only [MOp.call, Ref.operand_exactly, MCall.recount]

theorem MOp.call_over {s : Store tm tv} (hs : s.Usable) (e : MOp tm γ ζ τ) : (e.call s).Over := by
  cases e <;> simp only [MOp.call, MCall.Over] <;>
    first | exact ⟨Ref.operand_over hs _, Ref.operand_over hs _⟩ | exact Ref.operand_over hs _

theorem VOp.call_exactly (s : Store tm tv) (e : VOp tm tv γ ζ τ) : e.call s.exactly = (e.call s).recountM := by
  cases e <;> simp only [VOp.call, Ref.operand_exactly, VCall.recountM] <;> rfl

theorem VOp.call_over {s : Store tm tv} (hs : s.Usable) (e : VOp tm tv γ ζ τ) : (e.call s).OverM := by
  cases e <;> simp only [VOp.call, VCall.OverM] <;>
    first | exact ⟨(hs.vec _).1, Ref.operand_over hs _⟩ | exact ⟨Ref.operand_over hs _, (hs.vec _).1⟩ |
      exact Ref.operand_over hs _

theorem run_threw_ne {σ ρ : Type} {s s' : σ} {pre : Except Err ρ} {post : ρ → Except Err σ} {er : Err}
    (e : run s pre post = .threw er s') : er ≠ .ub := by
  rintro rfl
  obtain ⟨rfl, -⟩ := run_fail e
  cases e

/-- `write_with_opt_mask` with a mask that may be the output. -/
theorem writeSharedL_runs {truthy : μ → Bool} {castZ : ζ → γ} {C C' : Lil γ} {Z : Lil ζ}
    {k : MaskKind} {m : Arg γ μ} {outp : Outp} (work : Nat → Nat)
    (e : writeShared truthy castZ C Z (some (k, m)) outp = .ok C') :
    ∃ S new, S 0 = C ∧ S C.nrows = C' ∧ Lil.Chain S new 0 C.nrows ∧
      Runs (writeSharedL work truthy castZ Z (some (k, m)) outp) C (.ok ()) C'
        (Lil.Within S new C.nrows) := by
  obtain ⟨S, h0, h1, h2⟩ := forN_states e
  let new : Nat → Row γ := fun i =>
    applyWithMask id castZ outp ((S i).rowD i) (Z.rowD i)
      (maskRow truthy k (m.at (S i)).ncols ((m.at (S i)).rowD i))
  have hstep : ∀ i, i < C.nrows →
      (S i).row i = .ok ((S i).rowD i) ∧ Z.row i = .ok (Z.rowD i) ∧
      (m.at (S i)).row i = .ok ((m.at (S i)).rowD i) ∧
      (S i).setRow i id (new i) = .ok (S (i + 1)) := by
    intro i hi
    have hb := h2 i hi
    have row : ∀ {δ : Type} (A : Lil δ), (∃ r, A.row i = .ok r) → A.row i = .ok (A.rowD i) := by
      intro δ A ⟨r, hr⟩
      by_cases h : i < A.rows.length
      · exact Lil.row_ok h
      · rw [Lil.row, rd, List.getElem?_eq_none (by omega)] at hr; cases hr
    cases e1 : (S i).row i with
    | error x => rw [e1] at hb; cases hb
    | ok c =>
      cases e2 : Z.row i with
      | error x => rw [e1, e2] at hb; cases hb
      | ok z =>
        cases e3 : (m.at (S i)).row i with
        | error x => rw [e1, e2, e3] at hb; cases hb
        | ok mr =>
          rw [e1, e2, e3] at hb
          have a1 := (row _ ⟨c, e1⟩).symm.trans e1
          have a2 := (row _ ⟨z, e2⟩).symm.trans e2
          have a3 := (row _ ⟨mr, e3⟩).symm.trans e3
          refine ⟨a1.symm, a2.symm, a3.symm, ?_⟩
          show (S i).setRow i id (applyWithMask id castZ outp ((S i).rowD i) (Z.rowD i)
            (maskRow truthy k (m.at (S i)).ncols ((m.at (S i)).rowD i))) = _
          injection a1 with a1; injection a2 with a2; injection a3 with a3
          rw [a1, a2, a3]; exact hb
  refine ⟨S, new, h0, h1, fun i _ hi => ?_, ?_⟩
  · rw [Nat.zero_add] at hi
    exact (Lil.setRowL_within hi (hstep i hi).2.2.2 rfl).1
  · subst h0; subst h1
    refine (Runs.output _).bind (Runs.forA fun i hi => ?_)
    obtain ⟨a1, a2, a3, a4⟩ := hstep i hi
    refine (Runs.output _).bind ((Runs.lib_of a1 _).bind ((Runs.lib_of a2 _).bind
      ((Runs.lib_of a3 _).bind ((Runs.requests ⟨i, hi, .inl rfl⟩ _).bind ?_))))
    exact (Lil.setRowL_within hi a4 rfl).2

theorem MCall.runSharedL_over {c : MCall γ τ ζ} {C C' : Lil γ} {M : ArgMask γ μ} {truthy : μ → Bool}
    {acc : Accum γ τ ζ} {castZ : ζ → γ} {outp : Outp} (hC : C.Over)
    (hC' : C'.WFr) (e : c.runShared C M truthy acc castZ outp = .done C') (prep : Nat) (work : Nat → Nat) :
    Runs (c.runSharedL prep work M truthy acc castZ outp) C (.ok ()) C'
      fun left => left.Over ∧ left.nrows = C.nrows ∧ left.ncols = C.ncols := by
  unfold MCall.runShared at e
  obtain ⟨Z, e1, e2⟩ := run_ret e
  refine (Runs.requests ⟨hC, rfl, rfl⟩ _).bind ((Runs.output _).bind ((Runs.lib_of e1 _).bind ?_))
  rcases M with _ | ⟨k, m⟩
  · obtain ⟨S, new, h0, h1, h2, h3⟩ := sparseCopyL_runs work e2 hC.wfr.len
    refine h3.mono fun c hc => ?_
    have := h2.over (by rw [h0]; exact (Lil.clear_wf hC.wfr).over) (by rw [h1]; exact hC') hc
    rwa [h0] at this
  · obtain ⟨S, new, h0, h1, h2, h3⟩ := writeSharedL_runs work e2
    refine h3.mono fun c hc => ?_
    have := h2.over (by rw [h0]; exact hC) (by rw [h1]; exact hC') hc
    rwa [h0] at this

theorem MCall.runSharedL_threw {c : MCall γ τ ζ} {C X : Lil γ} {M : ArgMask γ μ} {truthy : μ → Bool}
    {acc : Accum γ τ ζ} {castZ : ζ → γ} {outp : Outp} {er : Err}
    (e : c.runShared C M truthy acc castZ outp = .threw er X) (prep : Nat) (work : Nat → Nat) :
    Runs (c.runSharedL prep work M truthy acc castZ outp) C (.error er) C (· = C) :=
  Runs.bind (s1 := C) (a := ()) (Runs.requests (by rfl) _)
    ((Runs.output _).bind (Runs.bind_err (Runs.lib_of (run_fail e).1 _)))

theorem Lil.setElementMerge_shape (A : Lil α) (i j : Nat) (x : α) (f : α → α → α) :
    (A.setElementMerge i j x f).2.nrows = A.nrows ∧ (A.setElementMerge i j x f).2.ncols = A.ncols := by
  unfold Lil.setElementMerge
  repeat' split
  all_goals exact ⟨rfl, rfl⟩

theorem Lil.build_shape (dup : α → α → α) : ∀ (ts : List (Nat × Nat × α)) (A : Lil α),
    (A.build dup ts).2.nrows = A.nrows ∧ (A.build dup ts).2.ncols = A.ncols
  | [], _ => ⟨rfl, rfl⟩
  | (i, j, x) :: ts, A => by
    have h := A.setElementMerge_shape i j x dup
    rw [Lil.build]
    rcases hq : A.setElementMerge i j x dup with ⟨_ | _, B⟩ <;> rw [hq] at h
    · exact h
    · exact ⟨(build_shape dup ts B).1.trans h.1, (build_shape dup ts B).2.trans h.2⟩

theorem Lil.setColL_over {cast : β → α} {j : Nat} {col : Row β} {A t : Lil α}
    (hA : A.Over) (hj : j < A.ncols) (e : A.setCol j cast col = .ok t) :
    Runs (setColL j cast col) A (.ok ()) t fun c => c.Over ∧ c.nrows = A.nrows ∧ c.ncols = A.ncols := by
  rw [setCol, List.range_eq_range'] at e
  obtain ⟨S, new, h0, h1, h2, h4, h3⟩ := setColLoopL_runs cast j A.nrows 0 col A t e
  rw [Nat.zero_add] at h1
  have main : Runs (setColLoopL cast j (List.range A.nrows) col) A (.ok ()) t fun c =>
      c.Over ∧ c.nrows = A.nrows ∧ c.ncols = A.ncols := by
    rw [List.range_eq_range']
    refine h3.mono fun c ⟨i, _, hi, hc⟩ => ?_
    rw [Nat.zero_add] at hi
    have hle := hA.le
    have hcount := (h2.upTo (Nat.le_of_lt hi)).countMore (d := A.nvals - A.stored) (by rw [h0]; omega)
    rw [Nat.zero_add, ← hc] at hcount
    have hwf : c.WFr := by rw [hc]; exact h4 hA.wfr hj i (by omega) (by omega)
    have hsi := (h2.upTo (Nat.le_of_lt hi)).shape
    rw [Nat.zero_add] at hsi
    rw [h0, ← hc] at hsi
    exact ⟨⟨hwf, by omega⟩, hsi.1, hsi.2.1⟩
  exact (Runs.output _).bind main

theorem assignColL_over [Inhabited γ] {o : LOut γ α ζ μ} {keep : γ → ζ} {u : BVec α} {ri : Idx} {j : Nat}
    {C' : Lil γ} (hC : o.C.Over) (hj : j < o.C.ncols) (e : assignCol o keep u ri j = .done C') (prep : Nat) :
    Runs (assignColL prep o keep u ri j) o.C (.ok ()) C' fun c =>
      c.Over ∧ c.nrows = o.C.nrows ∧ c.ncols = o.C.ncols := by
  rw [assignCol_eq_pre] at e
  obtain ⟨col, e1, e2⟩ := run_ret e
  exact (Runs.requests ⟨hC, rfl, rfl⟩ _).bind ((Runs.output _).bind ((Runs.lib_of e1 _).bind
    (Lil.setColL_over hC hj e2)))

theorem assignRowL_over [Inhabited γ] {o : LOut γ α ζ μ} {keep : γ → ζ} {u : BVec α} {i : Nat} {ci : Idx}
    {C' : Lil γ} (hC : o.C.Over) (hC' : C'.WFr) (e : assignRow o keep u i ci = .done C') (prep : Nat) :
    Runs (assignRowL prep o keep u i ci) o.C (.ok ()) C' fun c =>
      c.Over ∧ c.nrows = o.C.nrows ∧ c.ncols = o.C.ncols := by
  rw [assignRow_eq_pre] at e
  obtain ⟨row, e1, e2⟩ := run_ret e
  refine (Runs.requests ⟨hC, rfl, rfl⟩ _).bind ((Runs.output _).bind ((Runs.lib_of e1 _).bind ?_))
  obtain ⟨hlt, e3⟩ := Lil.setRow_put e2
  rw [Row.cast_id] at e3
  have hr : C'.rowD i = row := by
    rw [e3]; exact (Lil.rowD_set hlt rfl).trans (if_pos rfl)
  have hn : C'.ncols = o.C.ncols := by rw [e3]; rfl
  have := Lil.setRowL_runs (F := fun c => c.Over ∧ c.nrows = o.C.nrows ∧ c.ncols = o.C.ncols) hlt id row (by
    intro l hl
    rw [Row.cast_id]
    refine ⟨⟨⟨?_, fun r hm => ?_⟩, ?_⟩, rfl, rfl⟩
    · show (o.C.rows.set i _).length = o.C.nrows
      rw [List.length_set]; exact hC.wfr.len
    · obtain ⟨k, hk, rfl⟩ := List.mem_iff_getElem.1 hm
      rw [← Lil.rowD_of_lt hk, show (o.C.put i (row.take l) _).rowD k = _ from Lil.rowD_set hlt rfl]
      show Row.OK o.C.ncols _
      split
      · rw [← hr, ← hn]; exact (hC'.rowD_ok i).take l
      · exact hC.wfr.rowD_ok k
    · have h1 := Lil.stored_put hlt (row.take l) (o.C.nvals + row.length - (o.C.rowD i).length)
      rw [List.length_take] at h1
      have h2 := hC.le
      show _ ≤ o.C.nvals + row.length - (o.C.rowD i).length
      omega)
  rw [Row.cast_id, ← e3] at this
  exact this

theorem assignRowL_threw [Inhabited γ] {o : LOut γ α ζ μ} {keep : γ → ζ} {u : BVec α} {i : Nat} {ci : Idx}
    {X : Lil γ} {er : Err} (e : assignRow o keep u i ci = .threw er X) (prep : Nat) :
    Runs (assignRowL prep o keep u i ci) o.C (.error er) o.C (· = o.C) := by
  rw [assignRow_eq_pre] at e
  exact Runs.bind (s1 := o.C) (a := ()) (Runs.requests (by rfl) _)
    ((Runs.output _).bind (Runs.bind_err (Runs.lib_of (run_fail e).1 _)))

theorem assignColL_threw [Inhabited γ] {o : LOut γ α ζ μ} {keep : γ → ζ} {u : BVec α} {ri : Idx} {j : Nat}
    {X : Lil γ} {er : Err} (e : assignCol o keep u ri j = .threw er X) (prep : Nat) :
    Runs (assignColL prep o keep u ri j) o.C (.error er) o.C (· = o.C) := by
  rw [assignCol_eq_pre] at e
  exact Runs.bind (s1 := o.C) (a := ()) (Runs.requests (by rfl) _)
    ((Runs.output _).bind (Runs.bind_err (Runs.lib_of (run_fail e).1 _)))

section
variable [∀ x, Inhabited (tm x)] [∀ x, Inhabited (tv x)]

/-- An operation that writes a matrix. -/
theorem Settles.opM {s : Store tm tv} (hs : s.Usable) {c : Stmt tm tv Unit} {x : Nat} (ht : c.tears = some x)
    (e : MOp tm (tm x) ζ τ) {M : ArgMask (tm x) μ} (o : MOut (tm x) τ ζ μ) (hC : o.C = s.mat x) (hM : o.M = M.at o.C) (ho : o.Over)
    (hx : c.exec s.exactly = observeOut (s.exactly.setM x) ((e.call s.exactly).run o.recount))
    (he : ∀ m, c.execL m s = s.onM x m.mem
      ((e.call s).runSharedL m.prep m.work M o.truthy o.acc o.castZ o.outp))
    (hh : c.handled s.abs) : Settles s c := by
  obtain ⟨t, h1, h2, h3⟩ := Stmt.refines hs.exactly c hh
  rw [s.exactly_abs] at h1 h3
  obtain ⟨k1, k2, -⟩ := C99_matrix_operation (e.call s) o (MOp.call_over hs e) ho
  rw [hx, MOp.call_exactly] at h1
  have hsh : (e.call s).runShared o.C M o.truthy o.acc o.castZ o.outp = (e.call s).run o := by
    rw [MCall.runShared_eq, ← hM]
  cases hr : (e.call s).recount.run o.recount with
  | done C' =>
    rw [hr] at h1
    have h4 := congrArg Prod.fst (Option.some.inj h1)
    have h5 := congrArg Prod.snd (Option.some.inj h1)
    dsimp only at h4 h5
    have hCw : C'.WF := by
      have := h2.mat x
      rw [← h5] at this
      simpa only [Store.setM, upd_same] using this
    have hk := k1 C' hr
    refine Settles.onM hs 
      (act := fun p w => (e.call s).runSharedL p w M o.truthy o.acc o.castZ o.outp) (res := .ok ()) (A' := C'.more o.left) he (fun p w => ?_) (hCw.more_over _) (by simp) ?_
    · have := MCall.runSharedL_over (by rw [hC]; exact hs.mat x) (hCw.more_over _).wfr (hsh.trans hk) p w
      rw [hC] at this
      exact this.mono fun l hl => ⟨hl.1, hl.2, .inl ht⟩
    · rw [Store.setM_more_abs, h5, h3]
      exact Prod.ext h4.symm rfl
  | threw er X =>
    rw [hr] at h1
    have h4 := congrArg Prod.fst (Option.some.inj h1)
    have h5 := congrArg Prod.snd (Option.some.inj h1)
    dsimp only at h4 h5
    have hX : X = o.recount.C := by
      rw [MCall.run_eq_pre] at hr
      exact (run_fail hr).2
    have hk := k2 er X hr
    refine Settles.onM hs 
      (act := fun p w => (e.call s).runSharedL p w M o.truthy o.acc o.castZ o.outp) (res := .error er) (A' := s.mat x) he (fun p w => ?_) (hs.mat x) ?_ ?_
    · have := MCall.runSharedL_threw (hsh.trans hk) p w
      rw [hC] at this
      exact this.mono fun l hl => by subst hl; exact ⟨hs.mat x, ⟨rfl, rfl⟩, .inr rfl⟩
    · rw [MCall.run_eq_pre] at hr
      intro h; cases h
      exact run_threw_ne hr rfl
    · have hX' : X = s.exactly.mat x := by rw [hX]; show o.C.recount = _; rw [hC]; rfl
      rw [Store.setM_self]
      refine Prod.ext h4.symm ?_
      rw [← h3, ← h5, hX', Store.setM_self]
      rfl
  | midway er => rw [hr] at h1; cases h1
  | ub => rw [hr] at h1; cases h1

/-- The assignment of a row or a column. -/
theorem Settles.lineM {s : Store tm tv} (hs : s.Usable) {c : Stmt tm tv Unit} {x : Nat} (ht : c.tears = some x)
    {out : Outcome (Lil (tm x))} {d : Nat} {act : Nat → Act Nat (Lil (tm x)) BadAlloc Unit}
    (hx : c.exec s.exactly = observeOut (s.exactly.setM x) out)
    (he : ∀ m, c.execL m s = s.onM x m.mem (act m.prep))
    (hdone : ∀ C', out = .done C' → C'.WF → ∀ p, Runs (act p) (s.mat x) (.ok ()) (C'.more d) fun l =>
      l.Over ∧ l.nrows = (s.mat x).nrows ∧ l.ncols = (s.mat x).ncols)
    (hthrew : ∀ er X, out = .threw er X → X = s.exactly.mat x ∧ er ≠ .ub ∧
      ∀ p, Runs (act p) (s.mat x) (.error er) (s.mat x) (· = s.mat x))
    (hh : c.handled s.abs) : Settles s c := by
  obtain ⟨t, h1, h2, h3⟩ := Stmt.refines hs.exactly c hh
  rw [s.exactly_abs] at h1 h3
  rw [hx] at h1
  cases out with
  | done C' =>
    have h4 := congrArg Prod.fst (Option.some.inj h1)
    have h5 := congrArg Prod.snd (Option.some.inj h1)
    dsimp only at h4 h5
    have hCw : C'.WF := by
      have := h2.mat x
      rw [← h5] at this
      simpa only [Store.setM, upd_same] using this
    refine Settles.onM hs (act := fun p _ => act p) (res := .ok ()) (A' := C'.more d) he
      (fun p _ => (hdone C' rfl hCw p).mono fun l hl => ⟨hl.1, hl.2, .inl ht⟩) (hCw.more_over _) (by simp) ?_
    rw [Store.setM_more_abs, h5, h3]
    exact Prod.ext h4.symm rfl
  | threw er X =>
    have h4 := congrArg Prod.fst (Option.some.inj h1)
    have h5 := congrArg Prod.snd (Option.some.inj h1)
    dsimp only at h4 h5
    obtain ⟨hX, hne, hr⟩ := hthrew er X rfl
    refine Settles.onM hs (act := fun p _ => act p) (res := .error er) (A' := s.mat x) he
      (fun p _ => (hr p).mono fun l hl => by subst hl; exact ⟨hs.mat x, ⟨rfl, rfl⟩, .inr rfl⟩) (hs.mat x)
      (fun h => hne (Except.error.inj h)) ?_
    rw [Store.setM_self]
    refine Prod.ext h4.symm ?_
    rw [← h3, ← h5, hX, Store.setM_self]
    rfl
  | midway er => cases h1
  | ub => cases h1

theorem Settles.assignRow {s : Store tm tv} (hs : s.Usable) {c : Stmt tm tv Unit} {x : Nat}
    (ht : c.tears = some x) (o : LOut (tm x) α ζ μ) (hC : o.C = s.mat x) (keep : tm x → ζ) (u : BVec α)
    (i : Nat) (ci : Idx)
    (hx : c.exec s.exactly = observeOut (s.exactly.setM x)
      (GBTL.assignRow { o with C := o.C.recount } keep u i ci))
    (he : ∀ m, c.execL m s = s.onM x m.mem (assignRowL m.prep o keep u i ci))
    (hh : c.handled s.abs) : Settles s c := by
  have hO : o.C.Over := by rw [hC]; exact hs.mat x
  obtain ⟨k1, k2, -⟩ := C99_assign_row_column o keep u ci i hO
  refine .lineM hs ht (d := o.C.excess) (act := fun p => assignRowL p o keep u i ci) hx he ?_ ?_ hh
  · intro C' e hw p
    have := assignRowL_over hO (hw.more_over _).wfr (k1 C' e) p
    rwa [hC] at this ⊢
  · intro er X e
    refine ⟨?_, ?_, fun p => ?_⟩
    · rw [assignRow_eq_pre] at e
      rw [(run_fail e).2]
      show o.C.recount = _
      rw [hC]; rfl
    · rw [assignRow_eq_pre] at e; exact run_threw_ne e
    · have := assignRowL_threw (k2 er X e) p
      rwa [hC] at this

theorem Settles.assignCol {s : Store tm tv} (hs : s.Usable) {c : Stmt tm tv Unit} {x : Nat}
    (ht : c.tears = some x) (o : LOut (tm x) α ζ μ) (hC : o.C = s.mat x) (keep : tm x → ζ) (u : BVec α)
    (ri : Idx) (j : Nat)
    (hx : c.exec s.exactly = observeOut (s.exactly.setM x)
      (GBTL.assignCol { o with C := o.C.recount } keep u ri j))
    (he : ∀ m, c.execL m s = s.onM x m.mem (assignColL m.prep o keep u ri j))
    (hh : c.handled s.abs) : Settles s c := by
  have hO : o.C.Over := by rw [hC]; exact hs.mat x
  obtain ⟨-, -, k1, k2⟩ := C99_assign_row_column o keep u ri j hO
  refine .lineM hs ht (d := o.C.excess) (act := fun p => assignColL p o keep u ri j) hx he ?_ ?_ hh
  · intro C' e hw p
    have := assignColL_over hO (assignCol_done (k1 C' e)).2.2.1 (k1 C' e) p
    rwa [hC] at this ⊢
  · intro er X e
    refine ⟨?_, ?_, fun p => ?_⟩
    · rw [assignCol_eq_pre] at e
      rw [(run_fail e).2]
      show o.C.recount = _
      rw [hC]; rfl
    · rw [assignCol_eq_pre] at e; exact run_threw_ne e
    · have := assignColL_threw (k2 er X e) p
      rwa [hC] at this

/-- An operation that writes a vector. -/
theorem Settles.opV {s : Store tm tv} (hs : s.Usable) {c : Stmt tm tv Unit} {x : Nat}
    (e : VOp tm tv (tv x) ζ τ) (o : VOut (tv x) τ ζ μ) (hw : o.w = s.vec x)
    (hx : c.exec s.exactly = observeOut (s.exactly.setV x) ((e.call s.exactly).run o))
    (he : ∀ m, c.execL m s = s.onV x m.mem ((e.call s).runL m.prep (m.work 0) o))
    (hh : c.handled s.abs) : Settles s c := by
  obtain ⟨t, h1, h2, h3⟩ := Stmt.refines hs.exactly c hh
  rw [s.exactly_abs] at h1 h3
  rw [hx, VOp.call_exactly, ← C99_vector_operation _ o (VOp.call_over hs e)] at h1
  have hO : o.w.WF := by rw [hw]; exact (hs.vec x).1
  cases hr : (e.call s).run o with
  | done w' =>
    rw [hr] at h1
    have h4 := congrArg Prod.fst (Option.some.inj h1)
    have h5 := congrArg Prod.snd (Option.some.inj h1)
    dsimp only at h4 h5
    refine Settles.onV hs (act := fun p w => (e.call s).runL p (w 0) o) (res := .ok ()) (v' := w') he
      (fun p w => ?_) ⟨hs.mat, ?_⟩ (by simp) (Prod.ext h4.symm ?_)
    · have := VCall.runL_done hO hr p (w 0)
      rwa [hw] at this
    · have := h2.vec
      rw [← h5] at this
      exact this
    · rw [← h3, ← h5]
      rfl
  | threw er X =>
    rw [hr] at h1
    have h4 := congrArg Prod.fst (Option.some.inj h1)
    have h5 := congrArg Prod.snd (Option.some.inj h1)
    dsimp only at h4 h5
    have hX : X = s.vec x := by
      rw [VCall.run_eq_pre] at hr
      rw [← hw]
      exact (run_fail hr).2
    refine Settles.onV hs (act := fun p w => (e.call s).runL p (w 0) o) (res := .error er) (v' := s.vec x) he
      (fun p w => ?_) (by rw [Store.setV_self]; exact hs) ?_ (Prod.ext h4.symm ?_)
    · have := VCall.runL_threw hr p (w 0)
      rwa [hw] at this
    · rw [VCall.run_eq_pre] at hr
      intro h; cases h
      exact run_threw_ne hr rfl
    · rw [← h3, ← h5, hX]
      rfl
  | midway er => rw [hr] at h1; cases h1
  | ub => rw [hr] at h1; cases h1

theorem observe_ret {r : Except Err α} {s : Store tm tv} {q : Except Err α × Store tm tv}
    (h : observe r s = some q) : q = (r, s) ∧ r ≠ .error .ub := by
  unfold observe at h
  split at h
  · cases h
  · next h' => cases h; exact ⟨rfl, fun h => h' h⟩

/-- A call that changes nothing. -/
theorem Settles.read {s : Store tm tv} (hs : s.Usable) {c : Stmt tm tv α} {r : Except Err α}
    (he : ∀ m, c.execL m s = m.first s (c.exec s)) (hx : c.exec s.exactly = observe r s.exactly)
    (hx' : c.exec s = observe r s) (hh : c.handled s.abs) : Settles s c := by
  obtain ⟨t, h1, h2, h3⟩ := Stmt.refines hs.exactly c hh
  rw [s.exactly_abs] at h1 h3
  rw [hx] at h1
  obtain ⟨h4, h5⟩ := observe_ret h1
  have h6 := congrArg Prod.fst h4
  have h7 := congrArg Prod.snd h4
  dsimp only at h6 h7
  refine .first hs he (s' := s) ?_ hs ?_
  · rw [hx', observe_of _ h5, h6]
  · rw [← h3, h7]; rfl

/-- A call that makes a matrix. -/
theorem Settles.makeM {s : Store tm tv} (hs : s.Usable) {c : Stmt tm tv Unit} {x : Nat}
    {r : Except Err (Lil (tm x))} (he : ∀ m, c.execL m s = m.first s (c.exec s))
    (hx : c.exec s.exactly = observeNew s.exactly (s.exactly.setM x) r)
    (hx' : c.exec s = observeNew s (s.setM x) r) (hh : c.handled s.abs) : Settles s c := by
  cases r with
  | error e => exact .read hs he hx hx' hh
  | ok A =>
    obtain ⟨t, h1, h2, h3⟩ := Stmt.refines hs.exactly c hh
    rw [s.exactly_abs] at h1 h3
    rw [hx] at h1
    have h4 := congrArg Prod.fst (Option.some.inj h1)
    have h5 := congrArg Prod.snd (Option.some.inj h1)
    dsimp only at h4 h5
    have hA : A.WF := by
      have := h2.mat x
      rw [← h5] at this
      simpa only [Store.setM, upd_same] using this
    refine .first hs he (s' := s.setM x A) ?_ (hs.setM hA.over) ?_
    · rw [hx', ← h4]; rfl
    · rw [← h3, ← h5]; exact s.setM_more_abs x A 0

/-- A call that makes a vector. -/
theorem Settles.makeV {s : Store tm tv} (hs : s.Usable) {c : Stmt tm tv Unit} {x : Nat}
    {r : Except Err (BVec (tv x))} (he : ∀ m, c.execL m s = m.first s (c.exec s))
    (hx : c.exec s.exactly = observeNew s.exactly (s.exactly.setV x) r)
    (hx' : c.exec s = observeNew s (s.setV x) r) (hh : c.handled s.abs) : Settles s c := by
  cases r with
  | error e => exact .read hs he hx hx' hh
  | ok v =>
    obtain ⟨t, h1, h2, h3⟩ := Stmt.refines hs.exactly c hh
    rw [s.exactly_abs] at h1 h3
    rw [hx] at h1
    have h4 := congrArg Prod.fst (Option.some.inj h1)
    have h5 := congrArg Prod.snd (Option.some.inj h1)
    dsimp only at h4 h5
    refine .first hs he (s' := s.setV x v) ?_ ⟨hs.mat, ?_⟩ ?_
    · rw [hx', ← h4]; rfl
    · have := h2.vec
      rw [← h5] at this
      exact this
    · rw [← h3, ← h5]; rfl

/-- A method of a vector. -/
theorem Settles.methodV {s : Store tm tv} (hs : s.Usable) {c : Stmt tm tv α} {x : Nat}
    {act : Act Nat (BVec (tv x)) BadAlloc α} {r : Except Err α × BVec (tv x)}
    (he : ∀ m, c.execL m s = s.onV x m.mem act)
    (hr : Runs act (s.vec x) r.1 r.2 (· = s.vec x))
    (hx : c.exec s.exactly = observe r.1 (s.exactly.setV x r.2)) (hh : c.handled s.abs) : Settles s c := by
  obtain ⟨t, h1, h2, h3⟩ := Stmt.refines hs.exactly c hh
  rw [s.exactly_abs] at h1 h3
  rw [hx] at h1
  obtain ⟨h4, h5⟩ := observe_ret h1
  have h6 := congrArg Prod.fst h4
  have h7 := congrArg Prod.snd h4
  dsimp only at h6 h7
  refine .onV hs (act := fun _ _ => act) he (fun _ _ => hr) ⟨hs.mat, ?_⟩ h5 (Prod.ext h6 ?_)
  · have := h2.vec
    rw [h7] at this
    exact this
  · rw [← h3, h7]; rfl

theorem castTo_wf {α β : Type} (h : α = β) {v : BVec α} (hv : v.WF) : (castTo h v).WF := by
  subst h; exact hv

/-- A reduction to a scalar. -/
theorem Settles.scalar {s : Store tm tv} (hs : s.Usable) {c : Stmt tm tv γ} {o : Outcome γ}
    (he : ∀ m, c.execL m s = m.first s (c.exec s)) (hx : c.exec s.exactly = observeScalar s.exactly o)
    (hx' : c.exec s = observeScalar s o) (hh : c.handled s.abs) : Settles s c := by
  obtain ⟨t, h1, h2, h3⟩ := Stmt.refines hs.exactly c hh
  rw [s.exactly_abs] at h1 h3
  rw [hx] at h1
  have h5 : observeScalar s o = some ((c.spec s.abs).1, s) ∧ t = s.exactly := by
    cases o with
    | done v | threw e v =>
      have h4 := congrArg Prod.fst (Option.some.inj h1)
      have h5 := congrArg Prod.snd (Option.some.inj h1)
      dsimp only at h4 h5
      exact ⟨by rw [← h4]; rfl, h5.symm⟩
    | midway e | ub => cases h1
  refine .first hs he (s' := s) (by rw [hx', h5.1]) hs ?_
  rw [← h3, h5.2]; rfl

/-- A method of a matrix. -/
theorem Settles.methodM {s : Store tm tv} (hs : s.Usable) {c : Stmt tm tv α} {x : Nat}
    {act : Act Nat (Lil (tm x)) BadAlloc α} {r : Except Err α} {B : Lil (tm x)} {d : Nat}
    (he : ∀ m, c.execL m s = s.onM x m.mem act)
    (hr : Runs act (s.mat x) r (B.more d) fun l => l.Over ∧ (l.nrows = (s.mat x).nrows ∧
      l.ncols = (s.mat x).ncols) ∧ (c.tears = some x ∨ l = s.mat x))
    (hx : c.exec s.exactly = observe r (s.exactly.setM x B)) (hh : c.handled s.abs) : Settles s c := by
  obtain ⟨t, h1, h2, h3⟩ := Stmt.refines hs.exactly c hh
  rw [s.exactly_abs] at h1 h3
  rw [hx] at h1
  obtain ⟨h4, h5⟩ := observe_ret h1
  have h6 := congrArg Prod.fst h4
  have h7 := congrArg Prod.snd h4
  dsimp only at h6 h7
  have hB : B.WF := by
    have := h2.mat x
    rw [h7] at this
    simpa only [Store.setM, upd_same] using this
  refine .onM hs (act := fun _ _ => act) he (fun _ _ => hr) (hB.more_over d) h5 (Prod.ext h6 ?_)
  rw [← h3, h7]
  exact (s.setM_more_abs x B d).symm

/-- Every call that is not left out. -/
theorem Stmt.settles {s : Store tm tv} (hs : s.Usable) (c : Stmt tm tv α) (hh : c.handled s.abs)
    (hc : c.steady) : Settles s c := by
  cases c with
  | newM x m n => exact .makeM hs (r := .ok (Lil.new m n)) (fun _ => rfl) rfl rfl hh
  | newV x n => exact .makeV hs (fun _ => rfl) rfl rfl hh
  | denseM x keep rows => exact .makeM hs (fun _ => rfl) rfl rfl hh
  | denseV x xs => exact .makeV hs (fun _ => rfl) rfl rfl hh
  | copyM x y h => exact hc.elim
  | copyV x y h =>
    exact .methodV hs (fun _ => rfl) (BVec.assignFromL_runs (hs.vec x).1 (castTo_wf h (hs.vec y).1)) rfl hh
  | eqM x y h d => exact hc.elim
  | eqV x y h d => exact .read hs (fun _ => rfl) rfl rfl hh
  | mcall x c =>
    have h := Lil.more_call (hs.mat x).recount_wf (s.mat x).excess c
    rw [← (hs.mat x).eq_more] at h
    have hr := Lil.callL_runs (s.mat x) c
    rw [h] at hr
    refine .methodM hs (fun _ => rfl)
      (hr.mono fun l hl => by subst hl; exact ⟨hs.mat x, ⟨rfl, rfl⟩, .inr rfl⟩) ?_ hh
    have : c.over (s.mat x).excess ((s.mat x).recount.call c).1 = ((s.mat x).recount.call c).1 := by
      cases c <;> first | rfl | exact hc.elim
    rw [this]; rfl
  | vcall x c =>
    refine .methodV hs (fun _ => rfl) (BVec.callL_runs (hs.vec x).1 c ?_) rfl hh
    rintro n rfl; exact hc
  | buildM x dup ts =>
    have hw := (hs.mat x).recount_wf
    have hm : ∀ us, (s.mat x).build dup us = (((s.mat x).recount.build dup us).1,
        ((s.mat x).recount.build dup us).2.more (s.mat x).excess) := fun us => by
      rw [← Lil.build_more, ← (hs.mat x).eq_more]
    have hr := Lil.buildL_runs dup ts (s.mat x)
    rw [hm] at hr
    refine .methodM hs (fun _ => rfl) (hr.mono fun l hl => ?_) rfl hh
    obtain ⟨k, -, hk⟩ := hl
    rw [hm] at hk
    have hl := congrArg Prod.snd hk
    dsimp only at hl
    subst hl
    exact ⟨(build_wf _ _ _ hw).more_over _, Lil.build_shape dup (ts.take k) (s.mat x).recount, .inl rfl⟩
  | buildV x dup ts => exact .methodV hs (fun _ => rfl) (BVec.buildL_runs (s.vec x) dup ts) rfl hh
  | tuplesM x => exact .read hs (r := .ok (s.mat x).extractTuples) (fun _ => rfl) rfl rfl hh
  | tuplesV x => exact .read hs (fun _ => rfl) rfl rfl hh
  | opM x mask acc castZ outp e =>
    rcases mask with _ | ⟨k, z, truthy⟩
    · refine .opM hs rfl e (μ := Unit) ⟨s.mat x, none, fun _ => true, acc, castZ, outp⟩ rfl rfl
        ⟨hs.mat x, fun k M h => nomatch h⟩ ?_ (fun _ => rfl) hh
      simp only [Stmt.exec, MCall.runShared_eq]
      rfl
    · refine .opM hs rfl e ⟨s.mat x, some (k, s.mat z), truthy, acc, castZ, outp⟩ rfl (matMask_at s x k z).symm
        ⟨hs.mat x, fun k M h => by cases h; exact hs.mat z⟩ ?_ (fun _ => rfl) hh
      simp only [Stmt.exec, MCall.runShared_eq, matMask_at]
      rfl
  | opV x mask acc castZ outp e =>
    rcases mask with _ | ⟨k, z, truthy⟩
    · exact .opV hs e (μ := Unit) ⟨s.vec x, none, fun _ => true, acc, castZ, outp⟩ rfl rfl (fun _ => rfl) hh
    · exact .opV hs e ⟨s.vec x, some (k, s.vec z), truthy, acc, castZ, outp⟩ rfl rfl (fun _ => rfl) hh
  | assignCol x mask u acc castZ outp keep ri j =>
    rcases mask with _ | ⟨k, z, truthy⟩
    · exact .assignCol hs rfl (μ := Unit) ⟨s.mat x, none, fun _ => true, acc, castZ, outp⟩ rfl keep (s.vec u) ri.idx
        j rfl (fun _ => rfl) hh
    · exact .assignCol hs rfl ⟨s.mat x, some (k, s.vec z), truthy, acc, castZ, outp⟩ rfl keep (s.vec u) ri.idx
        j rfl (fun _ => rfl) hh
  | assignRow x mask u acc castZ outp keep i ci =>
    rcases mask with _ | ⟨k, z, truthy⟩
    · exact .assignRow hs rfl (μ := Unit) ⟨s.mat x, none, fun _ => true, acc, castZ, outp⟩ rfl keep (s.vec u) i
        ci.idx rfl (fun _ => rfl) hh
    · exact .assignRow hs rfl ⟨s.mat x, some (k, s.vec z), truthy, acc, castZ, outp⟩ rfl keep (s.vec u) i
        ci.idx rfl (fun _ => rfl) hh
  | reduceV castZ acc f e val u c => exact .scalar hs (fun _ => rfl) rfl rfl hh
  | reduceM castZ acc f e val x c =>
    refine .scalar hs (fun _ => rfl) rfl ?_ hh
    simp only [Stmt.exec]
    rw [C99_reduce_scalar _ _ _ _ _ _ (show (Operand.plain (s.mat x)).Over from hs.mat x)]
    rfl

end
end GBTL

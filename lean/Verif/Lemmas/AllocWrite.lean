import Verif.Lemmas.AllocMat
/-
Writing a matrix row by row when memory runs out: `sparse_copy`, `write_with_opt_mask`,
`setCol`, and the operations.
-/
namespace GBTL
open Spec (Outp MaskKind Op)
open Act (call lib output store)

variable {α β γ ζ τ μ χ σ : Type}

/-- The states of a loop that returns. -/
theorem forN_states {n : Nat} {s t : σ} {body : Nat → σ → Except Err σ} (e : forN n s body = .ok t) :
    ∃ S : Nat → σ, S 0 = s ∧ S n = t ∧ ∀ i, i < n → body i (S i) = .ok (S (i + 1)) := by
  have main : ∀ (n k : Nat) (s : σ), (List.range' k n).foldlM (fun s i => body i s) s = .ok t →
      ∃ S : Nat → σ, S k = s ∧ S (k + n) = t ∧ ∀ i, k ≤ i → i < k + n → body i (S i) = .ok (S (i + 1)) := by
    intro n
    induction n with
    | zero =>
      intro k s e
      rw [List.range'_zero, List.foldlM_nil] at e
      have e : s = t := by injection e
      exact ⟨fun _ => s, rfl, e, fun i h1 h2 => by omega⟩
    | succ n ih =>
      intro k s e
      rw [List.range'_succ, List.foldlM_cons] at e
      cases hb : body k s with
      | error er => rw [hb] at e; cases e
      | ok s1 =>
        rw [hb] at e
        obtain ⟨S, h0, h1, h2⟩ := ih (k + 1) s1 e
        refine ⟨fun i => if i = k then s else S i, if_pos rfl, ?_, ?_⟩
        · dsimp only
          rw [if_neg (by omega), show k + (n + 1) = k + 1 + n by omega]; exact h1
        · intro i hi hi'
          dsimp only
          by_cases hk : i = k
          · subst hk
            rw [if_pos rfl, if_neg (by omega), hb, h0]
          · rw [if_neg hk, if_neg (by omega)]
            exact h2 i (by omega) (by omega)
  rw [forN, List.range_eq_range'] at e
  obtain ⟨S, h0, h1, h2⟩ := main n 0 s e
  rw [Nat.zero_add] at h1
  exact ⟨S, h0, h1, fun i hi => h2 i (by omega) (by omega)⟩

namespace Lil

/-- One row of such a loop. -/
theorem setRowL_within {S : Nat → Lil γ} {new : Nat → Row γ} {n i : Nat} (hi : i < n) {r : Row γ}
    (e : (S i).setRow i id r = .ok (S (i + 1))) (hr : new i = r) :
    Step (S i) (S (i + 1)) i r ∧
      Runs (setRowL i id r) (S i) (.ok ()) (S (i + 1)) (Within S new n) := by
  obtain ⟨hlt, e2⟩ := setRow_put e
  rw [Row.cast_id] at e2
  refine ⟨e2 ▸ Step.ofPut hlt r, ?_⟩
  have hn : (S (i + 1)).nvals = (S i).nvals + r.length - ((S i).rowD i).length := by rw [e2]; rfl
  have := setRowL_runs (F := Within S new n) hlt id r (by
    intro l hl
    refine ⟨i, hi, .inr ⟨l, by rw [hr]; exact hl, ?_⟩⟩
    rw [hn, hr, Row.cast_id])
  rw [Row.cast_id, ← e2] at this
  exact this

end Lil

open Lil (Chain Step Within)

/-- `write_with_opt_mask` with a mask. -/
theorem writeMaskL_runs {truthy : μ → Bool} {castZ : ζ → γ} {C C' : Lil γ} {Z : Lil ζ}
    {k : MaskKind} {M : Lil μ} {outp : Outp} (work : Nat → Nat)
    (e : writeWithOptMask truthy castZ C Z (some (k, M)) outp = .ok C') :
    ∃ S new, S 0 = C ∧ S C.nrows = C' ∧ Chain S new 0 C.nrows ∧
      Runs (writeWithOptMaskL work truthy castZ Z (some (k, M)) outp) C (.ok ()) C'
        (Within S new C.nrows) := by
  obtain ⟨S, h0, h1, h2⟩ := forN_states e
  let new : Nat → Row γ := fun i =>
    applyWithMask id castZ outp ((S i).rowD i) (Z.rowD i) (maskRow truthy k M.ncols (M.rowD i))
  have hstep : ∀ i, i < C.nrows →
      (S i).row i = .ok ((S i).rowD i) ∧ Z.row i = .ok (Z.rowD i) ∧ M.row i = .ok (M.rowD i) ∧
      (S i).setRow i id (new i) = .ok (S (i + 1)) := by
    intro i hi
    have hb := h2 i hi
    have row : ∀ {δ : Type} (A : Lil δ), (∃ r, A.row i = .ok r) → A.row i = .ok (A.rowD i) := by
      intro δ A ⟨r, hr⟩
      by_cases h : i < A.rows.length
      · exact Lil.row_ok h
      · rw [Lil.row, rd, List.getElem?_eq_none (by omega)] at hr; cases hr
    cases e1 : (S i).row i with
    | error x => rw [e1] at hb; cases hb
    | ok c =>
      cases e2 : Z.row i with
      | error x => rw [e1, e2] at hb; cases hb
      | ok z =>
        cases e3 : M.row i with
        | error x => rw [e1, e2, e3] at hb; cases hb
        | ok m =>
          rw [e1, e2, e3] at hb
          have a1 := (row _ ⟨c, e1⟩).symm.trans e1
          have a2 := (row _ ⟨z, e2⟩).symm.trans e2
          have a3 := (row _ ⟨m, e3⟩).symm.trans e3
          refine ⟨a1.symm, a2.symm, a3.symm, ?_⟩
          show (S i).setRow i id (applyWithMask id castZ outp ((S i).rowD i) (Z.rowD i)
            (maskRow truthy k M.ncols (M.rowD i))) = _
          injection a1 with a1; injection a2 with a2; injection a3 with a3
          rw [a1, a2, a3]; exact hb
  refine ⟨S, new, h0, h1, fun i _ hi => ?_, ?_⟩
  · rw [Nat.zero_add] at hi
    exact (Lil.setRowL_within hi (hstep i hi).2.2.2 rfl).1
  · subst h0; subst h1
    refine (Runs.output _).bind (Runs.forA fun i hi => ?_)
    obtain ⟨a1, a2, a3, a4⟩ := hstep i hi
    refine (Runs.output _).bind ((Runs.lib_of a1 _).bind ((Runs.lib_of a2 _).bind
      ((Runs.lib_of a3 _).bind ((Runs.requests ⟨i, hi, .inl rfl⟩ _).bind ?_))))
    exact (Lil.setRowL_within hi a4 rfl).2

/-- `sparse_copy`. -/
theorem sparseCopyL_runs {cast : β → α} {dst D : Lil α} {src : Lil β} (work : Nat → Nat)
    (e : sparseCopy cast dst src = .ok D) (hlen : dst.rows.length = dst.nrows) :
    ∃ S new, S 0 = dst.clear ∧ S dst.nrows = D ∧ Chain S new 0 dst.nrows ∧
      Runs (sparseCopyL work cast src) dst (.ok ()) D (Within S new dst.nrows) := by
  obtain ⟨S, h0, h1, h2⟩ := forN_states e
  let new : Nat → Row α := fun i => Row.cast cast (src.rowD i)
  have key : ∀ i, i ≤ dst.nrows → Chain S new 0 i ∧ (∀ j, i ≤ j → (S i).rowD j = []) ∧
      (S i).rows.length = dst.nrows := by
    intro i
    induction i with
    | zero =>
      refine fun _ => ⟨fun i h1 h2 => by omega, fun j _ => by rw [h0]; exact Lil.rowD_clear dst j, ?_⟩
      rw [h0]; simpa [Lil.clear] using hlen
    | succ i ih =>
      intro hi
      obtain ⟨hc, he, hl⟩ := ih (by omega)
      have hb := h2 i (by omega)
      have hst : Step (S i) (S (i + 1)) i (new i) := by
        cases e2 : src.row i with
        | error x => rw [e2] at hb; cases hb
        | ok r =>
          have hr : r = src.rowD i := by
            by_cases h : i < src.rows.length
            · rw [Lil.row_ok h] at e2; cases e2; rfl
            · rw [Lil.row, rd, List.getElem?_eq_none (by omega)] at e2; cases e2
          rw [e2] at hb
          simp only [Except.bind_ok'] at hb
          cases hd : (Row.cast cast r).isEmpty with
          | false =>
            rw [hd, if_pos (by decide)] at hb
            subst hr
            exact (Lil.setRowL_within (n := i + 1) (new := new) (by omega) hb rfl).1
          | true =>
            rw [hd, if_neg (by decide)] at hb
            injection hb with hb
            have hn : new i = [] := by
              show Row.cast cast (src.rowD i) = []
              rw [← hr]; exact List.isEmpty_iff.1 hd
            have hlt : i < (S i).rows.length := by omega
            have hrow := he i (Nat.le_refl i)
            rw [Lil.rowD_of_lt hlt] at hrow
            rw [← hb, hn]
            refine ⟨hlt, rfl, rfl, ?_, fun _ => id⟩
            rw [← hrow, List.set_getElem_self]
      refine ⟨fun j h1 h2 => ?_, fun j hj => ?_, ?_⟩
      · by_cases hj : j = i
        · rw [hj]; exact hst
        · exact hc j h1 (by omega)
      · rw [hst.rowD, if_neg (by omega)]; exact he j (by omega)
      · rw [hst.rows]; simpa using hl
  refine ⟨S, new, h0, h1, (key _ (Nat.le_refl _)).1, ?_⟩
  refine (Runs.output _).bind ((Runs.store dst.clear _).bind ?_)
  rw [← h0, ← h1]
  refine Runs.forA fun i hi => ?_
  have hb := h2 i hi
  cases e2 : src.row i with
  | error x => rw [e2] at hb; cases hb
  | ok r =>
    have hr : r = src.rowD i := by
      by_cases h : i < src.rows.length
      · rw [Lil.row_ok h] at e2; cases e2; rfl
      · rw [Lil.row, rd, List.getElem?_eq_none (by omega)] at e2; cases e2
    rw [e2] at hb
    simp only [Except.bind_ok'] at hb
    refine (Runs.lib _ _).bind ((Runs.requests ⟨i, hi, .inl rfl⟩ _).bind ?_)
    dsimp only
    cases hd : (Row.cast cast r).isEmpty with
    | false =>
      rw [hd, if_pos (by decide)] at hb
      subst hr
      rw [if_pos (by decide)]
      exact (Lil.setRowL_within hi hb rfl).2
    | true =>
      rw [hd, if_neg (by decide)] at hb
      injection hb with hb
      rw [if_neg (by decide), ← hb]
      exact Runs.pure () _

/-- What the rows hold that a write has not reached: without a mask the output is cleared
first. -/
def MOut.rest (o : MOut γ τ ζ μ) : Lil γ :=
  match o.M with
  | none => o.C.clear
  | some _ => o.C

theorem run_ret {s s' : σ} {ρ : Type} {pre : Except Err ρ} {post : ρ → Except Err σ}
    (e : run s pre post = .done s') : ∃ z, pre = .ok z ∧ post z = .ok s' := by
  cases pre with
  | error er => cases er <;> cases e
  | ok z =>
    refine ⟨z, rfl, ?_⟩
    cases h : post z with
    | ok t => rw [run, h] at e; cases e; rfl
    | error er => rw [run, h] at e; cases er <;> cases e

theorem run_fail {s s' : σ} {ρ : Type} {pre : Except Err ρ} {post : ρ → Except Err σ} {er : Err}
    (e : run s pre post = .threw er s') : pre = .error er ∧ s' = s := by
  cases pre with
  | ok z =>
    cases h : post z with
    | ok t => rw [run, h] at e; cases e
    | error er => rw [run, h] at e; cases er <;> cases e
  | error er' => cases er' <;> cases e <;> exact ⟨rfl, rfl⟩

theorem MCall.runL_done {c : MCall γ τ ζ} {o : MOut γ τ ζ μ} {C' : Lil γ} (hC : o.C.WF)
    (e : c.run o = .done C') (prep : Nat) (work : Nat → Nat) :
    Runs (c.runL prep work o) o.C (.ok ()) C'
      fun left => left = o.C ∨ ∃ i, i < o.C.nrows ∧ Torn o.rest C' left i := by
  rw [MCall.run_eq_pre] at e
  obtain ⟨Z, e1, e2⟩ := run_ret e
  refine (Runs.requests (.inl rfl) _).bind ((Runs.output _).bind ((Runs.lib_of e1 _).bind ?_))
  unfold MOut.rest
  rcases hM : o.M with _ | ⟨k, M⟩
  · rw [hM] at e2
    obtain ⟨S, new, h0, h1, h2, h3⟩ := sparseCopyL_runs work e2 hC.len
    refine h3.mono fun c hc => .inr ?_
    rw [← h0, ← h1]
    exact h2.torn (by rw [h0]; exact (Lil.clear_wf hC.toWFr).count) hc
  · rw [hM] at e2
    obtain ⟨S, new, h0, h1, h2, h3⟩ := writeMaskL_runs work e2
    refine h3.mono fun c hc => .inr ?_
    dsimp only
    rw [← h1]
    have := h2.torn (by rw [h0]; exact hC.count) hc
    rwa [h0] at this

theorem MCall.runL_threw {c : MCall γ τ ζ} {o : MOut γ τ ζ μ} {C' : Lil γ} {er : Err}
    (e : c.run o = .threw er C') (prep : Nat) (work : Nat → Nat) :
    Runs (c.runL prep work o) o.C (.error er) o.C (· = o.C) := by
  rw [MCall.run_eq_pre] at e
  obtain ⟨e1, _⟩ := run_fail e
  exact Runs.bind (s1 := o.C) (a := ()) (Runs.requests (by rfl) _)
    ((Runs.output _).bind (Runs.bind_err (Runs.lib_of e1 _)))

/-! ### Columns -/

namespace Lil

theorem insertMerge_count (m : α → α → α) (j : Nat) (x : α) : ∀ r : Row α,
    (r.insertMerge m j x).1.length = r.length + if (r.insertMerge m j x).2 then 1 else 0
  | [] => rfl
  | (k, y) :: r => by
    have ih := insertMerge_count m j x r
    unfold Row.insertMerge
    split
    · simp
    · split
      · simp
      · simp only [List.length_cons]; omega

theorem erase_count (j : Nat) : ∀ r : Row α,
    r.length = (r.erase j).1.length + if (r.erase j).2 then 1 else 0
  | [] => rfl
  | (k, y) :: r => by
    have ih := erase_count j r
    unfold Row.erase
    split
    · simp
    · simp only [List.length_cons]; omega

/-- The matrix after one row of `setCol`. -/
def colStep (A : Lil α) (j i : Nat) (x : Option α) : Lil α :=
  match x with
  | none => { A with rows := A.rows.set i ((A.rowD i).erase j).1,
                     nvals := if ((A.rowD i).erase j).2 then A.nvals - 1 else A.nvals }
  | some x => { A with rows := A.rows.set i ((A.rowD i).insertMerge (fun _ new => new) j x).1,
                       nvals := if ((A.rowD i).insertMerge (fun _ new => new) j x).2 then A.nvals + 1
                                else A.nvals }

theorem colStep_step {A : Lil α} {i : Nat} (h : i < A.rows.length) (j : Nat) (x : Option α) :
    ∃ r, Step A (A.colStep j i x) i r := by
  cases x with
  | none =>
    refine ⟨_, h, rfl, rfl, rfl, fun d e => ?_⟩
    have h1 := stored_put h ((A.rowD i).erase j).1 0
    have h2 := erase_count j (A.rowD i)
    show (if ((A.rowD i).erase j).2 then A.nvals - 1 else A.nvals)
      = (A.put i ((A.rowD i).erase j).1 0).stored + d
    split at h2 <;> rename_i hb
    · rw [if_pos hb]; omega
    · rw [if_neg hb]; omega
  | some x =>
    refine ⟨_, h, rfl, rfl, rfl, fun d e => ?_⟩
    have h1 := stored_put h ((A.rowD i).insertMerge (fun _ new => new) j x).1 0
    have h2 := insertMerge_count (fun _ new => new) j x (A.rowD i)
    show (if ((A.rowD i).insertMerge (fun _ new => new) j x).2 then A.nvals + 1 else A.nvals)
      = (A.put i ((A.rowD i).insertMerge (fun _ new => new) j x).1 0).stored + d
    split at h2 <;> rename_i hb
    · rw [if_pos hb]; omega
    · rw [if_neg hb]; omega

theorem colStep_wfr {A : Lil α} {i j : Nat} (h : i < A.rows.length) (hA : A.WFr) (hj : j < A.ncols)
    (x : Option α) : (A.colStep j i x).WFr ∧ (A.colStep j i x).ncols = A.ncols := by
  cases x with
  | none =>
    refine ⟨⟨by simpa [colStep] using hA.len, fun r hr => ?_⟩, rfl⟩
    rcases List.mem_or_eq_of_mem_set hr with hr | rfl
    · exact hA.rowOK r hr
    · exact Row.erase_ok (hA.rowD_ok i) j
  | some x =>
    refine ⟨⟨by simpa [colStep] using hA.len, fun r hr => ?_⟩, rfl⟩
    rcases List.mem_or_eq_of_mem_set hr with hr | rfl
    · exact hA.rowOK r hr
    · exact Row.insertMerge_ok _ (hA.rowD_ok i) hj x

theorem setColRowL_runs {A : Lil α} {i : Nat} (h : i < A.rows.length) (j : Nat) (x : Option α)
    {F : Lil α → Prop} (hF : F A) : Runs (setColRowL j i x) A (.ok ()) (A.colStep j i x) F := by
  refine (Runs.output _).bind ((Runs.lib_of (row_ok h) _).bind ?_)
  cases x with
  | none => exact Runs.store _ _
  | some x =>
    dsimp only [colStep]
    cases hp : ((A.rowD i).insertMerge (fun _ new => new) j x).2 with
    | true =>
      rw [if_pos rfl, if_pos rfl]
      exact Runs.bind (s1 := A) (a := ()) (Runs.request hF) (Runs.store _ _)
    | false =>
      rw [if_neg (by decide), if_neg (by decide)]
      exact Runs.store _ _

theorem setColLoopL_runs (cast : β → α) (j : Nat) : ∀ (n k : Nat) (col : Row β) (A t : Lil α),
    setColLoop cast j (List.range' k n) col A = .ok t →
    ∃ S new, S k = A ∧ S (k + n) = t ∧ Chain S new k n ∧
      (A.WFr → j < A.ncols → ∀ i, k ≤ i → i ≤ k + n → (S i).WFr) ∧
      Runs (setColLoopL cast j (List.range' k n) col) A (.ok ()) t
        fun c => ∃ i, k ≤ i ∧ i < k + n ∧ c = S i
  | 0, k, col, A, t, e => by
    have e : A = t := by cases col <;> (rw [List.range'_zero, setColLoop] at e; injection e)
    subst e
    refine ⟨fun _ => A, fun _ => [], rfl, rfl, fun i h1 h2 => by omega, fun h _ i _ _ => h, ?_⟩
    rw [List.range'_zero]
    cases col <;> exact Runs.pure () A
  | n + 1, k, col, A, t, e => by
    rw [List.range'_succ] at e ⊢
    have go : ∀ (x : Option α) (col' : Row β), k < A.rows.length →
        setColLoop cast j (List.range' (k + 1) n) col' (A.colStep j k x) = .ok t →
        ∃ S new, S k = A ∧ S (k + (n + 1)) = t ∧ Chain S new k (n + 1) ∧
          (A.WFr → j < A.ncols → ∀ i, k ≤ i → i ≤ k + (n + 1) → (S i).WFr) ∧
          Runs (do
            setColRowL j k x
            setColLoopL cast j (List.range' (k + 1) n) col') A (.ok ()) t
            fun c => ∃ i, k ≤ i ∧ i < k + (n + 1) ∧ c = S i := by
      intro x col' hk e
      obtain ⟨S, new, h0, h1, h2, h4, h3⟩ := setColLoopL_runs cast j n (k + 1) col' _ t e
      obtain ⟨r, hr⟩ := colStep_step hk j x
      refine ⟨fun i => if i = k then A else S i, fun i => if i = k then r else new i, if_pos rfl, ?_, ?_, ?_, ?_⟩
      · dsimp only
        rw [if_neg (by omega), show k + (n + 1) = k + 1 + n by omega]; exact h1
      · intro i hi hi'
        dsimp only
        by_cases hik : i = k
        · subst hik
          rw [if_pos rfl, if_pos rfl, if_neg (by omega), h0]; exact hr
        · rw [if_neg hik, if_neg (by omega), if_neg hik]
          exact h2 i (by omega) (by omega)
      · intro hA hj i hi hi'
        dsimp only
        by_cases hik : i = k
        · rw [if_pos hik]; exact hA
        · rw [if_neg hik]
          obtain ⟨w1, w2⟩ := colStep_wfr hk hA hj x
          exact h4 w1 (by rw [w2]; exact hj) i (by omega) (by omega)
      · refine Runs.bind (setColRowL_runs hk j x ⟨k, Nat.le_refl k, by omega, (if_pos rfl).symm⟩) ?_
        refine h3.mono fun c ⟨i, hi, hi', hc⟩ => ⟨i, by omega, by omega, ?_⟩
        dsimp only
        rw [if_neg (by omega)]; exact hc
    have hk : k < A.rows.length := by
      apply Nat.lt_of_not_le
      intro h
      have hr : A.row k = .error .ub := by
        rw [row, rd, List.getElem?_eq_none (by omega)]
      cases col with
      | nil => rw [setColLoop, hr] at e; cases e
      | cons p col => rw [setColLoop, hr] at e; cases e
    cases col with
    | nil =>
      rw [setColLoop, row_ok hk] at e
      simp only [Except.bind_ok', wr_ok hk] at e
      exact go none [] hk e
    | cons p col =>
      obtain ⟨l, x⟩ := p
      rw [setColLoop, row_ok hk] at e
      simp only [Except.bind_ok', wr_ok hk] at e
      rw [setColLoopL]
      by_cases h1 : k < l
      · rw [if_pos h1] at e
        rw [if_pos h1]
        exact go none ((l, x) :: col) hk e
      · rw [if_neg h1] at e
        rw [if_neg h1]
        by_cases h2 : k = l
        · rw [if_pos h2] at e
          rw [if_pos h2]
          exact go (some (cast x)) col hk e
        · rw [if_neg h2] at e; cases e

theorem setColL_runs {cast : β → α} {j : Nat} {col : Row β} {A t : Lil α}
    (hA : A.WF) (hj : j < A.ncols) (e : A.setCol j cast col = .ok t) :
    Runs (setColL j cast col) A (.ok ()) t fun c =>
      ∃ i, i < A.nrows ∧ Torn A t c i ∧ c.WF := by
  rw [setCol, List.range_eq_range'] at e
  obtain ⟨S, new, h0, h1, h2, h4, h3⟩ := setColLoopL_runs cast j A.nrows 0 col A t e
  rw [Nat.zero_add] at h1
  have main : Runs (setColLoopL cast j (List.range A.nrows) col) A (.ok ()) t fun c =>
      ∃ i, i < A.nrows ∧ Torn A t c i ∧ c.WF := by
    rw [List.range_eq_range']
    refine h3.mono fun c ⟨i, _, hi, hc⟩ => ?_
    rw [Nat.zero_add] at hi
    have hcount := (h2.upTo (Nat.le_of_lt hi)).count (by rw [h0]; exact hA.count)
    rw [Nat.zero_add, ← hc] at hcount
    have hwf : c.WFr := by rw [hc]; exact h4 hA.toWFr hj i (by omega) (by omega)
    have hs := h2.shape
    have hsi := (h2.upTo (Nat.le_of_lt hi)).shape
    rw [Nat.zero_add] at hs hsi
    have hmid := fun k => h2.mid (Nat.le_of_lt hi) k
    rw [h0, h1] at hs
    rw [h0, ← hc] at hsi
    rw [h0, h1, ← hc] at hmid
    refine ⟨i, hi, ⟨hsi.1.trans hs.1.symm, hsi.2.1.trans hs.2.1.symm, hsi.2.2, ?_, ?_, .inl ⟨?_, hcount⟩⟩, ⟨hwf, hcount⟩⟩
    · intro k hk; rw [hmid, if_pos hk]
    · intro k hk; rw [hmid, if_neg (by omega)]
    · rw [hmid, if_neg (by omega)]
  exact (Runs.output _).bind main

end Lil

theorem assignRow_eq_pre [Inhabited γ] (o : LOut γ α ζ μ) (keep : γ → ζ) (u : BVec α) (i : Nat) (ci : Idx) :
    assignRow o keep u i ci = run o.C (assignRowPre o keep u i ci) fun row => o.C.setRow i id row := rfl

theorem assignCol_eq_pre [Inhabited γ] (o : LOut γ α ζ μ) (keep : γ → ζ) (u : BVec α) (ri : Idx) (j : Nat) :
    assignCol o keep u ri j = run o.C (assignColPre o keep u ri j) fun col => o.C.setCol j id col := rfl

theorem assignColL_done [Inhabited γ] {o : LOut γ α ζ μ} {keep : γ → ζ} {u : BVec α} {ri : Idx} {j : Nat}
    {C' : Lil γ} (hC : o.C.WF) (hj : j < o.C.ncols) (e : assignCol o keep u ri j = .done C') (prep : Nat) :
    Runs (assignColL prep o keep u ri j) o.C (.ok ()) C' fun c =>
      c = o.C ∨ ∃ i, i < o.C.nrows ∧ Torn o.C C' c i ∧ c.WF := by
  rw [assignCol_eq_pre] at e
  obtain ⟨col, e1, e2⟩ := run_ret e
  refine (Runs.requests (.inl rfl) _).bind ((Runs.output _).bind ((Runs.lib_of e1 _).bind ?_))
  exact (Lil.setColL_runs hC hj e2).mono fun c hc => .inr hc

theorem assignRowL_done [Inhabited γ] {o : LOut γ α ζ μ} {keep : γ → ζ} {u : BVec α} {i : Nat} {ci : Idx}
    {C' : Lil γ} (hC : o.C.WF) (e : assignRow o keep u i ci = .done C') (prep : Nat) :
    Runs (assignRowL prep o keep u i ci) o.C (.ok ()) C' fun c =>
      c = o.C ∨ ∃ k, k < (C'.rowD i).length ∧ c.rowD i = (C'.rowD i).take k ∧
        c.nvals = c.stored + ((C'.rowD i).length - k) ∧ c.nrows = o.C.nrows ∧ c.ncols = o.C.ncols ∧
        ∀ l, l ≠ i → c.rowD l = o.C.rowD l := by
  rw [assignRow_eq_pre] at e
  obtain ⟨row, e1, e2⟩ := run_ret e
  refine (Runs.requests (.inl rfl) _).bind ((Runs.output _).bind ((Runs.lib_of e1 _).bind ?_))
  obtain ⟨hlt, e3⟩ := Lil.setRow_put e2
  rw [Row.cast_id] at e3
  have hr : C'.rowD i = row := by
    rw [e3]; exact (Lil.rowD_set hlt rfl).trans (if_pos rfl)
  have := Lil.setRowL_runs (F := fun c => c = o.C ∨ ∃ k, k < (C'.rowD i).length ∧
      c.rowD i = (C'.rowD i).take k ∧ c.nvals = c.stored + ((C'.rowD i).length - k) ∧
      c.nrows = o.C.nrows ∧ c.ncols = o.C.ncols ∧ ∀ l, l ≠ i → c.rowD l = o.C.rowD l) hlt id row (by
    intro l hl
    rw [Row.cast_id]
    refine .inr ⟨l, by rw [hr]; exact hl, ?_, ?_, rfl, rfl, ?_⟩
    · rw [hr]; exact (Lil.rowD_set hlt rfl).trans (if_pos rfl)
    · have h1 := Lil.stored_put hlt (row.take l) (o.C.nvals + row.length - (o.C.rowD i).length)
      rw [List.length_take] at h1
      have h2 : o.C.nvals = o.C.stored := hC.count
      rw [hr]
      show o.C.nvals + row.length - (o.C.rowD i).length = _
      omega
    · intro k hk; exact (Lil.rowD_set hlt rfl).trans (if_neg hk))
  rw [Row.cast_id, ← e3] at this
  exact this

end GBTL

import Verif.Lemmas.Program
import Verif.Props.General
import Verif.Props.Elementwise
/- Programs: every call refines its meaning. -/
namespace GBTL
open Spec (Outp MaskKind Accum MatCall VecCall Ans AMat AVec)

variable {tm tv : Nat → Type} {γ ζ τ α ρ μ : Type}

theorem step_ne_ub (a : AMat α) (c : MatCall α) : (a.step c).1 ≠ .error .ub := by
  cases c <;> simp only [AMat.step] <;> (repeat' split) <;> simp

theorem vstep_ne_ub (a : AVec α) (c : VecCall α) : (a.step c).1 ≠ .error .ub := by
  cases c <;> simp only [AVec.step] <;> (repeat' split) <;> simp

theorem observe_of {r : Except Err α} (s : Store tm tv) (h : r ≠ .error .ub) : observe r s = some (r, s) := by
  unfold observe
  split
  · exact absurd rfl h
  · rfl

theorem Store.setM_abs {s : Store tm tv} {x : Nat} {v : Lil (tm x)} {a : AMat (tm x)} (h : MSim v a) :
    (s.setM x v).abs = s.abs.setM x a := by
  rw [Store.abs_setM]
  congr 1
  cases a
  simp only [AMat.mk.injEq]
  exact ⟨h.nrows, h.ncols, by funext i j; exact h.get i j⟩

theorem Store.setV_abs {s : Store tm tv} {x : Nat} {v : BVec (tv x)} {a : AVec (tv x)} (h : VSim v a) :
    (s.setV x v).abs = s.abs.setV x a := by
  rw [Store.abs_setV]
  congr 1
  cases a
  simp only [AVec.mk.injEq]
  exact ⟨h.size, by funext i; exact h.get i⟩

theorem takeWhile_split (p : α → Bool) (l : List α) :
    l.takeWhile p = l ∨ ∃ b post, l = l.takeWhile p ++ b :: post ∧ p b = false := by
  induction l with
  | nil => exact .inl rfl
  | cons a l ih =>
    by_cases h : p a
    · rcases ih with ih | ⟨b, post, e, hb⟩
      · left; simp [h, ih]
      · right; exact ⟨b, post, by simp only [List.takeWhile_cons, h, if_true, List.cons_append]; rw [← e], hb⟩
    · right; exact ⟨a, l, by simp [h], by simpa using h⟩

theorem takeWhile_mem (p : α → Bool) (l : List α) : ∀ a ∈ l.takeWhile p, p a = true := by
  induction l with
  | nil => simp
  | cons a l ih =>
    by_cases h : p a
    · simpa [h] using ih
    · simp [h]

section
variable [∀ x, Inhabited (tm x)] [∀ x, Inhabited (tv x)]

theorem Stmt.refines_build {s : Store tm tv} (hs : s.WF) (x : Nat) (dup : tm x → tm x → tm x)
    (ts : List (Nat × Nat × tm x)) :
    Refines s ((Stmt.buildM (tv := tv) x dup ts).exec s) ((Stmt.buildM x dup ts).spec s.abs) := by
  simp only [Stmt.exec, Stmt.spec]
  generalize hg : (ts.takeWhile fun t => decide (t.1 < (s.abs.mat x).nrows ∧ t.2.1 < (s.abs.mat x).ncols)) = good
  have hgood : ∀ t ∈ good, t.1 < (s.mat x).nrows ∧ t.2.1 < (s.mat x).ncols := by
    intro t ht
    have := takeWhile_mem _ ts t (hg ▸ ht)
    exact of_decide_eq_true this
  obtain ⟨B, e, hB, h1, h2, h3, -⟩ := C04_matrix_build (s.mat x) (hs.mat x) dup good hgood
  have hput : (s.setM x B).WF ∧ (s.setM x B).abs = s.abs.setM x { s.abs.mat x with
      map := fun i j => Spec.combinedFrom dup ((s.abs.mat x).map i j)
        (good.map fun t => ((t.1, t.2.1), t.2.2)) (i, j) } :=
    ⟨hs.setM hB, Store.setM_abs ⟨hB, h1, h2, h3⟩⟩
  rcases takeWhile_split (fun t : Nat × Nat × tm x =>
    decide (t.1 < (s.abs.mat x).nrows ∧ t.2.1 < (s.abs.mat x).ncols)) ts with h | ⟨b, post, h, hb⟩
  · rw [hg] at h
    rw [if_pos (by rw [h]), ← h, e]
    exact ⟨_, rfl, hput⟩
  · rw [hg] at h
    have hb' : ¬ (b.1 < (s.mat x).nrows ∧ b.2.1 < (s.mat x).ncols) := of_decide_eq_false hb
    obtain ⟨B', e', -, e''⟩ := C04_matrix_build_out_of_range (s.mat x) (hs.mat x) dup good post b hgood
      (by omega)
    rw [e] at e''
    cases e''
    rw [if_neg (by rw [h]; simp), h, e']
    exact ⟨_, rfl, hput⟩

theorem Stmt.refines_opM {s : Store tm tv} (hs : s.WF) (x : Nat) (mask : MaskArg tm) (acc : Accum (tm x) τ ζ)
    (castZ : ζ → tm x) (outp : Outp) (e : MOp tm (tm x) ζ τ)
    (hh : e.handled s.abs (s.mat x).nrows (s.mat x).ncols) :
    Refines s ((Stmt.opM (tv := tv) x mask acc castZ outp e).exec s)
      ((Stmt.opM x mask acc castZ outp e).spec s.abs) := by
  rcases mask with _ | ⟨k, z, truthy⟩
  · simp only [Stmt.exec, Stmt.spec, MCall.runShared_eq]
    refine refines_of_does hs (Store.setM_self s x)
      ((MOp.does hs e ⟨s.mat x, _, _, acc, castZ, outp⟩ ⟨hs.mat x, ?_⟩ hh).iff ?_)
      fun _ C' h => MOut.Holds.put hs rfl h fun _ _ => rfl
    · intro k A e; cases e
    · exact and_congr ⟨fun _ => trivial, fun _ k A e => by cases e⟩ Iff.rfl
  · simp only [Stmt.exec, Stmt.spec, MCall.runShared_eq]
    have hm := matMask_at s x k z
    refine refines_of_does hs (Store.setM_self s x)
      ((MOp.does hs e ⟨s.mat x, _, _, acc, castZ, outp⟩ ⟨hs.mat x, ?_⟩ hh).iff ?_)
      fun _ C' h => MOut.Holds.put hs rfl h fun _ _ => ?_
    · intro k A e; rw [hm] at e; cases e; exact hs.mat z
    · refine and_congr ?_ Iff.rfl
      rw [hm]
      exact (abs_maskFits s _ _ _ k z truthy rfl).symm
    · simp only [hm]; rfl

theorem Stmt.refines_opV {s : Store tm tv} (hs : s.WF) (x : Nat) (mask : MaskArg tv) (acc : Accum (tv x) τ ζ)
    (castZ : ζ → tv x) (outp : Outp) (e : VOp tm tv (tv x) ζ τ)
    (hh : e.handled s.abs (s.vec x).size) :
    Refines s ((Stmt.opV (tm := tm) x mask acc castZ outp e).exec s)
      ((Stmt.opV x mask acc castZ outp e).spec s.abs) := by
  rcases mask with _ | ⟨k, z, truthy⟩
  · simp only [Stmt.exec, Stmt.spec]
    refine refines_of_does hs (Store.setV_self s x)
      ((VOp.does hs e ⟨s.vec x, _, _, acc, castZ, outp⟩ ⟨(hs.vec x).1, ?_⟩ hh).iff ?_)
      fun _ C' h => VOut.Holds.put hs rfl h fun _ => rfl
    · intro k A e; cases e
    · exact and_congr ⟨fun _ => trivial, fun _ k A e => by cases e⟩ Iff.rfl
  · simp only [Stmt.exec, Stmt.spec]
    refine refines_of_does hs (Store.setV_self s x)
      ((VOp.does hs e ⟨s.vec x, _, _, acc, castZ, outp⟩ ⟨(hs.vec x).1, ?_⟩ hh).iff ?_)
      fun _ C' h => VOut.Holds.put hs rfl h fun _ => rfl
    · intro k A e; cases e; exact (hs.vec z).1
    · exact and_congr (abs_maskFitsV s _ _ k z truthy rfl).symm Iff.rfl

theorem Stmt.refines_assignCol {s : Store tm tv} (hs : s.WF) (x : Nat) (mask : MaskArg tv) (u : Nat)
    (acc : Accum (tm x) (tv u) ζ) (castZ : ζ → tm x) (outp : Outp) (keep : tm x → ζ) (ri : Indices) (j : Nat)
    (hh : (Stmt.assignCol x mask u acc castZ outp keep ri j).handled s.abs) :
    Refines s ((Stmt.assignCol x mask u acc castZ outp keep ri j).exec s)
      ((Stmt.assignCol x mask u acc castZ outp keep ri j).spec s.abs) := by
  simp only [Stmt.handled] at hh
  rcases mask with _ | ⟨k, z, truthy⟩
  · simp only [Stmt.exec, Stmt.spec]
    refine refines_of_does hs (Store.setM_self s x)
      ((assignCol_does (o := ⟨s.mat x, none, _, acc, castZ, outp⟩) ⟨hs.mat x, ?_⟩ (hs.vec u).1 (hs.vec u).2
        hh.1 hh.2).iff ?_) fun hj C' h => LOut.HoldsCol.put hs rfl h (fun _ => rfl) hj
    · intro k A e; cases e
    · exact and_congr ⟨fun _ => trivial, fun _ k A e => by cases e⟩ Iff.rfl
  · simp only [Stmt.exec, Stmt.spec]
    refine refines_of_does hs (Store.setM_self s x)
      ((assignCol_does (o := ⟨s.mat x, some (k, s.vec z), truthy, acc, castZ, outp⟩) ⟨hs.mat x, ?_⟩ (hs.vec u).1
        (hs.vec u).2 hh.1 hh.2).iff ?_) fun hj C' h => LOut.HoldsCol.put hs rfl h (fun _ => rfl) hj
    · intro k A e; cases e; exact (hs.vec z).1
    · exact and_congr (abs_maskFitsV s _ _ k z truthy rfl).symm Iff.rfl

theorem Stmt.refines_assignRow {s : Store tm tv} (hs : s.WF) (x : Nat) (mask : MaskArg tv) (u : Nat)
    (acc : Accum (tm x) (tv u) ζ) (castZ : ζ → tm x) (outp : Outp) (keep : tm x → ζ) (i : Nat) (ci : Indices)
    (hh : (Stmt.assignRow x mask u acc castZ outp keep i ci).handled s.abs) :
    Refines s ((Stmt.assignRow x mask u acc castZ outp keep i ci).exec s)
      ((Stmt.assignRow x mask u acc castZ outp keep i ci).spec s.abs) := by
  simp only [Stmt.handled] at hh
  rcases mask with _ | ⟨k, z, truthy⟩
  · simp only [Stmt.exec, Stmt.spec]
    refine refines_of_does hs (Store.setM_self s x)
      ((assignRow_does (o := ⟨s.mat x, none, _, acc, castZ, outp⟩) ⟨hs.mat x, ?_⟩ (hs.vec u).1 (hs.vec u).2
        hh.1 hh.2).iff ?_) fun hj C' h => LOut.HoldsRow.put hs rfl h (fun _ => rfl) hj
    · intro k A e; cases e
    · exact and_congr ⟨fun _ => trivial, fun _ k A e => by cases e⟩ Iff.rfl
  · simp only [Stmt.exec, Stmt.spec]
    refine refines_of_does hs (Store.setM_self s x)
      ((assignRow_does (o := ⟨s.mat x, some (k, s.vec z), truthy, acc, castZ, outp⟩) ⟨hs.mat x, ?_⟩ (hs.vec u).1
        (hs.vec u).2 hh.1 hh.2).iff ?_) fun hj C' h => LOut.HoldsRow.put hs rfl h (fun _ => rfl) hj
    · intro k A e; cases e; exact (hs.vec z).1
    · exact and_congr (abs_maskFitsV s _ _ k z truthy rfl).symm Iff.rfl

theorem Lil.assignFrom_spec (A B : Lil α) :
    ((A.nrows ≠ B.nrows ∨ A.ncols ≠ B.ncols) → A.assignFrom B = (.error .dimension, A)) ∧
    (¬ (A.nrows ≠ B.nrows ∨ A.ncols ≠ B.ncols) → A.assignFrom B = (.ok (), B)) := by
  constructor
  · intro h; simp only [Lil.assignFrom]; rw [if_pos h]
  · intro h
    simp only [Lil.assignFrom]; rw [if_neg h]
    have : A.nrows = B.nrows ∧ A.ncols = B.ncols := by omega
    cases A; cases B; simp_all

theorem BVec.assignFrom_spec (A B : BVec α) :
    (A.size ≠ B.size → A.assignFrom B = (.error .dimension, A)) ∧
    (¬ (A.size ≠ B.size) → A.assignFrom B = (.ok (), B)) := by
  constructor
  · intro h; simp only [BVec.assignFrom]; rw [if_pos h]
  · intro h
    simp only [BVec.assignFrom]; rw [if_neg h]
    cases A; cases B; simp_all

theorem copyM_refines {A : Lil γ} {B : Lil α} (h : α = γ) :
    ((A.nrows ≠ B.nrows ∨ A.ncols ≠ B.ncols) → A.assignFrom (castTo h B) = (.error .dimension, A)) ∧
    (¬ (A.nrows ≠ B.nrows ∨ A.ncols ≠ B.ncols) → A.assignFrom (castTo h B) = (.ok (), castTo h B)) ∧
    (B.WF → (castTo h B : Lil γ).WF ∧
      MSim (castTo h B) (castTo (F := AMat) h ⟨B.nrows, B.ncols, B.get⟩)) := by
  cases h
  exact ⟨(Lil.assignFrom_spec A B).1, (Lil.assignFrom_spec A B).2, fun h => ⟨h, h, rfl, rfl, fun _ _ => rfl⟩⟩

theorem copyV_refines {A : BVec γ} {B : BVec α} (h : α = γ) :
    (A.size ≠ B.size → A.assignFrom (castTo h B) = (.error .dimension, A)) ∧
    (¬ (A.size ≠ B.size) → A.assignFrom (castTo h B) = (.ok (), castTo h B)) ∧
    (B.WF → 0 < B.size → ((castTo h B : BVec γ).WF ∧ 0 < (castTo h B : BVec γ).size) ∧
      VSim (castTo h B) (castTo (F := AVec) h ⟨B.size, B.get⟩)) := by
  cases h
  exact ⟨(BVec.assignFrom_spec A B).1, (BVec.assignFrom_spec A B).2, fun h h0 => ⟨⟨h, h0⟩, h, rfl, fun _ => rfl⟩⟩

theorem eqM_refines {A : Lil γ} {B : Lil α} (h : α = γ) [DecidableEq γ] (hA : A.WF) (hB : B.WF) :
    A.eq (castTo h B) = true ↔
      (⟨A.nrows, A.ncols, A.get⟩ : AMat γ) = castTo (F := AMat) h ⟨B.nrows, B.ncols, B.get⟩ := by
  cases h
  rw [show (castTo rfl B : Lil γ) = B from rfl, C06_matrix_eq A B hA hB]
  show _ ↔ (⟨A.nrows, A.ncols, A.get⟩ : AMat γ) = ⟨B.nrows, B.ncols, B.get⟩
  rw [AMat.mk.injEq]
  exact and_congr Iff.rfl (and_congr Iff.rfl ⟨fun h => by funext i j; exact h i j, fun h i j => by rw [h]⟩)

theorem eqV_refines {A : BVec γ} {B : BVec α} (h : α = γ) [DecidableEq γ] (hA : A.WF) (hB : B.WF) :
    ∃ r, A.eq (castTo h B) = .ok r ∧ (r = true ↔
      (⟨A.size, A.get⟩ : AVec γ) = castTo (F := AVec) h ⟨B.size, B.get⟩) := by
  cases h
  obtain ⟨r, e, hr⟩ := C06_vector_eq A B hA hB
  refine ⟨r, e, ?_⟩
  show _ ↔ (⟨A.size, A.get⟩ : AVec γ) = ⟨B.size, B.get⟩
  rw [hr, AVec.mk.injEq]
  exact and_congr Iff.rfl ⟨fun h => by funext i; exact h i, fun h i => by rw [h]⟩

theorem scalarResult_eq {castZ : ζ → γ} {acc : Accum γ τ ζ} {f : τ → τ → τ} {e : τ} {val v : γ} {l : List τ}
    (h : some v = (Spec.accum acc (some val) (some (l.foldl f e))).map castZ) :
    scalarResult castZ acc f e val l = v := by
  rw [scalarResult, ← h]; rfl

/-- Every call that is handled does what its meaning says. -/
theorem Stmt.refines {s : Store tm tv} (hs : s.WF) (c : Stmt tm tv α) (hh : c.handled s.abs) :
    Refines s (c.exec s) (c.spec s.abs) := by
  cases c with
  | newM x m n =>
    obtain ⟨h1, h2, h3, h4, h5⟩ := C42_matrix_new (α := tm x) m n
    exact ⟨_, rfl, hs.setM h1, Store.setM_abs ⟨h1, rfl, rfl, h5⟩⟩
  | newV x n =>
    simp only [Stmt.exec, Stmt.spec]
    rcases C42_vector_new (α := tv x) n with ⟨h, e⟩ | ⟨v, e, h1, h2, h3, h4⟩
    · rw [if_pos h, e]; exact ⟨_, rfl, hs, rfl⟩
    · have hn : n ≠ 0 := by
        rintro rfl
        simp [BVec.new] at e
      rw [if_neg hn, e]
      exact ⟨_, rfl, hs.setV h1 (by omega), Store.setV_abs ⟨h1, h2, h4⟩⟩
  | denseM x keep rows =>
    simp only [Stmt.exec, Stmt.spec]
    cases rows with
    | nil => exact absurd rfl hh
    | cons r0 rows =>
      by_cases h : ∃ r ∈ r0 :: rows, r.length ≠ ((r0 :: rows).headD []).length
      · rw [if_pos h]
        obtain ⟨r, hr, hne⟩ := h
        have hr' : r ∈ rows := by
          rcases List.mem_cons.1 hr with rfl | hr
          · exact absurd rfl hne
          · exact hr
        rw [C42_matrix_dense_ragged keep r0 rows ⟨r, hr', hne⟩]
        exact ⟨_, rfl, hs, rfl⟩
      · rw [if_neg h]
        obtain ⟨A, e, h1, h2, h3, h4⟩ := C42_matrix_dense keep (r0 :: rows) r0.length (by simp)
          (fun r hr => Classical.byContradiction fun hc => h ⟨r, hr, hc⟩)
        rw [e]
        exact ⟨_, rfl, hs.setM h1, Store.setM_abs ⟨h1, h2, h3, h4⟩⟩
  | denseV x xs =>
    simp only [Stmt.exec, Stmt.spec]
    by_cases h : xs = []
    · subst h
      rw [if_pos rfl, show BVec.ofDense ([] : List (tv x)) = .error .invalidValue from rfl]
      exact ⟨_, rfl, hs, rfl⟩
    · rw [if_neg h]
      obtain ⟨v, e, h1, h2, h3, h4⟩ := C42_vector_dense xs h
      rw [e]
      exact ⟨_, rfl, hs.setV h1 (by rw [h2]; exact List.length_pos_iff.2 h), Store.setV_abs ⟨h1, h2, h4⟩⟩
  | copyM x y h =>
    simp only [Stmt.exec, Stmt.spec]
    obtain ⟨h1, h2, h3⟩ := copyM_refines (A := s.mat x) (B := s.mat y) h
    by_cases hd : (s.abs.mat x).nrows ≠ (s.abs.mat y).nrows ∨ (s.abs.mat x).ncols ≠ (s.abs.mat y).ncols
    · rw [if_pos hd, h1 hd]
      exact ⟨_, rfl, by rw [Store.setM_self]; exact hs, by rw [Store.setM_self]⟩
    · rw [if_neg hd, h2 hd]
      exact ⟨_, rfl, hs.setM (h3 (hs.mat y)).1, Store.setM_abs (h3 (hs.mat y)).2⟩
  | copyV x y h =>
    simp only [Stmt.exec, Stmt.spec]
    obtain ⟨h1, h2, h3⟩ := copyV_refines (A := s.vec x) (B := s.vec y) h
    have h3 := h3 (hs.vec y).1 (hs.vec y).2
    by_cases hd : (s.abs.vec x).size ≠ (s.abs.vec y).size
    · rw [if_pos hd, h1 hd]
      exact ⟨_, rfl, by rw [Store.setV_self]; exact hs, by rw [Store.setV_self]⟩
    · rw [if_neg hd, h2 hd]
      exact ⟨_, rfl, hs.setV h3.1.1 h3.1.2, Store.setV_abs h3.2⟩
  | eqM x y h d =>
    simp only [Stmt.exec, Stmt.spec]
    refine ⟨s, ?_, hs, rfl⟩
    have := eqM_refines (A := s.mat x) (B := s.mat y) h (hs.mat x) (hs.mat y)
    congr 3
    exact Bool.eq_iff_iff.2 (this.trans (@decide_eq_true_iff _ (Classical.propDecidable _)).symm)
  | eqV x y h d =>
    simp only [Stmt.exec, Stmt.spec]
    obtain ⟨r, e, hr⟩ := eqV_refines (A := s.vec x) (B := s.vec y) h (hs.vec x).1 (hs.vec y).1
    rw [e]
    refine ⟨s, ?_, hs, rfl⟩
    show some (Except.ok r, s) = _
    congr 3
    exact Bool.eq_iff_iff.2 (hr.trans (@decide_eq_true_iff _ (Classical.propDecidable _)).symm)
  | mcall x c =>
    simp only [Stmt.exec, Stmt.spec]
    obtain ⟨h1, h2⟩ := msim_step (A := s.mat x) (a := s.abs.mat x) ⟨hs.mat x, rfl, rfl, fun _ _ => rfl⟩ c
    rw [observe_of _ (by rw [h1]; exact step_ne_ub _ c), h1]
    exact ⟨_, rfl, hs.setM h2.wf, Store.setM_abs h2⟩
  | vcall x c =>
    simp only [Stmt.exec, Stmt.spec]
    obtain ⟨h1, h2⟩ := vsim_step (v := s.vec x) (a := s.abs.vec x) ⟨(hs.vec x).1, rfl, fun _ => rfl⟩ c
    rw [observe_of _ (by rw [h1]; exact vstep_ne_ub _ c), h1]
    exact ⟨_, rfl, hs.setV h2.wf (vec_call_pos (hs.vec x).1 (hs.vec x).2 c).2, Store.setV_abs h2⟩
  | buildM x dup ts => exact Stmt.refines_build hs x dup ts
  | buildV x dup ts =>
    simp only [Stmt.exec, Stmt.spec]
    by_cases h : ∀ t ∈ ts, t.1 < (s.abs.vec x).size
    · rw [if_pos h]
      obtain ⟨w, e, h1, h2, -, h3⟩ := C03_vector_build_partial (s.vec x) dup ts h
      rw [e]
      exact ⟨_, rfl, hs.setV (h3 hh).1 (by rw [h1]; exact (hs.vec x).2), Store.setV_abs ⟨(h3 hh).1, h1, h2⟩⟩
    · rw [if_neg h, C03_vector_build_out_of_range (s.vec x) dup ts
        (Classical.byContradiction fun hc => h fun t ht => Classical.byContradiction fun h' =>
          hc ⟨t, ht, Nat.not_lt.1 h'⟩)]
      exact ⟨_, rfl, by rw [Store.setV_self]; exact hs, by rw [Store.setV_self]⟩
  | tuplesM x =>
    simp only [Stmt.exec, Stmt.spec, Lil.tuples_abs (hs.mat x)]
    exact ⟨_, rfl, hs, rfl⟩
  | tuplesV x =>
    simp only [Stmt.exec, Stmt.spec, BVec.tuples_abs (hs.vec x).1]
    exact ⟨_, rfl, hs, rfl⟩
  | opM x mask acc castZ outp e => exact Stmt.refines_opM hs x mask acc castZ outp e hh
  | opV x mask acc castZ outp e => exact Stmt.refines_opV hs x mask acc castZ outp e hh
  | assignCol x mask u acc castZ outp keep ri j =>
    exact Stmt.refines_assignCol hs x mask u acc castZ outp keep ri j hh
  | assignRow x mask u acc castZ outp keep i ci =>
    exact Stmt.refines_assignRow hs x mask u acc castZ outp keep i ci hh
  | reduceV castZ acc f e val u c =>
    simp only [Stmt.exec, Stmt.spec]
    obtain ⟨v, e1, e2⟩ := C17_reduce_vector (castZ := castZ) (acc := acc) (val := val) (c := c) hh (hs.vec u).1
    rw [RedOp.of] at e1
    exact ⟨s, by rw [e1]; exact congrArg some (congrArg (·, s) (congrArg Except.ok (scalarResult_eq e2).symm)), hs, rfl⟩
  | reduceM castZ acc f e val x c =>
    simp only [Stmt.exec, Stmt.spec]
    obtain ⟨v, e1, e2⟩ := C17_reduce_matrix (castZ := castZ) (acc := acc) (val := val) (c := c) hh.1 hh.2.1
      hh.2.2 (A := s.mat x) (hs.mat x)
    rw [RedOp.of] at e1
    exact ⟨s, by rw [e1]; exact congrArg some (congrArg (·, s) (congrArg Except.ok (scalarResult_eq e2).symm)), hs, rfl⟩

/-- Every handled program does what its meaning says. -/
theorem Program.refines {s : Store tm tv} (hs : s.WF) (p : Program tm tv ρ) (hh : p.handled s.abs) :
    ∃ s', p.exec s = some ((p.spec s.abs).1, s') ∧ s'.WF ∧ s'.abs = (p.spec s.abs).2 := by
  induction p generalizing s with
  | ret r => exact ⟨s, rfl, hs, rfl⟩
  | step c k ih =>
    obtain ⟨hc, hk⟩ := hh
    obtain ⟨s1, e, h1, h2⟩ := Stmt.refines hs c hc
    rw [← h2] at hk
    obtain ⟨s2, e2, h3, h4⟩ := ih _ h1 hk
    refine ⟨s2, ?_, h3, ?_⟩
    · simp only [Program.exec, e, Program.spec]
      rw [e2, h2]
    · rw [h4, h2]; rfl

end
end GBTL

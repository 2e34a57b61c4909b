import Verif.Model.Threads
import Verif.Props.Program
/-
Calls depend on their arguments only, and the invariant of threads that share objects
for reading only.
-/
namespace GBTL
open Spec (MatCall VecCall Outp MaskKind Accum)

variable {tm tv : Nat → Type} {γ ζ τ α ρ ι : Type}

theorem Store.Same.refl (s : Store tm tv) (v : Var) : s.Same s v := by cases v <;> rfl

theorem Store.Same.symm {s t : Store tm tv} {v : Var} (h : s.Same t v) : t.Same s v := by
  cases v <;> exact Eq.symm h

theorem Store.Same.trans {s t u : Store tm tv} {v : Var} (h : s.Same t v) (h' : t.Same u v) : s.Same u v := by
  cases v <;> exact Eq.trans h h'

theorem Store.ext_same {s t : Store tm tv} (h : ∀ v, s.Same t v) : s = t := by
  cases s; cases t
  congr
  · funext x; exact h (.mat x)
  · funext x; exact h (.vec x)

theorem Store.mix_in {l : List Var} {v : Var} (h : v ∈ l) (t s : Store tm tv) : (Store.mix l t s).Same t v := by
  cases v <;> exact if_pos h

theorem Store.mix_out {l : List Var} {v : Var} (h : v ∉ l) (t s : Store tm tv) : (Store.mix l t s).Same s v := by
  cases v <;> exact if_neg h

theorem Store.same_setM {s t : Store tm tv} {x : Nat} (w : Lil (tm x)) :
    (s.setM x w).Same (t.setM x w) (.mat x) := by
  simp [Store.Same, Store.setM, upd_same (F := fun y => Lil (tm y))]

theorem Store.same_setV {s t : Store tm tv} {x : Nat} (w : BVec (tv x)) :
    (s.setV x w).Same (t.setV x w) (.vec x) := by
  simp [Store.Same, Store.setV, upd_same (F := fun y => BVec (tv y))]

theorem Ref.operand_local {s t : Store tm tv} (a : Ref) (h : s.mat a.x = t.mat a.x) :
    a.operand s = a.operand t := by simp only [Ref.operand, h]

theorem MOp.call_local {s t : Store tm tv} (e : MOp tm γ ζ τ) (h : ∀ v ∈ e.args, s.Same t v) :
    e.call s = e.call t := by
  cases e with
  | mxm a b => simp only [MOp.call, a.operand_local (h (.mat a.x) (by simp [MOp.args])),
      b.operand_local (h (.mat b.x) (by simp [MOp.args]))]
  | eWiseAdd a b => simp only [MOp.call, a.operand_local (h (.mat a.x) (by simp [MOp.args])),
      b.operand_local (h (.mat b.x) (by simp [MOp.args]))]
  | eWiseMult a b => simp only [MOp.call, a.operand_local (h (.mat a.x) (by simp [MOp.args])),
      b.operand_local (h (.mat b.x) (by simp [MOp.args]))]
  | kronecker a b => simp only [MOp.call, a.operand_local (h (.mat a.x) (by simp [MOp.args])),
      b.operand_local (h (.mat b.x) (by simp [MOp.args]))]
  | apply a => simp only [MOp.call, a.operand_local (h (.mat a.x) (by simp [MOp.args]))]
  | extract a => simp only [MOp.call, a.operand_local (h (.mat a.x) (by simp [MOp.args]))]
  | transpose a => simp only [MOp.call, a.operand_local (h (.mat a.x) (by simp [MOp.args]))]
  | assign _ a => simp only [MOp.call, a.operand_local (h (.mat a.x) (by simp [MOp.args]))]
  | assignConst => rfl

theorem VOp.call_local {s t : Store tm tv} (e : VOp tm tv γ ζ τ) (h : ∀ v ∈ e.args, s.Same t v) :
    e.call s = e.call t := by
  cases e with
  | vxm u a => simp only [VOp.call, a.operand_local (h (.mat a.x) (by simp [VOp.args])),
      show s.vec u = t.vec u from h (.vec u) (by simp [VOp.args])]
  | mxv a u => simp only [VOp.call, a.operand_local (h (.mat a.x) (by simp [VOp.args])),
      show s.vec u = t.vec u from h (.vec u) (by simp [VOp.args])]
  | eWiseAdd u v => simp only [VOp.call, show s.vec u = t.vec u from h (.vec u) (by simp [VOp.args]),
      show s.vec v = t.vec v from h (.vec v) (by simp [VOp.args])]
  | eWiseMult u v => simp only [VOp.call, show s.vec u = t.vec u from h (.vec u) (by simp [VOp.args]),
      show s.vec v = t.vec v from h (.vec v) (by simp [VOp.args])]
  | apply u => simp only [VOp.call, show s.vec u = t.vec u from h (.vec u) (by simp [VOp.args])]
  | reduce a => simp only [VOp.call, a.operand_local (h (.mat a.x) (by simp [VOp.args]))]
  | extract u => simp only [VOp.call, show s.vec u = t.vec u from h (.vec u) (by simp [VOp.args])]
  | extractCol a => simp only [VOp.call, a.operand_local (h (.mat a.x) (by simp [VOp.args]))]
  | assign _ u => simp only [VOp.call, show s.vec u = t.vec u from h (.vec u) (by simp [VOp.args])]
  | assignConst => rfl

theorem observe_local {r q : Except Err α} {s t : Store tm tv} (s' : Store tm tv)
    (e : observe r s = some (q, t)) : t = s ∧ observe r s' = some (q, s') := by
  unfold observe at e ⊢
  split at e
  · cases e
  · cases e; exact ⟨rfl, rfl⟩

theorem observeScalar_local {o : Outcome γ} {q : Except Err γ} {s t : Store tm tv} (s' : Store tm tv)
    (e : observeScalar s o = some (q, t)) : t = s ∧ observeScalar s' o = some (q, s') := by
  cases o <;> cases e <;> exact ⟨rfl, rfl⟩

theorem observeOut_local {σ : Type} {o : Outcome σ} {q : Except Err Unit} {put : σ → Store tm tv}
    {t : Store tm tv} (put' : σ → Store tm tv) (e : observeOut put o = some (q, t)) :
    ∃ v, t = put v ∧ observeOut put' o = some (q, put' v) := by
  cases o <;> cases e <;> exact ⟨_, rfl, rfl⟩

theorem observeNew_local {σ : Type} {o : Except Err σ} {q : Except Err Unit} {s t : Store tm tv}
    {put : σ → Store tm tv} (s' : Store tm tv) (put' : σ → Store tm tv)
    (e : observeNew s put o = some (q, t)) :
    (t = s ∧ observeNew s' put' o = some (q, s')) ∨
      ∃ v, t = put v ∧ observeNew s' put' o = some (q, put' v) := by
  cases o with
  | ok v => cases e; exact .inr ⟨v, rfl, rfl⟩
  | error x => exact .inl (observe_local s' e)

section
variable [∀ x, Inhabited (tm x)] [∀ x, Inhabited (tv x)]

theorem matConst_same {A : Lil α} {c : MatCall α} (h : matConst c = true) : (A.call c).2 = A := by
  cases c <;> simp [matConst] at h <;> simp only [Lil.call] <;> try split
  all_goals rfl

theorem vecConst_same [Inhabited α] {u : BVec α} {c : VecCall α} (h : vecConst c = true) :
    (u.call c).2 = u := by
  cases c <;> simp [vecConst] at h <;> simp only [BVec.call] <;> try split
  all_goals rfl

/-- A call does not look at other variables than those it is given. -/
theorem exec_local (c : Stmt tm tv α) {s s' t : Store tm tv} {r : Except Err α}
    (h : ∀ v, v ∈ c.reads ∨ v ∈ c.writes → s.Same s' v) (e : c.exec s = some (r, t)) :
    ∃ t', c.exec s' = some (r, t') ∧ ∀ v ∈ c.writes, t.Same t' v := by
  cases c with
  | newM x m n => cases e; exact ⟨_, rfl, by simpa [Stmt.writes] using Store.same_setM _⟩
  | newV x n =>
    rcases observeNew_local s' (s'.setV x) e with ⟨rfl, e'⟩ | ⟨w, rfl, e'⟩
    · exact ⟨_, e', fun v hv => h v (.inr hv)⟩
    · exact ⟨_, e', by simpa [Stmt.writes] using Store.same_setV _⟩
  | denseM x k l =>
    rcases observeNew_local s' (s'.setM x) e with ⟨rfl, e'⟩ | ⟨w, rfl, e'⟩
    · exact ⟨_, e', fun v hv => h v (.inr hv)⟩
    · exact ⟨_, e', by simpa [Stmt.writes] using Store.same_setM _⟩
  | denseV x l =>
    rcases observeNew_local s' (s'.setV x) e with ⟨rfl, e'⟩ | ⟨w, rfl, e'⟩
    · exact ⟨_, e', fun v hv => h v (.inr hv)⟩
    · exact ⟨_, e', by simpa [Stmt.writes] using Store.same_setV _⟩
  | copyM x y hy =>
    have hx : s.mat x = s'.mat x := h (.mat x) (.inr (by simp [Stmt.writes]))
    have hy' : s.mat y = s'.mat y := h (.mat y) (.inl (by simp [Stmt.reads]))
    simp only [Stmt.exec, hx, hy'] at e ⊢
    obtain ⟨rfl, e'⟩ := observe_local _ e
    exact ⟨_, e', by simpa [Stmt.writes] using Store.same_setM _⟩
  | copyV x y hy =>
    have hx : s.vec x = s'.vec x := h (.vec x) (.inr (by simp [Stmt.writes]))
    have hy' : s.vec y = s'.vec y := h (.vec y) (.inl (by simp [Stmt.reads]))
    simp only [Stmt.exec, hx, hy'] at e ⊢
    obtain ⟨rfl, e'⟩ := observe_local _ e
    exact ⟨_, e', by simpa [Stmt.writes] using Store.same_setV _⟩
  | eqM x y hy d =>
    have hx : s.mat x = s'.mat x := h (.mat x) (.inl (by simp [Stmt.reads]))
    have hy' : s.mat y = s'.mat y := h (.mat y) (.inl (by simp [Stmt.reads]))
    simp only [Stmt.exec, hx, hy'] at e ⊢
    cases e
    exact ⟨_, rfl, fun v hv => h v (.inr hv)⟩
  | eqV x y hy d =>
    have hx : s.vec x = s'.vec x := h (.vec x) (.inl (by simp [Stmt.reads]))
    have hy' : s.vec y = s'.vec y := h (.vec y) (.inl (by simp [Stmt.reads]))
    simp only [Stmt.exec, hx, hy'] at e ⊢
    obtain ⟨rfl, e'⟩ := observe_local s' e
    exact ⟨_, e', fun v hv => h v (.inr hv)⟩
  | mcall x k =>
    have hx : s.mat x = s'.mat x := h (.mat x) (.inl (by simp [Stmt.reads]))
    simp only [Stmt.exec, hx] at e ⊢
    obtain ⟨rfl, e'⟩ := observe_local _ e
    refine ⟨_, e', fun v hv => ?_⟩
    cases hk : matConst k with
    | true => simp [Stmt.writes, hk] at hv
    | false => simp [Stmt.writes, hk] at hv; subst hv; exact Store.same_setM _
  | vcall x k =>
    have hx : s.vec x = s'.vec x := h (.vec x) (.inl (by simp [Stmt.reads]))
    simp only [Stmt.exec, hx] at e ⊢
    obtain ⟨rfl, e'⟩ := observe_local _ e
    refine ⟨_, e', fun v hv => ?_⟩
    cases hk : vecConst k with
    | true => simp [Stmt.writes, hk] at hv
    | false => simp [Stmt.writes, hk] at hv; subst hv; exact Store.same_setV _
  | buildM x dup ts =>
    have hx : s.mat x = s'.mat x := h (.mat x) (.inr (by simp [Stmt.writes]))
    simp only [Stmt.exec, hx] at e ⊢
    obtain ⟨rfl, e'⟩ := observe_local _ e
    exact ⟨_, e', by simpa [Stmt.writes] using Store.same_setM _⟩
  | buildV x dup ts =>
    have hx : s.vec x = s'.vec x := h (.vec x) (.inr (by simp [Stmt.writes]))
    simp only [Stmt.exec, hx] at e ⊢
    obtain ⟨rfl, e'⟩ := observe_local _ e
    exact ⟨_, e', by simpa [Stmt.writes] using Store.same_setV _⟩
  | tuplesM x =>
    have hx : s.mat x = s'.mat x := h (.mat x) (.inl (by simp [Stmt.reads]))
    simp only [Stmt.exec, hx] at e ⊢
    cases e
    exact ⟨_, rfl, fun v hv => h v (.inr hv)⟩
  | tuplesV x =>
    have hx : s.vec x = s'.vec x := h (.vec x) (.inl (by simp [Stmt.reads]))
    simp only [Stmt.exec, hx] at e ⊢
    obtain ⟨rfl, e'⟩ := observe_local s' e
    exact ⟨_, e', fun v hv => h v (.inr hv)⟩
  | opM x mask acc castZ outp op =>
    have hx : s.mat x = s'.mat x := h (.mat x) (.inr (by simp [Stmt.writes]))
    have ho : op.call s = op.call s' := op.call_local fun v hv => h v (.inl (by simp [Stmt.reads, hv]))
    rcases mask with _ | ⟨k, z, truthy⟩
    · simp only [Stmt.exec, hx, ho] at e ⊢
      obtain ⟨w, rfl, e'⟩ := observeOut_local (s'.setM x) e
      exact ⟨_, e', by simpa [Stmt.writes] using Store.same_setM _⟩
    · have hz : s.mat z = s'.mat z := h (.mat z) (.inl (by simp [Stmt.reads, maskVars]))
      simp only [Stmt.exec, matMask, hx, hz, ho] at e ⊢
      obtain ⟨w, rfl, e'⟩ := observeOut_local (s'.setM x) e
      exact ⟨_, e', by simpa [Stmt.writes] using Store.same_setM _⟩
  | opV x mask acc castZ outp op =>
    have hx : s.vec x = s'.vec x := h (.vec x) (.inr (by simp [Stmt.writes]))
    have ho : op.call s = op.call s' := op.call_local fun v hv => h v (.inl (by simp [Stmt.reads, hv]))
    rcases mask with _ | ⟨k, z, truthy⟩
    · simp only [Stmt.exec, hx, ho] at e ⊢
      obtain ⟨w, rfl, e'⟩ := observeOut_local (s'.setV x) e
      exact ⟨_, e', by simpa [Stmt.writes] using Store.same_setV _⟩
    · have hz : s.vec z = s'.vec z := h (.vec z) (.inl (by simp [Stmt.reads, maskVars]))
      simp only [Stmt.exec, hx, hz, ho] at e ⊢
      obtain ⟨w, rfl, e'⟩ := observeOut_local (s'.setV x) e
      exact ⟨_, e', by simpa [Stmt.writes] using Store.same_setV _⟩
  | assignCol x mask u =>
    have hx : s.mat x = s'.mat x := h (.mat x) (.inr (by simp [Stmt.writes]))
    have hu : s.vec u = s'.vec u := h (.vec u) (.inl (by simp [Stmt.reads]))
    rcases mask with _ | ⟨k, z, truthy⟩
    · simp only [Stmt.exec, hx, hu] at e ⊢
      obtain ⟨w, rfl, e'⟩ := observeOut_local (s'.setM x) e
      exact ⟨_, e', by simpa [Stmt.writes] using Store.same_setM _⟩
    · have hz : s.vec z = s'.vec z := h (.vec z) (.inl (by simp [Stmt.reads, maskVars]))
      simp only [Stmt.exec, hx, hz, hu] at e ⊢
      obtain ⟨w, rfl, e'⟩ := observeOut_local (s'.setM x) e
      exact ⟨_, e', by simpa [Stmt.writes] using Store.same_setM _⟩
  | assignRow x mask u =>
    have hx : s.mat x = s'.mat x := h (.mat x) (.inr (by simp [Stmt.writes]))
    have hu : s.vec u = s'.vec u := h (.vec u) (.inl (by simp [Stmt.reads]))
    rcases mask with _ | ⟨k, z, truthy⟩
    · simp only [Stmt.exec, hx, hu] at e ⊢
      obtain ⟨w, rfl, e'⟩ := observeOut_local (s'.setM x) e
      exact ⟨_, e', by simpa [Stmt.writes] using Store.same_setM _⟩
    · have hz : s.vec z = s'.vec z := h (.vec z) (.inl (by simp [Stmt.reads, maskVars]))
      simp only [Stmt.exec, hx, hz, hu] at e ⊢
      obtain ⟨w, rfl, e'⟩ := observeOut_local (s'.setM x) e
      exact ⟨_, e', by simpa [Stmt.writes] using Store.same_setM _⟩
  | reduceV castZ acc f id val u c =>
    have hx : s.vec u = s'.vec u := h (.vec u) (.inl (by simp [Stmt.reads]))
    simp only [Stmt.exec, hx] at e ⊢
    obtain ⟨rfl, e'⟩ := observeScalar_local s' e
    exact ⟨_, e', fun v hv => h v (.inr hv)⟩
  | reduceM castZ acc f id val x c =>
    have hx : s.mat x = s'.mat x := h (.mat x) (.inl (by simp [Stmt.reads]))
    simp only [Stmt.exec, hx] at e ⊢
    obtain ⟨rfl, e'⟩ := observeScalar_local s' e
    exact ⟨_, e', fun v hv => h v (.inr hv)⟩

/-- A call changes no other variables than its outputs. -/
theorem exec_frame (c : Stmt tm tv α) {s t : Store tm tv} {r : Except Err α}
    (e : c.exec s = some (r, t)) (v : Var) (hv : v ∉ c.writes) : t.Same s v := by
  have hM : ∀ x (w : Lil (tm x)), t = s.setM x w → v ≠ .mat x → t.Same s v := by
    rintro x w rfl hne
    cases v with
    | mat y => exact upd_ne (F := fun y => Lil (tm y)) _ _ fun hh => hne (hh ▸ rfl)
    | vec y => exact rfl
  have hV : ∀ x (w : BVec (tv x)), t = s.setV x w → v ≠ .vec x → t.Same s v := by
    rintro x w rfl hne
    cases v with
    | vec y => exact upd_ne (F := fun y => BVec (tv y)) _ _ fun hh => hne (hh ▸ rfl)
    | mat y => exact rfl
  cases c with
  | mcall x k =>
    cases hk : matConst k with
    | true =>
      have := observe_some e
      rw [matConst_same hk, Store.setM_self] at this
      exact this ▸ Store.Same.refl _ _
    | false => exact hM x _ (observe_some e) (by simpa [Stmt.writes, hk] using hv)
  | vcall x k =>
    cases hk : vecConst k with
    | true =>
      have := observe_some e
      rw [vecConst_same hk, Store.setV_self] at this
      exact this ▸ Store.Same.refl _ _
    | false => exact hV x _ (observe_some e) (by simpa [Stmt.writes, hk] using hv)
  | _ =>
    rcases exec_changes _ s t r e with rfl | ⟨x, w, hx, rfl⟩ | ⟨x, w, hx, rfl⟩
    · exact Store.Same.refl _ _
    · first
        | (cases hx; done)
        | (cases hx; exact hM _ w rfl (by simpa [Stmt.writes] using hv))
    · first
        | (cases hx; done)
        | (cases hx; exact hV _ w rfl (by simpa [Stmt.writes] using hv))

theorem Ref.arg_local {s t : Store tm tv} (x : Nat) (a : Ref) (h : s.mat a.x = t.mat a.x) :
    a.arg s x = a.arg t x := by simp only [Ref.arg, h]

variable {be : Backend tm}

/-- A call does not look at other variables than those it is given, with either backend. -/
theorem execOn_local (c : Stmt tm tv α) {s s' t : Store tm tv} {r : Except Err α}
    (h : ∀ v, v ∈ c.reads ∨ v ∈ c.writes → s.Same s' v) (e : c.execOn be s = some (r, t)) :
    ∃ t', c.execOn be s' = some (r, t') ∧ ∀ v ∈ c.writes, t.Same t' v := by
  cases be with
  | sequential => exact exec_local c h e
  | optimized K =>
    cases c with
    | opM x mask acc castZ outp op =>
      cases op with
      | mxm A B sr via =>
        have hx : s.mat x = s'.mat x := h (.mat x) (.inr (by simp [Stmt.writes]))
        have ha := A.arg_local x (h (.mat A.x) (.inl (by simp [Stmt.reads, MOp.args])))
        have hb := B.arg_local x (h (.mat B.x) (.inl (by simp [Stmt.reads, MOp.args])))
        rcases mask with _ | ⟨k, z, truthy⟩
        · simp only [Stmt.execOn, Stmt.execOpt, hx, ha, hb] at e ⊢
          obtain ⟨w, rfl, e'⟩ := observeOut_local (s'.setM x) e
          exact ⟨_, e', by simpa [Stmt.writes] using Store.same_setM _⟩
        · have hz : s.mat z = s'.mat z := h (.mat z) (.inl (by simp [Stmt.reads, maskVars]))
          simp only [Stmt.execOn, Stmt.execOpt, matMask, hx, hz, ha, hb] at e ⊢
          obtain ⟨w, rfl, e'⟩ := observeOut_local (s'.setM x) e
          exact ⟨_, e', by simpa [Stmt.writes] using Store.same_setM _⟩
      | _ => rcases mask with _ | ⟨k, z, truthy⟩ <;> exact exec_local _ h e
    | _ => exact exec_local _ h e

/-- A call changes its outputs only, with either backend. -/
theorem execOn_frame (c : Stmt tm tv α) {s t : Store tm tv} {r : Except Err α}
    (e : c.execOn be s = some (r, t)) (v : Var) (hv : v ∉ c.writes) : t.Same s v := by
  cases be with
  | sequential => exact exec_frame c e v hv
  | optimized K =>
    cases c with
    | opM x mask acc castZ outp op =>
      cases op with
      | mxm A B sr via =>
        have hM : ∀ w : Lil (tm x), t = s.setM x w → t.Same s v := by
          rintro w rfl
          cases v with
          | mat y => exact upd_ne (F := fun y => Lil (tm y)) _ _ fun hh => hv (by simp [Stmt.writes, hh])
          | vec y => exact rfl
        rcases mask with _ | ⟨k, z, truthy⟩ <;> exact (observeOut_some e).elim hM
      | _ => rcases mask with _ | ⟨k, z, truthy⟩ <;> (refine exec_frame (s := s) (r := r) _ ?_ v hv; exact e)
    | _ => refine exec_frame (s := s) (r := r) _ ?_ v hv; exact e

/-- Both at once: on stores that agree on the variables a thread uses, a call of the
thread has the same result, and they agree afterwards. -/
theorem execOn_agree (c : Stmt tm tv α) {P : Var → Prop} {s s' : Store tm tv}
    (hr : ∀ v, v ∈ c.reads ∨ v ∈ c.writes → P v) (h : ∀ v, P v → s.Same s' v) :
    (c.execOn be s = none ∧ c.execOn be s' = none) ∨
      ∃ r t t', c.execOn be s = some (r, t) ∧ c.execOn be s' = some (r, t') ∧ ∀ v, P v → t.Same t' v := by
  have hl : ∀ v, v ∈ c.reads ∨ v ∈ c.writes → s.Same s' v := fun v hv => h v (hr v hv)
  cases e : c.execOn be s with
  | none =>
    cases e' : c.execOn be s' with
    | none => exact .inl ⟨rfl, rfl⟩
    | some q =>
      obtain ⟨t, e2, -⟩ := execOn_local c (fun v hv => (hl v hv).symm) e'
      rw [e] at e2; cases e2
  | some q =>
    obtain ⟨r, t⟩ := q
    obtain ⟨t', e', hw⟩ := execOn_local c hl e
    refine .inr ⟨r, t, t', rfl, e', fun v hv => ?_⟩
    by_cases hm : v ∈ c.writes
    · exact hw v hm
    · exact (execOn_frame c e v hm).trans ((h v hv).trans (execOn_frame c e' v hm).symm)

theorem Program.execOn_step (c : Stmt tm tv α) (k : Except Err α → Program tm tv ρ) {s : Store tm tv}
    {q : ρ × Store tm tv} (h : (Program.step c k).execOn be s = some q) :
    ∃ r t, c.execOn be s = some (r, t) ∧ (k r).execOn be t = some q := by
  simp only [Program.execOn] at h
  split at h
  · cases h
  · exact ⟨_, _, by assumption, h⟩

theorem Program.execOn_agree {R W : Var → Prop} (p : Program tm tv ρ) (hp : p.Within R W)
    {s s' t : Store tm tv} {q : ρ} (h : ∀ v, R v ∨ W v → s.Same s' v) (e : p.execOn be s = some (q, t)) :
    ∃ t', p.execOn be s' = some (q, t') ∧ ∀ v, R v ∨ W v → t.Same t' v := by
  induction p generalizing s s' with
  | ret r => cases e; exact ⟨_, rfl, h⟩
  | step c k ih =>
    obtain ⟨r, u, e1, e2⟩ := Program.execOn_step c k e
    obtain ⟨hw, hr, hk⟩ := hp
    rcases GBTL.execOn_agree c (P := fun v => R v ∨ W v)
      (fun v hv => hv.elim (hr v) fun hv => .inr (hw v hv)) h with ⟨e3, -⟩ | ⟨r', u', u'', e3, e4, hu⟩
    · rw [e1] at e3; cases e3
    · rw [e1] at e3; cases e3
      obtain ⟨t', e5, ht⟩ := ih r (hk r) hu e2
      exact ⟨t', by simp only [Program.execOn, e4, e5], ht⟩

theorem Program.execOn_frame {R W : Var → Prop} (p : Program tm tv ρ) (hp : p.Within R W)
    {s t : Store tm tv} {q : ρ} (e : p.execOn be s = some (q, t)) (v : Var) (hv : ¬ W v) : t.Same s v := by
  induction p generalizing s with
  | ret r => cases e; exact Store.Same.refl _ _
  | step c k ih =>
    obtain ⟨r, u, e1, e2⟩ := Program.execOn_step c k e
    exact (ih r (hp.2.2 r) e2).trans (GBTL.execOn_frame c e1 v fun h => hv (hp.1 v h))

theorem Program.execOn_sequential (p : Program tm tv ρ) (s : Store tm tv) : p.execOn .sequential s = p.exec s := by
  induction p generalizing s with
  | ret r => rfl
  | step c k ih =>
    rw [Program.execOn, Program.exec, show c.execOn .sequential s = c.exec s from rfl]
    cases c.exec s with
    | none => rfl
    | some q => exact ih q.1 q.2

theorem Program.execOn_optimized (K : Convs tm) (p : Program tm tv ρ) (s : Store tm tv) :
    p.execOn (.optimized K) s = p.execOpt K s := by
  induction p generalizing s with
  | ret r => rfl
  | step c k ih =>
    rw [Program.execOn, Program.execOpt, show c.execOn (.optimized K) s = c.execOpt K s from rfl]
    cases c.execOpt K s with
    | none => rfl
    | some q => exact ih q.1 q.2

section
variable [DecidableEq ι]

theorem setAt_same {β : Type _} (f : ι → β) (i : ι) (b : β) : setAt f i b i = b := if_pos rfl
theorem setAt_ne {β : Type _} (f : ι → β) {i j : ι} (b : β) (h : j ≠ i) : setAt f i b j = f j := if_neg h

theorem Machine.Reach.trans {m n o : Machine ι tm tv ρ} (h : Machine.Reach be m n) (h' : Machine.Reach be n o) :
    Machine.Reach be m o := by
  induction h' with
  | refl => exact h
  | tail _ hs ih => exact ih.tail hs

/-- Thread `i` with its remaining program `p` and what it has read, in the store `s`:
a run of the thread alone is at the same point. `d` says what that run ends with. -/
def Follows (be : Backend tm) (R W : Var → Prop) (d : ρ × Store tm tv) (s : Store tm tv) (p : Program tm tv ρ) :
    Option (Store tm tv) → Prop
  | none => ∃ t, p.Within R W ∧ p.execOn be t = some d ∧ ∀ v, R v ∨ W v → s.Same t v
  | some w => ∃ t, p.Within R W ∧ p.execOn be t = some d ∧ (∀ v, R v ∨ W v → w.Same t v) ∧
      ∀ (α : Type) (c : Stmt tm tv α) (k : Except Err α → Program tm tv ρ), p = .step c k →
        ∀ v, R v ∨ W v → v ∉ c.writes → s.Same t v

theorem Follows.change {R W : Var → Prop} {d : ρ × Store tm tv} {s s' : Store tm tv}
    {p : Program tm tv ρ} {o : Option (Store tm tv)} (h : Follows be R W d s p o)
    (hs : ∀ v, R v ∨ W v → s'.Same s v) : Follows be R W d s' p o := by
  cases o with
  | none =>
    obtain ⟨t, hp, e, ht⟩ := h
    exact ⟨t, hp, e, fun v hv => (hs v hv).trans (ht v hv)⟩
  | some w =>
    obtain ⟨t, hp, e, hw, ht⟩ := h
    exact ⟨t, hp, e, hw, fun α c k hc v hv hn => (hs v hv).trans (ht α c k hc v hv hn)⟩

/-- All threads follow their runs alone, and no one changed what is nobody's. -/
structure Inv (be : Backend tm) (R W : ι → Var → Prop) (s : Store tm tv) (d : ι → ρ × Store tm tv)
    (m : Machine ι tm tv ρ) : Prop where
  follows : ∀ i, Follows be (R i) (W i) (d i) m.store (m.prog i) (m.view i)
  rest : ∀ v, (∀ i, ¬ W i v) → m.store.Same s v

variable {R W : ι → Var → Prop} {s : Store tm tv} {d : ι → ρ × Store tm tv}

theorem Inv.step (own : ∀ i j, i ≠ j → ∀ v, W i v → ¬ W j v ∧ ¬ R j v) {m m' : Machine ι tm tv ρ}
    (h : Inv be R W s d m) (hs : m.Step be m') : Inv be R W s d m' := by
  -- the writes of thread `i` do not concern the others
  have other : ∀ (l : List Var) (t : Store tm tv) (i j : ι), j ≠ i → (∀ v ∈ l, W i v) →
      ∀ v, R j v ∨ W j v → (Store.mix l t m.store).Same m.store v := by
    intro l t i j hji hl v hv
    refine Store.mix_out (fun hm => ?_) _ _
    obtain ⟨h1, h2⟩ := own i j (fun e => hji e.symm) v (hl v hm)
    exact hv.elim h2 h1
  have rest : ∀ (l : List Var) (t : Store tm tv) (i : ι), (∀ v ∈ l, W i v) →
      ∀ v, (∀ i, ¬ W i v) → (Store.mix l t m.store).Same s v := fun l t i hl v hv =>
    (Store.mix_out (fun hm => hv i (hl v hm)) _ _).trans (h.rest v hv)
  cases hs with
  | start _ i c k hp hv =>
    refine ⟨fun j => ?_, h.rest⟩
    by_cases hj : j = i
    · subst hj
      have hf := h.follows j
      rw [hv] at hf
      obtain ⟨t, hp, e, ht⟩ := hf
      show Follows be _ _ _ _ _ (setAt _ _ _ _)
      rw [setAt_same]
      exact ⟨t, hp, e, ht, fun _ _ _ _ v hv _ => ht v hv⟩
    · show Follows be _ _ _ _ _ (setAt _ _ _ _)
      rw [setAt_ne _ _ hj]; exact h.follows j
  | write _ i c k w t hp hv =>
    have hf := h.follows i
    rw [hp, hv] at hf
    obtain ⟨u, hin, e, hw, hu⟩ := hf
    refine ⟨fun j => ?_, rest _ t i hin.1⟩
    by_cases hj : j = i
    · subst hj
      show Follows be _ _ _ _ (m.prog j) (m.view j)
      rw [hp, hv]
      refine ⟨u, hin, e, hw, fun β c' k' hc v hv hn => ?_⟩
      cases hc
      exact (Store.mix_out hn _ _).trans (hu _ _ _ rfl v hv hn)
    · exact (h.follows j).change (other _ t i j hj hin.1)
  | read _ i c k w x hp hv hx hnw =>
    have hf := h.follows i
    rw [hp, hv] at hf
    obtain ⟨u, hin, e, hw, hu⟩ := hf
    refine ⟨fun j => ?_, h.rest⟩
    by_cases hj : j = i
    · subst hj
      show Follows be _ _ _ _ (m.prog j) (setAt _ _ _ _)
      rw [setAt_same, hp]
      refine ⟨u, hin, e, fun v hv => ?_, hu⟩
      by_cases hm : v ∈ [x]
      · have : v = x := by simpa using hm
        subst this
        exact (Store.mix_in hm _ _).trans (hu _ _ _ rfl v hv hnw)
      · exact (Store.mix_out hm _ _).trans (hw v hv)
    · show Follows be _ _ _ _ _ (setAt _ _ _ _)
      rw [setAt_ne _ _ hj]; exact h.follows j
  | finish _ i c k w t r hp hv he =>
    have hf := h.follows i
    rw [hp, hv] at hf
    obtain ⟨u, hin, e, hw, hu⟩ := hf
    refine ⟨fun j => ?_, rest _ t i hin.1⟩
    by_cases hj : j = i
    · subst hj
      show Follows be _ _ _ _ (setAt _ _ _ _) (setAt _ _ _ _)
      rw [setAt_same, setAt_same]
      obtain ⟨r', t', e1, e2⟩ := Program.execOn_step c k e
      rcases GBTL.execOn_agree c (P := fun v => R j v ∨ W j v)
        (fun v hv => hv.elim (hin.2.1 v) fun hv => .inr (hin.1 v hv)) hw with
        ⟨e3, -⟩ | ⟨r2, t2, t3, e3, e4, ht⟩
      · rw [he] at e3; cases e3
      · rw [he] at e3; cases e3
        rw [e1] at e4; cases e4
        refine ⟨t', hin.2.2 r, e2, fun v hv => ?_⟩
        by_cases hm : v ∈ c.writes
        · exact (Store.mix_in hm _ _).trans (ht v hv)
        · exact (Store.mix_out hm _ _).trans ((hu _ _ _ rfl v hv hm).trans (GBTL.execOn_frame c e1 v hm).symm)
    · show Follows be _ _ _ _ (setAt _ _ _ _) (setAt _ _ _ _)
      rw [setAt_ne _ _ hj, setAt_ne _ _ hj]
      exact (h.follows j).change (other _ t i j hj hin.1)

theorem Inv.reach (own : ∀ i j, i ≠ j → ∀ v, W i v → ¬ W j v ∧ ¬ R j v) {m m' : Machine ι tm tv ρ}
    (h : Inv be R W s d m) (hs : Machine.Reach be m m') : Inv be R W s d m' := by
  induction hs with
  | refl => exact h
  | tail _ hs ih => exact ih.step own hs

omit [DecidableEq ι] in
theorem Inv.init {p : ι → Program tm tv ρ} (hp : ∀ i, (p i).Within (R i) (W i))
    (hd : ∀ i, (p i).execOn be s = some (d i)) : Inv be R W s d (Machine.init p s) :=
  ⟨fun i => ⟨s, hp i, hd i, fun _ _ => Store.Same.refl _ _⟩, fun _ _ => Store.Same.refl _ _⟩

omit [DecidableEq ι] in
theorem Inv.defined {m : Machine ι tm tv ρ} (h : Inv be R W s d m) (i : ι) : ¬ m.Undefined be i := by
  rintro ⟨α, c, k, w, hp, hv, he⟩
  have hf := h.follows i
  rw [hp, hv] at hf
  obtain ⟨u, hin, e, hw, -⟩ := hf
  obtain ⟨r', t', e1, -⟩ := Program.execOn_step c k e
  rcases GBTL.execOn_agree c (P := fun v => R i v ∨ W i v)
    (fun v hv => hv.elim (hin.2.1 v) fun hv => .inr (hin.1 v hv)) hw with ⟨-, e3⟩ | ⟨r2, t2, t3, e3, -⟩
  · rw [e1] at e3; cases e3
  · rw [he] at e3; cases e3

/-- A finished thread is not in a call. -/
def Idle (m : Machine ι tm tv ρ) : Prop := ∀ i q, m.prog i = .ret q → m.view i = none

theorem Idle.step {m m' : Machine ι tm tv ρ} (h : Idle m) (hs : m.Step be m') : Idle m' := by
  intro j q hq
  cases hs with
  | start _ i c k hp hv =>
    by_cases hj : j = i
    · subst hj; exact absurd ((show m.prog j = _ from hq).symm.trans hp) (by simp)
    · exact (setAt_ne _ _ hj).trans (h j q hq)
  | write _ i c k w t hp hv => exact h j q hq
  | read _ i c k w x hp hv hx hnw =>
    by_cases hj : j = i
    · subst hj; exact absurd ((show m.prog j = _ from hq).symm.trans hp) (by simp)
    · exact (setAt_ne _ _ hj).trans (h j q hq)
  | finish _ i c k w t r hp hv he =>
    by_cases hj : j = i
    · subst hj; exact setAt_same _ _ _
    · exact (setAt_ne _ _ hj).trans (h j q ((setAt_ne _ _ hj).symm.trans hq))

theorem Idle.reach {m m' : Machine ι tm tv ρ} (h : Idle m) (hs : Machine.Reach be m m') : Idle m' := by
  induction hs with
  | refl => exact h
  | tail _ hs ih => exact ih.step hs

omit [DecidableEq ι] in
theorem Inv.finished {m : Machine ι tm tv ρ} (h : Inv be R W s d m) (hi : Idle m) {i : ι} {q : ρ}
    (hq : m.prog i = .ret q) : q = (d i).1 ∧ ∀ v, R i v ∨ W i v → m.store.Same (d i).2 v := by
  have hf := h.follows i
  rw [hi i q hq, hq] at hf
  obtain ⟨t, -, e, ht⟩ := hf
  simp only [Program.execOn, Option.some.injEq] at e
  rw [← e]
  exact ⟨rfl, ht⟩

/-- A thread can always be run to its end, without a step of the others. -/
theorem Inv.runs (own : ∀ i j, i ≠ j → ∀ v, W i v → ¬ W j v ∧ ¬ R j v) (i : ι) (p : Program tm tv ρ)
    (m : Machine ι tm tv ρ) (h : Inv be R W s d m) (hp : m.prog i = p) :
    ∃ m', Machine.Reach be m m' ∧ (∃ q, m'.prog i = .ret q) ∧
      ∀ j, j ≠ i → m'.prog j = m.prog j ∧ m'.view j = m.view j := by
  induction p generalizing m with
  | ret q => exact ⟨m, .refl m, ⟨q, hp⟩, fun _ _ => ⟨rfl, rfl⟩⟩
  | step c k ih =>
    -- from inside the call
    have inside : ∀ (n : Machine ι tm tv ρ) (w : Store tm tv), Inv be R W s d n → n.prog i = .step c k →
        n.view i = some w → ∃ m', Machine.Reach be n m' ∧ (∃ q, m'.prog i = .ret q) ∧
          ∀ j, j ≠ i → m'.prog j = n.prog j ∧ m'.view j = n.view j := by
      intro n w hn hpn hv
      cases he : c.execOn be w with
      | none => exact absurd ⟨_, c, k, w, hpn, hv, he⟩ (hn.defined i)
      | some rt =>
        obtain ⟨r, t⟩ := rt
        have st := Machine.Step.finish n i c k w t r hpn hv he
        obtain ⟨m', h1, h2, h3⟩ := ih r _ (hn.step own st) (setAt_same _ _ _)
        refine ⟨m', ((Machine.Reach.refl n).tail st).trans h1, h2, fun j hj => ?_⟩
        obtain ⟨h4, h5⟩ := h3 j hj
        exact ⟨h4.trans (setAt_ne _ _ hj), h5.trans (setAt_ne _ _ hj)⟩
    cases hv : m.view i with
    | some w => exact inside m w h hp hv
    | none =>
      have st := Machine.Step.start (be := be) m i c k hp hv
      obtain ⟨m', h1, h2, h3⟩ := inside _ m.store (h.step own st) hp (setAt_same _ _ _)
      refine ⟨m', ((Machine.Reach.refl m).tail st).trans h1, h2, fun j hj => ?_⟩
      obtain ⟨h4, h5⟩ := h3 j hj
      exact ⟨h4, h5.trans (setAt_ne _ _ hj)⟩

theorem Inv.all_run (own : ∀ i j, i ≠ j → ∀ v, W i v → ¬ W j v ∧ ¬ R j v) (l : List ι)
    (m : Machine ι tm tv ρ) (h : Inv be R W s d m) :
    ∃ m', Machine.Reach be m m' ∧ (∀ i ∈ l, ∃ q, m'.prog i = .ret q) ∧
      ∀ j, (∃ q, m.prog j = .ret q) → ∃ q, m'.prog j = .ret q := by
  induction l generalizing m with
  | nil => exact ⟨m, .refl m, by simp, fun _ h => h⟩
  | cons i l ih =>
    obtain ⟨n, h1, h2, h3⟩ := h.runs own i _ m rfl
    obtain ⟨m', h4, h5, h6⟩ := ih n (h.reach own h1)
    refine ⟨m', h1.trans h4, fun j hj => ?_, fun j hj => h6 j ?_⟩
    · rcases List.mem_cons.1 hj with rfl | hj
      · exact h6 _ h2
      · exact h5 j hj
    · by_cases hji : j = i
      · subst hji; exact h2
      · rw [(h3 j hji).1]; exact hj

end
end
end GBTL
